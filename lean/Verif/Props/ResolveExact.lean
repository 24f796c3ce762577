import Verif.Props.Types
import Verif.Props.Store
import Verif.Proofs.ExprsExact
/-!
# C10 and C11: exactly when what is printed for a reference means it
-/

namespace Verif
open StoreSpec

set_option autoImplicit false

/-- C11.  Under each setting of the option, what is printed for a declared type or type variation resolves to it exactly in
these cases; with the default setting that is if the name has no colon or is used twice. -/
theorem C11_printed_resolves_iff (h : List Op) (v : Visibility) (k : Kind) (hk : k ≠ .function) (a : Nat) (n : Str)
    (hd : Declared (run h) k a n) :
    (∃ na, NamedAnchor.lookup (run h) k a = some na ∧
      (run h).getAndValidateAnchor k (na.shownAnchor v) (na.shownName v) = .ok a) ↔
      match v with
      | .never => ':' ∉ n ∧ ¬ Twin (run h) k a n
      | .required => ':' ∉ n ∨ Twin (run h) k a n
      | .always => True := by
  have hord := Store.ordered_run h
  have hun := Store.isNameUnique_spec hord hd
  have ht := any_twin hord k a n
  have hd' := hd
  obtain ⟨u, hu⟩ := hd
  have hl : NamedAnchor.lookup (run h) k a =
      some ⟨n, a, !((run h).exts.any fun e => e.1.2 == k && e.1.1 != a && e.2.2 == n), true⟩ := by
    unfold NamedAnchor.lookup
    rw [if_neg hk, hu]
    simp only [hun]
  rw [hl]
  have hb : BareName n (baseName n) := (bareName_iff _ _).2 rfl
  have hself : ∀ b, (∀ c, Declared (run h) k c b → c = a) ↔ ¬ Twin (run h) k a b := by
    intro b
    constructor
    · rintro h1 ⟨c, h2, h3⟩; exact h2 (h1 c h3)
    · intro h1 c h2
      apply Classical.byContradiction
      intro h3
      exact h1 ⟨c, h3, h2⟩
  have hbare : Declared (run h) k a (baseName n) ↔ ':' ∉ n := by
    constructor
    · intro h1
      rw [declared_fun hd' h1]
      exact hb.1
    · intro h1
      rcases hb.2 with h2 | ⟨sig, h2⟩
      · rw [← h2]; exact hd'
      · exact absurd (h2 ▸ by simp) h1
  have hbn : ':' ∉ n → baseName n = n := fun h1 => (declared_fun hd' (hbare.2 h1)).symm
  cases v with
  | never =>
    simp only [Option.some.injEq, exists_eq_left', C11_resolution_exact h k hk, NamedAnchor.shownName, NamedAnchor.shownAnchor,
      Bool.false_eq_true, if_false, hbare, hself]
    constructor
    · rintro ⟨h1, h2⟩; rw [hbn h1] at h2; exact ⟨h1, h2⟩
    · rintro ⟨h1, h2⟩; rw [hbn h1]; exact ⟨h1, h2⟩
  | always =>
    simp only [Option.some.injEq, exists_eq_left', C11_resolution_exact h k hk, NamedAnchor.shownName, NamedAnchor.shownAnchor, if_true,
      true_and, iff_true]
    exact ⟨n, hd', .inl rfl⟩
  | required =>
    by_cases hw : Twin (run h) k a n
    · rw [ht.2 hw]
      simp only [Option.some.injEq, exists_eq_left', C11_resolution_exact h k hk, NamedAnchor.shownName, NamedAnchor.shownAnchor,
        Bool.not_true, Bool.not_false, Bool.true_or, Bool.false_eq_true, if_false, if_true, true_and]
      exact ⟨fun _ => .inr hw, fun _ => ⟨n, hd', .inr hb⟩⟩
    · rw [bool_false ht hw]
      simp only [Option.some.injEq, exists_eq_left', C11_resolution_exact h k hk, NamedAnchor.shownName, NamedAnchor.shownAnchor,
        Bool.not_true, Bool.not_false, Bool.and_false, Bool.or_false, Bool.false_eq_true, if_false, hbare, hself]
      constructor
      · rintro ⟨h1, -⟩; exact .inl h1
      · intro h1
        have h1 := h1.resolve_right hw
        rw [hbn h1]; exact ⟨h1, hw⟩

/-- C10.  With anchors hidden, what is printed for a declared function resolves to it exactly if no other function is called
the same up to the signature. -/
theorem C10_hidden_resolves_iff (h : List Op) (a : Nat) (n : Str) (hd : Declared (run h) .function a n) :
    (∃ na, NamedAnchor.lookup (run h) .function a = some na ∧
      (run h).getAndValidateAnchor .function (na.shownAnchor .never) (na.shownName .never) = .ok a) ↔ ¬ Rival (run h) a n := by
  have hord := Store.ordered_run h
  have hd' := hd
  obtain ⟨u, hu⟩ := hd
  have hl : ∃ na, NamedAnchor.lookup (run h) .function a = some na ∧ na.name = n := by
    unfold NamedAnchor.lookup
    rw [if_pos rfl, Store.lookupFunction_ok hord hu]
    exact ⟨_, rfl, rfl⟩
  obtain ⟨na, hl, rfl⟩ := hl
  have hb : BareName na.name (baseName na.name) := (bareName_iff _ _).2 rfl
  have hsp : ∀ m, SpelledBy m (baseName na.name) ↔ BareName m (baseName na.name) := by
    intro m
    constructor
    · rintro (h1 | h1)
      · exact ⟨hb.1, .inl h1⟩
      · exact ⟨h1.1, .inr h1.2⟩
    · rintro ⟨h1, h2 | h2⟩
      · exact .inl h2
      · exact .inr ⟨h1, h2⟩
  rw [hl]
  simp only [Option.some.injEq, exists_eq_left', Store.getAndValidate_function hord, Means, NamedAnchor.shownName, NamedAnchor.shownAnchor,
    Bool.false_eq_true, if_false]
  constructor
  · rintro ⟨-, h1⟩ ⟨b, m, x, h2, h3, h4, h5⟩
    have h6 : baseName na.name = x := (bareName_iff _ _).1 h4
    subst h6
    exact h2 (h1 b m h3 ((hsp m).2 h5))
  · intro h1
    refine ⟨⟨_, hd', (hsp _).2 hb⟩, fun b m h2 h3 => ?_⟩
    apply Classical.byContradiction
    intro h4
    exact h1 ⟨b, m, _, h4, h2, hb, (hsp m).1 h3⟩

/-- A type that is found again with anchors hidden, two that are found again only because their number is shown, and one
that is not. -/
example : let ops : List Op := [.urn cs!"u" 1, .ext .type 1 4 cs!"line", .ext .type 1 5 cs!"p:x", .ext .type 1 6 cs!"p:x", .ext .type 1 7 cs!"q:x"]
    Declared (run ops) .type 4 cs!"line" ∧ Twin (run ops) .type 5 cs!"p:x" ∧ Declared (run ops) .type 7 cs!"q:x" ∧
    ((run ops).getAndValidateAnchor .type none cs!"line" = .ok 4) ∧ ((run ops).getAndValidateAnchor .type (some 5) cs!"p" = .ok 5) ∧
    ((run ops).getAndValidateAnchor .type none cs!"q" = .error (.missingName .type cs!"q")) :=
  ⟨⟨1, by decide +kernel⟩, ⟨6, by decide, 1, by decide +kernel⟩, ⟨1, by decide +kernel⟩, by decide +kernel, by decide +kernel, by decide +kernel⟩

end Verif
