import Verif.Proofs.Resolve
/-!
# Printed names resolve

The name and anchor printed for a declared extension are read back as that extension.
-/

namespace Verif
open StoreSpec

theorem Store.printed_function {s : Store} (hord : s.Ordered) (v : Visibility) (hv : v ≠ .never)
    (a : Nat) (n : Str) (hd : Declared s .function a n) :
    ∃ na, NamedAnchor.lookup s .function a = some na ∧ na.name = n ∧ na.anchor = a ∧
      s.getAndValidateAnchor .function (na.shownAnchor v) (na.shownName v) = .ok a := by
  have hd' := hd
  obtain ⟨u, hu⟩ := hd'
  have hl := Store.lookupFunction_ok hord hu
  refine ⟨_, by unfold NamedAnchor.lookup; rw [if_pos rfl, hl], rfl, rfl, ?_⟩
  rw [Store.getAndValidate_function hord]
  have hbase : ∀ b m, Declared s .function b m → baseName m = baseName n → b ≠ a →
      (s.exts.any fun e => e.1.2 == .function && e.1.1 != a && baseName e.2.2 == baseName n) = true := by
    intro b m hb hm hba
    exact (Store.any_other_iff hord .function a (fun x => baseName x == baseName n)).2
      ⟨b, m, hba, hb, by simpa using hm⟩
  have hname : ∀ b, Declared s .function b n → b ≠ a →
      (s.exts.any fun e => e.1.2 == .function && e.1.1 != a && e.2.2 == n) = true := by
    intro b hb hba
    exact (Store.any_other_iff hord .function a (fun x => x == n)).2 ⟨b, n, hba, hb, by simp⟩
  have hspell : SpelledBy n (baseName n) := by
    by_cases hc : ':' ∈ n
    · obtain ⟨sig, hs⟩ := split_colon hc
      exact Or.inr ⟨not_mem_baseName n, sig, hs⟩
    · exact Or.inl (baseName_of_not_mem hc).symm
  have hspellbase : ∀ m, SpelledBy m (baseName n) → baseName m = baseName n := by
    rintro m (rfl | ⟨_, sig, rfl⟩)
    · exact baseName_of_not_mem (not_mem_baseName n)
    · exact baseName_append (not_mem_baseName n)
  cases v with
  | never => exact absurd rfl hv
  | always =>
    simp only [NamedAnchor.shownName, NamedAnchor.shownAnchor]
    exact ⟨⟨n, hd, Or.inl rfl⟩, rfl⟩
  | required =>
    simp only [NamedAnchor.shownName, NamedAnchor.shownAnchor]
    cases hb : (s.exts.any fun e => e.1.2 == .function && e.1.1 != a && baseName e.2.2 == baseName n) with
    | false =>
      -- base name unique: the bare base name is printed, and so is the full name unique
      have hn : (s.exts.any fun e => e.1.2 == .function && e.1.1 != a && e.2.2 == n) = false := by
        cases hx : (s.exts.any fun e => e.1.2 == .function && e.1.1 != a && e.2.2 == n) with
        | false => rfl
        | true =>
          obtain ⟨b, m, hba, hdb, hm⟩ := (Store.any_other_iff hord .function a (fun x => x == n)).1 hx
          have : m = n := by simpa using hm
          subst this
          rw [hbase b m hdb rfl hba] at hb; cases hb
      simp only [hn, Bool.not_false, Bool.not_true, Bool.false_or, Bool.and_false, Bool.false_eq_true,
        if_false]
      refine ⟨⟨n, hd, hspell⟩, ?_⟩
      intro b m hdb hm
      apply Classical.byContradiction
      intro hba
      rw [hbase b m hdb (hspellbase m hm) hba] at hb; cases hb
    | true =>
      simp only [Bool.not_true, Bool.not_false, if_true, Bool.and_true]
      cases hn : (s.exts.any fun e => e.1.2 == .function && e.1.1 != a && e.2.2 == n) with
      | true =>
        simp only [Bool.not_true, Bool.not_false, Bool.true_or, if_true]
        exact ⟨⟨n, hd, Or.inl rfl⟩, rfl⟩
      | false =>
        by_cases hc : ':' ∈ n
        · have hc' := (hasColon_iff n).2 hc
          simp only [hc', Bool.not_false, Bool.not_true, Bool.or_self, Bool.false_eq_true, if_false]
          refine ⟨⟨n, hd, Or.inl rfl⟩, ?_⟩
          intro b m hdb hm
          have : m = n := by
            rcases hm with hm | ⟨hm, _⟩
            · exact hm
            · exact absurd hc hm
          subst this
          apply Classical.byContradiction
          intro hba
          rw [hname b hdb hba] at hn; cases hn
        · have hc' : hasColon n = false := by
            cases hx : hasColon n with
            | false => rfl
            | true => exact absurd ((hasColon_iff n).1 hx) hc
          simp only [hc', Bool.not_false, Bool.not_true, Bool.false_or, if_true]
          exact ⟨⟨n, hd, Or.inl rfl⟩, rfl⟩

theorem Store.printed_type {s : Store} (hord : s.Ordered) (v : Visibility) (hv : v ≠ .never)
    (k : Kind) (hk : k ≠ .function) (a : Nat) (n : Str) (hd : Declared s k a n) (hc : ':' ∉ n) :
    ∃ na, NamedAnchor.lookup s k a = some na ∧ na.name = n ∧ na.anchor = a ∧
      s.getAndValidateAnchor k (na.shownAnchor v) (na.shownName v) = .ok a := by
  have hd' := hd
  obtain ⟨u, hu⟩ := hd'
  have hun := Store.isNameUnique_spec hord hd
  refine ⟨⟨n, a, !(s.exts.any fun e => e.1.2 == k && e.1.1 != a && e.2.2 == n), true⟩, ?_, rfl, rfl, ?_⟩
  · unfold NamedAnchor.lookup
    rw [if_neg hk, hu]
    simp only [hun]
  · have hb := baseName_of_not_mem hc
    have hname : NamedAnchor.shownName v
        ⟨n, a, !(s.exts.any fun e => e.1.2 == k && e.1.1 != a && e.2.2 == n), true⟩ = n := by
      simp only [NamedAnchor.shownName]
      cases v <;> simp [hb]
    rw [hname]
    have hsome : ∀ x : Option Nat, x = some a →
        s.getAndValidateAnchor k x n = .ok a := by
      rintro x rfl
      unfold Store.getAndValidateAnchor
      rw [if_neg hk]
      simp only [hu, beq_self_eq_true, Bool.true_or, if_true]
    cases v with
    | never => exact absurd rfl hv
    | always => exact hsome _ rfl
    | required =>
      cases hn : (s.exts.any fun e => e.1.2 == k && e.1.1 != a && e.2.2 == n) with
      | true =>
        refine hsome _ ?_
        simp [NamedAnchor.shownAnchor]
      | false =>
        simp only [NamedAnchor.shownAnchor, Bool.not_false, Bool.not_true, Bool.and_false,
          Bool.or_self, Bool.false_eq_true, if_false]
        unfold Store.getAndValidateAnchor
        rw [if_neg hk]
        dsimp only
        rw [Store.findByName_ok hord]
        refine ⟨hd, ?_⟩
        intro b hb'
        apply Classical.byContradiction
        intro hba
        have := (Store.any_other_iff hord k a (fun x => x == n)).2 ⟨b, n, hba, hb', by simp⟩
        rw [this] at hn; cases hn

end Verif
