import Verif.Proofs.Printed
import Verif.Spec.Unrelated
import Verif.Model.Plan
/-!
# Declarations that have nothing to do with each other

What a store answers about its names does not change when declarations of other names are added; so
neither does what is read nor what is written without errors.
-/

namespace Verif

set_option autoImplicit false

open StoreSpec UnrelSpec

/-! ## Base names -/

theorem baseName_spec (n : Str) : ∃ x, n = baseName n ++ x ∧ (x = [] ∨ ∃ s, x = ':' :: s) := by
  by_cases h : ':' ∈ n
  · obtain ⟨sig, hs⟩ := split_colon h
    exact ⟨_, hs, Or.inr ⟨sig, rfl⟩⟩
  · exact ⟨[], by simp [baseName_of_not_mem h], Or.inl rfl⟩

theorem sameBase_iff (n m : Str) : SameBase n m ↔ baseName n = baseName m := by
  constructor
  · rintro ⟨b, x, y, hb, rfl, rfl, hx, hy⟩
    have : ∀ z, (z = [] ∨ ∃ s, z = ':' :: s) → baseName (b ++ z) = b := by
      rintro z (rfl | ⟨s, rfl⟩)
      · rw [List.append_nil]; exact baseName_of_not_mem hb
      · exact baseName_append hb
    rw [this x hx, this y hy]
  · intro h
    obtain ⟨x, hx, hx'⟩ := baseName_spec n
    obtain ⟨y, hy, hy'⟩ := baseName_spec m
    exact ⟨baseName n, x, y, not_mem_baseName n, hx, by rw [h]; exact hy, hx', hy'⟩

theorem spelledBy_baseName {stored written : Str} (h : SpelledBy stored written) :
    baseName stored = baseName written := by
  rcases h with rfl | ⟨hw, sig, rfl⟩
  · rfl
  · rw [baseName_append hw, baseName_of_not_mem hw]

/-! ## Stores -/

namespace UnrelSpec.Widens
variable {s s' : Store}

theorem declared (w : Widens s s') {k : Kind} {a : Nat} {n : Str} (h : Declared s k a n) : Declared s' k a n := by
  obtain ⟨u, hu⟩ := h
  exact ⟨u, w.keeps k a u n hu⟩

/-- A name of `s'` with the base of a name of `s` is one of `s`. -/
theorem back (w : Widens s s') {k : Kind} {a b : Nat} {n m : Str} (hn : Declared s k a n) (hm : Declared s' k b m)
    (h : baseName m = baseName n) : Declared s k b m := by
  rcases w.fresh k b m hm with h1 | h1
  · exact h1
  · exact absurd ((sameBase_iff _ _).2 h.symm) (h1 a n hn)

theorem any_eq (w : Widens s s') (hs : s.Ordered) (hs' : s'.Ordered) {k : Kind} {a : Nat} {n : Str}
    (hn : Declared s k a n) (p : Str → Bool) (hp : ∀ m, p m = true → baseName m = baseName n) :
    (s'.exts.any fun e => e.1.2 == k && e.1.1 != a && p e.2.2) =
      (s.exts.any fun e => e.1.2 == k && e.1.1 != a && p e.2.2) := by
  rw [Bool.eq_iff_iff, Store.any_other_iff hs', Store.any_other_iff hs]
  constructor
  · rintro ⟨b, m, hb, hm, hpm⟩
    exact ⟨b, m, hb, w.back hn hm (hp m hpm), hpm⟩
  · rintro ⟨b, m, hb, hm, hpm⟩
    exact ⟨b, m, hb, w.declared hm, hpm⟩

/-- Reading: a reference that resolves keeps resolving. -/
theorem anchor (w : Widens s s') (hs : s.Ordered) (hs' : s'.Ordered) {k : Kind} {x : Option Nat} {nm : Str} {a : Nat}
    (h : s.getAndValidateAnchor k x nm = .ok a) : s'.getAndValidateAnchor k x nm = .ok a := by
  by_cases hk : k = .function
  · subst hk
    rw [Store.getAndValidate_function hs] at h
    rw [Store.getAndValidate_function hs']
    obtain ⟨⟨n, hn, hsp⟩, h2⟩ := h
    refine ⟨⟨n, w.declared hn, hsp⟩, ?_⟩
    cases x with
    | some b => exact h2
    | none =>
      intro b m hb hm
      exact h2 b m (w.back hn hb (by rw [spelledBy_baseName hm, spelledBy_baseName hsp])) hm
  · unfold Store.getAndValidateAnchor at h ⊢
    rw [if_neg hk] at h ⊢
    cases x with
    | some b =>
      dsimp only at h ⊢
      cases hf : s.findByAnchor k b with
      | error e => rw [hf] at h; cases h
      | ok p =>
        obtain ⟨u, n⟩ := p
        rw [hf] at h
        rw [w.keeps k b u n hf]
        exact h
    | none =>
      dsimp only at h ⊢
      rw [Store.findByName_ok hs] at h
      rw [Store.findByName_ok hs']
      exact ⟨w.declared h.1, fun b hb => h.2 b (w.back h.1 hb rfl)⟩

/-- Printing: a name that can be shown is shown the same. -/
theorem lookup (w : Widens s s') (hs : s.Ordered) (hs' : s'.Ordered) {k : Kind} {a : Nat} {na : NamedAnchor}
    (h : NamedAnchor.lookup s k a = some na) : NamedAnchor.lookup s' k a = some na := by
  cases hf : s.findByAnchor k a with
  | error e =>
    exfalso
    unfold NamedAnchor.lookup at h
    split at h
    · rename_i hk
      subst hk
      simp [Store.lookupFunction, hf, bind, Except.bind] at h
    · rw [hf] at h; cases h
  | ok p =>
    obtain ⟨u, n⟩ := p
    have hd : Declared s k a n := ⟨u, hf⟩
    have hf' := w.keeps k a u n hf
    have hb := w.any_eq hs hs' hd (fun m => baseName m == baseName n) (fun m hm => by simpa using hm)
    have hn := w.any_eq hs hs' hd (fun m => m == n) (fun m hm => by
      have : m = n := by simpa using hm
      rw [this])
    unfold NamedAnchor.lookup at h ⊢
    by_cases hk : k = .function
    · subst hk
      rw [if_pos rfl, Store.lookupFunction_ok hs hf] at h
      rw [if_pos rfl, Store.lookupFunction_ok hs' hf']
      dsimp only at h ⊢
      rw [hb, hn]
      exact h
    · rw [if_neg hk, hf] at h
      rw [if_neg hk, hf']
      dsimp only at h ⊢
      rw [Store.isNameUnique_spec hs hd] at h
      rw [Store.isNameUnique_spec hs' (w.declared hd), hn]
      exact h

end UnrelSpec.Widens
end Verif
