import Verif.Proofs.OptionsExact
import Verif.Spec.Plan
/-!
# More declarations lose nothing, unless anchors are never shown
-/

namespace Verif

set_option autoImplicit false

open StoreSpec TextSpec RelSpec PlanSpec

/-- Everything declared in `st` is declared in `st'`, under the same anchor and name. -/
def Extends (st st' : Store) : Prop := ∀ k a n, Declared st k a n → Declared st' k a n

theorem sound_declared {st : Store} (ho : st.Ordered) (hs : Sound st) {k : Kind} {a : Nat} {n : Str} (h : Declared st k a n) :
    a < 2 ^ 32 ∧ DeclName k n := by
  obtain ⟨u, hu⟩ := (Store.declared_iff ho).1 h
  exact hs.decls _ hu

theorem shownFn_more {st st' : Store} (ho : st'.Ordered) (hs : Sound st') (he : Extends st st') {v : Visibility} (hv : v ≠ .never)
    {f : Nat} (h : ∃ nm a, ShownFn st v f nm a ∧ UsableFn st f nm a) :
    ∃ nm a, ShownFn st' v f nm a ∧ UsableFn st' f nm a := by
  obtain ⟨nm, a, ⟨n, b, h1, h2, -⟩, -⟩ := h
  have hd := he _ _ _ h1
  obtain ⟨h3, h4⟩ := sound_declared ho hs hd
  have ha : ∃ nm a, ShownFn st' .always f nm a ∧ UsableFn st' f nm a := ⟨n, some f, ⟨n, b, hd, h2, rfl, rfl⟩, h4, h3⟩
  cases v with
  | never => exact absurd rfl hv
  | always => exact ha
  | required => exact shownFn_any ha

theorem refs_more {st st' : Store} (ho : st'.Ordered) (hs : Sound st') (he : Extends st st') {v : Visibility} (hv : v ≠ .never) :
    RefsKept st st' v v := by
  rintro ref k ⟨nm, a, ⟨n, b, h1, h2, h3⟩, hu, hl⟩
  have hd := he _ _ _ h1
  cases v with
  | never => exact absurd rfl hv
  | always =>
    obtain ⟨rfl, rfl⟩ := h3
    exact ⟨nm, some ref, ⟨nm, b, hd, h2, rfl, rfl⟩, hu, hl⟩
  | required =>
    obtain ⟨rfl, h3⟩ := h3
    rcases h3 with ⟨⟨g, hg, ht⟩, rfl⟩ | ⟨-, rfl⟩
    · exact ⟨nm, some ref, ⟨n, nm, hd, h2, rfl, .inl ⟨⟨g, hg, he _ _ _ ht⟩, rfl⟩⟩, hu, hl⟩
    · obtain ⟨u1, u2, u3, -⟩ := hu
      have hn := Store.declared_unique h1 u3
      subst hn
      by_cases ht : Twin st' .type ref n
      · exact ⟨n, some ref, ⟨n, n, hd, h2, rfl, .inl ⟨ht, rfl⟩⟩, ⟨u1, u2, (sound_declared ho hs hd).1⟩, by rintro ⟨⟩⟩
      · exact ⟨n, none, ⟨n, n, hd, h2, rfl, .inr ⟨ht, rfl⟩⟩, ⟨u1, u2, hd, ht⟩, hl⟩

theorem keeps_more {st st' : Store} (ho : st'.Ordered) (hs : Sound st') (he : Extends st st') {o : Opts} (hv : o.anchors ≠ .never) :
    Keeps st st' o o :=
  ⟨fun t h => survivesTy_lift (refs_more ho hs he hv) t h, fun _ h => shownFn_more ho hs he hv h, id, id⟩

end Verif
