import Verif.Proofs.CountedTypes
import Verif.Proofs.GrammarRel
/-!
# How many attempts an extension argument takes
-/

set_option autoImplicit false

namespace Verif
namespace Counted
open Grammar

theorem valueText_ne {v : SVal} {x : Str} (h : ValueText v x) : x ≠ [] := by
  cases h with
  | float h =>
    obtain ⟨m, n, sg, ds, fs, -, -, -, rfl⟩ := h
    simp
  | int h => exact intText_ne h
  | str h =>
    obtain ⟨b, -, rfl⟩ := h
    simp
  | _ => simp

theorem litText_ne {l : SLit} {x : Str} (h : LitText l x) : x ≠ [] := by
  obtain ⟨y, z, h, -, rfl⟩ := h
  have := valueText_ne h
  simp [this]

theorem refText_ne {i : IntTok} {x : Str} (h : RefText i x) : x ≠ [] := by
  obtain ⟨y, -, rfl⟩ := h
  simp

theorem exprText_ne {e : SExpr} {x : Str} (h : ExprText e x) : x ≠ [] := by
  cases h with
  | ref h => exact refText_ne h
  | lit h => exact litText_ne h
  | _ => simp

theorem argText_ne {a : SArg} {x : Str} (h : Grammar.ArgText a x) : x ≠ [] := by
  cases h with
  | enum h => simp
  | lit h => exact valueText_ne h
  | ref h => exact refText_ne h
  | expr h => exact exprText_ne h
  | tuple h => cases h <;> simp

theorem exprN_cuts (n : Nat) : Cuts (exprN n) := fun _ _ _ h =>
  cuts_of (reads_exprN n) (fun _ _ => exprText_ne) (by rw [← val_exprN]; exact h)

theorem argN_cuts (n : Nat) : Cuts (argN n) := fun _ _ _ h =>
  cuts_of (reads_argN n) (fun _ _ => argText_ne) (by rw [← val_argN]; exact h)

/-- Attempts cost at most `K` for each character there is, and successful ones `K` for each character
they take; an attempt at a closing bracket costs at most `K`. -/
structure ArgFair (p : Str → Counted (SArg × Str)) (A : Str → Prop) (K : Nat) : Prop where
  cut : Cuts p
  all : ∀ s, A s → (p s).tries ≤ K * (s.length + 1)
  quick : ∀ s, A s → s.head? = some ')' → (p s).tries ≤ K
  some : ∀ s a r, A s → (p s).val = some (a, r) → (p s).tries + K * r.length ≤ K * s.length

section step
variable {p : Str → Counted (SArg × Str)} {A A' : Str → Prop} {K : Nat}

theorem tuple1_tries {s t : Str} (h : lit cs!"(" s = some t) : (tuple1 p s).tries = (p (skipSp t)).tries := by
  unfold tuple1
  rw [free_some_bind _ h, tries_bind]
  cases (p (skipSp t)).val with
  | none => rfl
  | some x =>
    dsimp only
    rw [tries_bind]
    cases h2 : (free (lit [','] (skipSp x.2))).val with
    | none => rfl
    | some u =>
      dsimp only
      rw [tries_bind]
      cases (free (lit [')'] (skipSp u))).val <;> simp

theorem tuple2_tries {s t : Str} (h : lit cs!"(" s = some t) :
    (tuple2 p s).tries = (sep1 spCommaSp p (skipSp t)).tries := by
  unfold tuple2
  rw [free_some_bind _ h, tries_bind]
  cases (sep1 spCommaSp p (skipSp t)).val with
  | none => rfl
  | some x =>
    dsimp only
    by_cases hl : x.1.length < 2
    · simp [hl, tries_bind]
    · simp only [hl, if_false]
      rw [tries_bind]
      simp only [tries_pure]
      cases (free (lit [')'] (skipSp (pOpt spComma x.2).2))).val <;> simp

theorem tuple_shut {s : Str} (h : lit cs!"(" s = none) : (tuple p s).tries = 0 := by
  have h0 : pTuple0 s = none := by unfold pTuple0; rw [h]; rfl
  have h1 := free_none_bind (x := lit cs!"(" s) (fun s => do
    let (a, s) ← p (skipSp s)
    let s ← free (lit cs!"," (skipSp s))
    let s ← free (lit cs!")" (skipSp s))
    pure ([a], s)) h
  unfold tuple
  rw [idle_or (m := free (pTuple0 s)) _ (by rw [val_free, h0]) rfl, idle_or (m := tuple1 p s) _ h1.1 h1.2]
  unfold tuple2
  exact (free_none_bind _ h).2

/-- **The first component of a tuple is tried by the second alternative and again by the third.** -/
theorem tuple1_le {s t : Str} (h : lit cs!"(" s = some t) : (tuple1 p s).tries ≤ (tuple2 p s).tries := by
  rw [tuple1_tries h, tuple2_tries h]
  cases hv : (p (skipSp t)).val with
  | none => rw [(sep1_none hv).1]; exact Nat.le_refl _
  | some x => rw [(sep1_some (sep := spCommaSp) (a := x.1) (s2 := x.2) hv).1]; exact Nat.le_add_right _ _

variable (hA : ∀ r s, r <:+ s → A s → A r) (hAA : ∀ s t, A' s → ('(' :: t) <:+ s → A t)
include hA hAA

theorem paren_inside {s t : Str} (hs : A' s) (h : lit cs!"(" s = some t) :
    A (skipSp t) ∧ (skipSp t).length < s.length := by
  have e := lit_some h
  refine ⟨hA _ _ (skipSp_suffix t) (hAA s t hs ⟨[], by rw [e]; rfl⟩), ?_⟩
  have := skipSp_le t
  rw [e]
  simp
  omega

theorem tuple2_le (hf : ArgFair p A K) {s : Str} (hs : A' s) : (tuple2 p s).tries ≤ K * s.length := by
  cases h : lit cs!"(" s with
  | none => unfold tuple2; rw [(free_none_bind _ h).2]; exact Nat.zero_le _
  | some t =>
    obtain ⟨hat, hlt⟩ := paren_inside hA hAA hs h
    rw [tuple2_tries h]
    refine Nat.le_trans (sep1_le (ok := fun _ => True) hA hf.cut spCommaSp_cuts (fun _ h => absurd trivial h) hf.all
      (fun s a r h1 h2 _ => hf.some s a r h1 h2) _ hat) ?_
    exact pay' K hlt

theorem tuple_paid (hf : ArgFair p A K) {s r : Str} {l : List SArg} (hs : A' s) (hv : (tuple p s).val = some (l, r)) :
    (tuple p s).tries + 2 * (K * r.length) ≤ 2 * (K * s.length) := by
  cases h : lit cs!"(" s with
  | none =>
    exfalso
    rw [val_tuple (q := fun s => (p s).val) (fun _ => rfl)] at hv
    simp [pTupleWith, pTuple0, pTuple1With, pTuple2With, h] at hv
  | some t =>
    obtain ⟨hat, hlt⟩ := paren_inside hA hAA hs h
    have hpay := pay K hlt
    unfold tuple at hv ⊢
    simp only [val_or, val_free] at hv
    cases h0 : pTuple0 s with
    | some x =>
      rw [h0] at hv
      cases hv
      rw [tries_or_some (a := (l, r)) _ (by rw [val_or]; rfl), tries_or_some (a := (l, r)) _ rfl, tries_free]
      unfold pTuple0 at h0
      simp only [h, Option.bind_eq_bind, Option.bind_some, Option.bind_eq_some_iff] at h0
      obtain ⟨u, h1, h2⟩ := h0
      cases h2
      have := (lit_cut h1).1.length_le
      have := pay' K this
      omega
    | none =>
      rw [h0] at hv
      rw [idle_or (m := free none) _ rfl rfl]
      cases h1 : (tuple1 p s).val with
      | some x =>
        rw [h1] at hv
        cases hv
        rw [tries_or_some _ h1, tuple1_tries h]
        unfold tuple1 at h1
        rw [free_some_bind _ h] at h1
        simp only [val_bind, val_free, val_pure, Option.bind_eq_some_iff] at h1
        obtain ⟨⟨a, r1⟩, h2, r2, h3, r3, h4, h5⟩ := h1
        cases h5
        have p1 := hf.some _ _ _ hat h2
        dsimp only at h3
        have q1 := (lit_cut h3).1.length_le
        have q2 := (lit_cut h4).1.length_le
        have q3 := skipSp_le r1
        have q4 := skipSp_le r2
        have := pay' K (show r.length ≤ r1.length by omega)
        omega
      | none =>
        rw [h1] at hv
        rw [tries_or_none _ h1]
        have hle := tuple1_le (p := p) h
        rw [tuple2_tries h] at hle ⊢
        have hv' : (tuple2 p s).val = some (l, r) := hv
        unfold tuple2 at hv'
        rw [free_some_bind _ h] at hv'
        simp only [val_bind, Option.bind_eq_some_iff] at hv'
        obtain ⟨⟨l', r1⟩, h2, h3⟩ := hv'
        dsimp only at h3
        have h4 : ∃ r2, lit cs!")" (skipSp (pOpt spComma r1).2) = some r2 ∧ (l', r2) = (l, r) := by
          by_cases hl : l'.length < 2
          · simp [hl] at h3
          · simp only [hl, if_false] at h3
            simpa [Option.bind_eq_some_iff] using h3
        obtain ⟨r2, h5, h6⟩ := h4
        cases h6
        have hs1 : (pOpt spComma r1).2.length ≤ r1.length := by
          unfold pOpt spComma
          cases h7 : lit cs!"," (skipSp r1) with
          | none => exact Nat.le_refl _
          | some u =>
            have := (lit_cut h7).1.length_le
            have := skipSp_le r1
            show u.length ≤ r1.length
            omega
        have := sep1_paid (G := fun _ => True) (ok := fun _ => True)
          (Q := fun r1 => ∃ r2, lit cs!")" (skipSp (pOpt spComma r1).2) = some r2) hA hf.cut spCommaSp_cuts
          (fun _ h => absurd trivial h) (fun _ _ => trivial)
          (fun s s1 h8 h9 h10 _ => by
            obtain ⟨r2, h9⟩ := h9
            unfold spCommaSp at h10
            unfold pOpt spComma at h9
            cases h11 : lit cs!"," (skipSp s) with
            | none => rw [h11] at h10; cases h10
            | some u =>
              rw [h11] at h9 h10
              cases h10
              refine hf.quick _ (hA _ _ (((skipSp_suffix u).trans (lit_cut h11).1).trans (skipSp_suffix s)) h8) ?_
              have := lit_some h9
              dsimp only [Option.map] at this
              rw [this]; rfl)
          (fun s a r h1 h2 _ _ => hf.some s a r h1 h2) hat h2 (fun _ _ => trivial) ⟨r, h5⟩
        have q := (lit_cut h5).2
        have q2 := skipSp_le (pOpt spComma r1).2
        have := pay K (show r.length < r1.length by simp at q; omega)
        omega

/-- One level of `extension_argument`. -/
def argStep (p : Str → Counted (SArg × Str)) (s : Str) : Counted (SArg × Str) :=
  tick (((((free (Verif.mapFst .enum (pEnumValue s))).or (free (Verif.mapFst .lit (pParamLit s)))).or
      (free (Verif.mapFst .ref (pRef s)))).or (free (Verif.mapFst .expr (pExpr s)))).or
      (mapFst .tuple (tuple p s)))

/-- The first alternatives of `extension_argument` together. -/
def leaf (s : Str) : Option (SArg × Str) :=
  (((Verif.mapFst .enum (pEnumValue s)).or (Verif.mapFst .lit (pParamLit s))).or
      (Verif.mapFst .ref (pRef s))).or (Verif.mapFst .expr (pExpr s))

omit hA hAA in
theorem or_free {α : Type} (x y : Option α) : (free x).or (free y) = free (x.or y) := by
  cases x <;> rfl

omit hA hAA in
theorem argStep_eq (p : Str → Counted (SArg × Str)) (s : Str) :
    argStep p s = tick ((free (leaf s)).or (mapFst .tuple (tuple p s))) := by
  unfold argStep
  rw [or_free, or_free, or_free]
  rfl

/-- One more level at most doubles the cost. -/
theorem argStep_fair (hf : ArgFair p A K) (hc : Cuts (argStep p)) : ArgFair (argStep p) A' (2 * K + 1) where
  cut := hc
  all := fun s hs => by
    have e : (2 * K + 1) * (s.length + 1) = 2 * (K * s.length) + 2 * K + s.length + 1 := by
      rw [Nat.add_mul, Nat.mul_assoc, pay1, Nat.one_mul]; omega
    rw [argStep_eq, tries_tick, e]
    have h1 := tries_or_le (free (leaf s)) (mapFst .tuple (tuple p s))
    rw [tries_free, tries_mapFst] at h1
    have h2 : (tuple p s).tries ≤ 2 * (K * s.length) := by
      cases h : lit cs!"(" s with
      | none => rw [tuple_shut h]; exact Nat.zero_le _
      | some t =>
        have h3 := tuple2_le hA hAA hf hs
        have h4 := tuple1_le (p := p) h
        have h5 := tries_or_le ((free (pTuple0 s)).or (tuple1 p s)) (tuple2 p s)
        have h6 := tries_or_le (free (pTuple0 s)) (tuple1 p s)
        rw [tries_free] at h6
        unfold tuple
        omega
    omega
  some := fun s a r hs hv => by
    have hlt := (hc _ _ _ hv).2
    have e1 : (2 * K + 1) * r.length = 2 * (K * r.length) + r.length := by rw [Nat.add_mul, Nat.mul_assoc, Nat.one_mul]
    have e2 : (2 * K + 1) * s.length = 2 * (K * s.length) + s.length := by rw [Nat.add_mul, Nat.mul_assoc, Nat.one_mul]
    rw [argStep_eq] at hv ⊢
    rw [e1, e2, tries_tick]
    have p1 := pay' K (Nat.le_of_lt hlt)
    simp only [val_tick, val_or, val_free, val_mapFst] at hv
    cases h1 : leaf s with
    | some x => rw [tries_or_some (a := x) _ rfl, tries_free]; omega
    | none =>
      rw [h1] at hv
      rw [idle_or (m := free none) _ rfl rfl, tries_mapFst]
      cases h2 : (tuple p s).val with
      | none => rw [h2] at hv; cases hv
      | some x =>
        rw [h2] at hv
        cases hv
        have := tuple_paid hA hAA hf hs h2
        omega
  quick := fun s hs hd => by
    have : lit cs!"(" s = none := by
      cases s with
      | nil => rfl
      | cons c s => cases hd; rfl
    have h1 := tries_or_le (free (leaf s)) (mapFst .tuple (tuple p s))
    rw [tries_free, tries_mapFst, tuple_shut this] at h1
    rw [argStep_eq, tries_tick]
    omega

end step

/-- Texts with fewer than `k` opening parentheses cost at most `2 ^ k - 1` attempts for each
character. -/
theorem argN_fair : ∀ (n k : Nat), ArgFair (argN n) (fun s => s.count '(' < k) (2 ^ k - 1)
  | n, 0 => {
      cut := argN_cuts n
      some := fun _ _ _ h => absurd h (Nat.not_lt_zero _)
      all := fun _ h => absurd h (Nat.not_lt_zero _)
      quick := fun _ h => absurd h (Nat.not_lt_zero _) }
  | 0, k + 1 => by
    have hk : 1 ≤ 2 ^ (k + 1) - 1 := by
      have := Nat.one_le_two_pow (n := k)
      rw [Nat.pow_succ]
      omega
    exact {
      cut := argN_cuts 0
      some := fun _ _ _ _ h => by cases h
      all := fun s _ => by
        show 1 ≤ _
        rw [pay1]
        omega
      quick := fun _ _ _ => hk }
  | n + 1, k + 1 => by
    have := argStep_fair (A' := fun s => s.count '(' < k + 1)
      (fun r s h hs => Nat.lt_of_le_of_lt (h.sublist.count_le _) hs)
      (fun s t hs h => by
        have := h.sublist.count_le '('
        rw [List.count_cons_self] at this
        show List.count '(' t < k
        omega) (argN_fair n k) (argN_cuts (n + 1))
    have e : 2 * (2 ^ k - 1) + 1 = 2 ^ (k + 1) - 1 := by
      have := Nat.one_le_two_pow (n := k)
      rw [Nat.pow_succ]
      omega
    rw [e] at this
    exact this

end Counted
end Verif
