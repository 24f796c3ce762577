import Verif.Proofs.CountedArgs
/-!
# Tuples when the common beginning of two alternatives is shared
-/

set_option autoImplicit false
set_option linter.unusedSectionVars false

namespace Verif
open StoreSpec Grammar

namespace Counted

section step
variable {p : Str → Counted (SArg × Str)}

theorem tupleRest_val (a : SArg) (s : Str) :
    (tupleRest p a s).val =
      ((((lit cs!"," (skipSp s)).bind fun s => lit cs!")" (skipSp s)).map fun r => ([a], r)).or
      ((starN spCommaSp p s.length s).val.bind fun x =>
        if x.1.length < 1 then none else
          (lit cs!")" (skipSp (pOpt spComma x.2).2)).map fun r => (a :: x.1, r))) := by
  unfold tupleRest
  rw [val_or]
  congr 1
  · simp only [val_bind, val_free, val_pure]
    cases lit [','] (skipSp s) with
    | none => rfl
    | some u =>
      simp only [Option.bind_some]
      cases lit [')'] (skipSp u) <;> rfl
  · rw [val_bind]
    congr 1
    funext x
    obtain ⟨l, r⟩ := x
    dsimp only
    by_cases hl : l.length < 1
    · simp [hl]
    · simp only [hl, if_false]
      simp only [val_bind, val_free, val_pure, Option.bind_some]
      cases lit [')'] (skipSp (pOpt spComma r).2) <;> rfl

theorem tupleRest_tries (a : SArg) (s : Str) :
    (tupleRest p a s).tries ≤ (starN spCommaSp p s.length s).tries := by
  unfold tupleRest
  refine Nat.le_trans (tries_or_le _ _) ?_
  have h1 : (do
      let s ← free (lit cs!"," (skipSp s))
      let s ← free (lit cs!")" (skipSp s))
      pure ([a], s) : Counted (List SArg × Str)).tries = 0 := by
    rw [tries_bind]
    cases lit [','] (skipSp s) with
    | none => rfl
    | some u =>
      dsimp only [val_free]
      rw [tries_bind]
      cases h : lit [')'] (skipSp u) <;> rfl
  rw [h1, Nat.zero_add, tries_bind]
  cases (starN spCommaSp p s.length s).val with
  | none => exact Nat.le_refl _
  | some x =>
    dsimp only
    by_cases hl : x.1.length < 1
    · simp [hl, tries_bind]
    · simp only [hl, if_false]
      rw [tries_bind]
      simp only [tries_pure]
      cases (free (lit [')'] (skipSp (pOpt spComma x.2).2))).val <;> simp

/-- **Sharing the beginning changes no result.** -/
theorem tupleShared_val (s : Str) : (tupleShared p s).val = (tuple p s).val := by
  unfold tupleShared tuple
  simp only [val_or, val_free]
  rw [Option.or_assoc]
  congr 1
  cases h : lit cs!"(" s with
  | none =>
    have h1 : (tuple1 p s).val = none := (free_none_bind _ h).1
    have h2 : (tuple2 p s).val = none := (free_none_bind _ h).1
    rw [h1, h2]
    exact (free_none_bind _ rfl).1
  | some t =>
    rw [free_some_bind _ rfl]
    unfold tuple1 tuple2
    rw [free_some_bind _ h, free_some_bind _ h]
    rw [val_bind, val_bind, val_bind]
    cases hv : (p (skipSp t)).val with
    | none => rw [(sep1_none hv).2]; rfl
    | some x =>
      obtain ⟨a, u⟩ := x
      rw [(sep1_some hv).2]
      simp only [Option.bind_some]
      rw [tupleRest_val]
      congr 1
      · simp only [val_bind, val_free, val_pure]
        cases lit [','] (skipSp u) with
        | none => rfl
        | some w =>
          simp only [Option.bind_some]
          cases lit [')'] (skipSp w) <;> rfl
      · cases (starN spCommaSp p u.length u).val with
        | none => rfl
        | some x =>
          obtain ⟨l, r⟩ := x
          simp only [Option.bind_some]
          by_cases hl : l.length < 1
          · have hl' : (a :: l).length < 2 := by simp; omega
            simp only [hl, hl', if_true]
            simp
          · have hl' : ¬ (a :: l).length < 2 := by simp; omega
            simp only [hl, hl', if_false]
            simp only [val_bind, val_free, val_pure, Option.bind_some]
            cases lit [')'] (skipSp (pOpt spComma r).2) <;> rfl

theorem tupleShared_shut {s : Str} (h : lit cs!"(" s = none) : (tupleShared p s).tries = 0 := by
  have h0 : pTuple0 s = none := by unfold pTuple0; rw [h]; rfl
  unfold tupleShared
  rw [idle_or (m := free (pTuple0 s)) _ (by rw [val_free, h0]) rfl]
  exact (free_none_bind _ h).2

theorem tupleShared_open {s t : Str} (h : lit cs!"(" s = some t) (h0 : pTuple0 s = none) :
    (tupleShared p s).tries = (p (skipSp t)).tries +
      (match (p (skipSp t)).val with | none => 0 | some x => (tupleRest p x.1 x.2).tries) := by
  unfold tupleShared
  rw [idle_or (m := free (pTuple0 s)) _ (by rw [val_free, h0]) rfl, free_some_bind _ h, tries_bind]
  cases (p (skipSp t)).val <;> rfl

theorem tupleShared_le {s t : Str} (h : lit cs!"(" s = some t) :
    (tupleShared p s).tries ≤ (sep1 spCommaSp p (skipSp t)).tries := by
  cases h0 : pTuple0 s with
  | some x =>
    unfold tupleShared
    rw [tries_or_some (a := x) _ (by rw [val_free, h0])]
    exact Nat.zero_le _
  | none =>
    rw [tupleShared_open h h0]
    cases hv : (p (skipSp t)).val with
    | none => rw [(sep1_none hv).1]; exact Nat.le_refl _
    | some x =>
      rw [(sep1_some (sep := spCommaSp) (a := x.1) (s2 := x.2) hv).1]
      exact Nat.add_le_add_left (tupleRest_tries _ _) _

theorem tupleShared_paid (hf : ArgFair p (fun _ => True) 1) {s r : Str} {l : List SArg}
    (hv : (tupleShared p s).val = some (l, r)) : (tupleShared p s).tries + 1 + r.length ≤ s.length := by
  cases h : lit cs!"(" s with
  | none =>
    exfalso
    rw [tupleShared_val, val_tuple (q := fun s => (p s).val) (fun _ => rfl)] at hv
    simp [pTupleWith, pTuple0, pTuple1With, pTuple2With, h] at hv
  | some t =>
    have hlt : (skipSp t).length < s.length := by
      have := (lit_cut h).2
      have := skipSp_le t
      simp only [List.length_singleton] at *
      omega
    cases h0 : pTuple0 s with
    | some x =>
      unfold tupleShared at hv ⊢
      rw [val_or, val_free, h0] at hv
      cases hv
      rw [tries_or_some (a := (l, r)) _ h0, tries_free]
      unfold pTuple0 at h0
      simp only [h, Option.bind_eq_bind, Option.bind_some, Option.bind_eq_some_iff] at h0
      obtain ⟨u, h1, h2⟩ := h0
      cases h2
      have := (lit_cut h1).1.length_le
      omega
    | none =>
      rw [tupleShared_open h h0]
      unfold tupleShared at hv
      rw [idle_or (m := free (pTuple0 s)) _ (by rw [val_free, h0]) rfl, free_some_bind _ h, val_bind,
        Option.bind_eq_some_iff] at hv
      obtain ⟨⟨a, r1⟩, h2, h3⟩ := hv
      rw [h2]
      dsimp only at h3 ⊢
      have p1 := hf.some _ _ _ trivial h2
      rw [Nat.one_mul, Nat.one_mul] at p1
      rw [tupleRest_val] at h3
      cases h4 : ((lit cs!"," (skipSp r1)).bind fun s => lit cs!")" (skipSp s)) with
      | some u =>
        rw [h4] at h3
        cases h3
        have ht : (tupleRest p a r1).tries = 0 := by
          obtain ⟨w, h5, h6⟩ := Option.bind_eq_some_iff.1 h4
          unfold tupleRest
          rw [free_some_bind _ h5, free_some_bind _ h6]
          rfl
        obtain ⟨w, h5, h6⟩ := Option.bind_eq_some_iff.1 h4
        have q1 := (lit_cut h5).1.length_le
        have q2 := (lit_cut h6).1.length_le
        have q3 := skipSp_le r1
        have q4 := skipSp_le w
        omega
      | none =>
        rw [h4] at h3
        obtain ⟨⟨l', r2⟩, h5, h6⟩ := Option.bind_eq_some_iff.1 (show _ = some (l, r) from h3)
        dsimp only at h6
        have h7 : ∃ r3, lit cs!")" (skipSp (pOpt spComma r2).2) = some r3 ∧ (a :: l', r3) = (l, r) := by
          by_cases hl : l'.length < 1
          · simp [hl] at h6
          · simp only [hl, if_false] at h6
            exact Option.map_eq_some_iff.1 h6
        obtain ⟨r3, h8, h9⟩ := h7
        cases h9
        have hs1 : (pOpt spComma r2).2.length ≤ r2.length := by
          unfold pOpt spComma
          cases h7 : lit cs!"," (skipSp r2) with
          | none => exact Nat.le_refl _
          | some u =>
            have := (lit_cut h7).1.length_le
            have := skipSp_le r2
            show u.length ≤ r2.length
            omega
        have hsep : (sep1 spCommaSp p (skipSp t)).val = some (a :: l', r2) := by
          rw [(sep1_some h2).2, h5]
          rfl
        have := sep1_paid (A := fun _ => True) (G := fun _ => True) (ok := fun _ => True) (K := 1)
          (Q := fun r1 => ∃ r2, lit cs!")" (skipSp (pOpt spComma r1).2) = some r2) (fun _ _ _ _ => trivial) hf.cut
          spCommaSp_cuts (fun _ h => absurd trivial h) (fun _ _ => trivial)
          (fun s s1 h8 h9 h10 _ => by
            obtain ⟨r2, h9⟩ := h9
            unfold spCommaSp at h10
            unfold pOpt spComma at h9
            cases h11 : lit cs!"," (skipSp s) with
            | none => rw [h11] at h10; cases h10
            | some u =>
              rw [h11] at h9 h10
              cases h10
              refine hf.quick _ trivial ?_
              have := lit_some h9
              dsimp only [Option.map] at this
              rw [this]; rfl)
          (fun s a r h1 h2 _ _ => hf.some s a r h1 h2) trivial hsep (fun _ _ => trivial) ⟨r, h8⟩
        rw [(sep1_some (sep := spCommaSp) h2).1] at this
        have hr := tupleRest_tries (p := p) a r1
        have q := (lit_cut h8).2
        have q2 := skipSp_le (pOpt spComma r2).2
        simp only [List.length_singleton] at q
        omega

/-- One level of `extension_argument`. -/
def sharedStep (p : Str → Counted (SArg × Str)) (s : Str) : Counted (SArg × Str) :=
  tick (((((free (Verif.mapFst .enum (pEnumValue s))).or (free (Verif.mapFst .lit (pParamLit s)))).or
      (free (Verif.mapFst .ref (pRef s)))).or (free (Verif.mapFst .expr (pExpr s)))).or
      (mapFst .tuple (tupleShared p s)))

theorem sharedStep_eq (p : Str → Counted (SArg × Str)) (s : Str) :
    sharedStep p s = tick ((free (leaf s)).or (mapFst .tuple (tupleShared p s))) := by
  unfold sharedStep
  rw [or_free, or_free, or_free]
  rfl

/-- One more level costs nothing more. -/
theorem sharedStep_fair (hf : ArgFair p (fun _ => True) 1) (hc : Cuts (sharedStep p)) :
    ArgFair (sharedStep p) (fun _ => True) 1 where
  cut := hc
  all := fun s _ => by
    rw [sharedStep_eq, tries_tick]
    have h1 := tries_or_le (free (leaf s)) (mapFst .tuple (tupleShared p s))
    rw [tries_free, tries_mapFst] at h1
    cases h : lit cs!"(" s with
    | none => rw [tupleShared_shut h] at h1; omega
    | some t =>
      have h2 := tupleShared_le (p := p) h
      have h3 := sep1_le (A := fun _ => True) (ok := fun _ => True) (fun _ _ _ _ => trivial) hf.cut spCommaSp_cuts
        (fun _ h => absurd trivial h) hf.all (fun s a r h1 h2 _ => hf.some s a r h1 h2) (skipSp t) trivial
      have := (lit_cut h).2
      have := skipSp_le t
      simp only [List.length_singleton] at *
      omega
  some := fun s a r hs hv => by
    have hlt := (hc _ _ _ hv).2
    rw [sharedStep_eq] at hv ⊢
    rw [tries_tick, Nat.one_mul, Nat.one_mul]
    simp only [val_tick, val_or, val_free, val_mapFst] at hv
    cases h1 : leaf s with
    | some x => rw [tries_or_some (a := x) _ rfl, tries_free]; omega
    | none =>
      rw [h1] at hv
      rw [idle_or (m := free none) _ rfl rfl, tries_mapFst]
      cases h2 : (tupleShared p s).val with
      | none => rw [h2] at hv; cases hv
      | some x =>
        rw [h2] at hv
        cases hv
        have := tupleShared_paid hf h2
        omega
  quick := fun s hs hd => by
    have : lit cs!"(" s = none := by
      cases s with
      | nil => rfl
      | cons c s => cases hd; rfl
    have h1 := tries_or_le (free (leaf s)) (mapFst .tuple (tupleShared p s))
    rw [tries_free, tries_mapFst, tupleShared_shut this] at h1
    rw [sharedStep_eq, tries_tick]
    omega

end step

theorem val_argSharedN : ∀ n s, (argSharedN n s).val = pArgN n s
  | 0, _ => rfl
  | n + 1, s => by
    have : (tupleShared (argSharedN n) s).val = pTupleWith (pArgN n) s := by
      rw [tupleShared_val, val_tuple (val_argSharedN n)]
    simp [argSharedN, pArgN, this]

theorem val_argShared (s : Str) : (argShared s).val = pArg s := val_argSharedN _ s

theorem argSharedN_cuts (n : Nat) : Cuts (argSharedN n) := fun s a r h =>
  argN_cuts n s a r (by rw [val_argN, ← val_argSharedN]; exact h)

/-- With the beginning shared, there are at most as many attempts as characters, and one more. -/
theorem argSharedN_fair : ∀ n, ArgFair (argSharedN n) (fun _ => True) 1
  | 0 => {
      cut := argSharedN_cuts 0
      some := fun _ _ _ _ h => by cases h
      all := fun s _ => by
        show 1 ≤ _
        omega
      quick := fun _ _ _ => Nat.le_refl _ }
  | n + 1 => sharedStep_fair (argSharedN_fair n) (argSharedN_cuts (n + 1))

end Counted
end Verif
