import Verif.Proofs.HazardsText
/-!
# Accepted texts have no hazards
-/

namespace Verif

set_option autoImplicit false

open ChunkSpec SectionSpec Grammar TreeSpec StoreSpec HazardSpec

theorem Fails.not_ok {α : Type} {r : Res Err α} {a : α} (h : Fails r) (hr : r = .ok a) : False := by
  obtain ⟨e, h⟩ := h
  rw [h] at hr
  cases hr

theorem unwrapU32_ok {i : IntTok} {n : Option Nat} (h : unwrapU32 (some i) = .ok n) : ¬ NotAnchor i := by
  intro hn
  rw [unwrapU32_panic.2 ⟨i, rfl, hn⟩] at h
  cases h

theorem convParams_ok {st : Store} {ps : List SParam} {r : List Param} (h : convParams st ps = .ok r) :
    ∀ p ∈ ps, ∃ q, convParam st p = .ok q := by
  induction ps generalizing r with
  | nil => simp
  | cons p ps ih =>
    unfold convParams convCons at h
    split at h
    · next a ha =>
      intro q hq
      rcases List.mem_cons.1 hq with rfl | hq
      · exact ⟨a, ha⟩
      · cases ht : convParams st ps with
        | ok l => exact ih ht q hq
        | err e => rw [ht] at h; cases h
        | panic => rw [ht] at h; cases h
    · split at h <;> cases h
    · cases h

theorem convTy_safe {st : Store} {t : STy} (hz : TyHazard st t) : ∀ r, convTy st t ≠ .ok r := by
  have user : ∀ {name : Str} {a u : Option IntTok} {n : Nul} {ps : Option (List SParam)} {r : Ty},
      convTy st (.user name a u n ps) = .ok r → (∃ x, unwrapU32 a = .ok x) ∧ (∃ x, unwrapU32 u = .ok x) ∧
        ∀ l, ps = some l → ∃ x, convParams st l = .ok x := by
    intro name a u n ps r h
    unfold convTy at h
    obtain ⟨a', h1, h⟩ := Res.bind_isOk_iff.1 h
    obtain ⟨u', h2, h⟩ := Res.bind_isOk_iff.1 h
    obtain ⟨ps', h3, h⟩ := Res.bind_isOk_iff.1 h
    refine ⟨⟨_, h1⟩, ⟨_, h2⟩, ?_⟩
    rintro l rfl
    exact ⟨_, h3⟩
  induction hz with
  | unsigned h =>
    intro r hr
    unfold convTy at hr
    simp only [List.mem_cons, List.not_mem_nil, or_false] at h
    rcases h with h | h | h | h <;> subst h <;> cases hr
  | list _ ih =>
    intro r hr
    unfold convTy at hr
    obtain ⟨t, h, -⟩ := Res.bind_isOk_iff.1 hr
    exact ih t h
  | map => intro r hr; cases hr
  | struct => intro r hr; cases hr
  | anchor h => intro r hr; obtain ⟨⟨_, h1⟩, -⟩ := user hr; exact unwrapU32_ok h1 h
  | urn h => intro r hr; obtain ⟨-, ⟨_, h1⟩, -⟩ := user hr; exact unwrapU32_ok h1 h
  | intParam h =>
    intro r hr
    obtain ⟨-, -, h1⟩ := user hr
    obtain ⟨x, hx⟩ := h1 _ rfl
    obtain ⟨q, hq⟩ := convParams_ok hx _ h
    cases hq
  | nameParam h =>
    intro r hr
    obtain ⟨-, -, h1⟩ := user hr
    obtain ⟨x, hx⟩ := h1 _ rfl
    obtain ⟨q, hq⟩ := convParams_ok hx _ h
    cases hq
  | param h _ ih =>
    intro r hr
    obtain ⟨-, -, h1⟩ := user hr
    obtain ⟨x, hx⟩ := h1 _ rfl
    obtain ⟨q, hq⟩ := convParams_ok hx _ h
    unfold convParam at hq
    obtain ⟨t, h, -⟩ := Res.bind_isOk_iff.1 hq
    exact ih t h
  | @early _ _ _ _ l r t q h =>
    intro r hr
    obtain ⟨-, -, h1⟩ := user hr
    obtain ⟨x, hx⟩ := h1 _ rfl
    obtain ⟨q, hq⟩ := convParams_ok hx (.ty t) (by simp)
    unfold convParam at hq
    obtain ⟨t, ht, -⟩ := Res.bind_isOk_iff.1 hq
    exact Fails.not_ok h ht

variable [FTab]

theorem convArgs_ok {st : Store} {l : List SExpr} {r : List Arg} (h : convArgs st l = .ok r) :
    ∀ e ∈ l, ∃ x, convExpr st e = .ok x := by
  induction l generalizing r with
  | nil => simp
  | cons e l ih =>
    unfold convArgs at h
    obtain ⟨x, h1, h⟩ := Res.bind_isOk_iff.1 h
    obtain ⟨y, h2, h⟩ := Res.bind_isOk_iff.1 h
    intro e' he
    rcases List.mem_cons.1 he with rfl | he
    · exact ⟨x, h1⟩
    · exact ih h2 e' he

theorem convClauses_ok {st : Store} {l : List (SExpr × SExpr)} {r : List Clause} (h : convClauses st l = .ok r) :
    ∀ p ∈ l, (∃ x, convExpr st p.1 = .ok x) ∧ ∃ x, convExpr st p.2 = .ok x := by
  induction l generalizing r with
  | nil => simp
  | cons p l ih =>
    obtain ⟨c, s⟩ := p
    unfold convClauses at h
    split at h
    · next c' hc =>
      split at h
      · next s' hs =>
        obtain ⟨y, h2, h⟩ := Res.bind_isOk_iff.1 h
        intro q hq
        rcases List.mem_cons.1 hq with rfl | hq
        · exact ⟨⟨_, hc⟩, ⟨_, hs⟩⟩
        · exact ih h2 q hq
      · cases h
    · cases h

theorem convExpr_safe {st : Store} {e : SExpr} (hz : ExprHazard st e) : ∀ r, convExpr st e ≠ .ok r := by
  have call : ∀ {name : Str} {a u : Option IntTok} {args : List SExpr} {t : STy} {r : Expr},
      convExpr st (.call name a u args t) = .ok r → (∃ x, unwrapU32 a = .ok x) ∧ (∃ x, unwrapU32 u = .ok x) ∧
        (∃ x, convArgs st args = .ok x) ∧ ∃ x, convTy st t = .ok x := by
    intro name a u args t r h
    unfold convExpr at h
    obtain ⟨a', h1, h⟩ := Res.bind_isOk_iff.1 h
    obtain ⟨u', h2, h⟩ := Res.bind_isOk_iff.1 h
    obtain ⟨ps', h3, h⟩ := Res.bind_isOk_iff.1 h
    obtain ⟨t', h4, h⟩ := Res.bind_isOk_iff.1 h
    exact ⟨⟨_, h1⟩, ⟨_, h2⟩, ⟨_, h3⟩, ⟨_, h4⟩⟩
  have cast : ∀ {e : SExpr} {fb : SBehavior} {t : STy} {r : Expr}, convExpr st (.cast e fb t) = .ok r →
      (∃ x, convExpr st e = .ok x) ∧ ∃ x, convTy st t = .ok x := by
    intro e fb t r h
    unfold convExpr at h
    obtain ⟨a', h1, h⟩ := Res.bind_isOk_iff.1 h
    obtain ⟨u', h2, h⟩ := Res.bind_isOk_iff.1 h
    exact ⟨⟨_, h1⟩, ⟨_, h2⟩⟩
  have ifThen : ∀ {l : List (SExpr × SExpr)} {y : SExpr} {r : Expr}, convExpr st (.ifThen l y) = .ok r →
      (∃ x, convClauses st l = .ok x) ∧ ∃ x, convExpr st y = .ok x := by
    intro l y r h
    unfold convExpr at h
    obtain ⟨a', h1, h⟩ := Res.bind_isOk_iff.1 h
    obtain ⟨u', h2, h⟩ := Res.bind_isOk_iff.1 h
    exact ⟨⟨_, h1⟩, ⟨_, h2⟩⟩
  induction hz with
  | int h =>
    intro r hr
    unfold convExpr at hr
    obtain ⟨a', h1, -⟩ := Res.bind_isOk_iff.1 hr
    unfold convLit at h1
    obtain ⟨t', -, h1⟩ := Res.bind_isOk_iff.1 h1
    have : toIntLit _ _ = .ok a' := h1
    rw [toIntLit_panic.2 h] at this
    cases this
  | ascription h =>
    intro r hr
    unfold convExpr at hr
    obtain ⟨a', h1, -⟩ := Res.bind_isOk_iff.1 hr
    unfold convLit at h1
    obtain ⟨t', h2, h1⟩ := Res.bind_isOk_iff.1 h1
    dsimp only at h2
    generalize hc : convTy st _ = c at h2
    cases c with
    | ok t => exact convTy_safe h _ hc
    | err e => cases h2
    | panic => cases h2
  | ref h =>
    intro r hr
    unfold convExpr at hr
    obtain ⟨a', h1, -⟩ := Res.bind_isOk_iff.1 hr
    rw [convIndex_panic.2 h] at h1
    cases h1
  | anchor h => intro r hr; obtain ⟨⟨_, h1⟩, -⟩ := call hr; exact unwrapU32_ok h1 h
  | urn h => intro r hr; obtain ⟨-, ⟨_, h1⟩, -⟩ := call hr; exact unwrapU32_ok h1 h
  | arg hm _ ih =>
    intro r hr
    obtain ⟨-, -, ⟨_, h1⟩, -⟩ := call hr
    obtain ⟨x, hx⟩ := convArgs_ok h1 _ hm
    exact ih x hx
  | result h => intro r hr; obtain ⟨-, -, -, ⟨_, h1⟩⟩ := call hr; exact convTy_safe h _ h1
  | castOf _ ih => intro r hr; obtain ⟨⟨_, h1⟩, -⟩ := cast hr; exact ih _ h1
  | castTo h => intro r hr; obtain ⟨-, ⟨_, h1⟩⟩ := cast hr; exact convTy_safe h _ h1
  | clause hm he _ ih =>
    intro r hr
    obtain ⟨⟨_, h1⟩, -⟩ := ifThen hr
    obtain ⟨⟨x, hx⟩, ⟨y, hy⟩⟩ := convClauses_ok h1 _ hm
    rcases he with rfl | rfl
    · exact ih _ hx
    · exact ih _ hy
  | clauseFails hm he hf =>
    intro r hr
    obtain ⟨⟨_, h1⟩, -⟩ := ifThen hr
    obtain ⟨⟨x, hx⟩, ⟨y, hy⟩⟩ := convClauses_ok h1 _ hm
    rcases he with rfl | rfl
    · exact Fails.not_ok hf hx
    · exact Fails.not_ok hf hy
  | otherwise _ ih => intro r hr; obtain ⟨-, ⟨_, h1⟩⟩ := ifThen hr; exact ih _ h1

/-! ## Arguments of extensions -/

theorem convArgList_ok {st : Store} {l : List SArg} {r : List ExtValue} (h : convArgList st l = .ok r) :
    ∀ e ∈ l, ∃ x, convArg st e = .ok x := by
  induction l generalizing r with
  | nil => simp
  | cons e l ih =>
    unfold convArgList at h
    obtain ⟨x, h1, h⟩ := Res.bind_isOk_iff.1 h
    obtain ⟨y, h2, h⟩ := Res.bind_isOk_iff.1 h
    intro e' he
    rcases List.mem_cons.1 he with rfl | he
    · exact ⟨x, h1⟩
    · exact ih h2 e' he

theorem convNamed_ok {st : Store} {l : List (Str × SArg)} : ∀ {acc r : List (Str × ExtValue)},
    convNamed st acc l = .ok r → ∀ e ∈ l, ∃ x, convArg st e.2 = .ok x := by
  induction l with
  | nil => simp
  | cons e l ih =>
    intro acc r h
    obtain ⟨k, a⟩ := e
    unfold convNamed at h
    obtain ⟨x, h1, h⟩ := Res.bind_isOk_iff.1 h
    intro e' he
    rcases List.mem_cons.1 he with rfl | he
    · exact ⟨x, h1⟩
    · exact ih h e' he

theorem convExtColumns_ok {st : Store} {l : List SCol} {r : List ExtColumn} (h : convExtColumns st l = .ok r) :
    ∀ e ∈ l, ∃ x, convExtColumn st e = .ok x := by
  induction l generalizing r with
  | nil => simp
  | cons e l ih =>
    unfold convExtColumns at h
    obtain ⟨x, h1, h⟩ := Res.bind_isOk_iff.1 h
    obtain ⟨y, h2, h⟩ := Res.bind_isOk_iff.1 h
    intro e' he
    rcases List.mem_cons.1 he with rfl | he
    · exact ⟨x, h1⟩
    · exact ih h2 e' he

theorem convArg_safe {st : Store} {a : SArg} (hz : ArgHazard st a) : ∀ r, convArg st a ≠ .ok r := by
  induction hz with
  | int h =>
    intro r hr
    unfold convArg convParamLit at hr
    dsimp only at hr
    rw [toI64_none.2 h] at hr
    cases hr
  | ref h =>
    intro r hr
    unfold convArg at hr
    obtain ⟨a', h1, -⟩ := Res.bind_isOk_iff.1 hr
    rw [convIndex_panic.2 h] at h1
    cases h1
  | expr h =>
    intro r hr
    unfold convArg at hr
    obtain ⟨a', h1, -⟩ := Res.bind_isOk_iff.1 hr
    exact convExpr_safe h _ h1
  | tuple hm _ ih =>
    intro r hr
    unfold convArg at hr
    obtain ⟨a', h1, -⟩ := Res.bind_isOk_iff.1 hr
    obtain ⟨x, hx⟩ := convArgList_ok h1 _ hm
    exact ih _ hx

theorem convExtArgs_safe {st : Store} {a : SArgs} {cols : List SCol} {r : ExtArgs} (h : convExtArgs st a cols = .ok r) :
    ¬ ArgsHazard st a ∧ ∀ c ∈ cols, ¬ ColHazard st c := by
  unfold convExtArgs at h
  obtain ⟨ps, h1, h⟩ := Res.bind_isOk_iff.1 h
  obtain ⟨ns, h2, h⟩ := Res.bind_isOk_iff.1 h
  obtain ⟨cs, h3, h⟩ := Res.bind_isOk_iff.1 h
  refine ⟨?_, ?_⟩
  · rintro (⟨x, hx, hz⟩ | ⟨x, hx, hz⟩)
    · obtain ⟨y, hy⟩ := convArgList_ok h1 x hx
      exact convArg_safe hz y hy
    · obtain ⟨y, hy⟩ := convNamed_ok h2 x hx
      exact convArg_safe hz y hy
  · intro c hc hz
    obtain ⟨y, hy⟩ := convExtColumns_ok h3 c hc
    cases hz with
    | named hz =>
      unfold convExtColumn at hy
      obtain ⟨_, h, -⟩ := Res.bind_isOk_iff.1 hy
      exact convTy_safe hz _ h
    | ref hz =>
      unfold convExtColumn at hy
      obtain ⟨_, h, -⟩ := Res.bind_isOk_iff.1 hy
      rw [convIndex_panic.2 hz] at h
      cases h
    | expr hz =>
      unfold convExtColumn at hy
      obtain ⟨_, h, -⟩ := Res.bind_isOk_iff.1 hy
      exact convExpr_safe hz _ h

/-! ## Relation lines -/

omit [FTab] in
theorem plain_isOk {α : Type} {r : Res Err α} {a : α} : plain r = .ok a ↔ r = .ok a := by
  cases r <;> simp [plain]

omit [FTab] in
theorem dropPanics_isOk {α : Type} {r : Res Err α} {a : α} : dropPanics r = .ok a ↔ r = .ok a := by
  cases r <;> simp [dropPanics]

omit [FTab] in
theorem convRefs_fits {l : List IntTok} {r : List Int} (h : convRefs l = .ok r) : ∀ i ∈ l, ¬ Not32 i := by
  induction l generalizing r with
  | nil => simp
  | cons e l ih =>
    unfold convRefs at h
    obtain ⟨x, h1, h⟩ := Res.bind_isOk_iff.1 h
    obtain ⟨y, h2, h⟩ := Res.bind_isOk_iff.1 h
    intro e' he hz
    rcases List.mem_cons.1 he with rfl | he
    · rw [plain_isOk, convIndex_panic.2 hz] at h1
      cases h1
    · exact ih h2 e' he hz

omit [FTab] in
theorem convEmit_fits {l : List IntTok} {n : Nat} {r : Option Common × Nat} (h : convEmit l n = .ok r) :
    ∀ i ∈ l, ¬ Not32 i := by
  unfold convEmit at h
  obtain ⟨x, h1, h⟩ := Res.bind_isOk_iff.1 h
  exact convRefs_fits h1

omit [FTab] in
theorem convColumns_ok {st : Store} {l : List SColumn} {r : List (Str × Ty)} (h : convColumns st l = .ok r) :
    ∀ c ∈ l, ∃ t, convTy st c.2 = .ok t := by
  induction l generalizing r with
  | nil => simp
  | cons e l ih =>
    obtain ⟨n, t⟩ := e
    unfold convColumns at h
    obtain ⟨x, h1, h⟩ := Res.bind_isOk_iff.1 h
    obtain ⟨y, h2, h⟩ := Res.bind_isOk_iff.1 h
    intro e' he
    rcases List.mem_cons.1 he with rfl | he
    · exact ⟨x, h1⟩
    · exact ih h2 e' he

theorem convExprs_ok {st : Store} {l : List SExpr} {r : List Expr} (h : convExprs st l = .ok r) :
    ∀ c ∈ l, ∃ t, convExpr st c = .ok t := by
  induction l generalizing r with
  | nil => simp
  | cons e l ih =>
    unfold convExprs at h
    obtain ⟨x, h1, h⟩ := Res.bind_isOk_iff.1 h
    obtain ⟨y, h2, h⟩ := Res.bind_isOk_iff.1 h
    intro e' he
    rcases List.mem_cons.1 he with rfl | he
    · exact ⟨x, h1⟩
    · exact ih h2 e' he

theorem convExprLists_ok {st : Store} {l : List (List SExpr)} {r : List (List Expr)} (h : convExprLists st l = .ok r) :
    ∀ c ∈ l.flatten, ∃ t, convExpr st c = .ok t := by
  induction l generalizing r with
  | nil => simp
  | cons e l ih =>
    unfold convExprLists at h
    obtain ⟨x, h1, h⟩ := Res.bind_isOk_iff.1 h
    obtain ⟨y, h2, h⟩ := Res.bind_isOk_iff.1 h
    intro e' he
    rw [List.flatten_cons, List.mem_append] at he
    rcases he with he | he
    · exact convExprs_ok h1 e' he
    · exact ih h2 e' he

theorem convOpt_ok {st : Store} {f : Option SExpr} {r : Option Expr} (h : convOpt (convExpr st) f = .ok r) :
    ∀ c ∈ f.toList, ∃ t, convExpr st c = .ok t := by
  cases f with
  | none => simp
  | some e =>
    unfold convOpt at h
    obtain ⟨x, h1, h⟩ := Res.bind_isOk_iff.1 h
    intro c hc
    simp at hc
    subst hc
    exact ⟨x, h1⟩

theorem convGroup_ok {st : Store} {g : SGroup} {r : List (List Expr)} (h : convGroup st g = .ok r) :
    ∀ c ∈ (groupLists g).flatten, ∃ t, convExpr st c = .ok t := by
  cases g with
  | exprs l =>
    unfold convGroup at h
    obtain ⟨x, h1, h⟩ := Res.bind_isOk_iff.1 h
    intro c hc
    simp only [groupLists, List.flatten_cons, List.flatten_nil, List.append_nil] at hc
    exact convExprs_ok h1 c hc
  | sets l => exact convExprLists_ok h

theorem convProj_fits {st : Store} {n : Nat} {l : List SProj} : ∀ {k : Nat} {r}, convProj st n k l = .ok r →
    (∀ i, .ref i ∈ l → ¬ Not32 i) ∧ ∀ e, .expr e ∈ l → ∃ t, convExpr st e = .ok t := by
  induction l with
  | nil => simp
  | cons s l ih =>
    intro k r h
    cases s with
    | ref i =>
      unfold convProj at h
      obtain ⟨x, h1, h⟩ := Res.bind_isOk_iff.1 h
      obtain ⟨y, h2, h⟩ := Res.bind_isOk_iff.1 h
      obtain ⟨h3, h4⟩ := ih h2
      refine ⟨?_, ?_⟩
      · intro j hj hz
        rcases List.mem_cons.1 hj with hj | hj
        · cases hj
          rw [plain_isOk, convIndex_panic.2 hz] at h1
          cases h1
        · exact h3 j hj hz
      · intro e he
        rcases List.mem_cons.1 he with he | he
        · cases he
        · exact h4 e he
    | expr e =>
      unfold convProj at h
      obtain ⟨x, h1, h⟩ := Res.bind_isOk_iff.1 h
      obtain ⟨y, h2, h⟩ := Res.bind_isOk_iff.1 h
      obtain ⟨h3, h4⟩ := ih h2
      refine ⟨?_, ?_⟩
      · intro j hj
        rcases List.mem_cons.1 hj with hj | hj
        · cases hj
        · exact h3 j hj
      · intro e he
        rcases List.mem_cons.1 he with he | he
        · cases he; exact ⟨x, plain_isOk.1 h1⟩
        · exact h4 e he

theorem convOuts_ok {st : Store} {g : List Expr} {l : List SExpr} : ∀ {k : Nat} {r}, convOuts st g k l = .ok r →
    ∀ e ∈ l, ∃ t, convExpr st e = .ok t := by
  induction l with
  | nil => simp
  | cons s l ih =>
    intro k r h
    unfold convOuts at h
    obtain ⟨x, h1, h⟩ := Res.bind_isOk_iff.1 h
    have tail : (∃ k r, convOuts st g k l = .ok r) → ∀ e ∈ s :: l, ∃ t, convExpr st e = .ok t := by
      rintro ⟨k, r, hk⟩ e he
      rcases List.mem_cons.1 he with rfl | he
      · exact ⟨x, plain_isOk.1 h1⟩
      · exact ih hk e he
    split at h
    · obtain ⟨y, h2, h⟩ := Res.bind_isOk_iff.1 h
      exact tail ⟨_, _, h2⟩
    · split at h
      · obtain ⟨y, h2, h⟩ := Res.bind_isOk_iff.1 h
        exact tail ⟨_, _, h2⟩
      · cases h

theorem convSortFields_ok {st : Store} {l : List (SExpr × Str)} {r} (h : convSortFields st l = .ok r) :
    ∀ f ∈ l, ∃ t, convExpr st f.1 = .ok t := by
  induction l generalizing r with
  | nil => simp
  | cons e l ih =>
    unfold convSortFields at h
    obtain ⟨x, h1, h⟩ := Res.bind_isOk_iff.1 h
    obtain ⟨y, h2, h⟩ := Res.bind_isOk_iff.1 h
    intro e' he
    rcases List.mem_cons.1 he with rfl | he
    · unfold convSortField at h1
      obtain ⟨z, h3, -⟩ := Res.bind_isOk_iff.1 h1
      exact ⟨z, dropPanics_isOk.1 h3⟩
    · exact ih h2 e' he

/-- A line is free of hazards if its parts convert. -/
theorem lineSafe {st : Store} {line : SLine} (hrefs : ∀ i ∈ lineRefs line, ¬ Not32 i)
    (htys : ∀ t ∈ lineTypes line, ∃ x, convTy st t = .ok x) (hexprs : ∀ e ∈ lineExprs line, ∃ x, convExpr st e = .ok x)
    (hfetch : ∀ args refs, line = .fetch args refs → (args.map (·.1)).Nodup)
    (hext : ∀ k n a cols, line = .ext k n a cols → ¬ ArgsHazard st a ∧ ∀ c ∈ cols, ¬ ColHazard st c) :
    ¬ LineHazard st line := by
  have guard : ∀ e ∈ HazardSpec.guarded line, e ∈ lineExprs line := by
    intro e he
    cases line <;> simp_all [HazardSpec.guarded, lineExprs]
  intro hz
  cases hz with
  | ref hm hz => exact hrefs _ hm hz
  | type hm hz => obtain ⟨x, hx⟩ := htys _ hm; exact convTy_safe hz x hx
  | expr hm hz => obtain ⟨x, hx⟩ := hexprs _ hm; exact convExpr_safe hz x hx
  | guarded hm hf => obtain ⟨x, hx⟩ := hexprs _ (guard _ hm); exact Fails.not_ok hf hx
  | column hm hf =>
    obtain ⟨x, hx⟩ := htys _ (by simp only [lineTypes, outColumns]; exact List.mem_map_of_mem hm)
    exact Fails.not_ok hf hx
  | repeated h => exact h (hfetch _ _ rfl)
  | extArgs h => exact (hext _ _ _ _ rfl).1 h
  | extColumn hm h => exact (hext _ _ _ _ rfl).2 _ hm h

theorem convLine_safe {st : Store} {reg : Registry ExtArgs (List Nat)} {as : List Addendum}
    {kids : List (Rel × Nat)} {line : SLine} {x : Str} {r : Rel × Nat} (hx : RelText line x)
    (h : convLine st reg as kids line = .ok r) : ¬ LineHazard st line := by
  have none1 : ∀ {P : IntTok → Prop}, ∀ i ∈ ([] : List IntTok), P i := by simp
  have none2 : ∀ {P : STy → Prop}, ∀ i ∈ ([] : List STy), P i := by simp
  have none3 : ∀ {P : SExpr → Prop}, ∀ i ∈ ([] : List SExpr), P i := by simp
  cases line with
  | root names => exact lineSafe none1 none2 none3 (by simp) (by simp)
  | set op refs =>
    simp only [convLine] at h
    obtain ⟨adv, -, h⟩ := Res.bind_isOk_iff.1 h
    refine lineSafe ?_ none2 none3 (by simp) (by simp)
    unfold convSet at h
    split at h
    · cases h
    split at h
    · cases h
    split at h
    · obtain ⟨_, -, h⟩ := Res.bind_isOk_iff.1 h
      obtain ⟨_, h1, h⟩ := Res.bind_isOk_iff.1 h
      exact convEmit_fits h1
    · cases h
  | readExt cols =>
    simp only [convLine] at h
    obtain ⟨adv, -, h⟩ := Res.bind_isOk_iff.1 h
    refine lineSafe none1 ?_ none3 (by simp) (by simp)
    unfold convReadExt at h
    split at h
    · cases h
    split at h
    · cases h
    obtain ⟨cs, h1, h⟩ := Res.bind_isOk_iff.1 h
    intro t ht
    obtain ⟨c, hc, rfl⟩ := List.mem_map.1 ht
    exact convColumns_ok (plain_isOk.1 h1) c hc
  | ext k name args cols =>
    simp only [convLine] at h
    unfold convExtRel at h
    split at h
    · cases h
    obtain ⟨a, h1, h⟩ := Res.bind_isOk_iff.1 h
    refine lineSafe none1 none2 none3 (by simp) ?_
    rintro _ _ _ _ hl
    cases hl
    exact convExtArgs_safe (plain_isOk.1 h1)
  | read table out =>
    simp only [convLine] at h
    obtain ⟨adv, -, h⟩ := Res.bind_isOk_iff.1 h
    simp only [convBody] at h
    split at h
    · cases h
    split at h
    · cases h
    obtain ⟨o, h1, h⟩ := Res.bind_isOk_iff.1 h
    cases out with
    | implicit cols =>
      refine lineSafe none1 ?_ none3 (by simp) (by simp)
      simp only [convOutput] at h1
      obtain ⟨o, h1, -⟩ := Res.bind_isOk_iff.1 h1
      intro t ht
      obtain ⟨c, hc, rfl⟩ := List.mem_map.1 ht
      exact convColumns_ok (plain_isOk.1 h1) c hc
    | direct cols sel =>
      cases sel with
      | none =>
        refine lineSafe none1 ?_ none3 (by simp) (by simp)
        simp only [convOutput] at h1
        obtain ⟨o, h1, -⟩ := Res.bind_isOk_iff.1 h1
        intro t ht
        obtain ⟨c, hc, rfl⟩ := List.mem_map.1 ht
        exact convColumns_ok (dropPanics_isOk.1 h1) c hc
      | some refs =>
        simp only [convOutput] at h1
        obtain ⟨o, h1, h2⟩ := Res.bind_isOk_iff.1 h1
        obtain ⟨o, h2, -⟩ := Res.bind_isOk_iff.1 h2
        refine lineSafe (convRefs_fits h2) ?_ none3 (by simp) (by simp)
        intro t ht
        obtain ⟨c, hc, rfl⟩ := List.mem_map.1 ht
        exact convColumns_ok (dropPanics_isOk.1 h1) c hc
  | readVirtual rows f cols =>
    simp only [convLine] at h
    obtain ⟨adv, -, h⟩ := Res.bind_isOk_iff.1 h
    simp only [convBody] at h
    split at h
    · cases h
    obtain ⟨_, h1, h⟩ := Res.bind_isOk_iff.1 h
    obtain ⟨_, h2, h⟩ := Res.bind_isOk_iff.1 h
    obtain ⟨_, h3, h⟩ := Res.bind_isOk_iff.1 h
    refine lineSafe none1 ?_ ?_ (by simp) (by simp)
    · intro t ht
      obtain ⟨c, hc, rfl⟩ := List.mem_map.1 ht
      exact convColumns_ok (plain_isOk.1 h3) c hc
    · intro e he
      rcases List.mem_append.1 he with he | he
      · exact convOpt_ok (dropPanics_isOk.1 h1) e he
      · exact convExprLists_ok (plain_isOk.1 h2) e he
  | filter e refs =>
    simp only [convLine] at h
    obtain ⟨adv, -, h⟩ := Res.bind_isOk_iff.1 h
    simp only [convBody] at h
    obtain ⟨_, h1, h⟩ := Res.bind_isOk_iff.1 h
    obtain ⟨_, h2, h⟩ := Res.bind_isOk_iff.1 h
    obtain ⟨_, h3, h⟩ := Res.bind_isOk_iff.1 h
    refine lineSafe (convEmit_fits h3) none2 ?_ (by simp) (by simp)
    intro e' he
    simp only [lineExprs, List.mem_singleton] at he
    subst he
    exact ⟨_, dropPanics_isOk.1 h2⟩
  | project args =>
    simp only [convLine] at h
    obtain ⟨adv, -, h⟩ := Res.bind_isOk_iff.1 h
    simp only [convBody] at h
    obtain ⟨_, h1, h⟩ := Res.bind_isOk_iff.1 h
    obtain ⟨_, h2, h⟩ := Res.bind_isOk_iff.1 h
    obtain ⟨h3, h4⟩ := convProj_fits h2
    refine lineSafe ?_ none2 ?_ (by simp) (by simp)
    · intro i hi
      simp only [lineRefs, List.mem_filterMap] at hi
      obtain ⟨a, ha, hi⟩ := hi
      cases a with
      | ref j => cases hi; exact h3 _ ha
      | expr => cases hi
    · intro e he
      simp only [lineExprs, List.mem_filterMap] at he
      obtain ⟨a, ha, he⟩ := he
      cases a with
      | ref j => cases he
      | expr => cases he; exact h4 _ ha
  | aggregate g outs =>
    simp only [convLine] at h
    obtain ⟨adv, -, h⟩ := Res.bind_isOk_iff.1 h
    simp only [convBody] at h
    obtain ⟨_, h1, h⟩ := Res.bind_isOk_iff.1 h
    obtain ⟨_, h2, h⟩ := Res.bind_isOk_iff.1 h
    obtain ⟨_, h3, h⟩ := Res.bind_isOk_iff.1 h
    refine lineSafe none1 none2 ?_ (by simp) (by simp)
    intro e he
    rcases List.mem_append.1 he with he | he
    · exact convGroup_ok (plain_isOk.1 h2) e he
    · exact convOuts_ok h3 e he
  | sort fields refs =>
    simp only [convLine] at h
    obtain ⟨adv, -, h⟩ := Res.bind_isOk_iff.1 h
    simp only [convBody] at h
    obtain ⟨_, h1, h⟩ := Res.bind_isOk_iff.1 h
    obtain ⟨_, h2, h⟩ := Res.bind_isOk_iff.1 h
    obtain ⟨_, h3, h⟩ := Res.bind_isOk_iff.1 h
    refine lineSafe (convEmit_fits h3) none2 ?_ (by simp) (by simp)
    intro e he
    obtain ⟨f, hf, rfl⟩ := List.mem_map.1 he
    exact convSortFields_ok h2 f hf
  | fetch args refs =>
    simp only [convLine] at h
    obtain ⟨adv, -, h⟩ := Res.bind_isOk_iff.1 h
    simp only [convBody] at h
    obtain ⟨_, h1, h⟩ := Res.bind_isOk_iff.1 h
    split at h
    · cases h
    next hdup =>
    have hnd : (args.map (·.1)).Nodup := (hasDup_iff _).1 (by simpa using hdup)
    obtain ⟨_, h2, h⟩ := Res.bind_isOk_iff.1 h
    obtain ⟨_, h3, h⟩ := Res.bind_isOk_iff.1 h
    obtain ⟨_, h4, h⟩ := Res.bind_isOk_iff.1 h
    refine lineSafe (convEmit_fits h2) none2 ?_ ?_ (by simp)
    · intro e he
      simp only [lineExprs, List.mem_filterMap] at he
      obtain ⟨⟨n, v⟩, hm, he⟩ := he
      cases v with
      | int i => cases he
      | expr e' =>
        cases he
        have hf := (fetchArg_mem hnd n (.expr e)).2 hm
        have conv : ∀ {o}, convOptR (convFetchValue st) (fetchArg args n) = .ok o → ∃ x, convExpr st e = .ok x := by
          intro o ho
          rw [hf] at ho
          unfold convOptR at ho
          obtain ⟨c, ho, -⟩ := Res.bind_isOk_iff.1 ho
          simp only [convFetchValue] at ho
          obtain ⟨y, ho, -⟩ := Res.bind_isOk_iff.1 ho
          exact ⟨y, plain_isOk.1 ho⟩
        have hname : n = cs!"limit" ∨ n = cs!"offset" := by
          cases hx with
          | fetch ha _ _ =>
            cases ha with
            | empty => cases hm
            | args ha =>
              obtain ⟨_, _, _, _, hn, _⟩ := sepBy_mem ha _ hm
              exact hn
        rcases hname with rfl | rfl
        · exact conv h3
        · exact conv h4
    · intro _ _ hl
      cases hl
      exact hnd
  | join ty e post refs =>
    simp only [convLine] at h
    obtain ⟨adv, -, h⟩ := Res.bind_isOk_iff.1 h
    simp only [convBody] at h
    split at h
    · obtain ⟨_, h1, h⟩ := Res.bind_isOk_iff.1 h
      obtain ⟨_, h2, h⟩ := Res.bind_isOk_iff.1 h
      obtain ⟨_, h3, h⟩ := Res.bind_isOk_iff.1 h
      obtain ⟨_, h4, h⟩ := Res.bind_isOk_iff.1 h
      refine lineSafe (convEmit_fits h4) none2 ?_ (by simp) (by simp)
      intro e' he
      rcases List.mem_cons.1 he with rfl | he
      · exact ⟨_, dropPanics_isOk.1 h2⟩
      · exact convOpt_ok (dropPanics_isOk.1 h3) e' he
    · cases h
  | cross refs =>
    simp only [convLine] at h
    obtain ⟨adv, -, h⟩ := Res.bind_isOk_iff.1 h
    simp only [convBody] at h
    split at h
    · obtain ⟨_, h1, h⟩ := Res.bind_isOk_iff.1 h
      exact lineSafe (convEmit_fits h1) none2 none3 (by simp) (by simp)
    · cases h

theorem convAddenda_safe {st : Store} {as : List SAddendum} {r : List Addendum} (h : convAddenda st as = .ok r) :
    ∀ a ∈ as, ¬ ArgsHazard st a.args := by
  induction as generalizing r with
  | nil => simp
  | cons a as ih =>
    unfold convAddenda at h
    obtain ⟨x, h1, h⟩ := Res.bind_isOk_iff.1 h
    obtain ⟨y, h2, h⟩ := Res.bind_isOk_iff.1 h
    intro b hb
    rcases List.mem_cons.1 hb with rfl | hb
    · exact (convExtArgs_safe (plain_isOk.1 h1)).1
    · exact ih h2 b hb

mutual
theorem convNode_safe {st : Store} {reg : Registry ExtArgs (List Nat)} (t : RNode SLine SAddendum) (d : Nat)
    {r : Rel × Nat} (hl : Lines (listing d t)) (h : convNode st reg t = .ok r) :
    ∀ l ∈ listing d t, ¬ NodeHazard st l.2 := by
  cases t with
  | mk line as kids =>
    unfold convNode at h
    have hmem : ∀ l, l ∈ listing d (.mk line as kids) ↔ l = (d, .relation line) ∨
        l ∈ as.map (fun a => (d + 1, LineNode.addendum a)) ∨ l ∈ listings (d + 1) kids := by
      intro l
      unfold listing
      simp only [List.cons_append, List.mem_cons, List.mem_append]
    obtain ⟨ks, h1, h⟩ := Res.bind_isOk_iff.1 h
    obtain ⟨as', h2, h⟩ := Res.bind_isOk_iff.1 h
    intro l hm hz
    rcases (hmem l).1 hm with rfl | hm | hm
    · cases hz with
      | relation hz =>
        obtain ⟨⟨x, hx⟩, -⟩ := hl _ ((hmem _).2 (.inl rfl))
        cases hx with
        | relation hx => exact convLine_safe hx h hz
    · obtain ⟨a, ha, rfl⟩ := List.mem_map.1 hm
      cases hz with
      | addendum hz => exact convAddenda_safe h2 a ha hz
    · exact convKids_safe kids (d + 1) (fun l hm => hl l ((hmem l).2 (.inr (.inr hm)))) h1 l hm hz
theorem convKids_safe {st : Store} {reg : Registry ExtArgs (List Nat)} (ts : List (RNode SLine SAddendum)) (d : Nat)
    {r : List (Rel × Nat)} (hl : Lines (listings d ts)) (h : convKids st reg ts = .ok r) :
    ∀ l ∈ listings d ts, ¬ NodeHazard st l.2 := by
  cases ts with
  | nil => intro l hl; cases hl
  | cons t ts =>
    have hmem : ∀ l, l ∈ listings d (t :: ts) ↔ l ∈ listing d t ∨ l ∈ listings d ts := by
      intro l
      conv => lhs; unfold listings
      rw [List.mem_append]
    unfold convKids at h
    obtain ⟨k, h1, h⟩ := Res.bind_isOk_iff.1 h
    obtain ⟨ks, h2, h⟩ := Res.bind_isOk_iff.1 h
    intro l hm
    rcases (hmem l).1 hm with hm | hm
    · exact convNode_safe t d (fun l hm => hl l ((hmem l).2 (.inl hm))) h1 l hm
    · exact convKids_safe ts d (fun l hm => hl l ((hmem l).2 (.inr hm))) h2 l hm
end

theorem convPlanRel_safe {st : Store} {reg : Registry ExtArgs (List Nat)} (t : RNode SLine SAddendum) {r : PlanRel}
    (hl : Lines (listing 0 t)) (h : convPlanRel st reg t = .ok r) : ∀ l ∈ listing 0 t, ¬ NodeHazard st l.2 := by
  unfold convPlanRel at h
  split at h
  · next names as kids =>
    split at h
    · cases h
    next hne =>
    split at h
    · next k =>
      obtain ⟨x, h1, h⟩ := Res.bind_isOk_iff.1 h
      have hmem : ∀ l, l ∈ listing 0 (.mk (.root names) as [k]) ↔ l = (0, .relation (.root names)) ∨
          l ∈ as.map (fun a => (1, LineNode.addendum a)) ∨ l ∈ listing 1 k := by
        intro l
        conv => lhs; unfold listing
        simp only [List.cons_append, List.mem_cons, List.mem_append, listings, List.append_nil]
      intro l hm hz
      rcases (hmem l).1 hm with rfl | hm | hm
      · cases hz with
        | relation hz => exact lineSafe (by simp [lineRefs]) (by simp [lineTypes]) (by simp [lineExprs]) (by simp) (by simp) hz
      · rw [Classical.not_not.1 hne] at hm
        cases hm
      · exact convNode_safe k 1 (fun l hm => hl l ((hmem l).2 (.inr (.inr hm)))) h1 l hm hz
    · cases h
  · obtain ⟨x, h1, h⟩ := Res.bind_isOk_iff.1 h
    exact convNode_safe t 0 hl h1

theorem convPlanRels_safe {st : Store} {reg : Registry ExtArgs (List Nat)} (ts : List (RNode SLine SAddendum))
    {r : List PlanRel} (hl : Lines (listings 0 ts)) (h : convPlanRels st reg ts = .ok r) :
    ∀ l ∈ listings 0 ts, ¬ NodeHazard st l.2 := by
  induction ts generalizing r with
  | nil => intro l hl; cases hl
  | cons t ts ih =>
    have hmem : ∀ l, l ∈ listings 0 (t :: ts) ↔ l ∈ listing 0 t ∨ l ∈ listings 0 ts := by
      intro l
      conv => lhs; unfold listings
      rw [List.mem_append]
    unfold convPlanRels at h
    obtain ⟨k, h1, h⟩ := Res.bind_isOk_iff.1 h
    obtain ⟨ks, h2, h⟩ := Res.bind_isOk_iff.1 h
    intro l hm
    rcases (hmem l).1 hm with hm | hm
    · exact convPlanRel_safe t (fun l hm => hl l ((hmem l).2 (.inl hm))) h1 l hm
    · exact ih (fun l hm => hl l ((hmem l).2 (.inr hm))) h2 l hm

/-- An accepted text has a reading without hazards. -/
theorem parsePlan_safe {reg : Registry ExtArgs (List Nat)} {text : Str} {p : Plan} (h : parsePlan reg text = .ok p) :
    ∃ ops lines tails, TextSays text p.version ops lines tails ∧ answers [] ops = [] ∧
      ∀ l ∈ lines, ¬ NodeHazard (run ops) l.2 := by
  obtain ⟨ops, lines, tails, forest, hs, ha, -, -, -, hlines, hc⟩ := parsePlan_says h
  have hl : Lines lines := by
    obtain ⟨_, _, _, _, -, -, -, -, h3⟩ := hs
    cases h3 with
    | none => intro l hl; cases hl
    | some _ hsp => exact spelled_lines hsp
  refine ⟨ops, lines, tails, hs, ha, ?_⟩
  rw [hlines] at hl ⊢
  exact convPlanRels_safe _ hl hc

end Verif
