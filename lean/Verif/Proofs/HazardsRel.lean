import Verif.Proofs.Hazards
/-!
# Where the parser panics: relations and plans
-/

namespace Verif

set_option autoImplicit false

open ChunkSpec SectionSpec Grammar TreeSpec StoreSpec HazardSpec

variable [FTab]

omit [FTab] in
theorem plain_panic {α : Type} {r : Res Err α} : plain r = .panic ↔ r = .panic := by
  cases r <;> simp [plain]

omit [FTab] in
theorem dropPanics_panic {α : Type} {r : Res Err α} : dropPanics r = .panic ↔ r = .panic ∨ Fails r := by
  cases r <;> simp [dropPanics, Fails]

omit [FTab] in
theorem convRefs_panic {l : List IntTok} (h : convRefs l = .panic) : ∃ i ∈ l, Not32 i := by
  induction l with
  | nil => cases h
  | cons i l ih =>
    unfold convRefs at h
    rcases Res.bind_panic_iff.1 h with h | ⟨_, -, h⟩
    · exact ⟨i, by simp, convIndex_panic.1 (plain_panic.1 h)⟩
    rcases Res.bind_panic_iff.1 h with h | ⟨_, -, h⟩
    · obtain ⟨j, hj, hn⟩ := ih h
      exact ⟨j, by simp [hj], hn⟩
    · cases h

omit [FTab] in
theorem convEmit_panic {l : List IntTok} {n : Nat} (h : convEmit l n = .panic) : ∃ i ∈ l, Not32 i := by
  unfold convEmit at h
  rcases Res.bind_panic_iff.1 h with h | ⟨_, -, h⟩
  · exact convRefs_panic h
  · cases h

omit [FTab] in
theorem convColumns_panic {st : Store} {l : List SColumn} (h : convColumns st l = .panic) :
    ∃ c ∈ l, convTy st c.2 = .panic := by
  induction l with
  | nil => cases h
  | cons c l ih =>
    obtain ⟨n, t⟩ := c
    unfold convColumns at h
    rcases Res.bind_panic_iff.1 h with h | ⟨_, -, h⟩
    · exact ⟨(n, t), by simp, h⟩
    rcases Res.bind_panic_iff.1 h with h | ⟨_, -, h⟩
    · obtain ⟨j, hj, hn⟩ := ih h
      exact ⟨j, by simp [hj], hn⟩
    · cases h

omit [FTab] in
theorem Res.bind_err_iff {ε α β : Type} {r : Res ε α} {f : α → Res ε β} {e : ε} :
    r.bind f = .err e ↔ r = .err e ∨ ∃ a, r = .ok a ∧ f a = .err e := by
  cases r <;> simp [Res.bind]

omit [FTab] in
theorem convColumns_fails {st : Store} {l : List SColumn} (h : Fails (convColumns st l)) :
    ∃ c ∈ l, Fails (convTy st c.2) := by
  obtain ⟨e, h⟩ := h
  induction l with
  | nil => cases h
  | cons c l ih =>
    obtain ⟨n, t⟩ := c
    unfold convColumns at h
    rcases Res.bind_err_iff.1 h with h | ⟨_, -, h⟩
    · exact ⟨(n, t), by simp, e, h⟩
    rcases Res.bind_err_iff.1 h with h | ⟨_, -, h⟩
    · obtain ⟨j, hj, hn⟩ := ih h
      exact ⟨j, by simp [hj], hn⟩
    · cases h

omit [FTab] in
theorem columnsText_mem {l : List SColumn} {x : Str} (h : ColumnsText l x) : ∀ c ∈ l, ∃ y, TyText c.2 y := by
  intro c hc
  obtain ⟨z, _, y, _, ht, _⟩ := sep0_mem h c hc
  exact ⟨y, ht⟩

omit [FTab] in
/-- Columns that panic. -/
theorem convColumns_hazard {st : Store} {l : List SColumn} {x : Str} (hx : ColumnsText l x)
    (h : convColumns st l = .panic) : ∃ t ∈ l.map (·.2), TyHazard st t := by
  obtain ⟨c, hc, hp⟩ := convColumns_panic h
  obtain ⟨y, hy⟩ := columnsText_mem hx c hc
  exact ⟨c.2, List.mem_map_of_mem hc, convTy_panic hy hp⟩

theorem convExprs_panic {st : Store} {l : List SExpr} (h : convExprs st l = .panic) : ∃ e ∈ l, convExpr st e = .panic := by
  induction l with
  | nil => cases h
  | cons e l ih =>
    unfold convExprs at h
    rcases Res.bind_panic_iff.1 h with h | ⟨_, -, h⟩
    · exact ⟨e, by simp, h⟩
    rcases Res.bind_panic_iff.1 h with h | ⟨_, -, h⟩
    · obtain ⟨e', hm, he⟩ := ih h
      exact ⟨e', by simp [hm], he⟩
    · cases h

theorem convExprLists_panic {st : Store} {l : List (List SExpr)} (h : convExprLists st l = .panic) :
    ∃ e ∈ l.flatten, convExpr st e = .panic := by
  induction l with
  | nil => cases h
  | cons e l ih =>
    unfold convExprLists at h
    rcases Res.bind_panic_iff.1 h with h | ⟨_, -, h⟩
    · obtain ⟨x, hx, hp⟩ := convExprs_panic h
      exact ⟨x, by simp [hx], hp⟩
    rcases Res.bind_panic_iff.1 h with h | ⟨_, -, h⟩
    · obtain ⟨e', hm, he⟩ := ih h
      exact ⟨e', by rw [List.flatten_cons, List.mem_append]; exact .inr hm, he⟩
    · cases h

omit [FTab] in
theorem rowsText_mem {l : List (List SExpr)} {x : Str} (h : RowsText l x) : ∀ e ∈ l.flatten, ∃ y, ExprText e y := by
  cases h with
  | empty => simp
  | rows h =>
    intro e he
    obtain ⟨r, hr, her⟩ := List.mem_flatten.1 he
    obtain ⟨y, hy⟩ := sepBy_mem h r hr
    cases hy with
    | nil => cases her
    | some _ h _ => exact loose_mem h e her

omit [FTab] in
theorem groupText_mem {g : SGroup} {x : Str} (h : GroupText g x) : ∀ e ∈ (groupLists g).flatten, ∃ y, ExprText e y := by
  cases h with
  | sets h =>
    intro e he
    obtain ⟨r, hr, her⟩ := List.mem_flatten.1 he
    obtain ⟨y, hy⟩ := loose_mem h r hr
    cases hy with
    | empty => cases her
    | exprs _ h _ => exact loose_mem h e her
  | exprs h =>
    intro e he
    simp only [groupLists, List.flatten_cons, List.flatten_nil, List.append_nil] at he
    exact loose_mem h e he

theorem convGroup_panic {st : Store} {g : SGroup} (h : convGroup st g = .panic) :
    ∃ e ∈ (groupLists g).flatten, convExpr st e = .panic := by
  cases g with
  | exprs l =>
    unfold convGroup at h
    rcases Res.bind_panic_iff.1 h with h | ⟨_, -, h⟩
    · obtain ⟨x, hx, hp⟩ := convExprs_panic h
      exact ⟨x, by simp [groupLists, hx], hp⟩
    · cases h
  | sets l => exact convExprLists_panic h

theorem convOuts_panic {st : Store} {g : List Expr} {l : List SExpr} : ∀ {k : Nat}, convOuts st g k l = .panic →
    ∃ e ∈ l, convExpr st e = .panic := by
  induction l with
  | nil => intro k h; cases h
  | cons s l ih =>
    intro k h
    have tail : ∀ {k : Nat}, convOuts st g k l = .panic → ∃ e ∈ s :: l, convExpr st e = .panic := by
      intro k h
      obtain ⟨e, he, hp⟩ := ih h
      exact ⟨e, by simp [he], hp⟩
    unfold convOuts at h
    rcases Res.bind_panic_iff.1 h with h | ⟨_, -, h⟩
    · exact ⟨s, by simp, plain_panic.1 h⟩
    split at h
    · rcases Res.bind_panic_iff.1 h with h | ⟨_, -, h⟩
      · exact tail h
      · cases h
    · split at h
      · rcases Res.bind_panic_iff.1 h with h | ⟨_, -, h⟩
        · exact tail h
        · cases h
      · cases h

theorem convProj_panic {st : Store} {n : Nat} {l : List SProj} : ∀ {k : Nat}, convProj st n k l = .panic →
    (∃ i, .ref i ∈ l ∧ Not32 i) ∨ ∃ e, .expr e ∈ l ∧ convExpr st e = .panic := by
  induction l with
  | nil => intro k h; cases h
  | cons s l ih =>
    intro k h
    have tail : ∀ {k : Nat}, convProj st n k l = .panic →
        (∃ i, .ref i ∈ s :: l ∧ Not32 i) ∨ ∃ e, .expr e ∈ s :: l ∧ convExpr st e = .panic := by
      intro k h
      rcases ih h with ⟨e, he, hp⟩ | ⟨e, he, hp⟩
      · exact .inl ⟨e, by simp [he], hp⟩
      · exact .inr ⟨e, by simp [he], hp⟩
    cases s with
    | ref i =>
      unfold convProj at h
      rcases Res.bind_panic_iff.1 h with h | ⟨_, -, h⟩
      · exact .inl ⟨i, by simp, convIndex_panic.1 (plain_panic.1 h)⟩
      rcases Res.bind_panic_iff.1 h with h | ⟨_, -, h⟩
      · exact tail h
      · cases h
    | expr e =>
      unfold convProj at h
      rcases Res.bind_panic_iff.1 h with h | ⟨_, -, h⟩
      · exact .inr ⟨e, by simp, plain_panic.1 h⟩
      rcases Res.bind_panic_iff.1 h with h | ⟨_, -, h⟩
      · exact tail h
      · cases h

theorem convSortFields_panic {st : Store} {l : List (SExpr × Str)} (h : convSortFields st l = .panic) :
    ∃ f ∈ l, convExpr st f.1 = .panic ∨ Fails (convExpr st f.1) := by
  induction l with
  | nil => cases h
  | cons f l ih =>
    unfold convSortFields at h
    rcases Res.bind_panic_iff.1 h with h | ⟨_, -, h⟩
    · refine ⟨f, by simp, ?_⟩
      unfold convSortField at h
      rcases Res.bind_panic_iff.1 h with h | ⟨_, -, h⟩
      · exact dropPanics_panic.1 h
      · split at h <;> cases h
    rcases Res.bind_panic_iff.1 h with h | ⟨_, -, h⟩
    · obtain ⟨e', hm, he⟩ := ih h
      exact ⟨e', by simp [hm], he⟩
    · cases h

theorem convFetchValue_panic {st : Store} {v : SFetch} (h : convFetchValue st v = .panic) :
    ∃ e, v = .expr e ∧ convExpr st e = .panic := by
  cases v with
  | int i =>
    exfalso
    simp only [convFetchValue] at h
    split at h
    · cases h
    · split at h <;> cases h
  | expr e =>
    simp only [convFetchValue] at h
    rcases Res.bind_panic_iff.1 h with h | ⟨_, -, h⟩
    · exact ⟨e, rfl, plain_panic.1 h⟩
    · cases h

omit [FTab] in
theorem fetchArg_find {l : List (Str × SFetch)} {n : Str} {v : SFetch} (h : fetchArg l n = some v) : (n, v) ∈ l := by
  induction l with
  | nil => cases h
  | cons p l ih =>
    obtain ⟨k, w⟩ := p
    unfold fetchArg at h
    split at h
    · next hk => cases h; rw [hk]; simp
    · exact List.mem_cons_of_mem _ (ih h)

theorem convFetch_panic {st : Store} {args : List (Str × SFetch)} {n : Str}
    (h : convOptR (convFetchValue st) (fetchArg args n) = .panic) :
    ∃ e, (n, .expr e) ∈ args ∧ convExpr st e = .panic := by
  cases hf : fetchArg args n with
  | none => rw [hf] at h; cases h
  | some v =>
    rw [hf] at h
    unfold convOptR at h
    rcases Res.bind_panic_iff.1 h with h | ⟨_, -, h⟩
    · obtain ⟨e, rfl, he⟩ := convFetchValue_panic h
      exact ⟨e, fetchArg_find hf, he⟩
    · cases h

omit [FTab] in
theorem hasDup_nodup {l : List Str} : hasDup l = true ↔ ¬ l.Nodup := by
  induction l with
  | nil => simp [hasDup]
  | cons n l ih =>
    simp only [hasDup, Bool.or_eq_true, decide_eq_true_eq, ih, List.nodup_cons]
    by_cases h : n ∈ l <;> simp [h]

omit [FTab] in
theorem joinName_panic {ty : Str} (h : JoinName ty) : grammarName (JoinType.ofName (trimAmp ty)) ≠ .panic := by
  have key : ∀ d ∈ [cs!"&Inner", cs!"&LeftSemi", cs!"&LeftAnti", cs!"&LeftSingle", cs!"&LeftMark", cs!"&Left",
    cs!"&RightSemi", cs!"&RightAnti", cs!"&RightSingle", cs!"&RightMark", cs!"&Right", cs!"&Outer"],
    (JoinType.ofName (trimAmp d)).isSome = true := by decide
  have := key ty h
  cases hj : JoinType.ofName (trimAmp ty) with
  | none => rw [hj] at this; cases this
  | some t => simp [grammarName]

omit [FTab] in
theorem setName_panic {ty : Str} (h : SetName ty) : grammarName (SetOp.ofName (trimAmp ty)) ≠ .panic := by
  have key : ∀ d ∈ [cs!"&IntersectionMultisetAll", cs!"&IntersectionMultiset", cs!"&IntersectionPrimary",
    cs!"&MinusPrimaryAll", cs!"&MinusPrimary", cs!"&MinusMultiset", cs!"&UnionAll", cs!"&UnionDistinct"],
    (SetOp.ofName (trimAmp d)).isSome = true := by decide
  have := key ty h
  cases hj : SetOp.ofName (trimAmp ty) with
  | none => rw [hj] at this; cases this
  | some t => simp [grammarName]

omit [FTab] in
theorem oneChild_panic {kids : List Rel} : oneChild kids ≠ .panic := by
  unfold oneChild
  split <;> simp

theorem convOpt_panic {st : Store} {f : Option SExpr} (h : convOpt (convExpr st) f = .panic) :
    ∃ e ∈ f.toList, convExpr st e = .panic := by
  cases f with
  | none => cases h
  | some e =>
    unfold convOpt at h
    rcases Res.bind_panic_iff.1 h with h | ⟨_, -, h⟩
    · exact ⟨e, by simp, h⟩
    · cases h

theorem convOpt_fails {st : Store} {f : Option SExpr} (h : Fails (convOpt (convExpr st) f)) :
    ∃ e ∈ f.toList, Fails (convExpr st e) := by
  obtain ⟨er, h⟩ := h
  cases f with
  | none => cases h
  | some e =>
    unfold convOpt at h
    rcases Res.bind_err_iff.1 h with h | ⟨_, -, h⟩
    · exact ⟨e, by simp, er, h⟩
    · cases h

/-- The lines that are converted by `convBody`. -/
theorem convBody_panic {st : Store} {adv : Option AdvExt} {kids : List Rel} {n : Nat} {line : SLine} {x : Str}
    (hx : RelText line x) (hroot : ∀ names, line ≠ .root names) (hset : ∀ op refs, line ≠ .set op refs)
    (hre : ∀ cols, line ≠ .readExt cols) (hext : ∀ k m a cols, line ≠ .ext k m a cols)
    (h : convBody st adv kids n line = .panic) : LineHazard st line := by
  cases hx with
  | root => exact absurd rfl (hroot _)
  | set => exact absurd rfl (hset _ _)
  | readExt => exact absurd rfl (hre _)
  | ext => exact absurd rfl (hext _ _ _ _)
  | @read table out _ _ _ hn _ ho =>
    simp only [convBody] at h
    split at h
    · cases h
    split at h
    · cases h
    rcases Res.bind_panic_iff.1 h with h | ⟨_, -, h⟩
    · cases ho with
      | implicit _ hc =>
        simp only [convOutput] at h
        rcases Res.bind_panic_iff.1 h with h | ⟨_, -, h⟩
        · obtain ⟨t, ht, hz⟩ := convColumns_hazard hc (plain_panic.1 h)
          exact .type (t := t) ht hz
        · cases h
      | direct _ hc =>
        simp only [convOutput] at h
        rcases Res.bind_panic_iff.1 h with h | ⟨_, -, h⟩
        · rcases dropPanics_panic.1 h with h | h
          · obtain ⟨t, ht, hz⟩ := convColumns_hazard hc h
            exact .type (t := t) ht hz
          · obtain ⟨c, hc, hf⟩ := convColumns_fails h
            exact .column hc hf
        · cases h
      | emit _ hc _ _ hr =>
        simp only [convOutput] at h
        rcases Res.bind_panic_iff.1 h with h | ⟨_, -, h⟩
        · rcases dropPanics_panic.1 h with h | h
          · obtain ⟨t, ht, hz⟩ := convColumns_hazard hc h
            exact .type (t := t) ht hz
          · obtain ⟨c, hc, hf⟩ := convColumns_fails h
            exact .column hc hf
        · rcases Res.bind_panic_iff.1 h with h | ⟨_, -, h⟩
          · obtain ⟨i, hi, hz⟩ := convRefs_panic h
            exact .ref (i := i) hi hz
          · cases h
    · cases h
  | @readVirtual rows f cols _ _ _ _ _ _ _ _ hrows hf _ _ hc _ =>
    simp only [convBody] at h
    split at h
    · cases h
    rcases Res.bind_panic_iff.1 h with h | ⟨_, -, h⟩
    · rcases dropPanics_panic.1 h with h | h
      · obtain ⟨e, he, hp⟩ := convOpt_panic h
        refine .expr (e := e) (by simp only [lineExprs, List.mem_append]; exact .inl he) ?_
        cases hf with
        | none => cases he
        | some hf =>
          obtain ⟨_, _, _, y, _, _, _, hy, _⟩ := hf
          simp at he
          subst he
          exact convExpr_panic hy hp
      · obtain ⟨e, he, hp⟩ := convOpt_fails h
        exact .guarded (e := e) he hp
    rcases Res.bind_panic_iff.1 h with h | ⟨_, -, h⟩
    · obtain ⟨e, he, hp⟩ := convExprLists_panic (plain_panic.1 h)
      obtain ⟨y, hy⟩ := rowsText_mem hrows e he
      exact .expr (e := e) (by simp only [lineExprs, List.mem_append]; exact .inr he) (convExpr_panic hy hp)
    rcases Res.bind_panic_iff.1 h with h | ⟨_, -, h⟩
    · obtain ⟨t, ht, hz⟩ := convColumns_hazard hc (plain_panic.1 h)
      exact .type (t := t) ht hz
    · cases h
  | @filter e refs _ _ _ he _ hr =>
    simp only [convBody] at h
    rcases Res.bind_panic_iff.1 h with h | ⟨_, -, h⟩
    · exact absurd h oneChild_panic
    rcases Res.bind_panic_iff.1 h with h | ⟨_, -, h⟩
    · rcases dropPanics_panic.1 h with h | h
      · exact .expr (e := e) (by simp [lineExprs]) (convExpr_panic he h)
      · exact .guarded (e := e) (by simp [guarded]) h
    rcases Res.bind_panic_iff.1 h with h | ⟨_, -, h⟩
    · obtain ⟨i, hi, hz⟩ := convEmit_panic h
      exact .ref (i := i) hi hz
    · cases h
  | @project args _ ha =>
    simp only [convBody] at h
    rcases Res.bind_panic_iff.1 h with h | ⟨_, -, h⟩
    · exact absurd h oneChild_panic
    rcases Res.bind_panic_iff.1 h with h | ⟨_, -, h⟩
    · rcases convProj_panic h with ⟨i, hi, hz⟩ | ⟨e, he, hp⟩
      · exact .ref (i := i) (by simp only [lineRefs, List.mem_filterMap]; exact ⟨_, hi, rfl⟩) hz
      · obtain ⟨y, hy⟩ := sep0_mem ha _ he
        cases hy with
        | expr _ hy =>
          exact .expr (e := e) (by simp only [lineExprs, List.mem_filterMap]; exact ⟨_, he, rfl⟩) (convExpr_panic hy hp)
    · cases h
  | @aggregate g outs _ _ _ hg _ ho =>
    simp only [convBody] at h
    rcases Res.bind_panic_iff.1 h with h | ⟨_, -, h⟩
    · exact absurd h oneChild_panic
    rcases Res.bind_panic_iff.1 h with h | ⟨_, -, h⟩
    · obtain ⟨e, he, hp⟩ := convGroup_panic (plain_panic.1 h)
      obtain ⟨y, hy⟩ := groupText_mem hg e he
      exact .expr (e := e) (by simp only [lineExprs, List.mem_append]; exact .inl he) (convExpr_panic hy hp)
    rcases Res.bind_panic_iff.1 h with h | ⟨_, -, h⟩
    · obtain ⟨e, he, hp⟩ := convOuts_panic h
      obtain ⟨y, hy⟩ := sep0_mem ho e he
      exact .expr (e := e) (by simp only [lineExprs, List.mem_append]; exact .inr he) (convExpr_panic hy hp)
    · cases h
  | @sort fields refs _ _ _ hf _ hr =>
    simp only [convBody] at h
    rcases Res.bind_panic_iff.1 h with h | ⟨_, -, h⟩
    · exact absurd h oneChild_panic
    rcases Res.bind_panic_iff.1 h with h | ⟨_, -, h⟩
    · obtain ⟨f, hm, hp⟩ := convSortFields_panic h
      obtain ⟨_, _, y, _, _, _, _, hy, _⟩ := sep0_mem hf f hm
      rcases hp with hp | hp
      · exact .expr (e := f.1) (List.mem_map_of_mem hm) (convExpr_panic hy hp)
      · exact .guarded (e := f.1) (List.mem_map_of_mem hm) hp
    rcases Res.bind_panic_iff.1 h with h | ⟨_, -, h⟩
    · obtain ⟨i, hi, hz⟩ := convEmit_panic h
      exact .ref (i := i) hi hz
    · cases h
  | @fetch args refs _ _ _ ha _ hr =>
    simp only [convBody] at h
    rcases Res.bind_panic_iff.1 h with h | ⟨_, -, h⟩
    · exact absurd h oneChild_panic
    split at h
    · next hd => exact .repeated (hasDup_nodup.1 hd)
    have hmem : ∀ {n : Str} {e : SExpr}, (n, SFetch.expr e) ∈ args → ∃ y, ExprText e y := by
      intro n e hm
      cases ha with
      | empty => cases hm
      | args ha =>
        obtain ⟨_, _, _, y, _, _, _, hv, _⟩ := sepBy_mem ha _ hm
        cases hv with
        | expr _ hv => exact ⟨_, hv⟩
    have fin : ∀ {n : Str}, convOptR (convFetchValue st) (fetchArg args n) = .panic →
        LineHazard st (.fetch args refs) := by
      intro n h
      obtain ⟨e, he, hp⟩ := convFetch_panic h
      obtain ⟨y, hy⟩ := hmem he
      refine .expr (e := e) ?_ (convExpr_panic hy hp)
      simp only [lineExprs, List.mem_filterMap]
      exact ⟨_, he, rfl⟩
    rcases Res.bind_panic_iff.1 h with h | ⟨_, -, h⟩
    · obtain ⟨i, hi, hz⟩ := convEmit_panic h
      exact .ref (i := i) hi hz
    rcases Res.bind_panic_iff.1 h with h | ⟨_, -, h⟩
    · exact fin h
    rcases Res.bind_panic_iff.1 h with h | ⟨_, -, h⟩
    · exact fin h
    · cases h
  | @join ty e post refs _ _ _ _ _ hty _ he hp _ hr =>
    simp only [convBody] at h
    split at h
    · rcases Res.bind_panic_iff.1 h with h | ⟨_, -, h⟩
      · exact absurd h (joinName_panic hty)
      rcases Res.bind_panic_iff.1 h with h | ⟨_, -, h⟩
      · rcases dropPanics_panic.1 h with h | h
        · exact .expr (e := e) (by simp [lineExprs]) (convExpr_panic he h)
        · exact .guarded (e := e) (by simp [guarded]) h
      rcases Res.bind_panic_iff.1 h with h | ⟨_, -, h⟩
      · rcases dropPanics_panic.1 h with h | h
        · obtain ⟨e', he', hpp⟩ := convOpt_panic h
          refine .expr (e := e') (by simp only [lineExprs]; exact List.mem_cons_of_mem _ he') ?_
          cases hp with
          | none => cases he'
          | some hf =>
            obtain ⟨_, _, _, y, _, _, _, hy, _⟩ := hf
            simp at he'
            subst he'
            exact convExpr_panic hy hpp
        · obtain ⟨e', he', hf⟩ := convOpt_fails h
          exact .guarded (e := e') (by simp only [guarded]; exact List.mem_cons_of_mem _ he') hf
      rcases Res.bind_panic_iff.1 h with h | ⟨_, -, h⟩
      · obtain ⟨i, hi, hz⟩ := convEmit_panic h
        exact .ref (i := i) hi hz
      · cases h
    · cases h
  | @cross refs _ hr =>
    simp only [convBody] at h
    split at h
    · rcases Res.bind_panic_iff.1 h with h | ⟨_, -, h⟩
      · obtain ⟨i, hi, hz⟩ := convEmit_panic h
        exact .ref (i := i) hi hz
      · cases h
    · cases h

/-! ## Addenda and trees -/

omit [FTab] in
theorem resolved_panic {name : Str} {r : Except ExtErr AnyMsg} : resolved name r ≠ .panic := by
  unfold resolved
  split <;> simp

omit [FTab] in
theorem standardLoop_panic {reg : Registry ExtArgs (List Nat)} {as : List Addendum} :
    ∀ {enh : Option AnyMsg} {opts : List AnyMsg}, standardLoop reg enh opts as ≠ .panic := by
  induction as with
  | nil => intro enh opts h; cases h
  | cons a as ih =>
    intro enh opts h
    unfold standardLoop at h
    split at h
    · split at h
      · cases h
      · rcases Res.bind_panic_iff.1 h with h | ⟨_, -, h⟩
        · exact resolved_panic h
        · exact ih h
    · rcases Res.bind_panic_iff.1 h with h | ⟨_, -, h⟩
      · exact resolved_panic h
      · exact ih h
    · cases h

omit [FTab] in
theorem standardAdv_panic {reg : Registry ExtArgs (List Nat)} {as : List Addendum} : standardAdv reg as ≠ .panic := by
  unfold standardAdv
  intro h
  rcases Res.bind_panic_iff.1 h with h | ⟨_, -, h⟩
  · exact standardLoop_panic h
  · split at h <;> cases h

omit [FTab] in
theorem extReadParts_panic {reg : Registry ExtArgs (List Nat)} {as : List Addendum} : extReadParts reg as ≠ .panic := by
  unfold extReadParts
  intro h
  split at h
  · rcases Res.bind_panic_iff.1 h with h | ⟨_, -, h⟩
    · exact resolved_panic h
    rcases Res.bind_panic_iff.1 h with h | ⟨_, -, h⟩
    · exact standardAdv_panic h
    · cases h
  · cases h

theorem convLine_panic {st : Store} {reg : Registry ExtArgs (List Nat)} {as : List Addendum}
    {kids : List (Rel × Nat)} {line : SLine} {x : Str} (hx : RelText line x) (hroot : ∀ names, line ≠ .root names)
    (h : convLine st reg as kids line = .panic) : LineHazard st line := by
  have body : (∀ op refs, line ≠ .set op refs) → (∀ cols, line ≠ .readExt cols) →
      (∀ k m a cols, line ≠ .ext k m a cols) →
      ((standardAdv reg as).bind fun adv => convBody st adv (kids.map (·.1)) (kids.map (·.2)).sum line) = .panic →
      LineHazard st line := by
    intro h1 h2 h3 h
    rcases Res.bind_panic_iff.1 h with h | ⟨adv, -, h⟩
    · exact absurd h standardAdv_panic
    · exact convBody_panic hx hroot h1 h2 h3 h
  cases line with
  | root names => exact absurd rfl (hroot names)
  | set op refs =>
    simp only [convLine] at h
    rcases Res.bind_panic_iff.1 h with h | ⟨adv, -, h⟩
    · exact absurd h standardAdv_panic
    cases hx with
    | set hop _ hr =>
      unfold convSet at h
      split at h
      · cases h
      next hlen =>
      split at h
      · next hw =>
        exfalso
        have : (kids.map (·.2)).length = 0 := by rw [hw]; rfl
        rw [List.length_map] at this hlen
        omega
      · split at h
        · rcases Res.bind_panic_iff.1 h with h | ⟨_, -, h⟩
          · exact absurd h (setName_panic hop)
          rcases Res.bind_panic_iff.1 h with h | ⟨_, -, h⟩
          · obtain ⟨i, hi, hz⟩ := convEmit_panic h
            exact .ref (i := i) hi hz
          · cases h
        · cases h
  | readExt cols =>
    simp only [convLine] at h
    rcases Res.bind_panic_iff.1 h with h | ⟨adv, -, h⟩
    · exact absurd h extReadParts_panic
    cases hx with
    | readExt hc =>
      unfold convReadExt at h
      split at h
      · cases h
      split at h
      · cases h
      rcases Res.bind_panic_iff.1 h with h | ⟨_, -, h⟩
      · obtain ⟨t, ht, hz⟩ := convColumns_hazard hc (plain_panic.1 h)
        exact .type (t := t) ht hz
      · cases h
  | ext k name args cols =>
    simp only [convLine] at h
    unfold convExtRel at h
    split at h
    · cases h
    rcases Res.bind_panic_iff.1 h with h | ⟨_, -, h⟩
    · have hcols : ∃ y, ArgsText args y ∧ ∀ c ∈ cols, ∃ y, ExtColumnText c y := by
        generalize hl : SLine.ext k name args cols = line at hx
        cases hx with
        | ext _ _ ha hc =>
          cases hl
          refine ⟨_, ha, ?_⟩
          cases hc with
          | none => simp
          | some hc =>
            obtain ⟨_, y, _, h, _⟩ := hc
            exact sep0_mem h
        | _ => cases hl
      obtain ⟨y, ha, hc⟩ := hcols
      rcases convExtArgs_panic ha hc (plain_panic.1 h) with h | ⟨c, hc, hz⟩
      · exact .extArgs h
      · exact .extColumn hc hz
    · split at h
      · rcases Res.bind_panic_iff.1 h with h | ⟨_, -, h⟩
        · exact absurd h resolved_panic
        · cases h
      · cases h
  | _ => exact body (by simp) (by simp) (by simp) h

theorem convAddenda_panic {st : Store} {as : List SAddendum} (hx : ∀ a ∈ as, ∃ y, ArgsText a.args y)
    (h : convAddenda st as = .panic) : ∃ a ∈ as, ArgsHazard st a.args := by
  induction as with
  | nil => cases h
  | cons a as ih =>
    unfold convAddenda at h
    rcases Res.bind_panic_iff.1 h with h | ⟨_, -, h⟩
    · obtain ⟨y, hy⟩ := hx a (by simp)
      rcases convExtArgs_panic hy (by simp) (plain_panic.1 h) with h | ⟨c, hc, -⟩
      · exact ⟨a, by simp, h⟩
      · cases hc
    rcases Res.bind_panic_iff.1 h with h | ⟨_, -, h⟩
    · obtain ⟨b, hb, hz⟩ := ih (fun a ha => hx a (by simp [ha])) h
      exact ⟨b, by simp [hb], hz⟩
    · cases h

/-- What is known of the lines of an accepted text. -/
def Lines (ls : List (Nat × LineNode SLine SAddendum)) : Prop :=
  ∀ l ∈ ls, (∃ x, NodeText l.2 x) ∧ DepthOk l.1 l.2

mutual
theorem convNode_panic {st : Store} {reg : Registry ExtArgs (List Nat)} (t : RNode SLine SAddendum) (d : Nat)
    (hl : Lines (listing d t)) (hroot : ∀ names as kids, t ≠ .mk (.root names) as kids)
    (h : convNode st reg t = .panic) : ∃ l ∈ listing d t, NodeHazard st l.2 := by
  cases t with
  | mk line as kids =>
    unfold convNode at h
    have hmem : ∀ l, l ∈ listing d (.mk line as kids) ↔ l = (d, .relation line) ∨
        l ∈ as.map (fun a => (d + 1, LineNode.addendum a)) ∨ l ∈ listings (d + 1) kids := by
      intro l
      unfold listing
      simp only [List.cons_append, List.mem_cons, List.mem_append]
    rcases Res.bind_panic_iff.1 h with h | ⟨kids', -, h⟩
    · obtain ⟨l, hm, hz⟩ := convKids_panic kids d
        (fun l hm => hl l ((hmem l).2 (.inr (.inr hm)))) h
      exact ⟨l, (hmem l).2 (.inr (.inr hm)), hz⟩
    rcases Res.bind_panic_iff.1 h with h | ⟨as', -, h⟩
    · have hx : ∀ a ∈ as, ∃ y, ArgsText a.args y := by
        intro a ha
        obtain ⟨⟨x, hx⟩, -⟩ := hl (d + 1, .addendum a) ((hmem _).2 (.inr (.inl (List.mem_map_of_mem ha))))
        cases hx with
        | addendum hx =>
          obtain ⟨_, _, y, _, _, h, _⟩ := hx
          exact ⟨y, h⟩
      obtain ⟨a, ha, hz⟩ := convAddenda_panic hx h
      exact ⟨(d + 1, .addendum a), (hmem _).2 (.inr (.inl (List.mem_map_of_mem ha))), .addendum hz⟩
    · obtain ⟨⟨x, hx⟩, -⟩ := hl (d, .relation line) ((hmem _).2 (.inl rfl))
      cases hx with
      | relation hx =>
        refine ⟨(d, .relation line), (hmem _).2 (.inl rfl), .relation (convLine_panic hx ?_ h)⟩
        intro names hn
        exact hroot names as kids (by rw [hn])
theorem convKids_panic {st : Store} {reg : Registry ExtArgs (List Nat)} (ts : List (RNode SLine SAddendum)) (d : Nat)
    (hl : Lines (listings (d + 1) ts))
    (h : convKids st reg ts = .panic) : ∃ l ∈ listings (d + 1) ts, NodeHazard st l.2 := by
  cases ts with
  | nil => cases h
  | cons t ts =>
    have hmem : ∀ l, l ∈ listings (d + 1) (t :: ts) ↔ l ∈ listing (d + 1) t ∨ l ∈ listings (d + 1) ts := by
      intro l
      conv => lhs; unfold listings
      rw [List.mem_append]
    unfold convKids at h
    rcases Res.bind_panic_iff.1 h with h | ⟨_, -, h⟩
    · obtain ⟨l, hm, hz⟩ := convNode_panic t (d + 1) (fun l hm => hl l ((hmem l).2 (.inl hm))) (by
        intro names as kids ht
        have hin : (d + 1, LineNode.relation (SLine.root names)) ∈ listing (d + 1) t := by
          rw [ht]; unfold listing; simp
        have := (hl _ ((hmem _).2 (.inl hin))).2
        simp [DepthOk] at this) h
      exact ⟨l, (hmem l).2 (.inl hm), hz⟩
    rcases Res.bind_panic_iff.1 h with h | ⟨_, -, h⟩
    · obtain ⟨l, hm, hz⟩ := convKids_panic ts d (fun l hm => hl l ((hmem l).2 (.inr hm))) h
      exact ⟨l, (hmem l).2 (.inr hm), hz⟩
    · cases h
end

theorem convPlanRel_panic {st : Store} {reg : Registry ExtArgs (List Nat)} (t : RNode SLine SAddendum)
    (hl : Lines (listing 0 t)) (h : convPlanRel st reg t = .panic) : ∃ l ∈ listing 0 t, NodeHazard st l.2 := by
  unfold convPlanRel at h
  split at h
  · next names as kids =>
    split at h
    · cases h
    split at h
    · next k =>
      rcases Res.bind_panic_iff.1 h with h | ⟨_, -, h⟩
      · have hmem : ∀ l ∈ listing 1 k, l ∈ listing 0 (.mk (.root names) as [k]) := by
          intro l hm
          unfold listing
          simp only [List.cons_append, List.mem_cons, List.mem_append]
          refine .inr (.inr ?_)
          simp only [listings, List.append_nil]
          exact hm
        obtain ⟨l, hm, hz⟩ := convNode_panic k 1 (fun l hm => hl l (hmem l hm)) (by
          intro names' as' kids' ht
          have hin : (1, LineNode.relation (SLine.root names')) ∈ listing 1 k := by
            rw [ht]; unfold listing; simp
          have := (hl _ (hmem _ hin)).2
          simp [DepthOk] at this) h
        exact ⟨l, hmem l hm, hz⟩
      · cases h
    · cases h
  · next hroot =>
    rcases Res.bind_panic_iff.1 h with h | ⟨_, -, h⟩
    · exact convNode_panic t 0 hl (fun names as kids ht => hroot names as kids ht) h
    · cases h

theorem convPlanRels_panic {st : Store} {reg : Registry ExtArgs (List Nat)} (ts : List (RNode SLine SAddendum))
    (hl : Lines (listings 0 ts)) (h : convPlanRels st reg ts = .panic) : ∃ l ∈ listings 0 ts, NodeHazard st l.2 := by
  induction ts with
  | nil => cases h
  | cons t ts ih =>
    have hmem : ∀ l, l ∈ listings 0 (t :: ts) ↔ l ∈ listing 0 t ∨ l ∈ listings 0 ts := by
      intro l
      conv => lhs; unfold listings
      rw [List.mem_append]
    unfold convPlanRels at h
    rcases Res.bind_panic_iff.1 h with h | ⟨_, -, h⟩
    · obtain ⟨l, hm, hz⟩ := convPlanRel_panic t (fun l hm => hl l ((hmem l).2 (.inl hm))) h
      exact ⟨l, (hmem l).2 (.inl hm), hz⟩
    rcases Res.bind_panic_iff.1 h with h | ⟨_, -, h⟩
    · obtain ⟨l, hm, hz⟩ := ih (fun l hm => hl l ((hmem l).2 (.inr hm))) h
      exact ⟨l, (hmem l).2 (.inr hm), hz⟩
    · cases h

end Verif
