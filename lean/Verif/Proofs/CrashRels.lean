import Verif.Proofs.Crash
/-!
# Which relations make the parser panic
-/

namespace Verif

set_option autoImplicit false

open StoreSpec TemporalSpec Grammar MeaningSpec CrashSpec HazardSpec

theorem first_congr {α : Type} {F G C D : α → Prop} (hf : ∀ a, F a ↔ G a) (hc : ∀ a, C a ↔ D a) {l : List α} :
    First F C l ↔ First G D l := by
  rw [show F = G from funext fun a => propext (hf a), show C = D from funext fun a => propext (hc a)]

theorem convRefs_crash (refs : List IntTok) : convRefs refs = .panic ↔ RefsCrash refs := by
  induction refs with
  | nil => simp [convRefs, RefsCrash]
  | cons i l ih =>
    rw [convRefs]
    simp only [Res.bind_panic_iff, plain_panic, convIndex_panic, plain_means, convIndex_means, ih, RefsCrash,
      List.mem_cons, exists_eq_or_imp, reduceCtorEq, and_false, exists_false, or_false, exists_and_right]
    constructor
    · rintro (h | ⟨_, h⟩)
      · exact Or.inl h
      · exact Or.inr h
    · intro h
      by_cases hi : InI32 i.toInt
      · exact Or.inr ⟨⟨i.toInt, rfl, hi⟩, h.resolve_left (fun g => g hi)⟩
      · exact Or.inl hi

theorem convRefs_noErr {refs : List IntTok} {e : RErr} : convRefs refs ≠ .err e := by
  induction refs with
  | nil => simp [convRefs]
  | cons i l ih =>
    intro h
    rw [convRefs] at h
    rcases Res.bind_err_iff.1 h with h | ⟨_, _, h⟩
    · unfold convIndex at h
      cases hi : i.toI32 <;> simp [hi, plain] at h
    · rcases Res.bind_err_iff.1 h with h | ⟨_, _, h⟩
      · exact ih h
      · cases h

theorem convEmit_crash {refs : List IntTok} {n : Nat} : convEmit refs n = .panic ↔ RefsCrash refs := by
  unfold convEmit
  simp only [Res.bind_panic_iff, convRefs_crash, reduceCtorEq, and_false, exists_false, or_false]

theorem convColumns_crash {st : Store} (hst : st.Ordered) (cols : List SColumn) :
    convColumns st cols = .panic ↔ ColumnsCrash st cols := by
  refine first_loop (P := fun l => convColumns st l = .panic) (by simp [convColumns]) ?_ cols
  rintro ⟨n, t⟩ l
  simp only [convColumns, Res.bind_panic_iff, reduceCtorEq, and_false, exists_false, or_false, exists_and_right,
    convTy_crash hst, tyFine hst]

theorem convColumns_fine {st : Store} (hst : st.Ordered) (cols : List SColumn) :
    (∃ r, convColumns st cols = .ok r) ↔ ∀ c ∈ cols, TyFine st c.2 := by
  simp only [convColumns_means hst, all2_exists]
  constructor
  · intro h c hc
    obtain ⟨t, _, ht⟩ := h c hc
    exact ⟨_, ht⟩
  · intro h c hc
    obtain ⟨t, ht⟩ := h c hc
    exact ⟨(c.1, t), rfl, ht⟩

variable [FTab]

theorem convExprs_crash {st : Store} (hst : st.Ordered) (l : List SExpr) : convExprs st l = .panic ↔ ExprsCrash st l := by
  refine first_loop (P := fun l => convExprs st l = .panic) (by simp [convExprs]) ?_ l
  intro s l
  simp only [convExprs, Res.bind_panic_iff, reduceCtorEq, and_false, exists_false, or_false, exists_and_right,
    convExpr_crash hst, exprFine hst]

theorem convExprs_fine {st : Store} (hst : st.Ordered) (l : List SExpr) :
    (∃ r, convExprs st l = .ok r) ↔ ∀ s ∈ l, ExprFine st s := by
  simp only [convExprs_means hst, all2_exists]
  rfl

theorem convExprLists_crash {st : Store} (hst : st.Ordered) (l : List (List SExpr)) :
    convExprLists st l = .panic ↔ ListsCrash st l := by
  refine first_loop (P := fun l => convExprLists st l = .panic) (by simp [convExprLists]) ?_ l
  intro s l
  simp only [convExprLists, Res.bind_panic_iff, reduceCtorEq, and_false, exists_false, or_false, exists_and_right,
    convExprs_crash hst, convExprs_fine hst]

theorem convExprLists_fine {st : Store} (hst : st.Ordered) (l : List (List SExpr)) :
    (∃ r, convExprLists st l = .ok r) ↔ ∀ r ∈ l, ∀ s ∈ r, ExprFine st s := by
  simp only [convExprLists_means hst, all2_exists]
  rfl

theorem convProj_crash {st : Store} (hst : st.Ordered) (n k : Nat) (l : List SProj) :
    convProj st n k l = .panic ↔ First (ProjFine st) (ProjCrashes st) l := by
  induction l generalizing k with
  | nil => rw [convProj]; exact ⟨fun h => (by cases h), fun h => absurd h first_nil⟩
  | cons p l ih =>
    cases p with
    | ref i =>
      rw [convProj, first_cons]
      simp only [Res.bind_panic_iff, plain_panic, convIndex_panic, plain_means, convIndex_means, ih, ProjFine, ProjCrashes,
        reduceCtorEq, and_false, exists_false, or_false, exists_and_right]
      constructor
      · rintro (h | ⟨⟨_, rfl, h1⟩, h2⟩)
        · exact Or.inl h
        · exact Or.inr ⟨h1, h2⟩
      · rintro (h | ⟨h1, h2⟩)
        · exact Or.inl h
        · exact Or.inr ⟨⟨_, rfl, h1⟩, h2⟩
    | expr s =>
      rw [convProj, first_cons]
      simp only [Res.bind_panic_iff, plain_panic, plain_means, convExpr_crash hst, exprFine hst, ih, ProjFine, ProjCrashes,
        reduceCtorEq, and_false, exists_false, or_false, exists_and_right]

theorem convGroup_crash {st : Store} (hst : st.Ordered) (g : SGroup) : convGroup st g = .panic ↔ GroupCrashes st g := by
  cases g with
  | exprs l =>
    simp only [convGroup, GroupCrashes, Res.bind_panic_iff, convExprs_crash hst, reduceCtorEq, and_false, exists_false,
      or_false]
  | sets l => exact convExprLists_crash hst l

omit [FTab] in
theorem isCall_iff {s : SExpr} : s.isCall = true ↔ ∃ name a u ss t, s = .call name a u ss t := by
  cases s <;> simp [SExpr.isCall]

theorem convOuts_crash {st : Store} (hst : st.Ordered) (g : List Expr) (k : Nat) (l : List SExpr) :
    convOuts st g k l = .panic ↔ First (OutFine st g) (ExprCrashes st) l := by
  induction l generalizing k with
  | nil => rw [convOuts]; exact ⟨fun h => (by cases h), fun h => absurd h first_nil⟩
  | cons s l ih =>
    have hu : ∀ x y, ExprMeans st s x → ExprMeans st s y → x = y := by
      intro x y hx hy
      rw [← convExpr_means hst] at hx hy
      rw [hx] at hy
      exact Res.ok.inj hy
    rw [convOuts, first_cons, Res.bind_panic_iff, plain_panic, convExpr_crash hst]
    simp only [plain_means, convExpr_means hst]
    refine or_congr Iff.rfl ?_
    constructor
    · rintro ⟨e, he, h⟩
      split at h
      · next i hi =>
        simp only [Res.bind_panic_iff, reduceCtorEq, and_false, exists_false, or_false, ih] at h
        refine ⟨⟨e, he, Or.inl ?_⟩, h⟩
        exact List.mem_of_getElem? (posOf_get hi)
      · split at h
        · next hc =>
          simp only [Res.bind_panic_iff, reduceCtorEq, and_false, exists_false, or_false, ih] at h
          exact ⟨⟨e, he, Or.inr (isCall_iff.1 hc)⟩, h⟩
        · cases h
    · rintro ⟨⟨e, he, hf⟩, h⟩
      refine ⟨e, he, ?_⟩
      split
      · simp only [Res.bind_panic_iff, reduceCtorEq, and_false, exists_false, or_false, ih]
        exact h
      · next hn =>
        rw [if_pos (isCall_iff.2 (hf.resolve_left (posOf_absent.1 hn)))]
        simp only [Res.bind_panic_iff, reduceCtorEq, and_false, exists_false, or_false, ih]
        exact h

omit [FTab] in
theorem mem_firsts {e : Expr} (l : List Expr) : e ∈ firsts l ↔ e ∈ l := by
  induction l with
  | nil => simp [firsts]
  | cons d l ih =>
    simp only [firsts, List.mem_cons, List.mem_filter, ih, decide_eq_true_eq]
    constructor
    · rintro (h | ⟨h, _⟩)
      · exact Or.inl h
      · exact Or.inr h
    · intro h
      by_cases he : e = d
      · exact Or.inl he
      · exact Or.inr ⟨h.resolve_left he, he⟩

theorem convSortFields_crash {st : Store} (hst : st.Ordered) (l : List (SExpr × Str)) :
    convSortFields st l = .panic ↔ First (fun f => ∃ x, SortMeans st f x) (fun f => ¬ ExprFine st f.1) l := by
  refine first_loop (P := fun l => convSortFields st l = .panic) (by simp [convSortFields]) ?_ l
  intro f l
  have h1 : convSortField st f = .panic ↔ ¬ ExprFine st f.1 := by
    unfold convSortField
    rw [Res.bind_panic_iff, dropPanics_crash, exprFine hst]
    constructor
    · rintro (h | ⟨_, _, h⟩)
      · exact h
      · split at h <;> cases h
    · exact Or.inl
  have h2 : ∀ x, convSortField st f = .ok x ↔ SortMeans st f x := by
    intro x
    have := convSortFields_means hst [f] [x]
    simp only [convSortFields, Res.bind_ok_iff, Res.ok.injEq] at this
    constructor
    · intro h
      have h3 := this.1 ⟨x, h, [], rfl, rfl⟩
      cases h3; assumption
    · intro h
      obtain ⟨y, hy, _, rfl, he⟩ := this.2 (.cons h .nil)
      cases he
      exact hy
  simp only [convSortFields, Res.bind_panic_iff, reduceCtorEq, and_false, exists_false, or_false, exists_and_right, h1, h2]

theorem convFetchValue_crash {st : Store} (hst : st.Ordered) (v : SFetch) :
    convFetchValue st v = .panic ↔ ∃ s, v = .expr s ∧ ExprCrashes st s := by
  cases v with
  | int i =>
    simp only [convFetchValue, reduceCtorEq, false_and, exists_false, iff_false]
    intro h
    split at h
    · cases h
    · split at h <;> cases h
  | expr s =>
    simp only [convFetchValue, Res.bind_panic_iff, plain_panic, convExpr_crash hst, reduceCtorEq, and_false, exists_false,
      or_false, SFetch.expr.injEq, exists_eq_left']

theorem limit_crash {st : Store} (hst : st.Ordered) {args : List (Str × SFetch)} (h : (args.map (·.1)).Nodup)
    {name : Str} : convOptR (convFetchValue st) (fetchArg args name) = .panic ↔ LimitCrashes st args name := by
  unfold LimitCrashes
  cases hf : fetchArg args name with
  | none =>
    have hn := fetchArg_none hf
    simp only [convOptR, reduceCtorEq, false_iff]
    rintro ⟨s, hs, _⟩
    exact hn _ hs
  | some v =>
    have hv := (fetchArg_means h name v).1 hf
    simp only [convOptR, Res.bind_panic_iff, convFetchValue_crash hst, reduceCtorEq, and_false, exists_false, or_false]
    constructor
    · rintro ⟨s, rfl, hs⟩; exact ⟨s, hv, hs⟩
    · rintro ⟨s, hm, hs⟩
      have := (fetchArg_means h name _).2 hm
      rw [hf] at this
      exact ⟨s, Option.some.inj this, hs⟩

theorem convAddenda_crash {st : Store} (hst : st.Ordered) (l : List SAddendum) :
    convAddenda st l = .panic ↔ First (fun s => ∃ a, AddMeans st s a) (fun s => ArgsCrash st s.args []) l := by
  refine first_loop (P := fun l => convAddenda st l = .panic) (by simp [convAddenda]) ?_ l
  intro s l
  simp only [convAddenda, Res.bind_panic_iff, reduceCtorEq, and_false, exists_false, or_false, exists_and_right, plain_panic,
    plain_means, convExtArgs_crash hst, convExtArgs_means hst]
  refine or_congr Iff.rfl (and_congr_left fun _ => ?_)
  constructor
  · rintro ⟨a, h⟩; exact ⟨⟨s.kind, s.name, a⟩, rfl, rfl, h⟩
  · rintro ⟨a, _, _, h⟩; exact ⟨_, h⟩

/-! ## Lines -/

omit [FTab] in
theorem adorned {reg : Registry ExtArgs (List Nat)} {as : List Addendum} : (∃ adv, standardAdv reg as = .ok adv) ↔
    Adorned reg as := by
  simp only [standardAdv_means, Adorned]
  constructor
  · rintro ⟨adv, h1, h2⟩; exact ⟨h1, adv, h2⟩
  · rintro ⟨h1, adv, h2⟩; exact ⟨adv, h1, h2⟩

omit [FTab] in
theorem adv_crash {reg : Registry ExtArgs (List Nat)} {as : List Addendum} {α : Type} {f : Option AdvExt → Res RErr α}
    {B : Prop} (h : ∀ adv, f adv = .panic ↔ B) : (standardAdv reg as).bind f = .panic ↔ Adorned reg as ∧ B := by
  rw [Res.bind_panic_iff, ← adorned]
  simp only [standardAdv_panic, false_or, h, exists_and_right]

omit [FTab] in
theorem arity_crash {α : Type} {f : Rel → Res RErr α} (kids : List (Rel × Nat)) :
    (oneChild (kids.map (·.1))).bind f = .panic ↔ ∃ i, kids = [i] ∧ f i.1 = .panic := by
  match kids with
  | [] => simp [oneChild, Res.bind]
  | [(a, n)] => simp [oneChild, Res.bind]
  | _ :: _ :: _ => simp [oneChild, Res.bind]

theorem optExpr_fine {st : Store} (hst : st.Ordered) (f : Option SExpr) :
    (∃ a, convOpt (convExpr st) f = .ok a) ↔ ∀ s, f = some s → ExprFine st s := by
  simp only [convOpt_means (convExpr_means hst), opt2_exists]
  rfl

/-- The body of a line panics; the advanced extension has nothing to say. -/
theorem bodyLine_crash {st : Store} {reg : Registry ExtArgs (List Nat)} {as : List Addendum} {kids : List (Rel × Nat)}
    {line : SLine} (B : Prop)
    (hl : convLine st reg as kids line =
      (standardAdv reg as).bind fun adv => convBody st adv (kids.map (·.1)) (kids.map (·.2)).sum line)
    (hb : ∀ adv, convBody st adv (kids.map (·.1)) (kids.map (·.2)).sum line = .panic ↔ B)
    (h : Adorned reg as → (B ↔ LineCrashes st reg as line kids)) (hr : LineCrashes st reg as line kids → Adorned reg as) :
    convLine st reg as kids line = .panic ↔ LineCrashes st reg as line kids := by
  rw [hl, adv_crash hb]
  constructor
  · rintro ⟨h1, h2⟩; exact (h h1).1 h2
  · intro h1; exact ⟨hr h1, (h (hr h1)).2 h1⟩

theorem convOutput_crash {st : Store} (hst : st.Ordered) (out : SOutput) : convOutput st out = .panic ↔
    (∃ cols, out = .implicit cols ∧ ColumnsCrash st cols) ∨
    ∃ cols refs, out = .direct cols refs ∧ ((∃ c ∈ cols, ¬ TyFine st c.2) ∨ ∃ l, refs = some l ∧ RefsCrash l) := by
  cases out with
  | implicit cols =>
    simp only [convOutput, Res.bind_panic_iff, plain_panic, convColumns_crash hst, reduceCtorEq, and_false, exists_false,
      or_false, SOutput.implicit.injEq, exists_eq_left', false_and]
  | direct cols refs =>
    simp only [convOutput, Res.bind_panic_iff, dropPanics_crash, convColumns_fine hst, reduceCtorEq, false_and,
      exists_false, false_or, SOutput.direct.injEq, dropPanics_means]
    have hn : (¬ ∀ c ∈ cols, TyFine st c.2) ↔ ∃ c ∈ cols, ¬ TyFine st c.2 := by
      simp only [Classical.not_forall, exists_prop]
    rw [hn]
    constructor
    · rintro (h | ⟨r, _, h⟩)
      · exact ⟨cols, refs, ⟨rfl, rfl⟩, Or.inl h⟩
      · cases refs with
        | none => cases h
        | some l =>
          refine ⟨cols, some l, ⟨rfl, rfl⟩, Or.inr ⟨l, rfl, ?_⟩⟩
          simpa only [Res.bind_panic_iff, convRefs_crash, reduceCtorEq, and_false, exists_false, or_false] using h
    · rintro ⟨_, _, ⟨rfl, rfl⟩, h⟩
      by_cases hc : ∃ c ∈ cols, ¬ TyFine st c.2
      · exact Or.inl hc
      · obtain ⟨l, rfl, hr⟩ := h.resolve_left hc
        have hf : ∀ c ∈ cols, TyFine st c.2 := fun c hm => Classical.byContradiction fun hn => hc ⟨c, hm, hn⟩
        obtain ⟨r, hr'⟩ := (convColumns_fine hst cols).2 hf
        refine Or.inr ⟨r, hr', ?_⟩
        simpa only [Res.bind_panic_iff, convRefs_crash, reduceCtorEq, and_false, exists_false, or_false] using hr

theorem read_crash {st : Store} (hst : st.Ordered) (reg : Registry ExtArgs (List Nat)) (as : List Addendum)
    (kids : List (Rel × Nat)) (table : List Str) (out : SOutput) :
    convLine st reg as kids (.read table out) = .panic ↔ LineCrashes st reg as (.read table out) kids := by
  refine bodyLine_crash (kids = [] ∧ convOutput st out = .panic) rfl ?_ ?_ ?_
  · intro adv
    rw [convBody]
    cases kids with
    | nil => simp [Res.bind_panic_iff]
    | cons k l => simp
  · intro ha
    rw [convOutput_crash hst]
    constructor
    · rintro ⟨rfl, (⟨cols, rfl, h⟩ | ⟨cols, refs, rfl, (⟨c, h1, h2⟩ | ⟨l, rfl, h⟩)⟩)⟩
      · exact .readTypes ha h
      · exact .readColumn ha h1 h2
      · exact .readRef ha h
    · intro h
      cases h with
      | readTypes _ h => exact ⟨rfl, Or.inl ⟨_, rfl, h⟩⟩
      | readColumn _ h1 h2 => exact ⟨rfl, Or.inr ⟨_, _, rfl, Or.inl ⟨_, h1, h2⟩⟩⟩
      | readRef _ h => exact ⟨rfl, Or.inr ⟨_, _, rfl, Or.inr ⟨_, rfl, h⟩⟩⟩
  · intro h
    cases h <;> assumption

theorem virtual_crash {st : Store} (hst : st.Ordered) (reg : Registry ExtArgs (List Nat)) (as : List Addendum)
    (kids : List (Rel × Nat)) (rows : List (List SExpr)) (f : Option SExpr) (cols : List SColumn) :
    convLine st reg as kids (.readVirtual rows f cols) = .panic ↔ LineCrashes st reg as (.readVirtual rows f cols) kids := by
  refine bodyLine_crash (kids = [] ∧ ((¬ ∀ s, f = some s → ExprFine st s) ∨ (∀ s, f = some s → ExprFine st s) ∧
    (ListsCrash st rows ∨ (∀ r ∈ rows, ∀ s ∈ r, ExprFine st s) ∧ ColumnsCrash st cols))) rfl ?_ ?_ ?_
  · intro adv
    rw [convBody]
    cases kids with
    | nil =>
      simp only [List.map_nil, ne_eq, not_true, if_false, Res.bind_panic_iff, plain_panic, plain_means, dropPanics_crash,
        dropPanics_means, convExprLists_crash hst, convColumns_crash hst, reduceCtorEq, and_false, exists_false, or_false,
        exists_and_right, optExpr_fine hst, convExprLists_fine hst, true_and]
    | cons k l => simp
  · intro ha
    constructor
    · rintro ⟨rfl, (h | ⟨h1, (h | ⟨h2, h⟩)⟩)⟩
      · cases f with
        | none => exact absurd (by simp) h
        | some s => exact .virtualFilter ha (by simpa using h)
      · exact .virtualRows ha h1 h
      · exact .virtualTypes ha h1 h2 h
    · intro h
      cases h with
      | virtualFilter _ h => exact ⟨rfl, Or.inl fun g => h (g _ rfl)⟩
      | virtualRows _ h1 h => exact ⟨rfl, Or.inr ⟨h1, Or.inl h⟩⟩
      | virtualTypes _ h1 h2 h => exact ⟨rfl, Or.inr ⟨h1, Or.inr ⟨h2, h⟩⟩⟩
  · intro h
    cases h <;> assumption

theorem readExt_crash {st : Store} (hst : st.Ordered) (reg : Registry ExtArgs (List Nat)) (as : List Addendum)
    (kids : List (Rel × Nat)) (cols : List SColumn) :
    convLine st reg as kids (.readExt cols) = .panic ↔ LineCrashes st reg as (.readExt cols) kids := by
  rw [convLine, Res.bind_panic_iff]
  constructor
  · rintro (h | ⟨⟨d, adv⟩, h1, h⟩)
    · exact absurd h extReadParts_panic
    · obtain ⟨g1, g2⟩ := (extReadParts_means reg as d adv).1 h1
      rw [convReadExt] at h
      cases kids with
      | nil =>
        simp only [List.map_nil, ne_eq, not_true, if_false, List.sum_nil, Res.bind_panic_iff, plain_panic,
          convColumns_crash hst, reduceCtorEq, and_false, exists_false, or_false] at h
        exact .extTypes g1 g2 h
      | cons k l => simp at h
  · intro h
    cases h with
    | @extTypes _ d adv h1 h2 h3 =>
      refine Or.inr ⟨(d, adv), (extReadParts_means reg as d adv).2 ⟨h1, h2⟩, ?_⟩
      rw [convReadExt]
      simp only [List.map_nil, ne_eq, not_true, if_false, List.sum_nil, Res.bind_panic_iff, plain_panic,
        convColumns_crash hst, reduceCtorEq, and_false, exists_false, or_false]
      exact h3

theorem filter_crash {st : Store} (hst : st.Ordered) (reg : Registry ExtArgs (List Nat)) (as : List Addendum)
    (kids : List (Rel × Nat)) (cond : SExpr) (refs : List IntTok) :
    convLine st reg as kids (.filter cond refs) = .panic ↔ LineCrashes st reg as (.filter cond refs) kids := by
  refine bodyLine_crash (∃ i, kids = [i] ∧ (¬ ExprFine st cond ∨ RefsCrash refs)) rfl ?_ ?_ ?_
  · intro adv
    rw [convBody, arity_crash]
    simp only [Res.bind_panic_iff, dropPanics_crash, dropPanics_means, exprFine hst, convEmit_crash, reduceCtorEq, and_false,
      exists_false, or_false, exists_and_right]
    refine and_congr Iff.rfl ?_
    by_cases h : ExprFine st cond <;> simp [h]
  · intro ha
    constructor
    · rintro ⟨i, rfl, h⟩; exact .filter ha h
    · intro h; cases h with | filter _ h => exact ⟨_, rfl, h⟩
  · intro h; cases h <;> assumption

theorem project_crash {st : Store} (hst : st.Ordered) (reg : Registry ExtArgs (List Nat)) (as : List Addendum)
    (kids : List (Rel × Nat)) (args : List SProj) :
    convLine st reg as kids (.project args) = .panic ↔ LineCrashes st reg as (.project args) kids := by
  refine bodyLine_crash (∃ i, kids = [i] ∧ First (ProjFine st) (ProjCrashes st) args) rfl ?_ ?_ ?_
  · intro adv
    rw [convBody, arity_crash]
    simp only [Res.bind_panic_iff, convProj_crash hst, reduceCtorEq, and_false, exists_false, or_false]
  · intro ha
    constructor
    · rintro ⟨i, rfl, h⟩; exact .project ha h
    · intro h; cases h with | project _ h => exact ⟨_, rfl, h⟩
  · intro h; cases h <;> assumption

theorem aggregate_crash {st : Store} (hst : st.Ordered) (reg : Registry ExtArgs (List Nat)) (as : List Addendum)
    (kids : List (Rel × Nat)) (group : SGroup) (outs : List SExpr) :
    convLine st reg as kids (.aggregate group outs) = .panic ↔ LineCrashes st reg as (.aggregate group outs) kids := by
  refine bodyLine_crash (∃ i, kids = [i] ∧ (GroupCrashes st group ∨ ∃ sets, SetsMean st group sets ∧
    First (OutFine st sets.flatten) (ExprCrashes st) outs)) rfl ?_ ?_ ?_
  · intro adv
    rw [convBody, arity_crash]
    simp only [Res.bind_panic_iff, plain_panic, plain_means, convGroup_crash hst, convGroup_means hst, convOuts_crash hst,
      reduceCtorEq, and_false, exists_false, or_false]
    have hg : ∀ sets : List (List Expr), First (OutFine st (internSets [] sets).2) (ExprCrashes st) outs ↔
        First (OutFine st sets.flatten) (ExprCrashes st) outs := by
      intro sets
      refine first_congr (fun s => ?_) (fun _ => Iff.rfl)
      rw [(internSets_means [] sets).1, seen_nil]
      simp only [OutFine, mem_firsts]
    simp only [hg]
  · intro ha
    constructor
    · rintro ⟨i, rfl, (h | ⟨sets, h1, h⟩)⟩
      · exact .group ha h
      · exact .output ha h1 h
    · intro h
      cases h with
      | group _ h => exact ⟨_, rfl, Or.inl h⟩
      | output _ h1 h => exact ⟨_, rfl, Or.inr ⟨_, h1, h⟩⟩
  · intro h; cases h <;> assumption

theorem sort_crash {st : Store} (hst : st.Ordered) (reg : Registry ExtArgs (List Nat)) (as : List Addendum)
    (kids : List (Rel × Nat)) (fields : List (SExpr × Str)) (refs : List IntTok) :
    convLine st reg as kids (.sort fields refs) = .panic ↔ LineCrashes st reg as (.sort fields refs) kids := by
  refine bodyLine_crash (∃ i, kids = [i] ∧ (First (fun f => ∃ x, SortMeans st f x) (fun f => ¬ ExprFine st f.1) fields ∨
    (∀ f ∈ fields, ∃ x, SortMeans st f x) ∧ RefsCrash refs)) rfl ?_ ?_ ?_
  · intro adv
    rw [convBody, arity_crash]
    simp only [Res.bind_panic_iff, convSortFields_crash hst, convSortFields_means hst, convEmit_crash, reduceCtorEq,
      and_false, exists_false, or_false, exists_and_right, all2_exists]
  · intro ha
    constructor
    · rintro ⟨i, rfl, (h | ⟨h1, h⟩)⟩
      · exact .sortField ha h
      · exact .sortRef ha h1 h
    · intro h
      cases h with
      | sortField _ h => exact ⟨_, rfl, Or.inl h⟩
      | sortRef _ h1 h => exact ⟨_, rfl, Or.inr ⟨h1, h⟩⟩
  · intro h; cases h <;> assumption

theorem fetch_crash {st : Store} (hst : st.Ordered) (reg : Registry ExtArgs (List Nat)) (as : List Addendum)
    (kids : List (Rel × Nat)) (args : List (Str × SFetch)) (refs : List IntTok) :
    convLine st reg as kids (.fetch args refs) = .panic ↔ LineCrashes st reg as (.fetch args refs) kids := by
  refine bodyLine_crash (∃ i, kids = [i] ∧ (¬ (args.map (·.1)).Nodup ∨ (args.map (·.1)).Nodup ∧ (RefsCrash refs ∨
    (¬ RefsCrash refs) ∧ (LimitCrashes st args cs!"limit" ∨
      ∃ l, LimitMeans st args cs!"limit" l ∧ LimitCrashes st args cs!"offset")))) rfl ?_ ?_ ?_
  · intro adv
    rw [convBody, arity_crash]
    have hok : ∀ n, (∃ c, convEmit refs n = .ok c) ↔ ¬ RefsCrash refs := by
      intro n
      rw [← convEmit_crash (n := n)]
      have hne : ∀ e, convEmit refs n ≠ .err e := by
        intro e h
        unfold convEmit at h
        rcases Res.bind_err_iff.1 h with h | ⟨_, _, h⟩
        · exact convRefs_noErr h
        · cases h
      cases hc : convEmit refs n with
      | ok c => simp
      | err e => exact absurd hc (hne e)
      | panic => simp
    by_cases hd : (args.map (·.1)).Nodup
    · have : hasDup (args.map (·.1)) = false := by
        cases h : hasDup (args.map (·.1)) with
        | false => rfl
        | true => exact absurd hd ((hasDup_means _).1 h)
      simp only [this, Bool.false_eq_true, if_false, Res.bind_panic_iff, convEmit_crash, limit_crash hst hd,
        limit_means hst hd, reduceCtorEq, and_false, exists_false, or_false, exists_and_right, hok, hd, not_true,
        true_and, false_or]
    · simp only [(hasDup_means _).2 hd, if_true, hd, not_false_iff, true_or]
  · intro ha
    constructor
    · rintro ⟨i, rfl, (h | ⟨_, (h | ⟨_, (h | ⟨l, h1, h⟩)⟩)⟩)⟩
      · exact .repeated ha h
      · exact .fetchRef ha h
      · exact .limit ha h
      · exact .offset ha h1 h
    · intro h
      by_cases hd : (args.map (·.1)).Nodup
      · by_cases hr : RefsCrash refs
        · cases h <;> exact ⟨_, rfl, Or.inr ⟨hd, Or.inl hr⟩⟩
        · cases h with
          | repeated _ h => exact absurd hd h
          | fetchRef _ h => exact absurd h hr
          | limit _ h => exact ⟨_, rfl, Or.inr ⟨hd, Or.inr ⟨hr, Or.inl h⟩⟩⟩
          | offset _ h1 h => exact ⟨_, rfl, Or.inr ⟨hd, Or.inr ⟨hr, Or.inr ⟨_, h1, h⟩⟩⟩⟩
      · cases h <;> exact ⟨_, rfl, Or.inl hd⟩
  · intro h; cases h <;> assumption

omit [FTab] in
theorem two_crash {α : Type} {f : Rel → Rel → Res RErr α} {e : RErr} (kids : List (Rel × Nat)) :
    (match kids.map (·.1) with | [l, r] => f l r | _ => .err e) = .panic ↔
      ∃ i j, kids = [i, j] ∧ f i.1 j.1 = .panic := by
  match kids with
  | [] => simp
  | [_] => simp
  | [(a, n), (b, m)] =>
    constructor
    · intro h; exact ⟨(a, n), (b, m), rfl, h⟩
    · rintro ⟨i, j, h1, h⟩; cases h1; exact h
  | _ :: _ :: _ :: _ => simp

theorem join_crash {st : Store} (hst : st.Ordered) (reg : Registry ExtArgs (List Nat)) (as : List Addendum)
    (kids : List (Rel × Nat)) (word : Str) (cond : SExpr) (post : Option SExpr) (refs : List IntTok) :
    convLine st reg as kids (.join word cond post refs) = .panic ↔
      LineCrashes st reg as (.join word cond post refs) kids := by
  refine bodyLine_crash (∃ i j, kids = [i, j] ∧ ((∀ t, ¬ Word joinWords word t) ∨ ¬ ExprFine st cond ∨
    (∃ s, post = some s ∧ ¬ ExprFine st s) ∨ RefsCrash refs)) rfl ?_ ?_ ?_
  · intro adv
    have hp : (¬ ∀ s, post = some s → ExprFine st s) ↔ ∃ s, post = some s ∧ ¬ ExprFine st s := by
      simp only [Classical.not_forall, exists_prop]
    have hg : ∀ {α : Type} {o : Option α}, grammarName o = .panic ↔ ∀ a, o ≠ some a := by
      intro α o
      cases o <;> simp [grammarName]
    refine (two_crash kids).trans ?_
    simp only [Res.bind_panic_iff, dropPanics_crash, dropPanics_means, exprFine hst, optExpr_fine hst, convEmit_crash, hg,
      hp, grammarName_means, ne_eq, joinWord_means, reduceCtorEq, and_false, exists_false, or_false, exists_and_right]
    refine and_congr Iff.rfl ?_
    by_cases h1 : ∃ t, Word joinWords word t
    · have h1' : ¬ ∀ t, ¬ Word joinWords word t := fun g => by obtain ⟨t, ht⟩ := h1; exact g t ht
      by_cases h2 : ExprFine st cond
      · by_cases h3 : ∃ s, post = some s ∧ ¬ ExprFine st s
        · simp [h1, h2, h3]
        · have h3' : ∀ s, post = some s → ExprFine st s := fun s hs => Classical.byContradiction fun g => h3 ⟨s, hs, g⟩
          simp only [h1, h1', h2, h3, not_true, false_or, true_and, and_iff_right_iff_imp]
          exact fun _ => h3'
      · simp [h1, h2]
    · have h1' : ∀ t, ¬ Word joinWords word t := fun t ht => h1 ⟨t, ht⟩
      simp [h1']
  · intro ha
    constructor
    · rintro ⟨i, j, rfl, h⟩; exact .join ha h
    · intro h; cases h with | join _ h => exact ⟨_, _, rfl, h⟩
  · intro h; cases h <;> assumption

theorem cross_crash {st : Store} (reg : Registry ExtArgs (List Nat)) (as : List Addendum)
    (kids : List (Rel × Nat)) (refs : List IntTok) :
    convLine st reg as kids (.cross refs) = .panic ↔ LineCrashes st reg as (.cross refs) kids := by
  refine bodyLine_crash (∃ i j, kids = [i, j] ∧ RefsCrash refs) rfl ?_ ?_ ?_
  · intro adv
    refine (two_crash kids).trans ?_
    simp only [Res.bind_panic_iff, convEmit_crash, reduceCtorEq, and_false, exists_false, or_false]
  · intro ha
    constructor
    · rintro ⟨i, j, rfl, h⟩; exact .cross ha h
    · intro h; cases h with | cross _ h => exact ⟨_, _, rfl, h⟩
  · intro h; cases h <;> assumption

theorem set_crash {st : Store} (reg : Registry ExtArgs (List Nat)) (as : List Addendum)
    (kids : List (Rel × Nat)) (word : Str) (refs : List IntTok) :
    convLine st reg as kids (.set word refs) = .panic ↔ LineCrashes st reg as (.set word refs) kids := by
  have hg : ∀ {α : Type} {o : Option α}, grammarName o = .panic ↔ ∀ a, o ≠ some a := by
    intro α o
    cases o <;> simp [grammarName]
  rw [convLine, adv_crash (B := 2 ≤ kids.length ∧ (∃ n, ∀ k ∈ kids, k.2 = n) ∧
    ((∀ o, ¬ Word setWords word o) ∨ RefsCrash refs))]
  · constructor
    · rintro ⟨ha, h1, ⟨n, h2⟩, h3⟩; exact .set ha h1 h2 h3
    · intro h; cases h with | set ha h1 h2 h3 => exact ⟨ha, h1, ⟨_, h2⟩, h3⟩
  · intro adv
    unfold convSet
    cases kids with
    | nil => simp
    | cons k l =>
      by_cases hl : l = []
      · subst hl; simp
      · have hlen : 2 ≤ (k :: l).length := by
          cases l with
          | nil => exact absurd rfl hl
          | cons => simp
        rw [if_neg (by simpa using hlen)]
        simp only [List.map_cons]
        by_cases hw : ∀ x ∈ l, x.2 = k.2
        · rw [if_pos (by
            simp only [List.all_eq_true, List.mem_map]
            rintro x ⟨y, hy, rfl⟩
            simp [hw y hy])]
          have hex : ∃ n, ∀ x ∈ k :: l, x.2 = n := ⟨k.2, by
            intro x hx
            rcases List.mem_cons.1 hx with rfl | hx
            · rfl
            · exact hw x hx⟩
          simp only [Res.bind_panic_iff, hg, grammarName_means, ne_eq, setWord_means, convEmit_crash, reduceCtorEq, and_false,
            exists_false, or_false, exists_and_right, hlen, hex, true_and]
          by_cases h1 : ∃ o, Word setWords word o
          · simp [h1]
          · have h1' : ∀ t, ¬ Word setWords word t := fun t ht => h1 ⟨t, ht⟩
            simp [h1']
        · rw [if_neg (by
            intro h
            simp only [List.all_eq_true, List.mem_map] at h
            exact hw fun x hx => by simpa using h x.2 ⟨x, hx, rfl⟩)]
          constructor
          · intro h; cases h
          · rintro ⟨_, ⟨n, hn⟩, _⟩
            exact absurd (fun x hx => by rw [hn x (List.mem_cons_of_mem _ hx), hn k (List.mem_cons_self ..)]) hw

theorem ext_crash {st : Store} (hst : st.Ordered) (reg : Registry ExtArgs (List Nat)) (as : List Addendum)
    (kids : List (Rel × Nat)) (kind : ExtKind) (name : Str) (args : SArgs) (cols : List SCol) :
    convLine st reg as kids (.ext kind name args cols) = .panic ↔
      LineCrashes st reg as (.ext kind name args cols) kids := by
  rw [convLine, convExtRel]
  constructor
  · intro h
    split at h
    · cases h
    · next ha =>
      rcases Res.bind_panic_iff.1 h with h | ⟨_, _, h⟩
      · exact .ext (by simpa using ha) ((convExtArgs_crash hst args cols).1 (plain_panic.1 h))
      · split at h
        · rcases Res.bind_panic_iff.1 h with h | ⟨_, _, h⟩
          · exact absurd h resolved_panic
          · cases h
        · cases h
  · intro h
    cases h with
    | ext h1 h2 =>
      rw [if_neg (by simpa using h1), Res.bind_panic_iff, plain_panic]
      exact Or.inl ((convExtArgs_crash hst args cols).2 h2)

theorem root_crash {st : Store} (reg : Registry ExtArgs (List Nat)) (as : List Addendum)
    (kids : List (Rel × Nat)) (names : List Str) :
    convLine st reg as kids (.root names) = .panic ↔ LineCrashes st reg as (.root names) kids := by
  refine bodyLine_crash True rfl (fun adv => by simp [convBody]) (fun ha => by simp; exact .root ha) ?_
  intro h; cases h <;> assumption

theorem convLine_crash {st : Store} (hst : st.Ordered) (reg : Registry ExtArgs (List Nat)) (as : List Addendum)
    (kids : List (Rel × Nat)) (line : SLine) : convLine st reg as kids line = .panic ↔ LineCrashes st reg as line kids := by
  cases line with
  | root => exact root_crash ..
  | read => exact read_crash hst ..
  | readVirtual => exact virtual_crash hst ..
  | readExt => exact readExt_crash hst ..
  | filter => exact filter_crash hst ..
  | project => exact project_crash hst ..
  | aggregate => exact aggregate_crash hst ..
  | sort => exact sort_crash hst ..
  | fetch => exact fetch_crash hst ..
  | join => exact join_crash hst ..
  | set => exact set_crash ..
  | cross => exact cross_crash ..
  | ext => exact ext_crash hst ..

/-! ## Trees -/

mutual
theorem convNode_crash {st : Store} (hst : st.Ordered) (reg : Registry ExtArgs (List Nat)) :
    (t : RNode SLine SAddendum) → (convNode st reg t = .panic ↔ NodeCrashes st reg t)
  | .mk line ss ts => by
    rw [convNode]
    simp only [Res.bind_panic_iff, convKids_crash hst reg ts, convAddenda_crash hst, convLine_crash hst, convKids_means hst,
      convAddenda_means hst]
    constructor
    · rintro (h | ⟨kids, h1, (h | ⟨as, h2, h⟩)⟩)
      · exact .input h
      · exact .addendum (all2_exists.1 ⟨kids, h1⟩) h
      · exact .line h1 h2 h
    · intro h
      cases h with
      | input h => exact Or.inl h
      | addendum h1 h =>
        obtain ⟨kids, h1⟩ := all2_exists.2 h1
        exact Or.inr ⟨kids, h1, Or.inl h⟩
      | line h1 h2 h => exact Or.inr ⟨_, h1, Or.inr ⟨_, h2, h⟩⟩
theorem convKids_crash {st : Store} (hst : st.Ordered) (reg : Registry ExtArgs (List Nat)) :
    (ts : List (RNode SLine SAddendum)) →
    (convKids st reg ts = .panic ↔ First (fun t => ∃ r, RelMeans st reg t r) (NodeCrashes st reg) ts)
  | [] => by rw [convKids]; exact ⟨fun h => (by cases h), fun h => absurd h first_nil⟩
  | t :: ts => by
    rw [convKids, first_cons, ← convKids_crash hst reg ts, ← convNode_crash hst reg t]
    simp only [Res.bind_panic_iff, reduceCtorEq, and_false, exists_false, or_false, exists_and_right, convNode_means hst]
end

theorem convPlanRel_crash {st : Store} (hst : st.Ordered) (reg : Registry ExtArgs (List Nat)) (t : RNode SLine SAddendum) :
    convPlanRel st reg t = .panic ↔ TopCrashes st reg t := by
  obtain ⟨line, ss, ts⟩ := t
  have other : (∀ names, line ≠ .root names) → ((convNode st reg (.mk line ss ts)).bind (fun r => .ok (PlanRel.rel r.1)) =
      .panic ↔ TopCrashes st reg (.mk line ss ts)) := by
    intro hn
    simp only [Res.bind_panic_iff, convNode_crash hst, reduceCtorEq, and_false, exists_false, or_false]
    constructor
    · exact .rel hn
    · intro h
      cases h with
      | root => exact absurd rfl (hn _)
      | rel _ h => exact h
  cases line with
  | root names =>
    have hne : ¬ ∀ ns, SLine.root names ≠ .root ns := fun h => h names rfl
    simp only [convPlanRel]
    split
    · next ha =>
      constructor
      · intro h; cases h
      · intro h
        cases h with
        | root => exact absurd rfl ha
        | rel h => exact absurd h hne
    · next ha =>
      have ha : ss = [] := Classical.byContradiction ha
      subst ha
      match ts with
      | [] =>
        constructor
        · intro h; cases h
        · intro h; cases h with | rel h => exact absurd h hne
      | [k] =>
        simp only [Res.bind_panic_iff, convNode_crash hst, reduceCtorEq, and_false, exists_false, or_false]
        constructor
        · exact .root
        · intro h
          cases h with
          | root h => exact h
          | rel h => exact absurd h hne
      | _ :: _ :: _ =>
        constructor
        · intro h; cases h
        · intro h; cases h with | rel h => exact absurd h hne
  | read => exact other (by simp)
  | readVirtual => exact other (by simp)
  | readExt => exact other (by simp)
  | filter => exact other (by simp)
  | project => exact other (by simp)
  | aggregate => exact other (by simp)
  | sort => exact other (by simp)
  | fetch => exact other (by simp)
  | join => exact other (by simp)
  | set => exact other (by simp)
  | cross => exact other (by simp)
  | ext => exact other (by simp)

theorem convPlanRels_crash {st : Store} (hst : st.Ordered) (reg : Registry ExtArgs (List Nat))
    (l : List (RNode SLine SAddendum)) :
    convPlanRels st reg l = .panic ↔ First (fun t => ∃ r, TopMeans st reg t r) (TopCrashes st reg) l := by
  refine first_loop (P := fun l => convPlanRels st reg l = .panic) (by simp [convPlanRels]) ?_ l
  intro t l
  simp only [convPlanRels, Res.bind_panic_iff, reduceCtorEq, and_false, exists_false, or_false, exists_and_right,
    convPlanRel_crash hst, convPlanRel_means hst]

end Verif
