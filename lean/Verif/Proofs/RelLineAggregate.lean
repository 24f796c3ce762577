import Verif.Proofs.RelLineProject
/-!
# Aggregate lines, read back
-/

namespace Verif
open StoreSpec TextSpec RelSpec

set_option autoImplicit false

/-! ### Lists with spaces before the first comma only -/

/-- `expression_list` and `grouping_set_list`. -/
def pListSp {α : Type} (p : Str → Option (α × Str)) (s : Str) : Option (List α × Str) := do
  let (e, s) ← p s
  let r := pStarN commaSp p (skipSp s).length (skipSp s)
  some (e :: r.1, r.2)

theorem pListSp_items {α : Type} {p : Str → Option (α × Str)} {F : Str → Prop} {items : List (Str × α)} {close : Str}
    (hne : items ≠ []) (h : ∀ i ∈ items, Item F p i.1 i.2) (hF : ∀ r, F (',' :: r)) (hc : F close)
    (hstop : commaSp (skipSp close) = none) (hstop2 : commaSp close = none) :
    ∃ close', pListSp p (joinS cs!", " (items.map (·.1)) ++ close) = some (items.map (·.2), close') ∧
      skipSp close' = skipSp close := by
  cases items with
  | nil => exact absurd rfl hne
  | cons i l =>
    simp only [List.map_cons, joinS_cons, List.append_assoc]
    have hi := h i (by simp)
    cases l with
    | nil =>
      refine ⟨skipSp close, ?_, skipSp_skipSp close⟩
      simp only [List.map_nil, List.flatMap_nil, List.nil_append, pListSp, hi.read close hc]
      have := pStarN_stop commaSp p (skipSp close) hstop
      simp only [Option.bind_eq_bind, Option.bind_some, this]
    | cons d l =>
      refine ⟨close, ?_, rfl⟩
      have hf : ∃ t, ((d :: l).map (·.1)).flatMap (fun b => cs!", " ++ b) ++ close = ',' :: t := by
        simp only [List.map_cons, List.flatMap_cons, List.append_assoc, List.cons_append]
        exact ⟨_, rfl⟩
      obtain ⟨t, ht⟩ := hf
      have h1 := hi.read (',' :: t) (hF t)
      have h2 : skipSp (',' :: t) = ',' :: t := skipSp_cons _ _ (by decide)
      have h3 := pStarN_join commaSp p cs!", " F close (d :: l) (by simp)
        (fun x hx r => commaSp_join _ (starts_next (h x (List.mem_cons_of_mem _ hx)).starts r))
        (fun r => hF _) hc (pStarN_stop _ _ _ hstop2)
        (fun x hx r hr => (h x (List.mem_cons_of_mem _ hx)).read r hr) (',' :: t).length
      have hmap : ((d :: l).flatMap fun i => cs!", " ++ i.1) = ((d :: l).map (·.1)).flatMap fun b => cs!", " ++ b := by
        simp only [List.flatMap_map]
      rw [hmap, ht] at h3
      have h4 := h3 (by rw [← ht]; simp only [List.length_append]; omega)
      have ht' : (List.map (fun x => x.fst) (d :: l)).flatMap (fun x => cs!", " ++ x) ++ close = ',' :: t := ht
      simp only [List.map_cons] at ht' h4 ⊢
      rw [ht']
      simp only [pListSp, h1, Option.bind_eq_bind, Option.bind_some, h2, h4]

/-! ### Grouping sets -/

/-- Text of one of several grouping sets. -/
def setStr [UTab] [FTab] (st : Store) (o : Opts) (s : List Expr) : Str :=
  if s = [] then cs!"_" else '(' :: (exprsText st o s ++ [')'])

theorem item_set [UTab] [FTab] {st : Store} {o : Opts} {tree : Expr → SExpr} {s : List Expr}
    (h : ∀ e ∈ s, ExprTree st o e (tree e)) :
    Item (fun _ => True) pGroupingSet (setStr st o s) (s.map tree) := by
  by_cases hs : s = []
  · subst hs
    refine ⟨⟨'_', [], rfl, by decide⟩, fun rest _ => ?_⟩
    simp [setStr, pGroupingSet, pParenSet, lit]
  · refine ⟨⟨'(', exprsText st o s ++ [')'], by simp [setStr, hs], by decide⟩, fun rest _ => ?_⟩
    obtain ⟨close', h1, h2⟩ := pExprList_text (close := ')' :: rest) hs h (exprFollow_close rest)
      (by rw [skipSp_cons _ _ (by decide)]; exact commaSp_stop (by decide)) (commaSp_stop (by decide))
    have hst : skipSp (exprsText st o s ++ ')' :: rest) = exprsText st o s ++ ')' :: rest := by
      cases s with
      | nil => exact absurd rfl hs
      | cons e l =>
        simp only [exprsText, List.map_cons, joinS_cons, List.append_assoc]
        exact (h e (by simp)).starts.skip _
    have h3 : setStr st o s ++ rest = cs!"(" ++ (exprsText st o s ++ ')' :: rest) := by simp [setStr, hs]
    have h4 : pParenSet (cs!"(" ++ (exprsText st o s ++ ')' :: rest)) = some (s.map tree, rest) := by
      unfold pParenSet
      rw [lit_append]
      simp only [Option.bind_eq_bind, Option.bind_some, hst, h1, h2]
      rw [skipSp_cons _ _ (by decide)]
      simp [lit]
    rw [h3, pGroupingSet, h4]
    rfl

/-- Text of the grouping sets. -/
def groupStr [UTab] [FTab] (st : Store) (o : Opts) (sets : List (List Expr)) : Str :=
  match sets with
  | [s] => if s = [] then cs!"_" else exprsText st o s
  | _ => joinS cs!", " (sets.map (setStr st o))

theorem pGroupBy_text [UTab] [FTab] (hA : AsciiPrintable) {st : Store} (hst : st.Ordered) {o : Opts}
    (ho : o.anchors ≠ .never) {tree : Expr → SExpr}
    (htree : ∀ e, Faithful st e → ExprTree st o e (tree e)) {sets : List (List Expr)} (hne : sets ≠ [])
    (hf : ∀ s ∈ sets, ∀ e ∈ s, Faithful st e) (hcast : ∀ e l, sets = [e :: l] → ¬ IsCast e) (rest : Str) :
    ∃ g close', pGroupBy (groupStr st o sets ++ (cs!" => " ++ rest)) = some (g, close') ∧
      skipSp close' = skipSp (cs!" => " ++ rest) ∧ convGroup st g = .ok sets := by
  have hstop : commaSp (skipSp (cs!" => " ++ rest)) = none := by
    simp only [List.cons_append, List.nil_append, skipSp_space]
    rw [skipSp_cons _ _ (by decide)]
    exact commaSp_stop (by decide)
  have hstop2 : commaSp (cs!" => " ++ rest) = none := commaSp_stop (by decide)
  have hmap : ∀ l : List (List Expr), (∀ s ∈ l, ∀ e ∈ s, Faithful st e) →
      convExprLists st (l.map (·.map tree)) = .ok l := fun l h =>
    convExprLists_map fun s hs e he => (htree e (h s hs e he)).conv
  -- several sets, or the empty set
  have many : groupStr st o sets = joinS cs!", " (sets.map (setStr st o)) → ∃ g close',
      pGroupBy (groupStr st o sets ++ (cs!" => " ++ rest)) = some (g, close') ∧
      skipSp close' = skipSp (cs!" => " ++ rest) ∧ convGroup st g = .ok sets := by
    intro heq
    obtain ⟨close', h1, h2⟩ := pListSp_items (p := pGroupingSet) (F := fun _ => True)
      (items := sets.map fun s => (setStr st o s, s.map tree)) (close := cs!" => " ++ rest)
      (by simpa using hne)
      (by
        intro i hi
        obtain ⟨s, hs, rfl⟩ := List.mem_map.1 hi
        exact item_set fun e he => htree e (hf s hs e he))
      (fun _ => trivial) trivial hstop hstop2
    refine ⟨.sets (sets.map fun s : List Expr => s.map tree), close', ?_, h2, by rw [convGroup]; exact hmap sets hf⟩
    rw [heq]
    have h3 : pGroupingSets (joinS cs!", " (sets.map (setStr st o)) ++ (cs!" => " ++ rest)) =
        some (sets.map (·.map tree), close') := by
      have h4 : pGroupingSets = pListSp pGroupingSet := rfl
      rw [h4]
      simpa [Function.comp_def] using h1
    simp only [pGroupBy, h3, mapFst, Option.or]
  match sets, hne, hf, hcast, many with
  | [], hne, _, _, _ => exact absurd rfl hne
  | _ :: _ :: _, _, _, _, many => exact many rfl
  | [[]], _, _, _, many => exact many rfl
  | [e :: l], _, hf, hcast, _ =>
    have hf' : ∀ x ∈ e :: l, Faithful st x := hf (e :: l) (by simp)
    obtain ⟨close', h1, h2⟩ := pExprList_text (close := cs!" => " ++ rest) (List.cons_ne_nil e l)
      (fun x hx => htree x (hf' x hx)) (exprFollow_to rest) hstop hstop2
    refine ⟨.exprs ((e :: l).map tree), close', ?_, h2, ?_⟩
    · have h3 : groupStr st o [e :: l] = exprsText st o (e :: l) := by simp [groupStr]
      rw [h3]
      obtain ⟨c, t, h4, h5, h6, h7⟩ := expr_head_ne hA hst o ho e (hf' e (by simp))
      obtain ⟨c', t', h8, _, h9, _⟩ := expr_head_kind hA hst o ho e (hf' e (by simp))
      rw [h4] at h8
      cases h8
      have hcp : c ≠ '(' := fun hc => hcast e l rfl (h9 hc)
      have h10 : ∃ u, exprsText st o (e :: l) ++ (cs!" => " ++ rest) = c :: u := by
        simp only [exprsText, List.map_cons, joinS_cons, List.append_assoc, h4]
        exact ⟨_, rfl⟩
      obtain ⟨u, hu⟩ := h10
      have h11 : pGroupingSets (exprsText st o (e :: l) ++ (cs!" => " ++ rest)) = none := by
        rw [hu]
        simp [pGroupingSets, pGroupingSet, pParenSet, lit, Ne.symm hcp, Ne.symm h7]
      simp only [pGroupBy, h11, h1, mapFst, Option.or]
    · simp only [convGroup, convExprs_map fun x hx => (htree x (hf' x hx)).conv]
      rfl

/-! ### Output columns -/

theorem isCall_of_conv [FTab] {st : Store} {s : SExpr} {f : Nat} {args : List Arg} {opts : List FOption}
    {t : Option Ty} (h : convExpr st s = .ok (.call f args opts t)) : s.isCall = true := by
  cases s with
  | call name anchor urn args t => rfl
  | lit l =>
    simp only [convExpr, Res.bind_ok_iff] at h
    obtain ⟨_, _, h⟩ := h
    cases h
  | ref i =>
    simp only [convExpr, Res.bind_ok_iff] at h
    obtain ⟨_, _, h⟩ := h
    cases h
  | cast e fb t =>
    simp only [convExpr, Res.bind_ok_iff] at h
    obtain ⟨_, _, _, _, h⟩ := h
    cases h
  | ifThen cs e =>
    simp only [convExpr, Res.bind_ok_iff] at h
    obtain ⟨_, _, _, _, h⟩ := h
    cases h

/-- What an output expression of an aggregate stands for. -/
def aggOut (g : List Expr) (e : Expr) : AggColumn := if e ∈ g then .key e else .measure (toMeasure e)

theorem convOuts_keys [FTab] {st : Store} {g : List Expr} {tree : Expr → SExpr} (es : List Expr)
    (hc : ∀ e ∈ es, convExpr st (tree e) = .ok e)
    (hg : ∀ e ∈ es, e ∈ g ∨ ∃ f args opts t, e = .call f args opts t) :
    ∀ k, ∃ ms m, convOuts st g k (es.map tree) = .ok (ms, m) ∧ ms.length ≤ es.length ∧ m.length = es.length ∧ (∀ x ∈ ms, x.fn ≠ none) ∧
      ∀ q : List AggColumn, q.length = k →
        m.map (at? (g.map .key ++ (q ++ ms.map .measure))) =
          es.map fun e => some (aggOut g e) := by
  induction es with
  | nil => intro k; exact ⟨[], [], rfl, Nat.le_refl _, rfl, by simp, fun _ _ => rfl⟩
  | cons e l ih =>
    intro k
    have ih := ih (fun x hx => hc x (by simp [hx])) (fun x hx => hg x (by simp [hx]))
    have he := hc e (by simp)
    cases hp : posOf e g with
    | some i =>
      obtain ⟨ms, m, h1, h2, h3, h0, h4⟩ := ih k
      refine ⟨ms, (i : Int) :: m, ?_, by simp; omega, by simp [h3], h0, ?_⟩
      · simp only [List.map_cons, convOuts, he, plain, Res.bind, hp, h1]
      · intro q hq
        have h5 := posOf_some hp
        have h6 : e ∈ g := List.mem_of_getElem? h5
        simp only [List.map_cons, h4 q hq]
        congr 1
        rw [at?_append_left (a := AggColumn.key e) (by simp [h5])]
        simp [aggOut, h6]
    | none =>
      have hn := posOf_none.1 hp
      have hcall : (tree e).isCall = true := by
        rcases hg e (by simp) with h | ⟨f, args, opts, t, rfl⟩
        · exact absurd h hn
        · exact isCall_of_conv he
      obtain ⟨ms, m, h1, h2, h3, h0, h4⟩ := ih (k + 1)
      refine ⟨toMeasure e :: ms, ((g.length + k : Nat) : Int) :: m, ?_, by simp; omega, by simp [h3], ?_, ?_⟩
      · simp only [List.map_cons, convOuts, he, plain, Res.bind, hp, hcall, if_true, h1]
      · intro x hx
        rcases List.mem_cons.1 hx with rfl | hx
        · intro hno
          have := (isCall_conv hcall he).1
          simp [callOf, hno] at this
        · exact h0 x hx
      · intro q hq
        have h5 := h4 (q ++ [.measure (toMeasure e)]) (by simp [hq])
        simp only [List.map_cons, List.append_assoc, List.cons_append, List.nil_append] at h5 ⊢
        rw [h5]
        congr 1
        have h6 := at?_append_here (l := g.map AggColumn.key ++ q) (a := AggColumn.measure (toMeasure e))
          (m := ms.map AggColumn.measure) (i := g.length + k) (by simp [hq])
        simp only [List.append_assoc] at h6
        rw [h6]
        simp [aggOut, hn]

theorem nodup_length_le {α : Type} : ∀ (l m : List α), l.Nodup → (∀ x ∈ l, x ∈ m) → l.length ≤ m.length
  | [], m, _, _ => Nat.zero_le _
  | x :: l, m, hd, h => by
    obtain ⟨a, b, rfl⟩ := List.append_of_mem (h x (by simp))
    rw [List.nodup_cons] at hd
    have := nodup_length_le l (a ++ b) hd.2 (by
      intro y hy
      have h1 := h y (by simp [hy])
      have h2 : y ≠ x := fun e => hd.1 (e ▸ hy)
      simp only [List.mem_append, List.mem_cons] at h1 ⊢
      rcases h1 with h1 | h1 | h1
      · exact .inl h1
      · exact absurd h1 h2
      · exact .inr h1)
    simp only [List.length_append, List.length_cons] at this ⊢
    omega

theorem pAggregate_text [UTab] [FTab] {st : Store} {o : Opts} {tree : Expr → SExpr} {x : Str} {g : SGroup} {es : List Expr}
    (hg : ∃ close', pGroupBy (x ++ (cs!" => " ++ (exprsText st o es ++ [']']))) = some (g, close') ∧
      skipSp close' = skipSp (cs!" => " ++ (exprsText st o es ++ [']'])))
    (h : ∀ e ∈ es, ExprTree st o e (tree e)) :
    pAggregate (cs!"Aggregate[" ++ (x ++ (cs!" => " ++ (exprsText st o es ++ [']'])))) =
      some (.aggregate g (es.map tree), []) := by
  obtain ⟨close', h1, h2⟩ := hg
  have h3 : pArrow close' = some (exprsText st o es ++ [']']) := by
    have h4 := pArrow_text (s := exprsText st o es ++ [']']) (by
      cases es with
      | nil => exact (nextNot_cons _ _ _).2 (by decide)
      | cons e l =>
        simp only [exprsText, List.map_cons, joinS_cons, List.append_assoc]
        exact starts_next (h e (by simp)).starts _)
    unfold pArrow at h4 ⊢
    rw [h2, h4]
  have h5 := pSep_items (sep := spCommaSp) (p := pExpr) (F := ExprFollow)
    (es.map fun e => ((textExpr st o e).text, tree e)) [']']
    (by intro i hi; obtain ⟨e, he, rfl⟩ := List.mem_map.1 hi; exact (h e he).item)
    spCommaSp_join (fun r => exprFollow_comma r)
    (exprFollow_bracket _) (pStarN_stop _ _ _ (spCommaSp_stop (by decide) (by decide)))
    (pExprN_none (by decide) (by decide) (by decide) (by decide) _)
  have h6 : pSep spCommaSp pExpr (exprsText st o es ++ [']']) = (es.map tree, [']']) := by
    simpa only [exprsText, List.map_map, Function.comp_def] using h5
  unfold pAggregate
  rw [lit_append]
  simp only [Option.bind_eq_bind, Option.bind_some, h1, h3, h6]
  simp [lit]

theorem lineRT_aggregate [UTab] [FTab] (hA : AsciiPrintable) {env : Env} (hst : env.st.Ordered) (ho : Readable env.o)
    {ws : List Nat} {c : Option Common} {gexprs : List Expr} {gs : List Grouping} {ms : List Measure}
    {adv : Option AdvExt} (hl : ws.length = 1) (h : OpOk env ws (.aggregate c gexprs gs ms adv)) :
    LineRT env ws (.aggregate c gexprs gs ms adv) := by
  obtain ⟨hh, ⟨hg1, hg2, hm, ho1, ho2, hcast⟩, hr, ha⟩ := h
  obtain ⟨tree, htree⟩ := exprTrees hA hst env.o ho.1 ho.2.1
  obtain ⟨adv', h1, h2⟩ := standardAdv_advList ha
  have hbound := hr.1
  letI : ∀ e, Decidable (Grouped gexprs gs e) := fun e => Classical.propDecidable _
  -- the sets as lists of expressions
  obtain ⟨sets, hs1, hs2⟩ : ∃ sets : List (List Expr), groupSets gexprs gs = sets.map (·.map some) ∧
      (groupingValues env.st env.o gexprs gs).2 = sets.map (·.map (textExpr env.st env.o)) := by
    have hdep : usesDeprecated gexprs gs = false := usesDeprecated_false fun x hx => (hg1 x hx).1
    by_cases hgs : gs = []
    · subst hgs
      exact ⟨[[]], rfl, by simp [groupingValues, hdep]⟩
    · refine ⟨gs.map fun g => g.refs.map fun i => gexprs.getD i .missing, ?_, ?_⟩
      · simp only [groupSets, hgs, if_false, List.map_map]
        apply List.map_congr_left
        intro g hg
        simp only [setOf, Function.comp, List.map_map]
        apply List.map_congr_left
        intro i hi
        have := (hg1 g hg).2 i hi
        simp [List.getElem?_eq_getElem this]
      · simp only [groupingValues, hdep, hgs, if_false, List.map_map]
        apply List.map_congr_left
        intro g hg
        simp only [Function.comp, List.map_map]
        apply List.map_congr_left
        intro i hi
        have := (hg1 g hg).2 i hi
        simp [List.getElem?_eq_getElem this, Out.expect]
  have hsne : sets ≠ [] := by
    rintro rfl
    simp only [groupSets, List.map_nil] at hs1
    split at hs1
    · cases hs1
    · rename_i h; exact h (List.map_eq_nil_iff.1 hs1)
  have hsmem : ∀ s ∈ sets, ∀ e ∈ s, e ∈ gexprs ∧ Grouped gexprs gs e := by
    intro s hs e he
    have h3 : s.map some ∈ groupSets gexprs gs := by rw [hs1]; exact List.mem_map_of_mem hs
    have h4 : some e ∈ s.map some := List.mem_map_of_mem he
    refine ⟨?_, ⟨_, h3, h4⟩⟩
    unfold groupSets at h3
    split at h3
    · rw [List.mem_singleton.1 h3] at h4; cases h4
    · obtain ⟨g, _, hg⟩ := List.mem_map.1 h3
      rw [← hg] at h4
      obtain ⟨i, _, hi⟩ := List.mem_map.1 h4
      exact List.mem_of_getElem? hi
  have hgrouped : ∀ e, Grouped gexprs gs e → ∃ s ∈ sets, e ∈ s := by
    rintro e ⟨s, hs, he⟩
    rw [hs1] at hs
    obtain ⟨t, ht, rfl⟩ := List.mem_map.1 hs
    obtain ⟨x, hx, hxe⟩ := List.mem_map.1 he
    cases hxe
    exact ⟨t, ht, hx⟩
  -- the measures as calls
  have hcalls : ms.filterMap (fun m => m.fn.map (textAggFn env.st env.o)) =
      ms.map fun m => textExpr env.st env.o ((callOf m).getD .missing) := by
    clear ho1 ho2 hr hbound h1 h2
    induction ms with
    | nil => rfl
    | cons m l ih =>
      obtain ⟨f, args, t, rfl, hf⟩ := hm m (by simp)
      have := ih fun x hx => hm x (by simp [hx])
      simp only [List.filterMap_cons, Option.map_some, List.map_cons, this]
      simp [textAggFn, callOf, textExpr]
  -- the expressions put out
  obtain ⟨es, hes1, hes2, hes3, hes4⟩ : ∃ es : List Expr,
      ((shown (gexprs.length + ms.length) c).map (colAt (gexprs.map (textExpr env.st env.o) ++
        ms.map fun m => textExpr env.st env.o ((callOf m).getD .missing)))) = es.map (textExpr env.st env.o) ∧
      (∀ e ∈ es, Faithful env.st e) ∧
      (∀ e ∈ es, Grouped gexprs gs e ∨ ∃ f args opts t, e = .call f args opts t) ∧
      (shown (gexprs.length + ms.length) c).map (at? (aggColumns gexprs ms)) =
        es.map fun e => some (if Grouped gexprs gs e then AggColumn.key e else .measure (toMeasure e)) := by
    have one : ∀ i ∈ shown (gexprs.length + ms.length) c, ∃ e,
        colAt (gexprs.map (textExpr env.st env.o) ++ ms.map fun m => textExpr env.st env.o ((callOf m).getD .missing)) i =
          textExpr env.st env.o e ∧ Faithful env.st e ∧
        (Grouped gexprs gs e ∨ ∃ f args opts t, e = .call f args opts t) ∧
        at? (aggColumns gexprs ms) i = some (if Grouped gexprs gs e then AggColumn.key e else .measure (toMeasure e)) := by
      intro i hi
      obtain ⟨h3, h4⟩ := hr.2 i hi
      by_cases hlt : i.toNat < gexprs.length
      · have h5 : gexprs[i.toNat]? = some gexprs[i.toNat] := List.getElem?_eq_getElem hlt
        have h6 := ho1 i hi _ h5
        refine ⟨gexprs[i.toNat], ?_, hg2 _ (List.getElem_mem hlt), .inl h6, ?_⟩
        · simp only [colAt]
          rw [List.getElem?_append_left (by simpa using hlt), List.getElem?_map, h5]
          rfl
        · simp only [at?, h3, if_true, aggColumns]
          rw [List.getElem?_append_left (by simpa using hlt), List.getElem?_map, h5, if_pos h6]
          rfl
      · have hlt2 : i.toNat - gexprs.length < ms.length := by omega
        have h5 : ms[i.toNat - gexprs.length]? = some ms[i.toNat - gexprs.length] := List.getElem?_eq_getElem hlt2
        have hmem := List.getElem_mem hlt2
        generalize ms[i.toNat - gexprs.length] = x at h5 hmem
        obtain ⟨f, args, t, hx, hf⟩ := hm x hmem
        have hcx : callOf x = some (.call f args [] (some t)) := by rw [hx]; rfl
        have hng := ho2 x hmem _ hcx
        refine ⟨.call f args [] (some t), ?_, hf, .inr ⟨_, _, _, _, rfl⟩, ?_⟩
        · simp only [colAt]
          rw [List.getElem?_append_right (by simp; omega), List.length_map, List.getElem?_map, h5]
          simp [hcx]
        · simp only [at?, h3, if_true, aggColumns]
          rw [List.getElem?_append_right (by simp; omega), List.length_map, List.getElem?_map, h5, if_neg hng]
          simp [hx, toMeasure]
    generalize shown (gexprs.length + ms.length) c = m at one
    clear hr ho1 hbound
    induction m with
    | nil => exact ⟨[], rfl, by simp, by simp, rfl⟩
    | cons i l ih =>
      obtain ⟨e, e1, e2, e3, e4⟩ := one i (by simp)
      obtain ⟨es, k1, k2, k3, k4⟩ := ih fun j hj => one j (by simp [hj])
      refine ⟨e :: es, by simp [e1, k1], ?_, ?_, by simp [e4, k4]⟩
      · intro x hx
        rcases List.mem_cons.1 hx with rfl | hx
        · exact e2
        · exact k2 x hx
      · intro x hx
        rcases List.mem_cons.1 hx with rfl | hx
        · exact e3
        · exact k3 x hx
  have hlen : es.length = (shown (gexprs.length + ms.length) c).length := by
    have := congrArg List.length hes1
    simpa using this.symm
  obtain ⟨g, close', hgp, hgc, hgconv⟩ := pGroupBy_text hA hst ho.1 htree hsne
    (fun s hs e he => hg2 e (hsmem s hs e he).1)
    (fun e l hsl => hcast e (l.map some) (by rw [hs1, hsl]; rfl))
    (exprsText env.st env.o es ++ [']'])
  refine ⟨.aggregate g (es.map tree), ?_, ?_⟩
  · intro lvl
    have h3 := pAggregate_text (tree := tree) ⟨close', hgp, hgc⟩ fun e he => htree e (hes2 e he)
    have h4 := implicitCols_text ho.2.2.2 (gexprs.map (textExpr env.st env.o) ++
      ms.map fun m => textExpr env.st env.o ((callOf m).getD .missing)) c (by simpa using hr.2)
    rw [show (gexprs.map (textExpr env.st env.o) ++ ms.map fun m => textExpr env.st env.o ((callOf m).getD .missing)).length =
      gexprs.length + ms.length by simp, hes1] at h4
    have hdep : usesDeprecated gexprs gs = false := usesDeprecated_false fun x hx => (hg1 x hx).1
    have hgv : groupingValues env.st env.o gexprs gs =
        (gexprs.map (textExpr env.st env.o), sets.map (·.map (textExpr env.st env.o))) := by
      rw [← hs2]
      simp only [groupingValues, hdep]
      rfl
    have h5 : (textArgList (groupingArgs (sets.map (·.map (textExpr env.st env.o)))) []).text =
        groupStr env.st env.o sets := by
      match sets, hsne with
      | [], hne => exact absurd rfl hne
      | [[]], _ => simp [groupingArgs, textArgList, groupStr, Out.sep]
      | [e :: l], _ =>
        simp only [groupingArgs, List.map_cons, List.map_nil, groupStr, exprsText, textArgList]
        simp [Out.text_sep, Function.comp_def]
      | s :: s' :: l, _ =>
        have hset : ∀ s : List Expr, (if s.map (textExpr env.st env.o) = [] then Out.s cs!"_"
            else textTuple (s.map (textExpr env.st env.o))).text = setStr env.st env.o s := by
          intro s
          unfold setStr
          by_cases hs : s = []
          · subst hs; rfl
          · rw [if_neg (by simpa using hs), if_neg hs]
            simp [textTuple, Out.text_sep, exprsText, Function.comp_def]
        simp only [groupingArgs, List.map_cons, textArgList, groupStr]
        rw [if_neg (by simp), List.append_nil, Out.text_sep]
        simp only [List.map_cons, hset, List.map_map, Function.comp_def]
    have h6 : headBody env.o lvl (relHead env (ws.map some) (.aggregate c gexprs gs ms adv)) =
        cs!"Aggregate[" ++ (groupStr env.st env.o sets ++ (cs!" => " ++ (exprsText env.st env.o es ++ [']']))) := by
      simp only [headBody, relHead, headAggregate, hgv, h5]
      rw [textOutput_implicit _ _ rfl]
      simp only [hcalls, h4]
      simp [exprsText, Function.comp_def]
    rw [h6]
    exact pRelLine_aggregate h3
  · intro kids hk
    obtain ⟨r, w, rfl⟩ := oneKid hk hl
    subst hk
    obtain ⟨i1, ⟨more, i2, i3⟩, i4, i5⟩ := internSets_spec sets [] List.nodup_nil
    rw [List.nil_append] at i2
    have hin : ∀ e, Grouped gexprs gs e ↔ e ∈ (internSets [] sets).2 := by
      intro e
      constructor
      · intro h
        obtain ⟨s, hs, he⟩ := hgrouped e h
        have h3 : s.map some ∈ (internSets [] sets).1.map (setOf (internSets [] sets).2) := by
          rw [i4]; exact List.mem_map_of_mem hs
        obtain ⟨q, _, hq⟩ := List.mem_map.1 h3
        have h4 : some e ∈ setOf (internSets [] sets).2 q := by rw [hq]; exact List.mem_map_of_mem he
        obtain ⟨i, _, hi⟩ := List.mem_map.1 h4
        exact List.mem_of_getElem? hi
      · intro h
        rw [i2] at h
        obtain ⟨s, hs, he⟩ := i3 e h
        exact (hsmem s hs e he).2
    obtain ⟨ms', m', k1, k2, k3, k0, k4⟩ := convOuts_keys (g := (internSets [] sets).2) es
      (fun e he => (htree e (hes2 e he)).conv)
      (fun e he => (hes3 e he).imp_left (hin e).1) 0
    have hglen : (internSets [] sets).2.length ≤ gexprs.length := by
      apply nodup_length_le _ _ i1
      intro e he
      rw [i2] at he
      obtain ⟨s, hs, he⟩ := i3 e he
      exact (hsmem s hs e he).1
    refine ⟨.aggregate (mkCommon (makeEmit m' ((internSets [] sets).2.length + ms'.length)))
      (internSets [] sets).2 (internSets [] sets).1 ms' adv', ?_, ?_⟩
    · simp only [convLine, opAddenda, h1, Res.bind, convBody, oneChild, List.map_cons, List.map_nil, hgconv, plain,
        k1, outWidth, directWidth, common, k3, hlen]
    · simp only [OpEquiv, SameOutputs]
      refine ⟨⟨?_, ?_, ?_, ?_, hh, h2⟩, mapping_makeEmit_ne (by have := hr.1; omega)⟩
      · rw [hs1, ← i4]
        unfold groupSets
        rw [if_neg]
        intro h
        rw [h] at i4
        exact hsne (List.map_eq_nil_iff.1 i4.symm)
      · have hl1 : (aggColumns gexprs ms).length = gexprs.length + ms.length := by simp [aggColumns]
        have hl2 : (aggColumns (internSets [] sets).2 ms').length = (internSets [] sets).2.length + ms'.length := by
          simp [aggColumns]
        rw [hl1, hl2, shown_makeEmit (by omega), hes4]
        have h5 := k4 [] rfl
        rw [List.nil_append] at h5
        have h6 : m'.map (at? (aggColumns (internSets [] sets).2 ms')) =
            es.map fun e => some (aggOut (internSets [] sets).2 e) := h5
        rw [h6]
        apply List.map_congr_left
        intro e _
        simp only [aggOut]
        by_cases hge : Grouped gexprs gs e
        · rw [if_pos hge, if_pos ((hin e).1 hge)]
        · rw [if_neg hge, if_neg fun h => hge ((hin e).2 h)]
      · intro x hx
        rcases List.mem_append.1 hx with hx | hx
        · obtain ⟨f, args, t, rfl, _⟩ := hm x hx
          simp
        · exact k0 x hx
      · intro x hx
        rcases List.mem_append.1 hx with hx | hx
        · exact (hg1 x hx).1
        · exact i5 x hx

end Verif
