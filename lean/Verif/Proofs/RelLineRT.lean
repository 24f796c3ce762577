import Verif.Proofs.RelText
import Verif.Spec.Neat
/-!
# One relation line, read back
-/

namespace Verif
open StoreSpec TextSpec RelSpec

set_option autoImplicit false

/-! ### Addenda -/

/-- The invocation that stands for a payload. -/
def addendumOf (env : Env) (k : AddKind) (d : AnyMsg) : Addendum :=
  match env.reg.decode k.ns d [] with
  | .ok (n, a) => ⟨k, n, a⟩
  | .error _ => ⟨k, [], ⟨[], [], []⟩⟩

/-- The invocations for an advanced extension, in the order they are written. -/
def advList (env : Env) (a : Option AdvExt) : List Addendum :=
  ((payloads a).1.toList.map (addendumOf env .enh)) ++ (payloads a).2.map (addendumOf env .opt)

/-- The invocations below a relation. -/
def opAddenda (env : Env) : RelOp → List Addendum
  | .read _ _ _ (.extension (some d)) adv _ => addendumOf env .ext d :: advList env adv
  | .read _ _ _ _ adv _ => advList env adv
  | .filter _ _ adv => advList env adv
  | .project _ _ adv => advList env adv
  | .aggregate _ _ _ _ adv => advList env adv
  | .sort _ _ adv => advList env adv
  | .fetch _ _ _ adv => advList env adv
  | .join _ _ _ _ adv => advList env adv
  | .set _ _ adv => advList env adv
  | .cross _ adv => advList env adv
  | .ext .. => []
  | .other _ => []

theorem addendumOf_ok [UTab] [FTab] {env : Env} {k : AddKind} {d : AnyMsg} (h : AddendumOk env k d) :
    ∃ name args, addendumOf env k d = ⟨k, name, args⟩ ∧ env.reg.decode k.ns d [] = .ok (name, args) ∧
      isIdentifier name = true ∧ args.columns = [] ∧ ArgsOk env.st env.o args ∧
      resolveAddendum env.reg (addendumOf env k d) = .ok d := by
  obtain ⟨name, args, h1, h2, h3, h4, h5⟩ := h
  refine ⟨name, args, by simp [addendumOf, h1], h1, h3, h4, h5, ?_⟩
  simp [addendumOf, h1, resolveAddendum, h2, resolved]

theorem standardLoop_opts [UTab] [FTab] {env : Env} (l : List AnyMsg) (h : ∀ d ∈ l, AddendumOk env .opt d)
    (enh : Option AnyMsg) (opts : List AnyMsg) :
    standardLoop env.reg enh opts (l.map (addendumOf env .opt)) = .ok (enh, opts ++ l) := by
  induction l generalizing opts with
  | nil => simp [standardLoop]
  | cons d l ih =>
    obtain ⟨n, a, h1, _, _, _, _, h2⟩ := addendumOf_ok (h d (by simp))
    rw [List.map_cons, standardLoop]
    have hk : (addendumOf env .opt d).kind = .opt := by rw [h1]
    simp only [hk, h2]
    have := ih (fun x hx => h x (by simp [hx])) (opts ++ [d])
    simpa [Res.bind] using this

theorem standardAdv_advList [UTab] [FTab] {env : Env} {a : Option AdvExt} (h : AdvOk env a) :
    ∃ a', standardAdv env.reg (advList env a) = .ok a' ∧ payloads a = payloads a' := by
  have key : standardLoop env.reg none [] (advList env a) = .ok (payloads a) := by
    cases a with
    | none => rfl
    | some x =>
      obtain ⟨h1, h2⟩ := h x rfl
      simp only [advList, payloads]
      cases he : x.enhancement with
      | none => simpa using standardLoop_opts x.optimization h2 none []
      | some d =>
        obtain ⟨n, a, h3, _, _, _, _, h4⟩ := addendumOf_ok (h1 d he)
        have hk : (addendumOf env .enh d).kind = .enh := by rw [h3]
        simp only [Option.toList_some, List.map_cons, List.map_nil, List.cons_append, List.nil_append,
          standardLoop, hk, h4]
        have := standardLoop_opts x.optimization h2 (some d) []
        simpa [Res.bind] using this
  unfold standardAdv
  rw [key]
  simp only [Res.bind]
  split
  · rename_i hn
    exact ⟨none, rfl, by rw [show payloads a = ((payloads a).1, (payloads a).2) from rfl, hn.1, hn.2]; rfl⟩
  · exact ⟨_, rfl, rfl⟩

/-- Parse trees for all payloads at once. -/
theorem addTrees [UTab] [FTab] (hA : AsciiPrintable) {env : Env} (hst : env.st.Ordered) (ho : Readable env.o) :
    ∃ tree : AddKind → AnyMsg → SAddendum, ∀ k d, AddendumOk env k d →
      (tree k d).kind = k ∧ (tree k d).name = (addendumOf env k d).name ∧
      convExtArgs env.st (tree k d).args [] = .ok (addendumOf env k d).args ∧
      ∀ rest, pAddendum ((textAddendum env.st env.o k (env.reg.decode k.ns d [])).text ++ rest) =
        some (tree k d, rest) := by
  have h : ∀ k d, ∃ s : SAddendum, AddendumOk env k d → s.kind = k ∧ s.name = (addendumOf env k d).name ∧
      convExtArgs env.st s.args [] = .ok (addendumOf env k d).args ∧
      ∀ rest, pAddendum ((textAddendum env.st env.o k (env.reg.decode k.ns d [])).text ++ rest) =
        some (s, rest) := by
    intro k d
    by_cases hd : AddendumOk env k d
    · obtain ⟨n, a, h1, h2, h3, h4, h5, _⟩ := addendumOf_ok hd
      obtain ⟨sa, h6, h7⟩ := pAddendum_text hA hst env.o ho.1 ho.2.1 k n a h3 h5 h4
      exact ⟨⟨k, n, sa⟩, fun _ => ⟨rfl, by rw [h1], by rw [h1]; exact h6, by rw [h2]; exact h7⟩⟩
    · exact ⟨⟨k, [], ⟨[], []⟩⟩, fun h => absurd h hd⟩
  exact ⟨fun k d => Classical.choose (h k d), fun k d => Classical.choose_spec (h k d)⟩

/-! ### Keywords -/

theorem pRelLine_filter {s : Str} {r : SLine × Str} (h : pFilter (cs!"Filter[" ++ s) = some r) :
    pRelLine (cs!"Filter[" ++ s) = some r := by
  unfold pRelLine
  rw [h]
  simp [pReadExt, pReadVirtual, pRead]

theorem pRelLine_project {s : Str} {r : SLine × Str} (h : pProject (cs!"Project[" ++ s) = some r) :
    pRelLine (cs!"Project[" ++ s) = some r := by
  unfold pRelLine
  rw [h]
  simp [pReadExt, pReadVirtual, pRead, pFilter]

theorem pRelLine_aggregate {s : Str} {r : SLine × Str} (h : pAggregate (cs!"Aggregate[" ++ s) = some r) :
    pRelLine (cs!"Aggregate[" ++ s) = some r := by
  unfold pRelLine
  rw [h]
  simp [pReadExt, pReadVirtual, pRead, pFilter, pProject]

theorem pRelLine_sort {s : Str} {r : SLine × Str} (h : pSort (cs!"Sort[" ++ s) = some r) :
    pRelLine (cs!"Sort[" ++ s) = some r := by
  unfold pRelLine
  rw [h]
  simp [pReadExt, pReadVirtual, pRead, pFilter, pProject, pAggregate]

theorem pRelLine_fetch {s : Str} {r : SLine × Str} (h : pFetch (cs!"Fetch[" ++ s) = some r) :
    pRelLine (cs!"Fetch[" ++ s) = some r := by
  unfold pRelLine
  rw [h]
  simp [pReadExt, pReadVirtual, pRead, pFilter, pProject, pAggregate, pSort]

theorem pRelLine_join {s : Str} {r : SLine × Str} (h : pJoin (cs!"Join[" ++ s) = some r) :
    pRelLine (cs!"Join[" ++ s) = some r := by
  unfold pRelLine
  rw [h]
  simp [pReadExt, pReadVirtual, pRead, pFilter, pProject, pAggregate, pSort, pFetch]

theorem pRelLine_set {s : Str} {r : SLine × Str} (h : pSet (cs!"Set[" ++ s) = some r) :
    pRelLine (cs!"Set[" ++ s) = some r := by
  unfold pRelLine
  rw [h]
  simp [pReadExt, pReadVirtual, pRead, pFilter, pProject, pAggregate, pSort, pFetch, pJoin]

theorem pRelLine_cross {s : Str} {r : SLine × Str} (h : pCross (cs!"Cross[" ++ s) = some r) :
    pRelLine (cs!"Cross[" ++ s) = some r := by
  unfold pRelLine
  rw [h]
  simp [pReadExt, pReadVirtual, pRead, pFilter, pProject, pAggregate, pSort, pFetch, pJoin, pSet]

theorem pRelLine_ext {k : ExtKind} {s : Str} {r : SLine × Str} (h : pExtRel (k.spell ++ s) = some r) :
    pRelLine (k.spell ++ s) = some r := by
  unfold pRelLine
  rw [h]
  cases k <;> simp [ExtKind.spell, pReadExt, pReadVirtual, pRead, pFilter, pProject, pAggregate, pSort, pFetch, pJoin,
    pSet, pCross, lit]

theorem pRelLine_readVirtual {s : Str} {r : SLine × Str} (h : pReadVirtual (cs!"Read:Virtual" ++ s) = some r) :
    pRelLine (cs!"Read:Virtual" ++ s) = some r := by
  unfold pRelLine
  rw [h]
  simp [pReadExt, lit]

theorem pRelLine_read {s : Str} {r : SLine × Str} (h : pRead (cs!"Read[" ++ s) = some r) :
    pRelLine (cs!"Read[" ++ s) = some r := by
  unfold pRelLine
  rw [h]
  simp [pReadExt, pReadVirtual, lit]

theorem pRelLine_readExt {s : Str} {r : SLine × Str} (h : pReadExt (cs!"Read:Extension[" ++ s) = some r) :
    pRelLine (cs!"Read:Extension[" ++ s) = some r := by
  unfold pRelLine
  rw [h]
  simp

theorem joinColumns_eq (t : JoinType) (l r : Nat) : joinColumns t l r = joinWidth t l r := by
  cases t <;> simp [joinColumns, joinSides, joinWidth]

/-! ### What is to be shown for each relation -/

/-- The header is read as a line, and the line with the addenda of the relation and inputs of the same
widths is an equivalent relation, and a neat one. -/
def LineRT [UTab] [FTab] (env : Env) (ws : List Nat) (op : RelOp) : Prop :=
  ∃ line, (∀ lvl, pRelLine (headBody env.o lvl (relHead env (ws.map some) op)) = some (line, [])) ∧
    ∀ kids : List (Rel × Nat), kids.map (·.2) = ws →
      ∃ op', convLine env.st env.reg (opAddenda env op) kids line =
        .ok (.node op' (kids.map fun k => some k.1), outWidth env.reg ws op) ∧ OpEquiv env.reg ws op op' ∧ NeatOp ws op'

theorem oneKid {ws : List Nat} {kids : List (Rel × Nat)} (h : kids.map (·.2) = ws) (hl : ws.length = 1) :
    ∃ r w, kids = [(r, w)] := by
  subst h
  match kids, hl with
  | [(r, w)], _ => exact ⟨r, w, rfl⟩

theorem twoKids {ws : List Nat} {kids : List (Rel × Nat)} (h : kids.map (·.2) = ws) (hl : ws.length = 2) :
    ∃ l r v w, kids = [(l, v), (r, w)] := by
  subst h
  match kids, hl with
  | [(l, v), (r, w)], _ => exact ⟨l, r, v, w, rfl⟩

/-- The end of a line with references: arrow, references, bracket. -/
def tailText (m : List Int) : Str := cs!" => " ++ (refsText m ++ [']'])

theorem pArrow_tail (m : List Int) : pArrow (tailText m) = some (refsText m ++ [']']) :=
  pArrow_text (refsText_next m [])

theorem exprFollow_tail (m : List Int) : ExprFollow (tailText m) := exprFollow_to _

theorem spCommaSp_tail (m : List Int) : spCommaSp (tailText m) = none := by
  simp [spCommaSp, tailText, skipSp, lit]

theorem headBody_tail {o : Opts} (ho : o.showEmit = false) (lvl : Nat) (h : Head) (pos named : List Out)
    (n : Nat) (c : Option Common) (ha : h.args = .inline pos named) (hx : h.explicit = false)
    (hc : h.columns = references n) (he : h.emit = getEmit c) (hr : InRange n (shown n c)) :
    headBody o lvl h = h.name.text ++ '[' :: ((textArgList pos named).text ++ tailText (shown n c)) :=
  headBody_inline ho lvl h pos named n c ha hx hc he hr

/-! ### Filter -/

theorem pFilter_text {x : Str} {s : SExpr} {m : List Int} (h : pExpr (x ++ tailText m) = some (s, tailText m)) :
    pFilter (cs!"Filter[" ++ (x ++ tailText m)) = some (.filter s (m.map IntTok.ofInt), []) := by
  simp [pFilter, lit, h, pArrow_tail, pRefsClose_text]

theorem pSet_text {x : Str} {m : List Int} (h : pFirst setNames (x ++ tailText m) = some (x, tailText m)) :
    pSet (cs!"Set[" ++ (x ++ tailText m)) = some (.set x (m.map IntTok.ofInt), []) := by
  simp [pSet, lit, h, pArrow_tail, pRefsClose_text]

section
variable [UTab] [FTab] (hA : AsciiPrintable) {env : Env} (hst : env.st.Ordered) (ho : Readable env.o)
include hA hst ho

theorem lineRT_filter {ws : List Nat} {c : Option Common} {cond : Option Expr} {adv : Option AdvExt}
    (hl : ws.length = 1) (h : OpOk env ws (.filter c cond adv)) : LineRT env ws (.filter c cond adv) := by
  obtain ⟨hh, ⟨e, rfl, he⟩, hr, ha⟩ := h
  obtain ⟨tree, htree⟩ := exprTrees hA hst env.o ho.1 ho.2.1
  have ht := htree e he
  obtain ⟨adv', h1, h2⟩ := standardAdv_advList ha
  refine ⟨.filter (tree e) ((shown ws.sum c).map IntTok.ofInt), ?_, ?_⟩
  · intro lvl
    rw [headBody_tail (n := ws.sum) (c := c) ho.2.2.2 lvl _ _ _ rfl rfl (by simp [relHead, totalWidth_some]) rfl hr]
    exact pRelLine_filter (pFilter_text (ht.read _ (exprFollow_tail _)))
  · intro kids hk
    obtain ⟨r, w, rfl⟩ := oneKid hk hl
    subst hk
    simp only [List.map_cons, List.map_nil, List.sum_cons, List.sum_nil, Nat.add_zero] at hr ⊢
    refine ⟨.filter (mkCommon (makeEmit (shown w c) w)) (some e) adv', ?_, ?_⟩
    · simp [convLine, opAddenda, h1, Res.bind, convBody, oneChild, ht.conv, dropPanics,
        convEmit_text (n := w) (InRange.i32 hr), outWidth, directWidth, common]
    · simp only [OpEquiv, List.sum_cons, List.sum_nil, Nat.add_zero]
      exact ⟨⟨(shown_makeEmit (by have := hr.1; omega)).symm, hh, trivial, h2⟩, mapping_makeEmit_ne (by have := hr.1; omega)⟩

theorem lineRT_cross {ws : List Nat} {c : Option Common} {adv : Option AdvExt}
    (hl : ws.length = 2) (h : OpOk env ws (.cross c adv)) : LineRT env ws (.cross c adv) := by
  obtain ⟨hh, hr, ha⟩ := h
  obtain ⟨adv', h1, h2⟩ := standardAdv_advList ha
  refine ⟨.cross ((shown ws.sum c).map IntTok.ofInt), ?_, ?_⟩
  · intro lvl
    have hb : headBody env.o lvl (relHead env (ws.map some) (.cross c adv)) =
        cs!"Cross[" ++ (refsText (shown ws.sum c) ++ [']']) := by
      simp [headBody, relHead, totalWidth_some, implicitCols_refs ho.2.2.2 _ _ hr]
    rw [hb]
    apply pRelLine_cross
    simp [pCross, lit, pRefsClose_text]
  · intro kids hk
    obtain ⟨l, r, v, w, rfl⟩ := twoKids hk hl
    subst hk
    simp only [List.map_cons, List.map_nil, List.sum_cons, List.sum_nil, Nat.add_zero] at hr ⊢
    refine ⟨.cross (mkCommon (makeEmit (shown (v + w) c) (v + w))) adv', ?_, ?_⟩
    · simp [convLine, opAddenda, h1, Res.bind, convBody,
        convEmit_text (n := v + w) (InRange.i32 hr), outWidth, directWidth, common]
    · simp only [OpEquiv, List.sum_cons, List.sum_nil, Nat.add_zero]
      exact ⟨⟨(shown_makeEmit (by have := hr.1; omega)).symm, hh, h2⟩, mapping_makeEmit_ne (by have := hr.1; omega)⟩

theorem lineRT_set {ws : List Nat} {c : Option Common} {t : EnumVal SetOp} {adv : Option AdvExt}
    (hl : 2 ≤ ws.length) (h : OpOk env ws (.set c t adv)) : LineRT env ws (.set c t adv) := by
  obtain ⟨hh, ⟨t, rfl, ht⟩, hw, hr, ha⟩ := h
  obtain ⟨adv', h1, h2⟩ := standardAdv_advList ha
  obtain ⟨name, hn1, hn2, hn3⟩ : ∃ name, t.spell = some name ∧ SetOp.ofName (trimAmp (cs!"&" ++ name)) = some t ∧
      firstOf (cs!"&" ++ name) setNames = true := by
    cases t with
    | unspecified => exact absurd rfl ht
    | _ => exact ⟨_, rfl, by decide, by decide⟩
  have hwidth : (if ws.map some = ([] : List (Option Nat)) then 0 else totalWidth (ws.map some) / (ws.map some).length) =
      ws.headD 0 := by
    rw [if_neg (by simp; rintro rfl; simp at hl), totalWidth_some, sum_const hw, List.length_map,
      Nat.mul_div_cancel_left _ (by omega)]
  refine ⟨.set (cs!"&" ++ name) ((shown (ws.headD 0) c).map IntTok.ofInt), ?_, ?_⟩
  · intro lvl
    rw [headBody_tail (n := ws.headD 0) (c := c) ho.2.2.2 lvl _ _ _ rfl rfl (by simp only [relHead, hwidth]) rfl hr]
    have h3 : pFirst setNames ((cs!"&" ++ name) ++ tailText (shown (ws.headD 0) c)) =
        some (cs!"&" ++ name, tailText (shown (ws.headD 0) c)) :=
      pFirst_firstOf hn3 ((nextNot_cons _ _ _).2 (by decide))
    have h4 : (textArgList [textSetOp (.known t)] []).text = cs!"&" ++ name := by
      simp [textArgList, textSetOp, textVariant, hn1, Out.sep]
    rw [h4]
    exact pRelLine_set (pSet_text h3)
  · intro kids hk
    refine ⟨.set (mkCommon (makeEmit (shown (ws.headD 0) c) (ws.headD 0))) (.known t) adv', ?_, ?_⟩
    · have hkl : kids.length = ws.length := by rw [← hk]; simp
      have hc : convSet adv' (kids.map (·.1)) ws (cs!"&" ++ name) ((shown (ws.headD 0) c).map IntTok.ofInt) =
          .ok (.node (.set (mkCommon (makeEmit (shown (ws.headD 0) c) (ws.headD 0))) (.known t) adv')
            (kids.map fun k => some k.1), (shown (ws.headD 0) c).length) := by
        unfold convSet
        rw [if_neg (by simp; omega)]
        cases ws with
        | nil => simp at hl
        | cons w l =>
          have hall : l.all (fun x => decide (x = w)) = true := by
            simp only [List.all_eq_true, decide_eq_true_eq]
            intro x hx
            exact hw x (by simp [hx])
          simp only [List.headD_cons] at hr ⊢
          rw [if_pos hall, hn2]
          simp [grammarName, Res.bind, convEmit_text (n := w) (InRange.i32 hr), Function.comp_def]
      simp only [convLine, opAddenda, h1, Res.bind, hk]
      rw [hc]
      rfl
    · simp only [OpEquiv]
      exact ⟨⟨(shown_makeEmit (by have := hr.1; omega)).symm, hh, trivial, h2⟩, mapping_makeEmit_ne (by have := hr.1; omega)⟩

end

end Verif
