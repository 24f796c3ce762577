import Verif.Proofs.HeadBlock
import Verif.Proofs.RelLine
/-!
# The text of a relation tree, read back
-/

namespace Verif
open ChunkSpec SectionSpec RelSpec StoreSpec TextSpec TreeSpec

set_option autoImplicit false

/-! ### Payloads -/

/-- The payloads of an advanced extension, in the order they are written. -/
def advPays (a : Option AdvExt) : List (AddKind × AnyMsg) :=
  (payloads a).1.toList.map (AddKind.enh, ·) ++ (payloads a).2.map (AddKind.opt, ·)

/-- The payloads below a relation. -/
def opPays : RelOp → List (AddKind × AnyMsg)
  | .read _ _ _ (.extension (some d)) adv _ => (.ext, d) :: advPays adv
  | .read _ _ _ _ adv _ => advPays adv
  | .filter _ _ adv => advPays adv
  | .project _ _ adv => advPays adv
  | .aggregate _ _ _ _ adv => advPays adv
  | .sort _ _ adv => advPays adv
  | .fetch _ _ _ adv => advPays adv
  | .join _ _ _ _ adv => advPays adv
  | .set _ _ adv => advPays adv
  | .cross _ adv => advPays adv
  | .ext .. => []
  | .other _ => []

theorem advList_pays (env : Env) (a : Option AdvExt) :
    advList env a = (advPays a).map fun p => addendumOf env p.1 p.2 := by
  simp [advList, advPays, Function.comp_def]

theorem opAddenda_pays (env : Env) (op : RelOp) :
    opAddenda env op = (opPays op).map fun p => addendumOf env p.1 p.2 := by
  cases op with
  | read c s f t a r =>
    cases t with
    | extension d => cases d <;> simp [opAddenda, opPays, advList_pays]
    | _ => simp [opAddenda, opPays, advList_pays]
  | _ => simp [opAddenda, opPays, advList_pays]

variable [UTab] [FTab]

/-- The text of a payload. -/
def payText (env : Env) (p : AddKind × AnyMsg) : Out :=
  textAddendum env.st env.o p.1 (env.reg.decode p.1.ns p.2 [])

theorem advAddenda_pays (env : Env) (a : Option AdvExt) : advAddenda env a = (advPays a).map (payText env) := by
  cases a with
  | none => rfl
  | some x => simp [advAddenda, advPays, payloads, payText, AddKind.ns, Function.comp_def]

theorem relHead_addenda {env : Env} {ws : List Nat} {op : RelOp} (h : OpOk env ws op) :
    (relHead env (ws.map some) op).addenda = (opPays op).map (payText env) := by
  cases op with
  | read c s f t a r =>
    cases t with
    | extension d =>
      cases d with
      | none => exact (h.2.2.2.1 : False).elim
      | some d => simp [relHead, headRead, opPays, advAddenda_pays, payText, decodeTable, AddKind.ns]
    | _ => simp [relHead, headRead, opPays, advAddenda_pays]
  | ext k c d =>
    obtain ⟨-, -, d, name, args, rfl, hd, -⟩ := h
    have hdec : decodeRel env.reg ws (some d) = .ok (name, args) := hd
    have hws : (ws.map some).filterMap id = ws := by simp
    simp [relHead, headExt, hws, hdec, opPays]
  | other k => cases h
  | aggregate => simp [relHead, headAggregate, opPays, advAddenda_pays]
  | _ => simp [relHead, opPays, advAddenda_pays]

theorem advPays_ok {env : Env} {a : Option AdvExt} (h : AdvOk env a) : ∀ p ∈ advPays a, AddendumOk env p.1 p.2 := by
  cases a with
  | none => intro p hp; simp [advPays, payloads] at hp
  | some x =>
    obtain ⟨h1, h2⟩ := h x rfl
    intro p hp
    simp only [advPays, payloads, List.mem_append, List.mem_map, Option.mem_toList] at hp
    rcases hp with ⟨d, hd, rfl⟩ | ⟨d, hd, rfl⟩
    · exact h1 d hd
    · exact h2 d hd

theorem opPays_ok {env : Env} {ws : List Nat} {op : RelOp} (h : OpOk env ws op) :
    ∀ p ∈ opPays op, AddendumOk env p.1 p.2 := by
  cases op with
  | read c s f t a r =>
    obtain ⟨-, -, -, hr, ha⟩ := h
    cases t with
    | extension d =>
      cases d with
      | none => exact (hr : False).elim
      | some d =>
        intro p hp
        simp only [opPays, List.mem_cons] at hp
        rcases hp with rfl | hp
        · exact hr.2.1
        · exact advPays_ok ha p hp
    | _ => exact advPays_ok ha
  | filter => exact advPays_ok h.2.2.2
  | project => exact advPays_ok h.2.2.2
  | aggregate => exact advPays_ok h.2.2.2
  | sort => exact advPays_ok h.2.2.2.2
  | fetch => exact advPays_ok h.2.2.2.2
  | join => exact advPays_ok h.2.2.2.2
  | set => exact advPays_ok h.2.2.2.2
  | cross => exact advPays_ok h.2.2
  | ext => intro p hp; simp [opPays] at hp
  | other k => cases h

/-! ### Widths -/

theorem emitted_outWidth {env : Env} {ws : List Nat} {op : RelOp} (hl : Arity op ws.length) (h : OpOk env ws op) :
    (relHead env (ws.map some) op).emitted = outWidth env.reg ws op := by
  have hw : ∀ i, widthAt (ws.map some) i = ws.getD i 0 := by
    intro i
    simp only [widthAt, List.getElem?_map, List.getD_eq_getElem?_getD]
    cases ws[i]? <;> rfl
  have key : ∀ (c : Option Common) (n : Nat), (relHead env (ws.map some) op).emit = getEmit c →
      (relHead env (ws.map some) op).columns.length = n →
      (relHead env (ws.map some) op).emitted = (shown n c).length := by
    rintro c n h1 rfl
    exact emitted_shown _ c h1
  cases op with
  | read c s f t a r =>
    obtain ⟨-, -, ⟨cols, rfl, hc⟩, hr, -⟩ := h
    have hlen : (readColumns env.st env.o (some ⟨cols.map (·.1), some ⟨cols.map (·.2), 0, .required⟩⟩)).length =
        cols.length := by
      have := congrArg List.length (readColumns_text env.st env.o cols)
      simpa using this
    unfold outWidth
    apply key
    · cases t <;> rfl
    · cases t <;> simp [relHead, headRead, hlen, directWidth]
  | filter => exact key _ _ rfl (by simp [relHead, length_references, totalWidth_some, directWidth])
  | project => exact key _ _ rfl (by simp [relHead, length_references, totalWidth_some, directWidth])
  | aggregate c gexprs gs ms adv =>
    obtain ⟨-, ⟨hg, -, hm, -⟩, -⟩ := h
    refine key _ _ rfl ?_
    have hd : usesDeprecated gexprs gs = false := by
      unfold usesDeprecated
      split
      · rename_i g _
        simp [(hg g (by simp)).1]
      · rfl
    have hms : ∀ ms : List Measure, (∀ m ∈ ms, MeasureOk env.st m) →
        (ms.filterMap fun m => m.fn.map (textAggFn env.st env.o)).length = ms.length := by
      intro ms
      induction ms with
      | nil => intro _; rfl
      | cons m l ih =>
        intro hm
        obtain ⟨f, args, t, rfl, -⟩ := hm m (by simp)
        simp [ih fun x hx => hm x (by simp [hx])]
    simp [relHead, headAggregate, groupingValues, hd, directWidth, hms ms hm]
  | sort => exact key _ _ rfl (by simp [relHead, length_references, totalWidth_some, directWidth])
  | fetch => exact key _ _ rfl (by simp [relHead, length_references, totalWidth_some, directWidth])
  | join c t e p a =>
    obtain ⟨-, ⟨t, rfl, -⟩, -⟩ := h
    exact key _ _ rfl (by simp only [relHead, length_references, directWidth, hw, EnumVal.joinType, joinColumns_eq])
  | set c t a =>
    obtain ⟨-, -, hsame, -⟩ := h
    refine key _ _ rfl ?_
    have hne : ws ≠ [] := by rintro rfl; simp [Arity] at hl
    simp only [relHead, length_references, directWidth]
    rw [if_neg (by simpa using hne), totalWidth_some, sum_const hsame, List.length_map,
      Nat.mul_div_cancel_left _ (List.length_pos_iff.2 hne)]
  | cross => exact key _ _ rfl (by simp [relHead, length_references, totalWidth_some, directWidth])
  | ext k c d =>
    obtain ⟨-, hm, d, name, args, rfl, hd, -⟩ := h
    have hdec : decodeRel env.reg ws (some d) = .ok (name, args) := hd
    have hws : (ws.map some).filterMap id = ws := by simp
    simp [relHead, headExt, hws, hdec, outWidth, directWidth, hd, common, shown, hm, Head.emitted, identity]
  | other k => cases h

/-! ### Trees -/

theorem addendumBlock {env : Env} (hst : env.st.Ordered) (ho : Readable env.o) {p : AddKind × AnyMsg}
    (h : AddendumOk env p.1 p.2) {tree : SAddendum} (ht : pAddendum (payText env p).text = some (tree, [])) (lvl : Nat) :
    IsBlock planLang (lvl + 1) (.addendum tree) (indentAt env.o (lvl + 1) ++ (payText env p).text) := by
  have hf : Flat (payText env p).text := flat_addendum hst ho.1 h
  have hx : ∃ s, (payText env p).text = '+' :: s ++ [']'] := by
    obtain ⟨name, args, h1, -, -, hc, -⟩ := h
    refine ⟨' ' :: (p.1.spell ++ cs!":" ++ name ++ cs!"[" ++ (textExtArgs env.st env.o args).text), ?_⟩
    simp [payText, h1, textAddendum, hc]
  obtain ⟨s, hs⟩ := hx
  rw [indentAt_spaces ho.2.2.1]
  refine ⟨⟨'+', s ++ [']'], [], by rw [hs]; rfl, by decide, by decide, by decide, by rw [hs] at hf; exact hf, by simp⟩,
    ⟨List.replicate (2 * (lvl + 1)) ' ' ++ '+' :: s, by rw [hs]; simp⟩, _, rfl, ?_⟩
  rw [if_neg (by omega)]
  show nodeLine _ = _
  have hnone : pRelLine (payText env p).text = none := by
    rw [hs]
    simp [pRelLine, pReadExt, pReadVirtual, pRead, pFilter, pProject, pAggregate, pSort, pFetch, pJoin, pSet, pCross,
      pExtRel, pExtKind, lit]
  simp only [nodeLine, hnone, ht]
  rfl

/-- Blocks of the plan section. -/
def PlanBlocks (t : Str) (es : List (Nat × LineNode SLine SAddendum)) : Prop := Blocks planLang t es

omit [UTab] [FTab] in
theorem PlanBlocks.to {t t' : Str} {es es' : List (Nat × LineNode SLine SAddendum)} (h : PlanBlocks t es) (ht : t = t')
    (he : es = es') : PlanBlocks t' es' := by
  subst ht he
  exact h

omit [UTab] [FTab] in
theorem PlanBlocks.and {t t' : Str} {es es' : List (Nat × LineNode SLine SAddendum)} (h : PlanBlocks t es)
    (h' : PlanBlocks t' es') : PlanBlocks (t ++ '\n' :: t') (es ++ es') := Blocks.append h h'

omit [UTab] [FTab] in
theorem PlanBlocks.single {d : Nat} {n : LineNode SLine SAddendum} {t : Str} (h : IsBlock planLang d n t) :
    PlanBlocks t [(d, n)] := Blocks.one h

/-- A relation tree whose text reads back as an equivalent one. -/
def TreeRT (env : Env) (r : Rel) : Prop :=
  ∃ (node : RNode SLine SAddendum) (r' : Rel), convNode env.st env.reg node = .ok (r', width env.reg r) ∧
    (Equiv env.reg r r' ∧ NeatTo env.reg r r') ∧ relWidth env r = width env.reg r ∧
    ∀ lvl, PlanBlocks (textRel env lvl r).text (listing lvl node)

omit [UTab] in
theorem convKids_map {st : Store} {reg : Registry ExtArgs (List Nat)} {α : Type} (l : List α)
    (node : α → RNode SLine SAddendum) (kid : α → Rel × Nat) (h : ∀ a ∈ l, convNode st reg (node a) = .ok (kid a)) :
    convKids st reg (l.map node) = .ok (l.map kid) := by
  induction l with
  | nil => simp [convKids]
  | cons a l ih => simp [convKids, h a (by simp), ih fun x hx => h x (by simp [hx]), Res.bind]

omit [UTab] in
theorem convAddenda_map {st : Store} {α : Type} (l : List α) (tree : α → SAddendum) (add : α → Addendum)
    (h : ∀ a ∈ l, convExtArgs st (tree a).args [] = .ok (add a).args ∧ (tree a).kind = (add a).kind ∧
      (tree a).name = (add a).name) : convAddenda st (l.map tree) = .ok (l.map add) := by
  induction l with
  | nil => simp [convAddenda]
  | cons a l ih =>
    obtain ⟨h1, h2, h3⟩ := h a (by simp)
    simp [convAddenda, h1, h2, h3, plain, ih fun x hx => h x (by simp [hx]), Res.bind]

theorem blocks_addenda {env : Env} (hst : env.st.Ordered) (ho : Readable env.o) (lvl : Nat)
    (tree : AddKind → AnyMsg → SAddendum) (l : List (AddKind × AnyMsg))
    (h : ∀ p ∈ l, AddendumOk env p.1 p.2 ∧ pAddendum (payText env p).text = some (tree p.1 p.2, []))
    {t : Str} {es : List (Nat × LineNode SLine SAddendum)} (ht : PlanBlocks t es) :
    PlanBlocks (t ++ (textAddenda (indentAt env.o (lvl + 1)) (l.map (payText env))).text)
      (es ++ l.map fun p => (lvl + 1, .addendum (tree p.1 p.2))) := by
  induction l generalizing t es with
  | nil =>
    show PlanBlocks (t ++ []) (es ++ ([] : List (Nat × LineNode SLine SAddendum)))
    rw [List.append_nil, List.append_nil]
    exact ht
  | cons p l ih =>
    obtain ⟨h1, h2⟩ := h p (by simp)
    have hb := ht.and (.single (n := LineNode.addendum (ρ := SLine) (α := SAddendum) (tree p.1 p.2)) (addendumBlock hst ho h1 h2 lvl))
    have := ih (fun x hx => h x (by simp [hx])) hb
    exact this.to (by simp [textAddenda]) (by simp)

theorem blocks_inputs {env : Env} (lvl : Nat) {α : Type} (l : List α) (rel : α → Rel) (node : α → RNode SLine SAddendum)
    (h : ∀ a ∈ l, PlanBlocks (textRel env lvl (rel a)).text (listing lvl (node a)))
    {t : Str} {es : List (Nat × LineNode SLine SAddendum)} (ht : PlanBlocks t es) :
    PlanBlocks (t ++ (textInputs env lvl (l.map fun a => some (rel a))).text) (es ++ listings lvl (l.map node)) := by
  induction l generalizing t es with
  | nil =>
    simp only [List.map_nil, textInputs, listings]
    show PlanBlocks (t ++ []) (es ++ ([] : List (Nat × LineNode SLine SAddendum)))
    rw [List.append_nil, List.append_nil]
    exact ht
  | cons a l ih =>
    have := ih (fun x hx => h x (by simp [hx])) (ht.and (h a (by simp)))
    exact this.to (by simp [textInputs]) (by simp [listings])

theorem inputWidths_rels {env : Env} (l : List Rel) (h : ∀ r ∈ l, relWidth env r = width env.reg r) :
    inputWidths env (l.map some) = (l.map (width env.reg)).map some := by
  induction l with
  | nil => simp [inputWidths]
  | cons r l ih => simp [inputWidths, h r (by simp), ih fun x hx => h x (by simp [hx])]

theorem treeRT (hA : AsciiPrintable) {env : Env} (hst : env.st.Ordered) (ho : Readable env.o) {r : Rel}
    (h : Supported env r) : TreeRT env r := by
  induction h with
  | node op inputs hl _ hop ih =>
    have hq : ∃ qs : List (Rel × RNode SLine SAddendum × Rel), inputs = qs.map (·.1) ∧
        ∀ q ∈ qs, convNode env.st env.reg q.2.1 = .ok (q.2.2, width env.reg q.1) ∧ (Equiv env.reg q.1 q.2.2 ∧ NeatTo env.reg q.1 q.2.2) ∧
          relWidth env q.1 = width env.reg q.1 ∧
          ∀ lvl, PlanBlocks (textRel env lvl q.1).text (listing lvl q.2.1) := by
      clear hl hop
      rename_i hs
      clear hs
      induction inputs with
      | nil => exact ⟨[], rfl, by simp⟩
      | cons r l ih2 =>
        obtain ⟨qs, h1, h2⟩ := ih2 fun x hx => ih x (by simp [hx])
        obtain ⟨node, r', h3⟩ := ih r (by simp)
        refine ⟨(r, node, r') :: qs, by simp [h1], ?_⟩
        intro q hq
        rcases List.mem_cons.1 hq with rfl | hq
        · exact h3
        · exact h2 q hq
    obtain ⟨qs, rfl, hqs⟩ := hq
    have hws : (qs.map (·.1)).map (width env.reg) = qs.map fun q => width env.reg q.1 := by simp
    rw [hws] at hop
    have hl' : Arity op (qs.map fun q => width env.reg q.1).length := by simpa using hl
    obtain ⟨line, hline, hconv⟩ := lineRT hA hst ho hl' hop
    obtain ⟨op', hc, heq, hneat⟩ := hconv (qs.map fun q => (q.2.2, width env.reg q.1)) (by simp)
    obtain ⟨tree, htree⟩ := addTrees (env := env) hA hst ho
    have hpay : ∀ p ∈ opPays op, AddendumOk env p.1 p.2 ∧ pAddendum (payText env p).text = some (tree p.1 p.2, []) := by
      intro p hp
      have h1 := opPays_ok hop p hp
      refine ⟨h1, ?_⟩
      have := (htree p.1 p.2 h1).2.2.2 []
      rwa [List.append_nil] at this
    have hin : inputWidths env ((qs.map (·.1)).map some) = (qs.map fun q => width env.reg q.1).map some := by
      rw [inputWidths_rels, hws]
      intro r hr
      obtain ⟨q, hq, rfl⟩ := List.mem_map.1 hr
      exact (hqs q hq).2.2.1
    have hwid : width env.reg (.node op ((qs.map (·.1)).map some)) =
        outWidth env.reg (qs.map fun q => width env.reg q.1) op := by
      have : ∀ l : List Rel, widths env.reg (l.map some) = l.map (width env.reg) := by
        intro l
        induction l with
        | nil => simp [widths]
        | cons a l ih => simp [widths, ih]
      rw [width, this, hws]
    refine ⟨.mk line ((opPays op).map fun p => tree p.1 p.2) (qs.map (·.2.1)),
      .node op' (qs.map fun q => some q.2.2), ?_, ?_, ?_, ?_⟩
    · rw [convNode, convKids_map qs (·.2.1) (fun q => (q.2.2, width env.reg q.1)) fun q hq => (hqs q hq).1]
      simp only [Res.bind]
      rw [convAddenda_map (opPays op) (fun p => tree p.1 p.2) (fun p => addendumOf env p.1 p.2)]
      · simp only [← opAddenda_pays]
        rw [hc, hwid]
        simp
      · intro p hp
        obtain ⟨h1, h2, h3, -⟩ := htree p.1 p.2 (hpay p hp).1
        obtain ⟨n, a, h4, -⟩ := addendumOf_ok (hpay p hp).1
        exact ⟨h3, by rw [h1, h4], h2⟩
    · have g1 := Equiv.node (reg := env.reg) op op' (qs.map fun q => (q.1, q.2.2)) (by
        intro p hp
        obtain ⟨q, hq, rfl⟩ := List.mem_map.1 hp
        exact (hqs q hq).2.1.1) (by simpa [Function.comp_def] using heq)
      have g2 := NeatTo.node (reg := env.reg) op op' (qs.map fun q => (q.1, q.2.2)) (by
        intro p hp
        obtain ⟨q, hq, rfl⟩ := List.mem_map.1 hp
        exact (hqs q hq).2.1.2) (by simpa [Function.comp_def] using hneat)
      exact ⟨by simpa [Function.comp_def] using g1, by simpa [Function.comp_def] using g2⟩
    · rw [hwid, relWidth, hin]
      exact emitted_outWidth hl' hop
    · intro lvl
      rw [textRel, hin]
      have h1 := headBlock ho (flatHead hst ho hop) lvl (hline lvl)
      have h2 := blocks_addenda hst ho lvl tree (opPays op) hpay (.single (n := LineNode.relation (ρ := SLine) (α := SAddendum) line) h1)
      have h3 := blocks_inputs (lvl + 1) qs (·.1) (·.2.1) (fun q hq => (hqs q hq).2.2.2 (lvl + 1)) h2
      simp only [listing]
      have hkeep : (if op.keepsInputs then textInputs env (lvl + 1) ((qs.map (·.1)).map some) else Out.s []).text =
          (textInputs env (lvl + 1) (qs.map fun q => some q.1)).text := by
        cases hk : op.keepsInputs with
        | true => simp [Function.comp_def]
        | false =>
          cases op <;> simp_all [RelOp.keepsInputs, Arity, textInputs]
      rw [Out.text_append, Out.text_append, hkeep, relHead_addenda hop]
      exact h3.to (by simp) (by simp [Function.comp_def])

end Verif
