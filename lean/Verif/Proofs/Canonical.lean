import Verif.Proofs.Complete
import Verif.Spec.Exact
/-!
# Equivalent plans have the same text
-/

namespace Verif
open StoreSpec TextSpec RelSpec PlanSpec ExactSpec

set_option autoImplicit false

variable [UTab] [FTab]

/-- Two headers that are written alike. -/
structure SameHead (o : Opts) (h h' : Head) : Prop where
  name : h.name = h'.name
  args : h.args = h'.args
  cols : implicitCols o h.columns h.emit = implicitCols o h'.columns h'.emit
  output : textOutput o h = textOutput o h'
  addenda : h.addenda = h'.addenda

omit [UTab] [FTab] in
theorem SameHead.header {o : Opts} {h h' : Head} (s : SameHead o h h') (lvl : Nat) : textHeader o lvl h = textHeader o lvl h' := by
  unfold textHeader
  rw [s.name, s.args, s.cols, s.output]

omit [UTab] [FTab] in
theorem length_implicitCols {o : Opts} (ho : o.showEmit = false) (h : Head) :
    (implicitCols o h.columns h.emit).length = h.emitted := by
  unfold implicitCols Head.emitted
  rw [if_neg (by simp [ho])]
  cases h.emit with
  | none => rfl
  | some e => cases e <;> simp

omit [UTab] [FTab] in
theorem SameHead.emitted {o : Opts} (ho : o.showEmit = false) {h h' : Head} (s : SameHead o h h') : h.emitted = h'.emitted := by
  rw [← length_implicitCols ho, ← length_implicitCols ho, s.cols]

omit [UTab] [FTab] in
theorem SameHead.implicit {o : Opts} {h h' : Head} (h1 : h.name = h'.name) (h2 : h.args = h'.args)
    (h3 : implicitCols o h.columns h.emit = implicitCols o h'.columns h'.emit) (h4 : h.explicit = false)
    (h5 : h'.explicit = false) (h6 : h.addenda = h'.addenda) : SameHead o h h' := by
  refine ⟨h1, h2, h3, ?_, h6⟩
  unfold textOutput
  simp only [h4, h5, Bool.false_eq_true, if_false, h3]

omit [UTab] [FTab] in
theorem at?_map {α β : Type} (f : α → β) (l : List α) (i : Int) : at? (l.map f) i = (at? l i).map f := by
  unfold at?
  split <;> simp

omit [UTab] [FTab] in
/-- The columns written are those put out. -/
theorem implicitCols_shown {α : Type} {o : Opts} (ho : o.showEmit = false) (f : α → Out) (d : List α) (c : Option Common) :
    implicitCols o (d.map f) (getEmit c) =
      ((shown d.length c).map (at? d)).map fun x => Out.expect cs!"Emitted" (x.map f) := by
  unfold implicitCols
  rw [if_neg (by simp [ho])]
  rcases getEmit_mapping c with ⟨m, h1, h2⟩ | ⟨h1, h2⟩
  · rw [h1]
    simp only [shown, h2, Option.getD_some, List.map_map]
    apply List.map_congr_left
    intro i _
    simp only [Function.comp, ← at?_map]
    congr 1
    unfold getCol at?
    by_cases h : i < 0
    · rw [if_pos h, if_neg (by omega)]
    · rw [if_neg h, if_pos (by omega)]
  · have hid : d.map f = ((identity d.length).map (at? d)).map fun x => Out.expect cs!"Emitted" (x.map f) := by
      apply List.ext_getElem
      · simp [identity]
      · intro i h3 h4
        have h5 : i < d.length := by simpa using h3
        simp [identity, at?, List.getElem?_eq_getElem h5, Out.expect]
    simp only [shown, h2, Option.getD_none]
    rcases h1 with h1 | h1 <;> rw [h1] <;> exact hid

omit [UTab] [FTab] in
theorem implicitCols_same {α : Type} {o : Opts} (ho : o.showEmit = false) (f : α → Out) {d d' : List α} {c c' : Option Common}
    (h : SameOutputs d d' c c') : implicitCols o (d.map f) (getEmit c) = implicitCols o (d'.map f) (getEmit c') := by
  rw [implicitCols_shown ho, implicitCols_shown ho]
  unfold SameOutputs at h
  rw [h]

omit [UTab] [FTab] in
theorem implicitCols_same_refs {o : Opts} (ho : o.showEmit = false) (n : Nat) {c c' : Option Common}
    (h : shown n c = shown n c') : implicitCols o (references n) (getEmit c) = implicitCols o (references n) (getEmit c') := by
  refine implicitCols_same ho (fun (i : Nat) => textRef (wrap32 i)) (d := List.range n) (d' := List.range n) ?_
  unfold SameOutputs
  rw [List.length_range, h]

theorem advAddenda_same (env : Env) {a a' : Option AdvExt} (h : payloads a = payloads a') : advAddenda env a = advAddenda env a' := by
  have key : ∀ a : Option AdvExt, advAddenda env a = ((payloads a).1.toList.map fun d =>
      textAddendum env.st env.o .enh (env.reg.decode .enhancement d [])) ++
      (payloads a).2.map fun d => textAddendum env.st env.o .opt (env.reg.decode .optimization d []) := by
    intro a
    cases a <;> rfl
  rw [key, key, h]

/-! ## Each relation -/

omit [UTab] [FTab] in
theorem mapping_cases {c c' : Option Common} (h : mapping c = mapping c') :
    (∃ m, getEmit c = some (.emit m) ∧ getEmit c' = some (.emit m)) ∨
      ((getEmit c = none ∨ getEmit c = some .direct) ∧ (getEmit c' = none ∨ getEmit c' = some .direct)) := by
  have key : ∀ c : Option Common, (∃ m, getEmit c = some (.emit m) ∧ mapping c = some m) ∨
      ((getEmit c = none ∨ getEmit c = some .direct) ∧ mapping c = none) := by
    intro c
    unfold mapping getEmit
    cases h : c.bind (·.emit) with
    | none => exact .inr ⟨.inl rfl, rfl⟩
    | some e => cases e with
      | direct => exact .inr ⟨.inr rfl, rfl⟩
      | emit m => exact .inl ⟨m, rfl, rfl⟩
  rcases key c with ⟨m, h1, h2⟩ | ⟨h1, h2⟩ <;> rcases key c' with ⟨m', h3, h4⟩ | ⟨h3, h4⟩
  · rw [h2, h4] at h
    cases h
    exact .inl ⟨m, h1, h3⟩
  · rw [h2, h4] at h; cases h
  · rw [h2, h4] at h; cases h
  · exact .inr ⟨h1, h3⟩

omit [UTab] [FTab] in
theorem Out.append_empty (a : Out) : a ++ Out.s [] = a := by
  obtain ⟨t, e⟩ := a
  show Out.mk (t ++ []) (e ++ []) = _
  rw [List.append_nil, List.append_nil]

theorem textCount_amount {st : Store} {o : Opts} (c : Count) (ho : o.litTypes = .required ∨ ∀ i, c ≠ .deprecated i) :
    textCount st o c = textExpr st o (amount c) := by
  cases c with
  | expr e => rfl
  | deprecated i =>
    have ho := ho.resolve_right fun h => h i rfl
    simp [textCount, amount, number, textExpr, textLit, showSuffix, ho, textValue, Lit.isDefault]
    exact (Out.append_empty _).symm

theorem sameHead {env : Env} (ho : env.o.showEmit = false) {ws : List Nat} {op op' : RelOp}
    (hl : env.o.litTypes = .required ∨ (¬ OldOp op ∧ ¬ OldOp op')) (h : OpOk env ws op) (he : OpEquiv env.reg ws op op') :
    SameHead env.o (relHead env (ws.map some) op) (relHead env (ws.map some) op') ∧ op.keepsInputs = op'.keepsInputs := by
  cases op with
  | read c s f t a r =>
    cases op' with
    | read c' s' f' t' a' r' =>
      obtain ⟨h1, h2, rfl, rfl, rfl, h3, rfl⟩ := he
      refine ⟨?_, rfl⟩
      have h4 := advAddenda_same env h3
      have h5 : ∀ cols : List Out, implicitCols env.o cols (getEmit c) = implicitCols env.o cols (getEmit c') := by
        intro cols
        unfold implicitCols
        rcases mapping_cases h1 with ⟨m, h6, h7⟩ | ⟨h6 | h6, h7 | h7⟩ <;> rw [h6, h7]
      cases t with
      | named n k =>
        refine ⟨rfl, rfl, h5 _, ?_, h4⟩
        rcases mapping_cases h1 with ⟨m, h6, h7⟩ | ⟨h6 | h6, h7 | h7⟩ <;> simp [relHead, headRead, textOutput, implicitCols, h6, h7]
      | «virtual» rows k => exact .implicit rfl rfl (h5 _) rfl rfl h4
      | extension d =>
        refine .implicit rfl rfl (h5 _) rfl rfl ?_
        simp only [relHead, headRead, h4]
      | other => exact .implicit rfl rfl (h5 _) rfl rfl h4
    | _ => cases he
  | filter c e a =>
    cases op' with
    | filter c' e' a' =>
      obtain ⟨h1, h2, rfl, h3⟩ := he
      refine ⟨.implicit rfl rfl ?_ rfl rfl (advAddenda_same env h3), rfl⟩
      simp only [relHead, totalWidth_some]
      exact implicitCols_same_refs ho _ h1
    | _ => cases he
  | project c es a =>
    cases op' with
    | project c' es' a' =>
      obtain ⟨h1, h2, h3⟩ := he
      refine ⟨.implicit rfl rfl ?_ rfl rfl (advAddenda_same env h3), rfl⟩
      obtain ⟨-, -, hr, -⟩ := h
      have hb := hr.1
      have hc : ∀ es : List Expr, references ws.sum ++ es.map (textExpr env.st env.o) =
          (projectColumns ws.sum es).map (textExpr env.st env.o) := by
        intro es
        simp only [projectColumns, List.map_append, references, List.map_map]
        refine congrArg (· ++ _) (List.map_congr_left ?_)
        intro i hi
        have : i < ws.sum := List.mem_range.1 hi
        rw [wrap32_small (by omega)]
        rfl
      simp only [relHead, totalWidth_some, hc]
      exact implicitCols_same ho _ h1
    | _ => cases he
  | aggregate c g gs ms a =>
    cases op' with
    | aggregate c' g' gs' ms' a' =>
      obtain ⟨h1, h2, h3, h4, h5, h6⟩ := he
      have hd : ∀ (g : List Expr) (gs : List Grouping), (∀ x ∈ gs, x.exprs = []) →
          groupingValues env.st env.o g gs = (g.map (textExpr env.st env.o),
            (groupSets g gs).map (·.map fun x => Out.expect cs!"AggregateRel" (x.map (textExpr env.st env.o)))) := by
        intro g gs hgs
        simp only [groupingValues, usesDeprecated_false hgs, Bool.false_eq_true, if_false, groupSets]
        congr 1
        split
        · rfl
        · simp [setOf, Function.comp_def]
      have hm : ∀ ms : List Measure, (∀ m ∈ ms, m.fn ≠ none) → (ms.filterMap fun m => m.fn.map (textAggFn env.st env.o)) =
          ms.map fun m => Out.expect [] (m.fn.map (textAggFn env.st env.o)) := by
        intro ms
        induction ms with
        | nil => intro _; rfl
        | cons m l ih =>
          intro h
          have := ih fun x hx => h x (by simp [hx])
          cases hf : m.fn with
          | none => exact absurd hf (h m (by simp))
          | some f => simp [hf, this, Out.expect]
      have hcol : ∀ (g : List Expr) (ms : List Measure), g.map (textExpr env.st env.o) ++
          (ms.map fun m => Out.expect [] (m.fn.map (textAggFn env.st env.o))) =
          (aggColumns g ms).map fun
            | .key e => textExpr env.st env.o e
            | .measure m => Out.expect [] (m.fn.map (textAggFn env.st env.o)) := by
        intro g ms
        simp only [aggColumns, List.map_append, List.map_map]
        rfl
      refine ⟨.implicit rfl ?_ ?_ rfl rfl (advAddenda_same env h6), rfl⟩
      · simp only [relHead, headAggregate]
        rw [hd g gs fun x hx => h4 x (by simp [hx]), hd g' gs' fun x hx => h4 x (by simp [hx]), h1]
      · simp only [relHead, headAggregate]
        rw [hd g gs fun x hx => h4 x (by simp [hx]), hd g' gs' fun x hx => h4 x (by simp [hx]),
          hm ms fun x hx => h3 x (by simp [hx]), hm ms' fun x hx => h3 x (by simp [hx])]
        simp only [hcol]
        exact implicitCols_same ho _ h2
    | _ => cases he
  | sort c l a =>
    cases op' with
    | sort c' l' a' =>
      obtain ⟨h1, h2, rfl, h3⟩ := he
      refine ⟨.implicit rfl rfl ?_ rfl rfl (advAddenda_same env h3), rfl⟩
      simp only [relHead, totalWidth_some]
      exact implicitCols_same_refs ho _ h1
    | _ => cases he
  | fetch c l o a =>
    cases op' with
    | fetch c' l' o' a' =>
      obtain ⟨h1, h2, h3, h4, h5⟩ := he
      have key : ∀ (n : Str) (x : Option Count), (env.o.litTypes = .required ∨ ∀ i, x ≠ some (.deprecated i)) →
          (x.toList.map fun c => textNamedArg n (textCount env.st env.o c)) =
          ((x.map amount).toList.map fun e => textNamedArg n (textExpr env.st env.o e)) := by
        intro n x hx
        cases x with
        | none => rfl
        | some x =>
          simp only [Option.toList_some, List.map_cons, List.map_nil, Option.map_some]
          rw [textCount_amount x (hx.imp id fun h i hi => h i (by rw [hi]))]
      have k1 := fun n => key n l (hl.imp id fun h i hi => h.1 (by rw [hi]; exact .count _ _ _ _))
      have k2 := fun n => key n o (hl.imp id fun h i hi => h.1 (by rw [hi]; exact .offset _ _ _ _))
      have k3 := fun n => key n l' (hl.imp id fun h i hi => h.2 (by rw [hi]; exact .count _ _ _ _))
      have k4 := fun n => key n o' (hl.imp id fun h i hi => h.2 (by rw [hi]; exact .offset _ _ _ _))
      refine ⟨.implicit rfl ?_ ?_ rfl rfl (advAddenda_same env h5), rfl⟩
      · simp only [relHead, k1, k2, k3, k4, h3, h4]
      · simp only [relHead, totalWidth_some]
        exact implicitCols_same_refs ho _ h1
    | _ => cases he
  | join c t e p a =>
    cases op' with
    | join c' t' e' p' a' =>
      obtain ⟨h1, h2, rfl, rfl, rfl, h3⟩ := he
      refine ⟨.implicit rfl rfl ?_ rfl rfl (advAddenda_same env h3), rfl⟩
      obtain ⟨-, ⟨t, rfl, -⟩, -⟩ := h
      have hw : ∀ i, widthAt (ws.map some) i = ws.getD i 0 := by
        intro i
        simp only [widthAt, List.getElem?_map, List.getD_eq_getElem?_getD]
        cases ws[i]? <;> rfl
      simp only [relHead, hw, EnumVal.joinType]
      simp only [directWidth, joinColumns_eq] at h1
      exact implicitCols_same_refs ho _ h1
    | _ => cases he
  | set c t a =>
    cases op' with
    | set c' t' a' =>
      obtain ⟨h1, h2, rfl, h3⟩ := he
      refine ⟨.implicit rfl rfl ?_ rfl rfl (advAddenda_same env h3), rfl⟩
      obtain ⟨-, -, hsame, -⟩ := h
      simp only [relHead]
      have : (if ws.map some = [] then 0 else totalWidth (ws.map some) / (ws.map some).length) = ws.headD 0 := by
        by_cases hne : ws = []
        · simp [hne]
        · rw [if_neg (by simpa using hne), totalWidth_some, sum_const hsame, List.length_map,
            Nat.mul_div_cancel_left _ (List.length_pos_iff.2 hne)]
      rw [this]
      exact implicitCols_same_refs ho _ h1
    | _ => cases he
  | cross c a =>
    cases op' with
    | cross c' a' =>
      obtain ⟨h1, h2, h3⟩ := he
      refine ⟨.implicit rfl rfl ?_ rfl rfl (advAddenda_same env h3), rfl⟩
      simp only [relHead, totalWidth_some]
      exact implicitCols_same_refs ho _ h1
    | _ => cases he
  | ext k c d =>
    cases op' with
    | ext k' c' d' =>
      obtain ⟨rfl, h1, h2, rfl⟩ := he
      exact ⟨⟨rfl, rfl, rfl, rfl, rfl⟩, rfl⟩
    | _ => cases he
  | other r => cases h

/-! ## Trees -/

theorem supported_node {env : Env} {op : RelOp} {ins : List (Option Rel)} (h : Supported env (.node op ins)) :
    ∃ l : List Rel, ins = l.map some ∧ (∀ r ∈ l, Supported env r) ∧ OpOk env (l.map (width env.reg)) op := by
  generalize hr : Rel.node op ins = r at h
  cases h with
  | node op' l hl hs ho =>
    cases hr
    exact ⟨l, rfl, hs, ho⟩

theorem sameTree (hA : AsciiPrintable) {env : Env} (hst : env.st.Ordered) (ho : Readable env.o)
    {r r' : Rel} (he : Equiv env.reg r r') : Supported env r → (env.o.litTypes = .required ∨ (¬ OldRel r ∧ ¬ OldRel r')) →
      (∀ lvl, textRel env lvl r' = textRel env lvl r) ∧ relWidth env r' = relWidth env r := by
  induction he with
  | node op op' inputs hqs hop ih =>
    intro hs hl
    obtain ⟨l, h1, h2, h3⟩ := supported_node hs
    have hl' : l = inputs.map (·.1) := by
      have : (inputs.map (·.1)).map some = l.map some := by rw [← h1]; simp
      exact ((List.map_inj_right (by intro a b h; exact Option.some.inj h)).1 this).symm
    subst hl'
    have hsup : ∀ p ∈ inputs, Supported env p.1 := fun p hp => h2 _ (List.mem_map_of_mem hp)
    have hmod : ∀ p ∈ inputs, env.o.litTypes = .required ∨ (¬ OldRel p.1 ∧ ¬ OldRel p.2) := by
      intro p hp
      exact hl.imp id fun h => ⟨fun h' => h.1 (.under _ _ _ (List.mem_map_of_mem hp) h'),
        fun h' => h.2 (.under _ _ _ (List.mem_map_of_mem hp) h')⟩
    have hmodOp : env.o.litTypes = .required ∨ (¬ OldOp op ∧ ¬ OldOp op') :=
      hl.imp id fun h => ⟨fun h' => h.1 (.here _ _ h'), fun h' => h.2 (.here _ _ h')⟩
    clear hl
    have hw : ∀ p ∈ inputs, relWidth env p.1 = width env.reg p.1 := by
      intro p hp
      obtain ⟨_, _, _, _, h, _⟩ := treeRT hA hst ho (hsup p hp)
      exact h
    have hws : inputWidths env (inputs.map fun p => some p.1) = (inputs.map fun p => width env.reg p.1).map some := by
      have : (inputs.map fun p => some p.1) = (inputs.map (·.1)).map some := by simp
      rw [this, inputWidths_rels]
      · simp
      · intro r hr
        obtain ⟨p, hp, rfl⟩ := List.mem_map.1 hr
        exact hw p hp
    have hws' : inputWidths env (inputs.map fun p => some p.2) = (inputs.map fun p => width env.reg p.1).map some := by
      rw [← hws]
      clear hqs hop h1 h2 h3 hs hws
      induction inputs with
      | nil => rfl
      | cons p l ih' =>
        simp only [List.map_cons, inputWidths]
        rw [(ih p (by simp) (hsup p (by simp)) (hmod p (by simp))).2, ih' (fun q hq => ih q (by simp [hq])) (fun q hq => hsup q (by simp [hq]))
          (fun q hq => hmod q (by simp [hq])) (fun q hq => hw q (by simp [hq]))]
    rw [List.map_map] at h3
    obtain ⟨hsame₀, hkeep⟩ := sameHead ho.2.2.2 hmodOp h3 hop
    have hsame : SameHead env.o (relHead env ((inputs.map fun p => width env.reg p.1).map some) op)
      (relHead env ((inputs.map fun p => width env.reg p.1).map some) op') := hsame₀
    constructor
    · intro lvl
      rw [textRel, textRel, hws, hws', hsame.header, hsame.addenda, hkeep]
      have hin : ∀ lvl, textInputs env lvl (inputs.map fun p => some p.2) = textInputs env lvl (inputs.map fun p => some p.1) := by
        intro lvl
        clear hqs hop h1 h2 h3 hs hws hws' hsame hsame₀
        induction inputs with
        | nil => rfl
        | cons p l ih' =>
          simp only [List.map_cons, textInputs]
          rw [(ih p (by simp) (hsup p (by simp)) (hmod p (by simp))).1, ih' (fun q hq => ih q (by simp [hq])) (fun q hq => hsup q (by simp [hq]))
            (fun q hq => hmod q (by simp [hq])) (fun q hq => hw q (by simp [hq]))]
      rw [hin]
    · rw [relWidth, relWidth, hws, hws', hsame.emitted ho.2.2.2]

theorem sameTop (hA : AsciiPrintable) {env : Env} (hst : env.st.Ordered) (ho : Readable env.o)
    {r r' : PlanRel} (hl : env.o.litTypes = .required ∨ (¬ OldTop r ∧ ¬ OldTop r')) (he : TopEquiv env.reg r r') (h : TopOk env r) : textPlanRel env r' = textPlanRel env r := by
  cases he with
  | rel r r' he => exact (sameTree hA hst ho he h (hl.imp id fun h => ⟨fun x => h.1 (.rel _ x), fun x => h.2 (.rel _ x)⟩)).1 0
  | root names r r' he =>
    simp only [textPlanRel]
    rw [(sameTree hA hst ho he h.2 (hl.imp id fun h => ⟨fun x => h.1 (.root _ _ x), fun x => h.2 (.root _ _ x)⟩)).1 1]

theorem sameTops (hA : AsciiPrintable) {env : Env} (hst : env.st.Ordered) (ho : Readable env.o)
    (l : List (PlanRel × PlanRel)) (hl : ∀ q ∈ l, env.o.litTypes = .required ∨ (¬ OldTop q.1 ∧ ¬ OldTop q.2)) (he : ∀ q ∈ l, TopEquiv env.reg q.1 q.2) (h : ∀ q ∈ l, TopOk env q.1) :
    textPlanRels env (l.map (·.2)) = textPlanRels env (l.map (·.1)) := by
  induction l with
  | nil => rfl
  | cons q l ih =>
    have h1 := sameTop hA hst ho (hl q (by simp)) (he q (by simp)) (h q (by simp))
    have h2 := ih (fun x hx => hl x (by simp [hx])) (fun x hx => he x (by simp [hx])) (fun x hx => h x (by simp [hx]))
    cases l with
    | nil => simpa [textPlanRels] using h1
    | cons x l =>
      simp only [List.map_cons, textPlanRels] at h2 ⊢
      rw [h1, h2]

omit [UTab] [FTab] in
theorem writeVersion_kept (indent : Str) (v : Option Version)
    (h : ∀ x, v = some x → (x.producer ≠ [] → trim x.producer ≠ []) ∧ (x.gitHash ≠ [] → trim x.gitHash ≠ [])) :
    writeVersion indent (keptVersion v) = writeVersion indent v := by
  cases v with
  | none => rfl
  | some x =>
    obtain ⟨h1, h2⟩ := h x rfl
    by_cases hx : x = Version.empty
    · have : keptVersion (some x) = none := by simp only [keptVersion]; exact if_pos hx
      rw [this]
      simp [writeVersion, hx]
    · have hk : keptVersion (some x) = some { x with producer := trim x.producer, gitHash := trim x.gitHash } := by
        simp only [keptVersion]; exact if_neg hx
      obtain ⟨a, b, c, g, p⟩ := x
      have hp : trim p = [] ↔ p = [] := ⟨fun h => Classical.byContradiction fun hn => h1 hn h, fun h => by rw [h]; rfl⟩
      have hg : trim g = [] ↔ g = [] := ⟨fun h => Classical.byContradiction fun hn => h2 hn h, fun h => by rw [h]; rfl⟩
      have hne : ¬ (⟨a, b, c, trim g, trim p⟩ : Version) = Version.empty := by
        intro h
        apply hx
        simp only [Version.empty, Version.mk.injEq] at h ⊢
        exact ⟨h.1, h.2.1, h.2.2.1, hg.1 h.2.2.2.1, hp.1 h.2.2.2.2⟩
      rw [hk]
      simp only [writeVersion, if_neg hne, if_neg hx, trim_trim, List.isEmpty_iff, hp, hg]

/-- Reading the text of a plan and formatting the result gives the same text. -/
theorem planCanonical (hA : AsciiPrintable) (reg : Registry ExtArgs (List Nat)) (o : Opts) (ho : Readable o)
    (hl : o.litTypes = .required) (p : Plan) (h : PlanOk reg o p)
    (hv : ∀ x, p.version = some x → (x.producer ≠ [] → trim x.producer ≠ []) ∧ (x.gitHash ≠ [] → trim x.gitHash ≠ [])) :
    ∃ p', parsePlan reg (textPlan reg o p).text = .ok p' ∧ textPlan reg o p' = textPlan reg o p := by
  obtain ⟨p', h1, h2, h3, h4, h5, -⟩ := planRT hA reg o ho p h
  refine ⟨p', h1, ?_⟩
  obtain ⟨l, hl1, hl2, hl3⟩ := h2.rels
  have hacc : ∀ p : Plan, answers [] (history p) = [] → (Store.fromExtensions p.urns p.decls).2 = [] := by
    intro p hp
    rw [Store.fromExtensions_spec]
    exact hp
  unfold textPlan
  simp only [hacc p' h4, hacc p h.accepted, h3, writeVersion_kept o.indent p.version hv, h5]
  rw [hl1, hl2]
  have := sameTops hA (env := ⟨p.store, o, reg⟩) (by rw [plan_store]; exact Store.ordered_run _) ho l (fun _ _ => .inl hl) hl3 (by
    intro q hq
    rw [plan_store]
    exact h.rels _ (by rw [hl1]; exact List.mem_map_of_mem hq))
  rw [this]

end Verif
