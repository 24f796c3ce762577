import Verif.Proofs.ExtSection
/-!
# The printed header of a relation is a block
-/

namespace Verif
open ChunkSpec SectionSpec RelSpec StoreSpec TextSpec

set_option autoImplicit false

/-- The text contains something visible. -/
def Visible (s : Str) : Prop := ∃ c ∈ s, isWs c = false

/-- A head all of whose parts stay on one line. -/
structure FlatHead (h : Head) : Prop where
  name : ∃ c t, h.name.text = c :: t ∧ isAlpha c = true ∧ Flat t
  root : ∀ r, lit cs!"Root[" (h.name.text ++ '[' :: r) = none
  args : match h.args with
    | .none => True
    | .inline pos named => (∀ x ∈ pos, Flat x.text) ∧ ∀ x ∈ named, Flat x.text
    | .rows rows named => (∀ x ∈ rows, Flat x.text ∧ Visible x.text) ∧ ∀ x ∈ named, Flat x.text ∧ Visible x.text
  columns : ∀ x ∈ h.columns, Flat x.text

theorem flat_refText (i : Int) : Flat (refText i) := by simp [refText, flat_decInt]

theorem flat_references (n : Nat) : ∀ x ∈ references n, Flat x.text := by
  intro x hx
  obtain ⟨i, -, rfl⟩ := List.mem_map.1 hx
  rw [textRef_text]
  exact flat_refText _

theorem flat_implicitCols {o : Opts} {cols : List Out} (h : ∀ x ∈ cols, Flat x.text) (e : Option Emit) :
    ∀ x ∈ implicitCols o cols e, Flat x.text := by
  intro x hx
  unfold implicitCols at hx
  split at hx
  · exact h x hx
  · split at hx
    · obtain ⟨i, -, rfl⟩ := List.mem_map.1 hx
      unfold getCol
      split
      · decide
      · cases hg : cols[i.toNat]? with
        | none => decide
        | some c => exact h c (List.mem_of_getElem? hg)
    · exact h x hx
    · exact h x hx

theorem flat_output {o : Opts} {h : Head} (hc : ∀ x ∈ h.columns, Flat x.text) : Flat (textOutput o h).text := by
  unfold textOutput
  split
  · have h1 := flat_sep (sp := cs!", ") (by decide) hc
    have h2 : Flat (textEmitSuffix h.emit).text := by
      unfold textEmitSuffix
      split
      · have := flat_sep (sp := cs!", ") (by decide) (l := List.map textRef ‹List Int›) (by
          intro x hx
          obtain ⟨i, -, rfl⟩ := List.mem_map.1 hx
          exact flat_refText i)
        simp [this]
      · simp
    simp [h1, h2]
  · have := flat_sep (sp := cs!", ") (by decide) (flat_implicitCols (o := o) hc h.emit)
    simp [this]

/-- The lines of rows. -/
def rowLines (pre : Str) (more : Bool) : List Out → List Str
  | [] => []
  | [r] => [pre ++ cs!"- " ++ r.text ++ (if more then cs!"," else [])]
  | r :: s :: l => (pre ++ cs!"- " ++ r.text ++ cs!",") :: rowLines pre more (s :: l)

theorem textRows_lines (pre : Str) (more : Bool) (l : List Out) :
    (textRows pre more l).text = (rowLines pre more l).flatMap (· ++ ['\n']) := by
  induction l with
  | nil => rfl
  | cons r l ih =>
    cases l with
    | nil => cases more <;> simp [textRows, rowLines]
    | cons s l => simp [textRows, rowLines, ih]

theorem rowLines_ok (lvl : Nat) (more : Bool) (l : List Out) (h : ∀ x ∈ l, Flat x.text ∧ Visible x.text) :
    ∀ x ∈ rowLines (List.replicate (2 * (lvl + 1)) ' ') more l, Flat x ∧ DashUnder lvl x := by
  have hsp : Flat (List.replicate (2 * (lvl + 1)) ' ') := fun hx => absurd (List.mem_replicate.1 hx).2 (by decide)
  have key : ∀ (r t : Str), Flat r → Visible r → Flat t →
      Flat (List.replicate (2 * (lvl + 1)) ' ' ++ cs!"- " ++ r ++ t) ∧
      DashUnder lvl (List.replicate (2 * (lvl + 1)) ' ' ++ cs!"- " ++ r ++ t) := by
    intro r t h1 ⟨c, hc, hw⟩ h3
    refine ⟨by simp [hsp, h1, h3], r ++ t, by simp, c, by simp [hc], hw⟩
  induction l with
  | nil => simp [rowLines]
  | cons r l ih =>
    obtain ⟨h1, h2⟩ := h r (by simp)
    cases l with
    | nil =>
      intro x hx
      simp only [rowLines, List.mem_singleton] at hx
      subst hx
      apply key _ _ h1 h2
      cases more <;> simp
    | cons s l =>
      intro x hx
      simp only [rowLines, List.mem_cons] at hx
      rcases hx with rfl | hx
      · exact key _ _ h1 h2 (by decide)
      · exact ih (fun y hy => h y (by simp at hy ⊢; exact Or.inr hy)) x (by simpa [rowLines] using hx)

theorem joinNl_flatMap (l : List Str) (a b : Str) :
    a ++ '\n' :: (l.flatMap (· ++ ['\n']) ++ b) = joinNl (a :: (l ++ [b])) := by
  induction l generalizing a with
  | nil => simp [joinNl, joinS]
  | cons x l ih =>
    rw [List.cons_append, joinNl_cons _ _ (by simp), ← ih x]
    simp

theorem isAlpha_head {c : Char} (h : isAlpha c = true) : isWs c = false ∧ c ≠ '-' ∧ c ≠ '=' := by
  refine ⟨not_ws_of_ident (alnum_ident (by simp [isAlnum, h])), ?_, ?_⟩ <;> (rintro rfl; exact absurd h (by decide))

/-- The header of a relation as a block. -/
theorem headBlock {o : Opts} (ho : Readable o) {h : Head} (hf : FlatHead h) {line : SLine} (lvl : Nat)
    (hp : pRelLine (headBody o lvl h) = some (line, [])) :
    IsBlock planLang lvl (.relation line) (textHeader o lvl h).text := by
  obtain ⟨c, t, hn, hc, ht⟩ := hf.name
  obtain ⟨hw, hd, he⟩ := isAlpha_head hc
  have hbody : ∃ r, headBody o lvl h = h.name.text ++ '[' :: r := by
    unfold headBody
    cases h.args <;> exact ⟨_, rfl⟩
  have hnl : c ≠ '\n' := by rintro rfl; exact absurd hc (by decide)
  rw [textHeader_text, indentAt_spaces ho.2.2.1]
  refine ⟨?_, ?_, _, rfl, ?_⟩
  · have hargs := hf.args
    have hout := flat_output (o := o) hf.columns
    unfold headBody
    cases hx : h.args with
    | none =>
      refine ⟨c, t ++ '[' :: (joinS cs!", " ((implicitCols o h.columns h.emit).map Out.text) ++ cs!"]"), [], ?_,
        hw, hd, he, ?_, by simp⟩
      · simp only [hn, joinNl, joinS, List.cons_append]
      · have := flat_joinS (sp := cs!", ") (by decide) (l := (implicitCols o h.columns h.emit).map Out.text)
          (by simpa using flat_implicitCols (o := o) hf.columns h.emit)
        simp [ht, hnl, this]
    | inline pos named =>
      rw [hx] at hargs
      refine ⟨c, t ++ '[' :: ((textArgList pos named).text ++ ' ' :: ((textOutput o h).text ++ cs!"]")), [], ?_,
        hw, hd, he, ?_, by simp⟩
      · simp only [hn, joinNl, joinS, List.cons_append]
      · simp [ht, hnl, hout, flat_argList hargs.1 hargs.2]
    | rows rows named =>
      rw [hx] at hargs
      have hsp : Flat (List.replicate (2 * (lvl + 1)) ' ') := fun hx => absurd (List.mem_replicate.1 hx).2 (by decide)
      refine ⟨c, t ++ ['['], (rowLines (List.replicate (2 * (lvl + 1)) ' ') (named ≠ []) rows ++
        rowLines (List.replicate (2 * (lvl + 1)) ' ') false named) ++
          [List.replicate (2 * (lvl + 1)) ' ' ++ '-' :: ' ' :: ((textOutput o h).text ++ cs!"]")], ?_, hw, hd, he, ?_, ?_⟩
      · rw [← joinNl_flatMap]
        simp only [hn, indentAt_spaces ho.2.2.1, textRows_lines]
        simp
      · simp [ht, hnl]
      · intro l hl
        simp only [List.mem_append, List.mem_singleton] at hl
        rcases hl with (hl | hl) | rfl
        · exact rowLines_ok lvl _ rows hargs.1 l hl
        · exact rowLines_ok lvl _ named hargs.2 l hl
        · exact ⟨by simp [hsp, hout], _, rfl, ']', by simp, by decide⟩
  · have : ∃ s, headBody o lvl h = s ++ [']'] := by
      unfold headBody
      cases h.args with
      | none => exact ⟨h.name.text ++ '[' :: joinS cs!", " ((implicitCols o h.columns h.emit).map Out.text), by simp⟩
      | inline pos named => exact ⟨h.name.text ++ '[' :: ((textArgList pos named).text ++ ' ' :: (textOutput o h).text), by simp⟩
      | rows rows named =>
        exact ⟨h.name.text ++ '[' :: '\n' :: ((textRows (indentAt o (lvl + 1)) (named ≠ []) rows).text ++
          ((textRows (indentAt o (lvl + 1)) false named).text ++
          (indentAt o (lvl + 1) ++ '-' :: ' ' :: (textOutput o h).text))), by simp⟩
    obtain ⟨s, hs⟩ := this
    exact ⟨List.replicate (2 * lvl) ' ' ++ s, by rw [hs]; simp⟩
  · have hnode : nodeLine (headBody o lvl h) = some (.relation line) := by simp [nodeLine, hp]
    have htop : topLine (headBody o lvl h) = some (.relation line) := by
      obtain ⟨r, hr⟩ := hbody
      have : pRoot (headBody o lvl h) = none := by
        rw [hr]
        simp [pRoot, hf.root r]
      simp [topLine, this, hnode]
    split
    · exact htop
    · exact hnode

/-! ### Every supported operator has such a head -/

theorem flat_variant (fail : Str) (hf : Flat fail) {s : Option Str} (h : ∀ x, s = some x → Flat x) :
    Flat (textVariant fail s).text := by
  cases s with
  | none => simp [textVariant, hf]
  | some x => simp [textVariant, h x rfl]

theorem flat_joinType (t : EnumVal JoinType) : Flat (textJoinType t).text := by
  cases t with
  | known t => cases t <;> decide
  | unknown _ => simp [textJoinType, textVariant]

theorem flat_setOp (t : EnumVal SetOp) : Flat (textSetOp t).text := by
  cases t with
  | known t => cases t <;> decide
  | unknown _ => simp [textSetOp, textVariant]

theorem flat_tuple {l : List Out} (h : ∀ x ∈ l, Flat x.text) : Flat (textTuple l).text := by
  have := flat_sep (sp := cs!", ") (by decide) h
  simp [textTuple, this]

variable [UTab] [FTab]

theorem flat_sortField {st : Store} (hst : st.Ordered) (o : Opts) (ho : o.anchors ≠ .never) {f : SortField}
    (h : SortOk st f) : Flat (textSortField st o f).text := by
  obtain ⟨e, d, rfl, h1, -⟩ := h
  apply flat_tuple
  intro x hx
  simp only [List.mem_cons, List.not_mem_nil, or_false] at hx
  rcases hx with rfl | rfl
  · exact flat_expr hst o ho e h1
  · cases d <;> decide

theorem flat_count {st : Store} (hst : st.Ordered) (o : Opts) (ho : o.anchors ≠ .never) {c : Count}
    (h : CountOk st o c) : Flat (textCount st o c).text := by
  cases c with
  | deprecated i => exact flat_decInt i
  | expr e =>
    rcases h with ⟨h1, i, rfl, -⟩ | ⟨h1, -⟩
    · show Flat (textExpr st o (number i)).text
      rw [number_text st h1 i]
      exact flat_decInt i
    · exact flat_expr hst o ho e h1

theorem flat_readColumns {st : Store} (hst : st.Ordered) (o : Opts) (ho : o.anchors ≠ .never) {s : Option NamedStruct}
    (h : ColumnsOk st s) : ∀ x ∈ readColumns st o s, Flat x.text := by
  obtain ⟨cols, rfl, hc⟩ := h
  intro x hx
  have h1 : x.text ∈ (readColumns st o (some ⟨cols.map (·.1), some ⟨cols.map (·.2), 0, .required⟩⟩)).map Out.text :=
    List.mem_map.2 ⟨x, hx, rfl⟩
  rw [readColumns_text] at h1
  obtain ⟨c, hm, hx2⟩ := List.mem_map.1 h1
  rw [← hx2]
  have := flat_textTy hst o ho c.2 (hc c hm).2
  simp [columnStr, flat_showName, this]

theorem flat_measure {st : Store} (hst : st.Ordered) (o : Opts) (ho : o.anchors ≠ .never) {m : Measure}
    (h : MeasureOk st m) : ∀ x, m.fn.map (textAggFn st o) = some x → Flat x.text := by
  obtain ⟨f, args, t, rfl, hf⟩ := h
  intro x hx
  simp only [Option.map_some, Option.some.injEq] at hx
  subst hx
  have := flat_expr hst o ho _ hf
  simpa [textAggFn, textExpr] using this

theorem flat_groups {st : Store} (hst : st.Ordered) (o : Opts) (ho : o.anchors ≠ .never) {gexprs : List Expr}
    {gs : List Grouping} (hg : ∀ g ∈ gs, g.exprs = []) (he : ∀ e ∈ gexprs, Faithful st e) :
    (∀ x ∈ (groupingValues st o gexprs gs).1, Flat x.text) ∧
    ∀ x ∈ groupingArgs (groupingValues st o gexprs gs).2, Flat x.text := by
  have hd : usesDeprecated gexprs gs = false := by
    unfold usesDeprecated
    split
    · rename_i g _
      simp [hg g (by simp)]
    · rfl
  unfold groupingValues
  rw [hd]
  simp only [Bool.false_eq_true, if_false]
  refine ⟨?_, ?_⟩
  · intro x hx
    obtain ⟨e, hm, rfl⟩ := List.mem_map.1 hx
    exact flat_expr hst o ho e (he e hm)
  · generalize hs : (if gs = [] then [[]] else gs.map fun g =>
        g.refs.map fun i => Out.expect cs!"AggregateRel" (gexprs[i]?.map (textExpr st o))) = sets
    have hall : ∀ s ∈ sets, ∀ x ∈ s, Flat x.text := by
      rw [← hs]
      intro s hs' x hx
      split at hs'
      · simp only [List.mem_singleton] at hs'
        subst hs'
        simp at hx
      · obtain ⟨g, -, rfl⟩ := List.mem_map.1 hs'
        obtain ⟨i, -, rfl⟩ := List.mem_map.1 hx
        cases hi : gexprs[i]? with
        | none => exact (show Flat (Out.expect cs!"AggregateRel" none).text by decide)
        | some e => exact flat_expr hst o ho e (he e (List.mem_of_getElem? hi))
    intro x hx
    unfold groupingArgs at hx
    split at hx
    · split at hx
      · simp only [List.mem_singleton] at hx
        subst hx
        decide
      · exact hall _ (by simp) x hx
    · obtain ⟨g, hg', rfl⟩ := List.mem_map.1 hx
      split
      · decide
      · exact flat_tuple (hall g hg')

theorem flatHead {env : Env} (hst : env.st.Ordered) (ho : Readable env.o) {ws : List Nat} {op : RelOp}
    (h : OpOk env ws op) : FlatHead (relHead env (ws.map some) op) := by
  have hexpr := fun e (he : Faithful env.st e) => flat_expr hst env.o ho.1 e he
  cases op with
  | read c schema filter ty adv rest =>
    obtain ⟨-, -, hcols, hr, -⟩ := h
    have hcol := flat_readColumns hst env.o ho.1 hcols
    cases ty with
    | named names k =>
      refine ⟨⟨'R', _, rfl, by decide, by decide⟩, fun r => by simp [relHead, headRead, lit], ?_, hcol⟩
      simp only [relHead, headRead, List.mem_singleton, List.not_mem_nil, false_implies, implies_true, and_true]
      rintro x rfl
      apply flat_sep (by decide)
      intro x hx
      obtain ⟨n, -, rfl⟩ := List.mem_map.1 hx
      exact flat_showName n
    | «virtual» rows k =>
      obtain ⟨-, hrows, hfil, -⟩ := hr
      refine ⟨⟨'R', _, rfl, by decide, by decide⟩, fun r => by simp [relHead, headRead, lit], ?_, hcol⟩
      have hpos : ∀ x ∈ (rows.map fun r => textTuple (r.map (textExpr env.st env.o))), Flat x.text ∧ Visible x.text := by
        intro x hx
        obtain ⟨r, hm, rfl⟩ := List.mem_map.1 hx
        refine ⟨flat_tuple ?_, '(', by simp [textTuple], by decide⟩
        intro x hx
        obtain ⟨e, he, rfl⟩ := List.mem_map.1 hx
        exact hexpr e (hrows r hm e he)
      have hnamed : ∀ x ∈ (filter.toList.map fun e => textNamedArg cs!"filter" (textExpr env.st env.o e)),
          Flat x.text ∧ Visible x.text := by
        intro x hx
        obtain ⟨e, hm, rfl⟩ := List.mem_map.1 hx
        have := hexpr e (hfil e (by simpa using hm))
        exact ⟨by simp [textNamedArg, this], 'f', by simp [textNamedArg], by decide⟩
      simp only [relHead, headRead]
      by_cases hlay : 0 < rows.length ∧ env.o.vthreshold ≤ rows.length
      · rw [if_pos hlay]
        have hne : rows ≠ [] := by intro h; simp [h] at hlay
        simp only
        rw [if_neg (by simp [hne])]
        exact ⟨hpos, hnamed⟩
      · rw [if_neg hlay]
        refine ⟨?_, fun x hx => (hnamed x hx).1⟩
        intro x hx
        split at hx
        · simp only [List.mem_singleton] at hx
          subst hx
          decide
        · exact (hpos x hx).1
    | extension d =>
      exact ⟨⟨'R', _, rfl, by decide, by decide⟩, fun r => by simp [relHead, headRead, lit], trivial, hcol⟩
    | other => cases hr
  | filter c cond adv =>
    obtain ⟨-, ⟨e, rfl, he⟩, -⟩ := h
    refine ⟨⟨'F', _, rfl, by decide, by decide⟩, fun r => by simp [relHead, lit], ?_, flat_references _⟩
    simp only [relHead, List.mem_singleton, List.not_mem_nil, false_implies, implies_true, and_true]
    rintro x rfl
    exact hexpr e he
  | project c exprs adv =>
    obtain ⟨-, he, -⟩ := h
    refine ⟨⟨'P', _, rfl, by decide, by decide⟩, fun r => by simp [relHead, lit], trivial, ?_⟩
    intro x hx
    rcases List.mem_append.1 hx with hx | hx
    · exact flat_references _ x hx
    · obtain ⟨e, hm, rfl⟩ := List.mem_map.1 hx
      exact hexpr e (he e hm).1
  | aggregate c gexprs gs ms adv =>
    obtain ⟨-, ⟨hg, he, hm, -⟩, -⟩ := h
    obtain ⟨h1, h2⟩ := flat_groups hst env.o ho.1 (gs := gs) (fun g hg' => (hg g hg').1) he
    refine ⟨⟨'A', _, rfl, by decide, by decide⟩, fun r => by simp [relHead, headAggregate, lit], ⟨h2, by simp⟩, ?_⟩
    intro x hx
    rcases List.mem_append.1 hx with hx | hx
    · exact h1 x hx
    · obtain ⟨m, hmm, hx2⟩ := List.mem_filterMap.1 hx
      exact flat_measure hst env.o ho.1 (hm m hmm) x hx2
  | sort c sorts adv =>
    obtain ⟨-, -, hs, -⟩ := h
    refine ⟨⟨'S', _, rfl, by decide, by decide⟩, fun r => by simp [relHead, lit], ⟨?_, by simp⟩, flat_references _⟩
    intro x hx
    obtain ⟨f, hm, rfl⟩ := List.mem_map.1 hx
    exact flat_sortField hst env.o ho.1 (hs f hm)
  | fetch c count offset adv =>
    obtain ⟨-, h1, h2, -⟩ := h
    refine ⟨⟨'F', _, rfl, by decide, by decide⟩, fun r => by simp [relHead, lit], ⟨by simp, ?_⟩, flat_references _⟩
    intro x hx
    rcases List.mem_append.1 hx with hx | hx
    · obtain ⟨k, hm, rfl⟩ := List.mem_map.1 hx
      have := flat_count hst env.o ho.1 (h1 k (by simpa using hm))
      simp [textNamedArg, this]
    · obtain ⟨k, hm, rfl⟩ := List.mem_map.1 hx
      have := flat_count hst env.o ho.1 (h2 k (by simpa using hm))
      simp [textNamedArg, this]
  | join c ty cond post adv =>
    obtain ⟨-, -, ⟨e, rfl, he⟩, hp, -⟩ := h
    refine ⟨⟨'J', _, rfl, by decide, by decide⟩, fun r => by simp [relHead, lit], ⟨?_, ?_⟩, flat_references _⟩
    · intro x hx
      simp only [List.mem_cons, List.not_mem_nil, or_false] at hx
      rcases hx with rfl | rfl
      · exact flat_joinType ty
      · exact hexpr e he
    · intro x hx
      obtain ⟨k, hm, rfl⟩ := List.mem_map.1 hx
      have := hexpr k (hp k (by simpa using hm))
      simp [textNamedArg, this]
  | set c op adv =>
    refine ⟨⟨'S', _, rfl, by decide, by decide⟩, fun r => by simp [relHead, lit], ⟨?_, by simp⟩, flat_references _⟩
    intro x hx
    simp only [List.mem_singleton] at hx
    subst hx
    exact flat_setOp op
  | cross c adv =>
    exact ⟨⟨'C', _, rfl, by decide, by decide⟩, fun r => by simp [relHead, lit], trivial, flat_references _⟩
  | ext kind c detail =>
    obtain ⟨-, -, d, name, args, rfl, hd, -, hn, ha⟩ := h
    have hdec : decodeRel env.reg ws (some d) = .ok (name, args) := hd
    have hws : (ws.map some).filterMap id = ws := by simp
    have hhead : relHead env (ws.map some) (.ext kind c (some d)) =
        { name := .s (kind.spell ++ cs!":" ++ name),
          args := .inline (textExtValues env.st env.o args.positional) (args.named.map (textNamed env.st env.o)),
          columns := args.columns.map (textExtColumn env.st env.o), emit := none } := by
      simp only [relHead, headExt, hws, hdec]
    rw [hhead]
    refine ⟨?_, ?_, ⟨flat_extValues hst env.o ho.1 _ ha.1, ?_⟩, ?_⟩
    · cases kind <;> exact ⟨'E', _, rfl, by decide, by simp [flat_identifier hn]⟩
    · intro r; cases kind <;> simp [ExtKind.spell, lit]
    · intro x hx
      obtain ⟨p, hm, rfl⟩ := List.mem_map.1 hx
      exact flat_named hst env.o ho.1 p (ha.2.1 p hm)
    · intro x hx
      obtain ⟨p, hm, rfl⟩ := List.mem_map.1 hx
      exact flat_extColumn hst env.o ho.1 p (ha.2.2.2 p hm)
  | other k => cases h

end Verif
