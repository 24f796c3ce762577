import Verif.Proofs.HeadBlock
import Verif.Proofs.Listed
import Verif.Proofs.RawLines
import Verif.Proofs.TreesExact
/-!
# The lines of a plan in its text
-/

namespace Verif
open ChunkSpec SectionSpec StoreSpec TextSpec RelSpec PlanSpec TreeSpec PanicSpec RawSpec NestSpec

set_option autoImplicit false

theorem flatFloats_shown [FTab] (h : FloatsShown) : FlatFloats := by
  have key : ∀ x, FloatShown x → Flat x := by
    intro x hx
    rcases hx with hx | ⟨neg, ds, -, hd, rfl⟩ | hx
    · simp only [List.mem_cons, List.not_mem_nil, or_false] at hx
      rcases hx with rfl | rfl | rfl <;> decide
    · have : Flat ds := fun hm => absurd (hd _ hm) (by decide)
      cases neg <;> simp [this]
    · exact flat_floatText hx
  exact fun b => ⟨key _ (h b).1, key _ (h b).2⟩

/-- The header of a relation, without addenda, whose parts stay on one line each. -/
structure PlainHead (h : Head) : Prop where
  flat : FlatHead h
  addenda : h.addenda = []

namespace PlainHead
variable {o : Opts} {h : Head}

theorem starts (o : Opts) (h : Head) (lvl : Nat) : ∃ r, headBody o lvl h = h.name.text ++ '[' :: r := by
  unfold headBody
  cases h.args <;> exact ⟨_, rfl⟩

theorem ends (o : Opts) (h : Head) (lvl : Nat) : ∃ s, headBody o lvl h = s ++ [']'] := by
  unfold headBody
  cases h.args with
  | none => exact ⟨h.name.text ++ '[' :: joinS cs!", " ((implicitCols o h.columns h.emit).map Out.text), by simp⟩
  | inline pos named => exact ⟨h.name.text ++ '[' :: ((textArgList pos named).text ++ ' ' :: (textOutput o h).text), by simp⟩
  | rows rows named =>
    exact ⟨h.name.text ++ '[' :: '\n' :: ((textRows (indentAt o (lvl + 1)) (named ≠ []) rows).text ++
      ((textRows (indentAt o (lvl + 1)) false named).text ++
      (indentAt o (lvl + 1) ++ '-' :: ' ' :: (textOutput o h).text))), by simp⟩

theorem body (k : PlainHead h) (hi : o.indent = cs!"  ") (lvl : Nat) : LineBody lvl (headBody o lvl h) := by
  have hf := k.flat
  obtain ⟨c, t, hn, hc, ht⟩ := hf.name
  obtain ⟨hw, hd, he⟩ := isAlpha_head hc
  have hnl : c ≠ '\n' := by rintro rfl; exact absurd hc (by decide)
  refine ⟨?_, ?_⟩
  · have hargs := hf.args
    have hout := flat_output (o := o) hf.columns
    unfold headBody
    cases hx : h.args with
    | none =>
      refine ⟨c, t ++ '[' :: (joinS cs!", " ((implicitCols o h.columns h.emit).map Out.text) ++ cs!"]"), [], ?_,
        hw, hd, he, ?_, by simp⟩
      · simp only [hn, joinNl, joinS, List.cons_append]
      · have := flat_joinS (sp := cs!", ") (by decide) (l := (implicitCols o h.columns h.emit).map Out.text)
          (by simpa using flat_implicitCols (o := o) hf.columns h.emit)
        simp [ht, hnl, this]
    | inline pos named =>
      rw [hx] at hargs
      refine ⟨c, t ++ '[' :: ((textArgList pos named).text ++ ' ' :: ((textOutput o h).text ++ cs!"]")), [], ?_,
        hw, hd, he, ?_, by simp⟩
      · simp only [hn, joinNl, joinS, List.cons_append]
      · simp [ht, hnl, hout, flat_argList hargs.1 hargs.2]
    | rows rows named =>
      rw [hx] at hargs
      have hsp : Flat (List.replicate (2 * (lvl + 1)) ' ') := fun hx => absurd (List.mem_replicate.1 hx).2 (by decide)
      refine ⟨c, t ++ ['['], (rowLines (List.replicate (2 * (lvl + 1)) ' ') (named ≠ []) rows ++
        rowLines (List.replicate (2 * (lvl + 1)) ' ') false named) ++
          [List.replicate (2 * (lvl + 1)) ' ' ++ '-' :: ' ' :: ((textOutput o h).text ++ cs!"]")], ?_, hw, hd, he, ?_, ?_⟩
      · rw [← joinNl_flatMap]
        simp only [hn, indentAt_spaces hi, textRows_lines]
        simp
      · simp [ht, hnl]
      · intro l hl
        simp only [List.mem_append, List.mem_singleton] at hl
        rcases hl with (hl | hl) | rfl
        · exact rowLines_ok lvl _ rows hargs.1 l hl
        · exact rowLines_ok lvl _ named hargs.2 l hl
        · exact ⟨by simp [hsp, hout], _, rfl, ']', by simp, by decide⟩
  · obtain ⟨s, hs⟩ := ends o h lvl
    exact ⟨s, ']', hs, by decide⟩

theorem reads [UTab] [FTab] (k : PlainHead h) (lvl d : Nat) :
    (if d = 0 then topLine (headBody o lvl h) else nodeLine (headBody o lvl h)) =
      (pRelLine (headBody o lvl h)).map fun r => .relation r.1 := by
  obtain ⟨r, hr⟩ := starts o h lvl
  obtain ⟨c, t, hn, hc, -⟩ := k.flat.name
  have h1 : pRoot (headBody o lvl h) = none := by
    rw [hr]
    simp [pRoot, k.flat.root r]
  have h2 : pAddendum (headBody o lvl h) = none := by
    rw [hr, hn]
    have : ¬ ('+' = c) := by rintro rfl; exact absurd hc (by decide)
    simp [pAddendum, lit, this]
  have h3 : nodeLine (headBody o lvl h) = (pRelLine (headBody o lvl h)).map fun r => .relation r.1 := by
    unfold nodeLine
    rw [h2]
    cases pRelLine (headBody o lvl h) <;> rfl
  split
  · unfold topLine
    rw [h1]
    exact h3
  · exact h3

end PlainHead

section
variable [UTab] [FTab]

/-- All headers of a tree are such. -/
inductive PlainTree (env : Env) : Rel → Prop where
  | node (op : RelOp) (ins : List (Option Rel)) : PlainHead (relHead env (inputWidths env ins) op) →
      (∀ r, some r ∈ ins → PlainTree env r) → PlainTree env (.node op ins)

theorem plainHead {env : Env} (hf : FlatFloats) (hst : FlatStore env.st) (ws : List (Option Nat)) {op : RelOp}
    (hd : Described op) (hr : ∀ s ∈ opRaw env ws op, Flat s) : PlainHead (relHead env ws op) := by
  obtain ⟨-, h2, h3, -⟩ := fl_relHead hf hst ws op hr
  have hin : ∀ pos named, (relHead env ws op).args = .inline pos named →
      (∀ x ∈ pos, Flat x.text) ∧ ∀ x ∈ named, Flat x.text := by
    intro pos named hx
    rw [hx] at h2
    simp only [HeadArgs.outs, List.mem_append, or_imp, forall_and] at h2
    exact h2
  cases op with
  | read c s f t a r =>
    cases t with
    | named =>
      cases hd
      exact ⟨⟨⟨'R', _, rfl, by decide, by decide⟩, fun r => by simp [relHead, headRead, lit], hin _ _ rfl, h3⟩, rfl⟩
    | virtual rows k =>
      cases hd
      refine ⟨⟨⟨'R', _, rfl, by decide, by decide⟩, fun r => by simp [relHead, headRead, lit], ?_, h3⟩, rfl⟩
      by_cases hlay : 0 < rows.length ∧ env.o.vthreshold ≤ rows.length
      · have hne : rows ≠ [] := by intro h; simp [h] at hlay
        simp only [relHead, headRead] at h2 ⊢
        rw [if_pos hlay] at h2 ⊢
        rw [if_neg (by simp [hne])] at h2
        simp only [HeadArgs.outs, List.mem_append, or_imp, forall_and] at h2
        simp only
        rw [if_neg (by simp [hne])]
        refine ⟨fun x hx => ⟨h2.1 x hx, ?_⟩, fun x hx => ⟨h2.2 x hx, ?_⟩⟩
        · obtain ⟨r, hm, rfl⟩ := List.mem_map.1 hx
          exact ⟨'(', by simp [textTuple], by decide⟩
        · obtain ⟨e, hm, rfl⟩ := List.mem_map.1 hx
          exact ⟨'f', by simp [textNamedArg], by decide⟩
      · simp only [relHead, headRead] at hin ⊢
        rw [if_neg hlay] at hin ⊢
        exact hin _ _ rfl
    | _ => cases hd
  | filter => cases hd; exact ⟨⟨⟨'F', _, rfl, by decide, by decide⟩, fun r => by simp [relHead, lit], hin _ _ rfl, h3⟩, rfl⟩
  | project => cases hd; exact ⟨⟨⟨'P', _, rfl, by decide, by decide⟩, fun r => by simp [relHead, lit], trivial, h3⟩, rfl⟩
  | sort => cases hd; exact ⟨⟨⟨'S', _, rfl, by decide, by decide⟩, fun r => by simp [relHead, lit], hin _ _ rfl, h3⟩, rfl⟩
  | fetch => cases hd; exact ⟨⟨⟨'F', _, rfl, by decide, by decide⟩, fun r => by simp [relHead, lit], hin _ _ rfl, h3⟩, rfl⟩
  | join => cases hd; exact ⟨⟨⟨'J', _, rfl, by decide, by decide⟩, fun r => by simp [relHead, lit], hin _ _ rfl, h3⟩, rfl⟩
  | set => cases hd; exact ⟨⟨⟨'S', _, rfl, by decide, by decide⟩, fun r => by simp [relHead, lit], hin _ _ rfl, h3⟩, rfl⟩
  | cross => cases hd; exact ⟨⟨⟨'C', _, rfl, by decide, by decide⟩, fun r => by simp [relHead, lit], trivial, h3⟩, rfl⟩
  | _ => cases hd

theorem relsRaw_mem (env : Env) {r : Rel} : ∀ {ins : List (Option Rel)}, some r ∈ ins → ∀ s ∈ relRaw env r, s ∈ relsRaw env ins
  | [], h, _, _ => by cases h
  | none :: l, h, s, hs => by
    rw [relsRaw]
    exact relsRaw_mem env (by simpa using h) s hs
  | some x :: l, h, s, hs => by
    rw [relsRaw, List.mem_append]
    rcases List.mem_cons.1 h with h | h
    · cases h
      exact Or.inl hs
    · exact Or.inr (relsRaw_mem env h s hs)

theorem plainTree {env : Env} (hf : FlatFloats) (hst : FlatStore env.st) (ho : env.st.Ordered) {r : Rel}
    (hd : DescribedTree env.reg r) : (∀ s ∈ relRaw env r, Flat s) → PlainTree env r := by
  induction hd with
  | node op ins h1 _ _ ih =>
    intro h3
    rw [relRaw] at h3
    simp only [List.mem_append, or_imp, forall_and] at h3
    refine .node op ins ?_ fun r hr => ih r hr fun s hs => h3.2 s (relsRaw_mem env hr s hs)
    rw [inputWidths_written ho]
    exact plainHead hf hst _ h1 h3.1

mutual
/-- The lines of a tree with their depths. -/
def relBodies (env : Env) (lvl : Nat) : Rel → List (Nat × Str)
  | .node op ins => (lvl, headBody env.o lvl (relHead env (inputWidths env ins) op)) ::
      if op.keepsInputs then insBodies env (lvl + 1) ins else []
/-- The lines of inputs. -/
def insBodies (env : Env) (lvl : Nat) : List (Option Rel) → List (Nat × Str)
  | [] => []
  | none :: l => insBodies env lvl l
  | some r :: l => relBodies env lvl r ++ insBodies env lvl l
end

theorem listed_inputs {env : Env} (lvl : Nat) : ∀ (ins : List (Option Rel)),
    (∀ r, some r ∈ ins → Listed (textRel env lvl r).text (relBodies env lvl r)) → ∀ {t : Str} {es : List (Nat × Str)}, Listed t es →
    Listed (t ++ (textInputs env lvl ins).text) (es ++ insBodies env lvl ins)
  | [], _, t, es, ht => ht.to (by simp [textInputs]) (by simp [insBodies])
  | none :: l, h, t, es, ht => by
    rw [textInputs, insBodies]
    exact listed_inputs lvl l (fun r hr => h r (by simp [hr])) ht
  | some r :: l, h, t, es, ht => by
    have := listed_inputs lvl l (fun r hr => h r (by simp [hr])) (ht.append (h r (by simp)))
    exact this.to (by simp [textInputs]) (by simp [insBodies])

/-- The lines are found in the text. -/
theorem tree_listed {env : Env} (hi : env.o.indent = cs!"  ") {r : Rel} (hp : PlainTree env r) :
    ∀ lvl, Listed (textRel env lvl r).text (relBodies env lvl r) := by
  induction hp with
  | node op ins h1 _ ih =>
    intro lvl
    have ht : (textRel env lvl (.node op ins)).text = lineAt lvl (headBody env.o lvl (relHead env (inputWidths env ins) op)) ++
        (if op.keepsInputs then textInputs env (lvl + 1) ins else Out.s []).text := by
      rw [textRel]
      simp only [Out.text_append, textHeader_text, indentAt_spaces hi, h1.addenda, textAddenda]
      simp
    rw [ht, relBodies]
    split
    · exact listed_inputs (lvl + 1) ins (fun r hr => ih r hr (lvl + 1)) (.one (h1.body hi lvl))
    · exact (Listed.one (h1.body hi lvl)).to (by simp) rfl

/-- Lines that are all read make a tree of lines. -/
theorem lines_of_read {env : Env} {r : Rel} (hp : PlainTree env r) :
    ∀ lvl, (∀ e ∈ relBodies env lvl r, pRelLine e.2 ≠ none) → ∃ t, LinesOf env lvl r t := by
  induction hp with
  | node op ins h1 _ ih =>
    intro lvl h
    rw [relBodies] at h
    simp only [List.mem_cons, forall_eq_or_imp] at h
    obtain ⟨⟨line, rest⟩, hl⟩ := Option.ne_none_iff_exists'.1 h.1
    cases hk : op.keepsInputs with
    | false => exact ⟨_, .node lvl op ins line rest [] (by rw [lineText_eq]; exact hl) (by simp [hk]) (by simp)⟩
    | true =>
      rw [hk, if_pos rfl] at h
      have key : ∀ l : List (Option Rel), (∀ r, some r ∈ l → some r ∈ ins) → (∀ e ∈ insBodies env (lvl + 1) l, pRelLine e.2 ≠ none) →
          ∃ kids : List (Rel × RNode SLine SAddendum), l.filterMap id = kids.map (·.1) ∧ ∀ k ∈ kids, LinesOf env (lvl + 1) k.1 k.2 := by
        intro l
        induction l with
        | nil => exact fun _ _ => ⟨[], rfl, by simp⟩
        | cons x l ih2 =>
          intro hm hb
          cases x with
          | none =>
            rw [insBodies] at hb
            obtain ⟨kids, g1, g2⟩ := ih2 (fun r hr => hm r (by simp [hr])) hb
            exact ⟨kids, by simpa using g1, g2⟩
          | some r =>
            rw [insBodies] at hb
            simp only [List.mem_append, or_imp, forall_and] at hb
            obtain ⟨kids, g1, g2⟩ := ih2 (fun r hr => hm r (by simp [hr])) hb.2
            obtain ⟨t, ht⟩ := ih r (hm r (by simp)) (lvl + 1) hb.1
            refine ⟨(r, t) :: kids, by simp [g1], ?_⟩
            intro k hk
            rcases List.mem_cons.1 hk with rfl | hk
            · exact ht
            · exact g2 k hk
      obtain ⟨kids, g1, g2⟩ := key ins (fun _ hr => hr) h.2
      exact ⟨_, .node lvl op ins line rest kids (by rw [lineText_eq]; exact hl) (by rw [hk, if_pos rfl, g1]) g2⟩

theorem blocks_kids {env : Env} (lvl : Nat) : ∀ (ins : List (Option Rel)) (kids : List (Rel × RNode SLine SAddendum)),
    ins.filterMap id = kids.map (·.1) → (∀ k ∈ kids, PlanBlocks (textRel env lvl k.1).text (listing lvl k.2)) →
    ∀ {t : Str} {es : List (Nat × LineNode SLine SAddendum)}, PlanBlocks t es →
    PlanBlocks (t ++ (textInputs env lvl ins).text) (es ++ listings lvl (kids.map (·.2)))
  | [], kids, h1, _, t, es, ht => by
    have : kids = [] := by simpa using h1.symm
    subst this
    exact ht.to (by simp [textInputs]) (by simp [listings])
  | none :: l, kids, h1, h2, t, es, ht => by
    rw [textInputs]
    exact blocks_kids lvl l kids (by simpa using h1) h2 ht
  | some r :: l, [], h1, _, _, _, _ => by simp at h1
  | some r :: l, k :: kids, h1, h2, t, es, ht => by
    simp only [List.filterMap_cons, id_eq, List.map_cons, List.cons.injEq] at h1
    obtain ⟨rfl, h1⟩ := h1
    have := blocks_kids lvl l kids h1 (fun x hx => h2 x (by simp [hx])) (ht.and (h2 k (by simp)))
    exact this.to (by simp [textInputs]) (by simp [listings])

/-- The text of a tree is the listing of its lines. -/
theorem tree_blocks {env : Env} (hi : env.o.indent = cs!"  ") {r : Rel} {t : RNode SLine SAddendum} {lvl : Nat} (hl : LinesOf env lvl r t) :
    PlainTree env r → PlanBlocks (textRel env lvl r).text (listing lvl t) := by
  induction hl with
  | node lvl op ins line rest kids h1 h2 _ ih =>
    intro hp
    cases hp with
    | node _ _ h3 h4 =>
    have ht : (textRel env lvl (.node op ins)).text = lineAt lvl (headBody env.o lvl (relHead env (inputWidths env ins) op)) ++
        (if op.keepsInputs then textInputs env (lvl + 1) ins else Out.s []).text := by
      rw [textRel]
      simp only [Out.text_append, textHeader_text, indentAt_spaces hi, h3.addenda, textAddenda]
      simp
    have hb : PlanBlocks (lineAt lvl (headBody env.o lvl (relHead env (inputWidths env ins) op))) [(lvl, .relation line)] := by
      refine .single ((h3.body hi lvl).block (PlainHead.ends _ _ _) (L := planLang) ?_)
      have := h3.reads (o := env.o) lvl lvl
      rw [lineText_eq] at h1
      rw [h1] at this
      exact this
    rw [ht]
    simp only [listing, List.map_nil, List.nil_append]
    cases hk : op.keepsInputs with
    | false =>
      rw [hk] at h2
      have : kids = [] := by simpa using h2.symm
      subst this
      exact hb.to (by simp) (by simp [listings])
    | true =>
      rw [hk, if_pos rfl] at h2
      rw [if_pos rfl]
      refine (blocks_kids (lvl + 1) ins kids h2 (fun k hk2 => ih k hk2 (h4 k.1 ?_)) hb).to rfl (by simp)
      have : k.1 ∈ ins.filterMap id := by rw [h2]; exact List.mem_map.2 ⟨k, hk2, rfl⟩
      simpa using this

end

end Verif
