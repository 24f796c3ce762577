import Verif.Spec.TreesExact
import Verif.Proofs.LinesExactVirtual
import Verif.Proofs.TreeText
import Verif.Proofs.EquivRel
import Verif.Proofs.ReparsePlan
/-!
# Trees whose lines survive
-/

namespace Verif
open StoreSpec TextSpec RelSpec

set_option autoImplicit false

section
variable [UTab] [FTab] {h : List Op} {o : Opts} {reg : Registry ExtArgs (List Nat)}

theorem line_kept (hA : AsciiPrintable) (hF : FloatsShown) (ho : o.showEmit = false) (hi : o.indent = cs!"  ")
    (kids : List (Rel × Nat)) {op : RelOp} (hd : Described op) (hn : Countable reg (kids.map (·.2)) op) :
    (LineBack ⟨run h, o, reg⟩ kids op → SurvivesLine (run h) o (kids.map (·.2)) op) ∧
      (SurvivesLine (run h) o (kids.map (·.2)) op → LineKept ⟨run h, o, reg⟩ kids op) := by
  cases op with
  | read c s f t a r =>
    cases t with
    | named names k => cases hd; exact named_kept hA kids c s f names k r
    | virtual rows k => cases hd; exact virtual_kept hA hF hi kids c s f rows k r
    | _ => cases hd
  | filter c e a => cases hd; exact filter_kept hA hF ho kids c e hn
  | project c es a => cases hd; exact project_kept hA hF ho kids c es hn
  | sort c fs a => cases hd; exact sort_kept hA hF ho kids c fs hn
  | fetch c l f a => cases hd; exact fetch_kept hA hF ho kids c l f hn
  | join c t e p a => cases hd; exact join_kept hA hF ho kids c t e p hn
  | set c t a => cases hd; exact set_kept ho kids c t hn
  | cross c a => cases hd; exact cross_kept ho kids c hn
  | _ => cases hd

/-- The same at any depth. -/
theorem line_keptAt (hA : AsciiPrintable) (hF : FloatsShown) (ho : o.showEmit = false) (hi : o.indent = cs!"  ") (lvl : Nat)
    (kids : List (Rel × Nat)) {op : RelOp} (hd : Described op) (hn : Countable reg (kids.map (·.2)) op) :
    (LineBackAt ⟨run h, o, reg⟩ lvl kids op → SurvivesLine (run h) o (kids.map (·.2)) op) ∧
      (SurvivesLine (run h) o (kids.map (·.2)) op → LineKeptAt ⟨run h, o, reg⟩ lvl kids op) := by
  have flat : (∀ r n, (relHead ⟨run h, o, reg⟩ (kids.map fun k => some k.2) op).args ≠ .rows r n) →
      (LineBackAt ⟨run h, o, reg⟩ lvl kids op → SurvivesLine (run h) o (kids.map (·.2)) op) ∧
      (SurvivesLine (run h) o (kids.map (·.2)) op → LineKeptAt ⟨run h, o, reg⟩ lvl kids op) := by
    intro hf
    have := line_kept (h := h) hA hF ho hi kids hd hn
    unfold LineBackAt LineKeptAt
    rw [lineText_flat _ _ _ _ hf]
    exact this
  cases op with
  | read c s f t a r =>
    cases t with
    | named names k => exact flat fun _ _ => by simp [relHead, headRead]
    | virtual rows k => cases hd; exact virtual_keptAt hA hF hi lvl kids c s f rows k r
    | _ => cases hd
  | filter => exact flat fun _ _ => by simp [relHead]
  | project => exact flat fun _ _ => by simp [relHead]
  | sort => exact flat fun _ _ => by simp [relHead]
  | fetch => exact flat fun _ _ => by simp [relHead]
  | join => exact flat fun _ _ => by simp [relHead]
  | set => exact flat fun _ _ => by simp [relHead]
  | cross => exact flat fun _ _ => by simp [relHead]
  | _ => cases hd

/-- The printer counts the columns of a relation that survives as the specification does. -/
theorem emitted_survives {env : Env} {ws : List Nat} {op : RelOp} (h : SurvivesLine env.st env.o ws op) :
    (relHead env (ws.map some) op).emitted = outWidth env.reg ws op := by
  have hw : ∀ i, widthAt (ws.map some) i = ws.getD i 0 := by
    intro i
    simp only [widthAt, List.getElem?_map, List.getD_eq_getElem?_getD]
    cases ws[i]? <;> rfl
  have key : ∀ (c : Option Common) (n : Nat), (relHead env (ws.map some) op).emit = getEmit c →
      (relHead env (ws.map some) op).columns.length = n →
      (relHead env (ws.map some) op).emitted = (shown n c).length := by
    rintro c n h1 rfl
    exact emitted_shown _ c h1
  cases op with
  | read c s f t a r =>
    have hs : SurvivesColumns env.st env.o s := by
      cases t with
      | named => exact h.2.2.2.2.2.2.2.1
      | virtual => exact h.2.2.2.2.2.2.2
      | _ => cases h
    obtain ⟨cols, rfl, hc⟩ := hs
    have hlen : (readColumns env.st env.o (some ⟨cols.map (·.1), some ⟨cols.map (·.2), 0, .required⟩⟩)).length =
        cols.length := by
      have := congrArg List.length (readColumns_text env.st env.o cols)
      simpa using this
    unfold outWidth
    apply key
    · cases t <;> rfl
    · cases t <;> simp [relHead, headRead, hlen, directWidth]
  | filter => exact key _ _ rfl (by simp [relHead, length_references, totalWidth_some, directWidth])
  | project => exact key _ _ rfl (by simp [relHead, length_references, totalWidth_some, directWidth])
  | sort => exact key _ _ rfl (by simp [relHead, length_references, totalWidth_some, directWidth])
  | fetch => exact key _ _ rfl (by simp [relHead, length_references, totalWidth_some, directWidth])
  | join c t e p a =>
    obtain ⟨-, -, ⟨t, rfl, -⟩, -⟩ := h
    exact key _ _ rfl (by simp only [relHead, length_references, directWidth, hw, EnumVal.joinType, joinColumns_eq])
  | set c t a =>
    obtain ⟨hl, -, -, hsame, -⟩ := h
    refine key _ _ rfl ?_
    have hne : ws ≠ [] := by rintro rfl; simp at hl
    simp only [relHead, length_references, directWidth]
    rw [if_neg (by simpa using hne), totalWidth_some, sum_const hsame, List.length_map,
      Nat.mul_div_cancel_left _ (List.length_pos_iff.2 hne)]
  | cross => exact key _ _ rfl (by simp [relHead, length_references, totalWidth_some, directWidth])
  | _ => cases h

theorem filterMap_somes {α : Type} (l : List α) : (l.map some).filterMap id = l := by
  induction l with
  | nil => rfl
  | cons a l ih => simp

/-- What is known of a tree once it is read back. -/
def TreeReadsAs (env : Env) (r : Rel) (t : RNode SLine SAddendum) : Prop :=
  DescribedTree env.reg r → ∀ r' w, convNode env.st env.reg t = .ok (r', w) → Equiv env.reg r r' →
    SurvivesTree env r ∧ w = width env.reg r ∧ relWidth env r = width env.reg r

theorem kids_read {env : Env} : ∀ (kids : List (Rel × RNode SLine SAddendum)) (ks : List (Rel × Nat)) (ps : List (Rel × Rel)),
    convKids env.st env.reg (kids.map (·.2)) = .ok ks → kids.map (·.1) = ps.map (·.1) → ks.map (·.1) = ps.map (·.2) →
    (∀ p ∈ ps, Equiv env.reg p.1 p.2) → (∀ p ∈ ps, DescribedTree env.reg p.1) → (∀ k ∈ kids, TreeReadsAs env k.1 k.2) →
    (∀ p ∈ ps, SurvivesTree env p.1) ∧ ks.map (·.2) = ps.map (fun p => width env.reg p.1) ∧
      ∀ p ∈ ps, relWidth env p.1 = width env.reg p.1
  | [], ks, ps, h1, h2, _, _, _, _ => by
    have : ps = [] := by simpa using h2.symm
    subst this
    rw [List.map_nil, convKids] at h1
    cases h1
    simp
  | k :: kids, ks, [], _, h2, _, _, _, _ => by simp at h2
  | k :: kids, ks, p :: ps, h1, h2, h3, h4, h5, h6 => by
    rw [List.map_cons, convKids] at h1
    obtain ⟨⟨r', w⟩, k1, h1⟩ := Res.bind_ok_iff.1 h1
    obtain ⟨ks', k2, h1⟩ := Res.bind_ok_iff.1 h1
    cases h1
    simp only [List.map_cons, List.cons.injEq] at h2 h3
    have g0 := h6 k (by simp)
    rw [h2.1] at g0
    obtain ⟨g1, g2, g3⟩ := g0 (h5 p (by simp)) r' w k1 (by rw [h3.1]; exact h4 p (by simp))
    obtain ⟨g4, g5, g6⟩ := kids_read kids ks' ps k2 h2.2 h3.2 (fun x hx => h4 x (by simp [hx])) (fun x hx => h5 x (by simp [hx]))
      fun x hx => h6 x (by simp [hx])
    refine ⟨?_, by simp [g2, g5], ?_⟩
    · intro x hx
      rcases List.mem_cons.1 hx with rfl | hx
      · exact g1
      · exact g4 x hx
    · intro x hx
      rcases List.mem_cons.1 hx with rfl | hx
      · exact g3
      · exact g6 x hx

theorem tree_survives (hA : AsciiPrintable) (hF : FloatsShown) (ho : o.showEmit = false) (hi : o.indent = cs!"  ") {r : Rel}
    {t : RNode SLine SAddendum} {lvl : Nat} (hl : LinesOf ⟨run h, o, reg⟩ lvl r t) : TreeReadsAs ⟨run h, o, reg⟩ r t := by
  induction hl with
  | node lvl op ins line rest kids h1 h2 _ ih =>
    intro hd r' w hc he
    cases hd with
    | node _ _ hop hn hins =>
    rw [convNode] at hc
    obtain ⟨ks, k1, hc⟩ := Res.bind_ok_iff.1 hc
    simp only [convAddenda, Res.bind] at hc
    obtain ⟨op', hx, -, -⟩ := (convLine_ok hc).shape
    simp only at hx
    subst hx
    generalize hr' : Rel.node op' ((ks.map (·.1)).map some) = r' at he
    cases he with
    | node _ op2 ps hps hoe =>
    simp only [Rel.node.injEq] at hr'
    obtain ⟨rfl, hr'⟩ := hr'
    have hks : ks.map (·.1) = ps.map (·.2) := by
      have := congrArg (·.filterMap id) hr'
      simpa [List.filterMap_map, Function.comp_def] using this
    have hkids : kids.map (·.1) = ps.map (·.1) := by
      cases hk : op.keepsInputs with
      | true =>
        rw [hk, if_pos rfl] at h2
        rw [← h2]
        simp [List.filterMap_map, Function.comp_def]
      | false =>
        rw [hk] at h2
        have h3 : kids = [] := by simpa using h2.symm
        subst h3
        rw [List.map_nil, convKids] at k1
        cases k1
        have : ps = [] := by simpa using hks.symm
        subst this
        rfl
    obtain ⟨g1, g2, g3⟩ := kids_read kids ks ps k1 hkids hks hps (fun p hp => hins p.1 (List.mem_map.2 ⟨p, hp, rfl⟩)) ih
    have hw : widths reg (ps.map fun p => some p.1) = ks.map (·.2) := by
      rw [widths_map reg (fun p : Rel × Rel => p.1), g2]
    have hin : inputWidths ⟨run h, o, reg⟩ (ps.map fun p => some p.1) = (ks.map (·.2)).map some := by
      have := inputWidths_rels (env := ⟨run h, o, reg⟩) (ps.map (·.1)) (by
        intro x hx
        obtain ⟨p, hp, rfl⟩ := List.mem_map.1 hx
        exact g3 p hp)
      rw [g2]
      simpa [Function.comp_def] using this
    rw [hw] at hn
    have hin2 : inputWidths ⟨run h, o, reg⟩ (ps.map fun p => some p.1) = ks.map fun k => some k.2 := by
      rw [hin, List.map_map]
      rfl
    rw [hin2] at h1
    simp only at g2 hoe
    rw [← g2] at hoe
    obtain ⟨q1, q2⟩ := line_keptAt (h := h) hA hF ho hi lvl ks hop hn
    have hs := q1 ⟨line, rest, op', _, w, h1, hc, hoe⟩
    obtain ⟨line2, rest2, op3, ins3, w3, -, rfl, e3, e4, -⟩ := q2 hs
    simp only at e3 e4
    rw [h1] at e3
    cases e3
    rw [hc] at e4
    simp only [Res.ok.injEq, Prod.mk.injEq] at e4
    refine ⟨?_, ?_, ?_⟩
    · have := SurvivesTree.node (env := ⟨run h, o, reg⟩) op (ps.map (·.1)) (by
        simp only [List.map_map]
        rw [g2] at hs
        exact hs) (by
        intro x hx
        obtain ⟨p, hp, rfl⟩ := List.mem_map.1 hx
        exact g1 p hp)
      simpa [Function.comp_def] using this
    · rw [e4.2, width, hw]
    · rw [relWidth, hin, width]
      simp only
      rw [hw]
      exact emitted_survives (env := ⟨run h, o, reg⟩) hs

/-- Trees that survive are read back, with the widths they have. -/
theorem tree_back (hA : AsciiPrintable) (hF : FloatsShown) (ho : o.showEmit = false) (hi : o.indent = cs!"  ") {r : Rel}
    (hs : SurvivesTree ⟨run h, o, reg⟩ r) : DescribedTree reg r → ∀ lvl, ∃ t r', LinesOf ⟨run h, o, reg⟩ lvl r t ∧
      convNode (run h) reg t = .ok (r', width reg r) ∧ Equiv reg r r' ∧ relWidth ⟨run h, o, reg⟩ r = width reg r := by
  induction hs with
  | node op inputs hl _ ih =>
    intro hd lvl
    cases hd with
    | node _ _ hop hn hins =>
    have hq : ∃ qs : List (Rel × RNode SLine SAddendum × Rel), inputs = qs.map (·.1) ∧
        ∀ q ∈ qs, LinesOf ⟨run h, o, reg⟩ (lvl + 1) q.1 q.2.1 ∧ convNode (run h) reg q.2.1 = .ok (q.2.2, width reg q.1) ∧
          Equiv reg q.1 q.2.2 ∧ relWidth ⟨run h, o, reg⟩ q.1 = width reg q.1 := by
      clear hl hn
      rename_i hs
      clear hs
      induction inputs with
      | nil => exact ⟨[], rfl, by simp⟩
      | cons r l ih2 =>
        obtain ⟨qs, h1, h2⟩ := ih2 (fun x hx => ih x (by simp [hx])) (fun x hx => hins x (List.mem_cons_of_mem _ hx))
        obtain ⟨node, r', h3⟩ := ih r (by simp) (hins r (by simp)) (lvl + 1)
        refine ⟨(r, node, r') :: qs, by simp [h1], ?_⟩
        intro q hq
        rcases List.mem_cons.1 hq with rfl | hq
        · exact h3
        · exact h2 q hq
    obtain ⟨qs, rfl, hqs⟩ := hq
    let ks : List (Rel × Nat) := qs.map fun q => (q.2.2, width reg q.1)
    have hks : ks.map (·.2) = (qs.map (·.1)).map (width reg) := by simp [ks, Function.comp_def]
    have hw : widths reg ((qs.map (·.1)).map some) = ks.map (·.2) := by rw [widths_some, hks]
    have hin : inputWidths ⟨run h, o, reg⟩ ((qs.map (·.1)).map some) = (ks.map (·.2)).map some := by
      rw [inputWidths_rels, hks]
      intro x hx
      obtain ⟨q, hq, rfl⟩ := List.mem_map.1 hx
      exact (hqs q hq).2.2.2
    rw [hw] at hn
    simp only at hl
    rw [← hks] at hl
    obtain ⟨line, rest, op', _, _, rfl, rfl, e3, e4, e5⟩ := (line_keptAt (h := h) hA hF ho hi lvl ks hop hn).2 hl
    simp only at e3 e4 e5
    refine ⟨.mk line [] ((qs.map fun q => (q.1, q.2.1)).map (·.2)), .node op' (ks.map fun k => some k.1), ?_, ?_, ?_, ?_⟩
    · refine LinesOf.node lvl op _ line rest (qs.map fun q => (q.1, q.2.1)) ?_ ?_ ?_
      · rw [hin, List.map_map]
        exact e3
      · cases hk : op.keepsInputs with
        | true => simp [List.filterMap_map, Function.comp_def]
        | false =>
          have : ks = [] := by
            cases op with
            | read c s f t a r =>
              cases t with
              | named => simpa using hl.1
              | virtual => simpa using hl.1
              | _ => cases hl
            | other => cases hl
            | _ => cases hk
          have : qs = [] := by simpa [ks] using this
          simp [this]
      · intro k hk
        obtain ⟨q, hq, rfl⟩ := List.mem_map.1 hk
        exact (hqs q hq).1
    · rw [convNode, List.map_map]
      have := convKids_map (st := run h) (reg := reg) qs (·.2.1) (fun q => (q.2.2, width reg q.1)) fun q hq => (hqs q hq).2.1
      rw [show ((fun x : Rel × RNode SLine SAddendum => x.2) ∘ fun q : Rel × RNode SLine SAddendum × Rel => (q.1, q.2.1)) = (·.2.1) from rfl, this]
      simp only [Res.bind, convAddenda]
      rw [width, hw]
      exact e4
    · have := Equiv.node (reg := reg) op op' (qs.map fun q => (q.1, q.2.2)) (by
        intro p hp
        obtain ⟨q, hq, rfl⟩ := List.mem_map.1 hp
        exact (hqs q hq).2.2.1) (by simpa [ks, Function.comp_def] using e5)
      simpa [ks, Function.comp_def] using this
    · rw [relWidth, hin, width]
      rw [hw]
      exact emitted_survives (env := ⟨run h, o, reg⟩) hl

theorem tree_exact (hA : AsciiPrintable) (hF : FloatsShown) (ho : o.showEmit = false) (hi : o.indent = cs!"  ") {r : Rel}
    (hd : DescribedTree reg r) (lvl : Nat) : TreeBack ⟨run h, o, reg⟩ lvl r ↔ SurvivesTree ⟨run h, o, reg⟩ r := by
  constructor
  · rintro ⟨t, r', w, h1, h2, h3⟩
    exact (tree_survives hA hF ho hi h1 hd r' w h2 h3).1
  · intro hs
    obtain ⟨t, r', h1, h2, h3, -⟩ := tree_back hA hF ho hi hs hd lvl
    exact ⟨t, r', _, h1, h2, h3⟩

/-! ## The top -/

theorem pRoot_back (env : Env) (names : List Str) :
    pRoot (textPlanRel env (.root names none)).text = some (.root (names.map nameBack), []) := by
  have hx : (textPlanRel env (.root names none)).text = cs!"Root[" ++ joinS cs!", " (names.map showName) ++ cs!"]" := by
    simp [textPlanRel]
  rw [hx]
  have hi := pSep_items (sep := spCommaSp) (p := pName) (F := NextNot isIdentChar) (names.map fun n => (showName n, nameBack n)) cs!"]"
    (by
      intro i hi
      obtain ⟨n, hn, rfl⟩ := List.mem_map.1 hi
      exact ⟨by have := showName_starts n []; rwa [List.append_nil] at this, fun rest hr => pName_back n hr⟩)
    spCommaSp_join (fun r => (nextNot_cons _ _ _).2 (by decide)) ((nextNot_cons _ _ _).2 (by decide))
    (fun n => by cases n <;> simp [pStarN, spCommaSp_stop])
    (pName_none (by decide) (by decide))
  simp only [List.map_map, Function.comp_def] at hi
  unfold pRoot
  rw [List.append_assoc, lit_append]
  simp only [Option.bind_eq_bind, Option.bind_some]
  rw [hi]
  rfl

omit [FTab] in
theorem names_back_iff (hA : AsciiPrintable) (names : List Str) : names.map nameBack = names ↔ ∀ n ∈ names, Spellable n := by
  induction names with
  | nil => simp
  | cons n l ih => simp [ih, nameBack_iff hA]

theorem top_exact (hA : AsciiPrintable) (hF : FloatsShown) (ho : o.showEmit = false) (hi : o.indent = cs!"  ") {p : PlanRel}
    (hd : DescribedTop reg p) : TopBack ⟨run h, o, reg⟩ p ↔ SurvivesTop ⟨run h, o, reg⟩ p := by
  constructor
  · rintro ⟨t, p', h1, h2, h3⟩
    cases h1 with
    | rel r t hl =>
      cases h3 with
      | rel _ r' he =>
        unfold convPlanRel at h2
        split at h2
        · split at h2
          · cases h2
          · split at h2
            · obtain ⟨x, -, h2⟩ := Res.bind_ok_iff.1 h2
              cases h2
            · cases h2
        · obtain ⟨⟨r2, w⟩, k1, h2⟩ := Res.bind_ok_iff.1 h2
          cases h2
          exact (tree_exact hA hF ho hi hd _).1 ⟨t, _, w, hl, k1, he⟩
    | root names input line rest kids hp hk hls =>
      rw [pRoot_back] at hp
      cases hp
      simp only [convPlanRel] at h2
      rw [if_neg (by simp)] at h2
      split at h2
      · next k hk2 =>
        obtain ⟨⟨r2, w⟩, k1, h2⟩ := Res.bind_ok_iff.1 h2
        cases h2
        generalize hn : names.map nameBack = names' at h3
        cases h3 with
        | root _ r _ he =>
          match kids, hk, hk2 with
          | [(a, b)], hk, hk2 =>
            simp only [Option.toList, List.map_cons, List.map_nil, List.cons.injEq, and_true] at hk hk2
            subst hk hk2
            exact ⟨(names_back_iff hA names).1 hn, (tree_exact hA hF ho hi hd _).1 ⟨_, _, w, hls (r, b) (by simp), k1, he⟩⟩
      · cases h2
  · intro hs
    cases p with
    | rel r =>
      obtain ⟨t, r', w, h1, h2, h3⟩ := (tree_exact hA hF ho hi hd _).2 hs
      refine ⟨t, .rel r', .rel r t h1, ?_, .rel r r' h3⟩
      obtain ⟨line, as, kids⟩ := t
      simp only at h2
      have h4 := h2
      rw [convNode] at h4
      obtain ⟨ks, -, h4⟩ := Res.bind_ok_iff.1 h4
      obtain ⟨as', -, h4⟩ := Res.bind_ok_iff.1 h4
      have h5 := convLine_ok h4
      unfold convPlanRel
      split
      · next names as kids heq =>
        cases heq
        exact h5.not_root.elim
      · simp only [h2, Res.bind]
    | root names input =>
      cases input with
      | none => cases hs
      | some r =>
        obtain ⟨h0, hs⟩ := hs
        obtain ⟨t, r', w, h1, h2, h3⟩ := (tree_exact hA hF ho hi hd _).2 hs
        refine ⟨.mk (.root names) [] [t], .root names (some r'), ?_, ?_, .root names r r' h3⟩
        · refine .root names (some r) _ [] [(r, t)] ?_ rfl (by simpa using h1)
          rw [pRoot_back, (names_back_iff hA names).2 h0]
        · simp only at h2
          simp [convPlanRel, h2, Res.bind]
    | missing => cases hs

end
end Verif
