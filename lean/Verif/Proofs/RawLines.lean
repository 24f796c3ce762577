import Verif.Proofs.Raw
/-!
# The number of lines of a text
-/

namespace Verif
open StoreSpec TextSpec RelSpec PlanSpec PanicSpec RawSpec NestSpec

set_option autoImplicit false

/-- Line ends of a text. -/
abbrev nls (s : Str) : Nat := s.count '\n'

theorem nls_flat {s : Str} (h : Flat s) : nls s = 0 := List.count_eq_zero.2 h

theorem nls_append (a b : Str) : nls (a ++ b) = nls a + nls b := List.count_append

theorem flat_indentAt {o : Opts} (h : Flat o.indent) (n : Nat) : Flat (indentAt o n) := by
  intro hm
  obtain ⟨l, hl, hm⟩ := List.mem_flatten.1 hm
  rw [List.eq_of_mem_replicate hl] at hm
  exact h hm

theorem nls_tailed {o : Opts} (h : Flat o.indent) (n : Nat) : ∀ {l : List (Nat × Str)}, (∀ x ∈ l, Flat x.2) →
    nls (tailed o n l) = l.length
  | [], _ => rfl
  | x :: l, hl => by
    rw [tailed, nls_append, nls_append, nls_append, nls_flat (flat_indentAt h _), nls_flat (hl x List.mem_cons_self),
      nls_tailed h n fun y hy => hl y (List.mem_cons_of_mem _ hy)]
    simp [nls]; omega

theorem nls_laid {o : Opts} (h : Flat o.indent) (n : Nat) {l : List (Nat × Str)} (hl : ∀ x ∈ l, Flat x.2) (hn : l ≠ []) :
    nls (laid o.indent n l) + 1 = l.length := by
  cases l with
  | nil => exact absurd rfl hn
  | cons x l =>
    rw [laid_tailed, nls_append, nls_append, nls_flat (flat_indentAt h _), nls_flat (hl x List.mem_cons_self),
      nls_tailed h n fun y hy => hl y (List.mem_cons_of_mem _ hy)]
    simp

theorem rowsLaid_length (more : Bool) : ∀ l : List Out, (rowsLaid more l).length = l.length
  | [] => rfl
  | [_] => rfl
  | _ :: s :: l => by rw [rowsLaid, List.length_cons, rowsLaid_length more (s :: l)]; rfl

theorem rowsLaid_flat (more : Bool) : ∀ {l : List Out}, (∀ a ∈ l, Fl a) → ∀ x ∈ rowsLaid more l, Flat x.2
  | [], _ => by simp [rowsLaid]
  | [r], h => by
    have hr : Flat r.text := h r (by simp)
    cases more <;> simp [rowsLaid, hr]
  | r :: s :: l, h => by
    intro x hx
    rw [rowsLaid] at hx
    rcases List.mem_cons.1 hx with rfl | hx
    · have hr : Flat r.text := h r (by simp)
      simp [hr]
    · exact rowsLaid_flat more (fun a ha => h a (List.mem_cons_of_mem _ ha)) x hx

theorem headLaid_flat {o : Opts} {h : Head} (k : FlHead h) : ∀ x ∈ headLaid o h, Flat x.2 := by
  have hargs := k.2.1
  have hout : Flat (textOutput o h).text := fl_output o k
  have hname : Flat h.name.text := k.1
  unfold headLaid
  split
  · rename_i rows named hh
    simp only [hh, HeadArgs.outs, List.mem_append, or_imp, forall_and] at hargs
    intro x hx
    rcases List.mem_cons.1 hx with rfl | hx
    · simp [hname]
    · rcases List.mem_append.1 hx with hx | hx
      · rcases List.mem_append.1 hx with hx | hx
        · exact rowsLaid_flat _ hargs.1 x hx
        · exact rowsLaid_flat _ hargs.2 x hx
      · rw [List.mem_singleton.1 hx]
        simp [hout]
  · rename_i hne
    intro x hx
    rw [List.mem_singleton.1 hx]
    unfold textHeader
    simp only
    split
    · have := Fl.sep (sp := cs!", ") (by decide) (fl_implicit o h.emit k.2.2.1)
      unfold Fl at this
      simp [indentAt, hname, this]
    · rename_i pos named hh
      simp only [hh, HeadArgs.outs, List.mem_append, or_imp, forall_and] at hargs
      have := flat_argList hargs.1 hargs.2
      simp [indentAt, hname, this, hout]
    · rename_i hh
      exact absurd hh (hne _ _)

section
variable [UTab] [FTab]

theorem advAddenda_length (env : Env) (a : Option AdvExt) : (advAddenda env a).length = advLines a := by
  cases a <;> simp [advAddenda, advLines, payloads]

theorem ownLaid_length (env : Env) (ws : List (Option Nat)) (op : RelOp) :
    (ownLaid env (relHead env ws op)).length = ownLines env.o op := by
  unfold ownLaid
  rw [List.length_append, List.length_map]
  cases op with
  | read c s f t a r =>
    cases t with
    | virtual rows _ =>
      simp only [relHead, headRead, ownLines, headLaid]
      by_cases hr : 0 < rows.length ∧ env.o.vthreshold ≤ rows.length
      · have hne : rows ≠ [] := by rintro rfl; exact absurd hr.1 (by simp)
        simp only [if_pos hr, List.map_eq_nil_iff, hne, false_and, if_false]
        simp [rowsLaid_length, advAddenda_length]
        omega
      · simp [if_neg hr, advAddenda_length, Nat.add_comm]
    | named => simp +arith [relHead, headRead, ownLines, headLaid, advAddenda_length]
    | extension => simp +arith [relHead, headRead, ownLines, headLaid, advAddenda_length]
    | other => simp +arith [relHead, headRead, ownLines, headLaid, advAddenda_length]
  | aggregate => simp +arith [relHead, headAggregate, ownLines, headLaid, advAddenda_length]
  | ext k c d =>
    simp only [relHead, headExt, ownLines]
    split <;> simp [headLaid]
  | _ => simp [relHead, ownLines, headLaid, advAddenda_length] <;> omega

mutual
theorem relLaid_length (env : Env) : (r : Rel) → (relLaid env r).length = relLines env.o r
  | .node op ins => by
    have hi := inputLaid_length env ins
    rw [relLaid, List.length_append, ownLaid_length]
    cases op <;> simp only [relLines, RelOp.keepsInputs, if_true, Bool.false_eq_true, if_false, hi, List.length_nil]
theorem inputLaid_length (env : Env) : (l : List (Option Rel)) → (inputLaid env l).length = relsLines env.o l
  | [] => by rw [inputLaid, relsLines]; rfl
  | none :: l => by rw [inputLaid, relsLines]; exact inputLaid_length env l
  | some r :: l => by
    have h1 := relLaid_length env r
    have h2 := inputLaid_length env l
    rw [inputLaid, relsLines, List.length_append, deeper, List.length_map, h1, h2]
end

mutual
theorem relLaid_flat (hf : FlatFloats) {env : Env} (hst : FlatStore env.st) (ho : env.st.Ordered) : (r : Rel) →
    (∀ s ∈ relRaw env r, Flat s) → ∀ x ∈ relLaid env r, Flat x.2
  | .node op ins, h => by
    rw [relRaw] at h
    simp only [List.mem_append, or_imp, forall_and] at h
    have hi := inputLaid_flat hf hst ho ins h.2
    have hh := fl_relHead hf hst _ op h.1
    rw [relLaid, inputWidths_written ho]
    intro x hx
    rcases List.mem_append.1 hx with hx | hx
    · rcases List.mem_append.1 hx with hx | hx
      · exact headLaid_flat hh x hx
      · obtain ⟨a, ha, rfl⟩ := List.mem_map.1 hx
        exact hh.2.2.2 a ha
    · split at hx
      · exact hi x hx
      · cases hx
theorem inputLaid_flat (hf : FlatFloats) {env : Env} (hst : FlatStore env.st) (ho : env.st.Ordered) :
    (l : List (Option Rel)) → (∀ s ∈ relsRaw env l, Flat s) → ∀ x ∈ inputLaid env l, Flat x.2
  | [], _ => by simp [inputLaid]
  | none :: l, h => by rw [inputLaid]; rw [relsRaw] at h; exact inputLaid_flat hf hst ho l h
  | some r :: l, h => by
    rw [relsRaw] at h
    simp only [List.mem_append, or_imp, forall_and] at h
    have h1 := relLaid_flat hf hst ho r h.1
    have h2 := inputLaid_flat hf hst ho l h.2
    rw [inputLaid]
    intro x hx
    rcases List.mem_append.1 hx with hx | hx
    · obtain ⟨y, hy, rfl⟩ := List.mem_map.1 hx
      exact h1 y hy
    · exact h2 x hx
end

theorem nls_textRel (hf : FlatFloats) {env : Env} (hi : Flat env.o.indent) (hst : FlatStore env.st)
    (ho : env.st.Ordered) (n : Nat) (r : Rel) (h : ∀ s ∈ relRaw env r, Flat s) :
    nls (textRel env n r).text + 1 = relLines env.o r := by
  rw [textRel_laid, nls_laid hi n (relLaid_flat hf hst ho r h), relLaid_length]
  obtain ⟨l, ls, he⟩ := relLaid_ne env r
  rw [he]; simp

theorem nls_top (hf : FlatFloats) {env : Env} (hi : Flat env.o.indent) (hst : FlatStore env.st)
    (ho : env.st.Ordered) (r : PlanRel) (h : ∀ s ∈ topRaw env r, Flat s) :
    nls (textPlanRel env r).text + 1 = topLines env.o r := by
  have hroot : ∀ names : List Str, Flat (cs!"Root[" ++ joinS cs!", " (names.map showName) ++ cs!"]") := by
    intro names
    have : Flat (joinS cs!", " (names.map showName)) := by
      refine flat_joinS (by decide) fun x hx => ?_
      obtain ⟨n, _, rfl⟩ := List.mem_map.1 hx
      exact flat_showName n
    simp [this]
  cases r with
  | rel r => exact nls_textRel hf hi hst ho 0 r h
  | missing => rfl
  | root names input =>
    cases input with
    | none =>
      simp only [textPlanRel, Out.text_append, Out.text_s, List.append_nil, topLines]
      rw [nls_flat (hroot names)]
    | some r =>
      have := nls_textRel hf hi hst ho 1 r h
      simp only [textPlanRel, Out.text_append, Out.text_s, topLines]
      rw [nls_append, nls_flat (hroot names), nls_append, ← this]
      simp [nls]; omega

theorem nls_tops (hf : FlatFloats) {env : Env} (hi : Flat env.o.indent) (hst : FlatStore env.st)
    (ho : env.st.Ordered) : ∀ {l : List PlanRel}, (∀ s ∈ l.flatMap (topRaw env), Flat s) →
    nls (textPlanRels env l).text + 1 = if l = [] then 1 else (l.map (topLines env.o)).sum + (l.length - 1)
  | [], _ => rfl
  | [r], h => by
    rw [textPlanRels, nls_top hf hi hst ho r (by simpa using h)]
    simp
  | r :: x :: l, h => by
    rw [List.flatMap_cons] at h
    simp only [List.mem_append, or_imp, forall_and] at h
    have h1 := nls_top hf hi hst ho r h.1
    have h2 := nls_tops hf hi hst ho (l := x :: l) h.2
    rw [textPlanRels]
    simp only [Out.text_append, Out.text_s]
    rw [nls_append, nls_append]
    simp only [if_neg (List.cons_ne_nil _ _), List.map_cons, List.sum_cons, List.length_cons] at h2 ⊢
    have : nls cs!"\n\n" = 2 := by decide
    omega

end

theorem nls_version {indent : Str} (hi : Flat indent) (v : Option Version)
    (h : ∀ s ∈ v.toList.flatMap (fun v => [v.producer, v.gitHash]), Flat s) :
    nls (writeVersion indent v) = versionLines v := by
  cases v with
  | none => rfl
  | some v =>
    simp only [Option.toList_some, List.flatMap_cons, List.flatMap_nil, List.append_nil, List.mem_cons,
      List.not_mem_nil, or_false, forall_eq_or_imp, forall_eq] at h
    have h1 : Flat (trim v.producer) := fun hm => h.1 (trim_subset hm)
    have h2 : Flat (trim v.gitHash) := fun hm => h.2 (trim_subset hm)
    obtain ⟨ma, mi, pa, git, prod⟩ := v
    unfold writeVersion versionLines
    simp only [Version.empty]
    split
    · rfl
    · have hp : nls versionPrefix = 0 := by decide
      have e1 : nls cs!" " = 0 := by decide
      have e2 : nls cs!"." = 0 := by decide
      have e3 : nls cs!"\n" = 1 := by decide
      have e4 : nls cs!"producer: " = 0 := by decide
      have e5 : nls cs!"git_hash: " = 0 := by decide
      have e6 : nls ([] : Str) = 0 := rfl
      cases prod <;> cases git <;>
        simp only [List.isEmpty_nil, List.isEmpty_cons, if_true, if_false, Bool.false_eq_true, nls_append,
          nls_flat (flat_dec _), hp, e1, e2, e3, e4, e5, e6, nls_flat hi, nls_flat h1, nls_flat h2, reduceCtorEq]

theorem nls_flatMap {α : Type} {f : α → Str} {l : List α} (h : ∀ a ∈ l, nls (f a) = 1) : nls (l.flatMap f) = l.length := by
  induction l with
  | nil => rfl
  | cons a l ih =>
    rw [List.flatMap_cons, nls_append, h a List.mem_cons_self, ih fun x hx => h x (List.mem_cons_of_mem _ hx)]
    simp; omega

theorem nls_width3 (n : Nat) : nls (width3 n) = 0 := by
  refine nls_flat ((flat_append _ _).2 ⟨fun h => ?_, flat_dec n⟩)
  exact absurd (List.eq_of_mem_replicate h) (by decide)

theorem nls_kind {st : Store} (hst : FlatStore st) {indent : Str} (hi : Flat indent) (k : Kind) :
    nls (writeKind st indent k) = headed (st.exts.countP (·.1.2 == k)) := by
  unfold writeKind headed
  rw [List.countP_eq_length_filter]
  have key : ∀ l : OMap (Nat × Kind) (Nat × Str), (∀ e ∈ l, Flat e.2.2) → nls (l.flatMap (declLine indent)) = l.length := by
    intro l hl
    refine nls_flatMap fun e he => ?_
    have := hl e he
    have e1 : nls cs!"#" = 0 := by decide
    have e2 : nls cs!" @" = 0 := by decide
    have e3 : nls cs!": " = 0 := by decide
    have e4 : nls cs!"\n" = 1 := by decide
    simp only [declLine, nls_append, nls_flat hi, nls_width3, nls_flat this, e1, e2, e3, e4]
  have hl : ∀ e ∈ st.exts.filter (fun e => e.1.2 == k), Flat e.2.2 := fun e he => hst.exts e (List.mem_filter.1 he).1
  generalize st.exts.filter (fun e => e.1.2 == k) = l at hl
  cases l with
  | nil => rfl
  | cons e l =>
    have hk : nls k.header = 0 := by cases k <;> decide
    have e4 : nls cs!"\n" = 1 := by decide
    simp only [nls_append, key _ hl, hk, e4]
    simp

theorem nls_exts {st : Store} (hst : FlatStore st) {indent : Str} (hi : Flat indent) :
    nls (writeExts st indent) + nls (if st.isEmpty then [] else cs!"\n") = extLines st := by
  have hurns : nls (if st.urns.isEmpty then [] else urnsHeader ++ cs!"\n" ++ st.urns.flatMap (urnLine indent)) =
      headed st.urns.length := by
    have hl := hst.urns
    have key : nls (st.urns.flatMap (urnLine indent)) = st.urns.length := by
      refine nls_flatMap fun e he => ?_
      have := hl e he
      have e1 : nls cs!"@" = 0 := by decide
      have e3 : nls cs!": " = 0 := by decide
      have e4 : nls cs!"\n" = 1 := by decide
      simp only [urnLine, nls_append, nls_flat hi, nls_width3, nls_flat this, e1, e3, e4]
    have hk : nls urnsHeader = 0 := by decide
    have e4 : nls cs!"\n" = 1 := by decide
    unfold headed
    cases hu : st.urns with
    | nil => rfl
    | cons e l =>
      rw [hu] at key
      simp only [List.isEmpty_cons, Bool.false_eq_true, if_false, nls_append, key, hk, e4]
      simp
  unfold writeExts extLines
  have he : (st.isEmpty = true) ↔ st.urns = [] ∧ st.exts = [] := by
    simp [Store.isEmpty, List.isEmpty_iff]
  by_cases hs : st.urns = [] ∧ st.exts = []
  · rw [if_pos (he.2 hs), if_pos (he.2 hs), if_pos hs]; rfl
  · rw [if_neg (fun h => hs (he.1 h)), if_neg (fun h => hs (he.1 h)), if_neg hs]
    have hk : nls extensionsHeader = 0 := by decide
    have e4 : nls cs!"\n" = 1 := by decide
    simp only [nls_append, hurns, nls_kind hst hi, hk, e4]
    omega

/-! ## Stores -/

theorem flat_addUrn {s : Store} (h : FlatStore s) {u : Str} (hu : Flat u) (a : Nat) : FlatStore (s.addUrn u a).1 := by
  unfold Store.addUrn
  split
  · exact h
  · refine ⟨fun e he => ?_, h.exts⟩
    rcases OMap.mem_insertNew he with he | he
    · rw [he]; exact hu
    · exact h.urns e he

theorem flat_addExt {s : Store} (h : FlatStore s) (k : Kind) (u a : Nat) {n : Str} (hn : Flat n) :
    FlatStore (s.addExt k u a n).1 := by
  unfold Store.addExt
  split
  · exact h
  · rename_i m hm
    have hm' : Flat m := by
      unfold Store.normName at hm
      split at hm
      · cases hm
        unfold Store.stripUBang
        split
        · simp only [flat_cons] at hn; exact hn.2.2
        · exact hn
      · split at hm
        · cases hm
        · cases hm; exact hn
    simp only
    split
    · exact h
    · refine ⟨h.urns, fun e he => ?_⟩
      rcases OMap.mem_insertNew he with he | he
      · rw [he]; exact hm'
      · exact h.exts e he

theorem flat_loadUrns : ∀ {l : List (Nat × Str)} {s : Store}, FlatStore s → (∀ u ∈ l, Flat u.2) →
    FlatStore (s.loadUrns l).1
  | [], _, h, _ => h
  | (a, u) :: l, s, h, hl => by
    rw [Store.loadUrns]
    exact flat_loadUrns (flat_addUrn h (hl (a, u) List.mem_cons_self) a) fun x hx => hl x (List.mem_cons_of_mem _ hx)

theorem flat_loadDecls : ∀ {l : List Store.Decl} {s : Store}, FlatStore s →
    (∀ n ∈ l.filterMap (Option.map (·.2.2.2)), Flat n) → FlatStore (s.loadDecls l).1
  | [], _, h, _ => h
  | none :: l, s, h, hl => by
    rw [Store.loadDecls]
    exact flat_loadDecls h (by simpa using hl)
  | some (k, u, a, n) :: l, s, h, hl => by
    simp only [List.filterMap_cons, Option.map_some, List.mem_cons, forall_eq_or_imp] at hl
    rw [Store.loadDecls]
    exact flat_loadDecls (flat_addExt h k u a hl.1) hl.2

theorem flat_planStore (p : Plan) (h1 : ∀ u ∈ p.urns, Flat u.2) (h2 : ∀ n ∈ p.decls.filterMap (Option.map (·.2.2.2)), Flat n) :
    FlatStore p.store := by
  unfold Plan.store Store.fromExtensions
  exact flat_loadDecls (flat_loadUrns ⟨by simp [Store.empty], by simp [Store.empty]⟩ h1) h2

theorem nls_textPlan [UTab] [FTab] (hf : FlatFloats) (reg : Registry ExtArgs (List Nat)) (o : Opts) (hi : Flat o.indent)
    (p : Plan) (h : ∀ s ∈ planRaw reg o p, Flat s) : nls (textPlan reg o p).text = planLines o p := by
  unfold planRaw at h
  simp only [List.mem_append, or_imp, forall_and] at h
  obtain ⟨⟨⟨h1, h2⟩, h3⟩, h4⟩ := h
  have hst := flat_planStore p (fun u hu => h2 _ (List.mem_map.2 ⟨u, hu, rfl⟩)) h3
  rw [plan_store] at hst
  have ho : (run (history p)).Ordered := Store.ordered_run _
  have k1 := nls_version hi p.version h1
  have k2 := nls_exts hst hi
  have k3 := nls_tops hf (env := ⟨run (history p), o, reg⟩) hi hst ho h4
  have hp : nls (planHeader ++ cs!"\n") = 1 := by decide
  have e4 : nls cs!"\n" = 1 := by decide
  unfold textPlan planLines
  simp only [plan_store, Out.text_append, Out.text_s]
  simp only [nls_append] at hp ⊢
  rw [k1]
  simp only [List.count_nil] at *
  omega

end Verif
