import Verif.Proofs.Canonical

/-!
`RelSpec.Equiv` and `PlanSpec.PlanEquiv` are symmetric and transitive, equivalent relations put out
equally many columns.
-/

set_option autoImplicit false

namespace Verif

open StoreSpec TextSpec RelSpec PlanSpec

/-! ## One relation -/

theorem sameOutputs_length {α : Type} {d d' : List α} {c c' : Option Common} (h : SameOutputs d d' c c') :
    (shown d.length c).length = (shown d'.length c').length := by
  have := congrArg List.length h
  simpa using this

theorem projectColumns_length (n : Nat) (es : List Expr) : (projectColumns n es).length = n + es.length := by
  simp [projectColumns]

theorem aggColumns_length (g : List Expr) (ms : List Measure) : (aggColumns g ms).length = g.length + ms.length := by
  simp [aggColumns]

theorem shown_mapping {n : Nat} {c c' : Option Common} (h : mapping c = mapping c') : shown n c = shown n c' := by
  simp only [shown, h]

theorem opEquiv_width {reg : Registry ExtArgs (List Nat)} {ws : List Nat} {op op' : RelOp} (h : OpEquiv reg ws op op') :
    outWidth reg ws op = outWidth reg ws op' := by
  unfold outWidth
  cases op <;> cases op' <;> try exact h.elim
  case read.read =>
    obtain ⟨h1, -, rfl, -⟩ := h
    simp only [common, shown_mapping h1]
    rename_i s _ _ _ _ _ _ _ _ _
    cases s <;> rfl
  case project.project =>
    have := sameOutputs_length h.1
    simpa only [projectColumns_length, directWidth, common] using this
  case aggregate.aggregate =>
    have := sameOutputs_length h.2.1
    simpa only [aggColumns_length, directWidth, common] using this
  case join.join =>
    obtain ⟨h1, -, rfl, -⟩ := h
    rename_i t _ _ _ _ _ _ _
    cases t
    · exact congrArg List.length h1
    · exact congrArg List.length h1
  case ext.ext =>
    obtain ⟨rfl, h1, -, rfl⟩ := h
    simp only [common, shown_mapping h1]
    rename_i d _
    cases d <;> rfl
  all_goals exact congrArg List.length h.1

theorem opEquiv_symm {reg : Registry ExtArgs (List Nat)} {ws : List Nat} {op op' : RelOp} (h : OpEquiv reg ws op op') :
    OpEquiv reg ws op' op := by
  cases op <;> cases op' <;> try exact h.elim
  case read.read =>
    obtain ⟨h1, h2, rfl, rfl, rfl, h3, rfl⟩ := h
    exact ⟨h1.symm, h2.symm, rfl, rfl, rfl, h3.symm, rfl⟩
  case aggregate.aggregate =>
    obtain ⟨h1, h2, h3, h4, h5, h6⟩ := h
    exact ⟨h1.symm, Eq.symm h2, fun m hm => h3 m (by simp at hm ⊢; exact hm.symm),
      fun m hm => h4 m (by simp at hm ⊢; exact hm.symm), h5.symm, h6.symm⟩
  case project.project =>
    obtain ⟨h1, h2, h3⟩ := h
    exact ⟨Eq.symm h1, h2.symm, h3.symm⟩
  case join.join =>
    obtain ⟨h1, h2, rfl, rfl, rfl, h3⟩ := h
    refine ⟨?_, h2.symm, rfl, rfl, rfl, h3.symm⟩
    rename_i t _ _ _ _ _
    cases t <;> exact h1.symm
  case ext.ext =>
    obtain ⟨rfl, h1, h2, rfl⟩ := h
    exact ⟨rfl, h1.symm, h2.symm, rfl⟩
  case filter.filter =>
    obtain ⟨h1, h2, h3, h4⟩ := h
    exact ⟨h1.symm, h2.symm, h3.symm, h4.symm⟩
  case sort.sort =>
    obtain ⟨h1, h2, h3, h4⟩ := h
    exact ⟨h1.symm, h2.symm, h3.symm, h4.symm⟩
  case fetch.fetch =>
    obtain ⟨h1, h2, h3, h4, h5⟩ := h
    exact ⟨h1.symm, h2.symm, h3.symm, h4.symm, h5.symm⟩
  case set.set =>
    obtain ⟨h1, h2, h3, h4⟩ := h
    exact ⟨h1.symm, h2.symm, h3.symm, h4.symm⟩
  case cross.cross =>
    obtain ⟨h1, h2, h3⟩ := h
    exact ⟨h1.symm, h2.symm, h3.symm⟩

theorem opEquiv_trans {reg : Registry ExtArgs (List Nat)} {ws : List Nat} {op op' op'' : RelOp}
    (h : OpEquiv reg ws op op') (h' : OpEquiv reg ws op' op'') : OpEquiv reg ws op op'' := by
  cases op <;> cases op' <;> (try exact h.elim) <;> cases op'' <;> try exact h'.elim
  case read.read.read =>
    obtain ⟨h1, h2, rfl, rfl, rfl, h3, rfl⟩ := h
    obtain ⟨h1', h2', rfl, rfl, rfl, h3', rfl⟩ := h'
    exact ⟨h1.trans h1', h2.trans h2', rfl, rfl, rfl, h3.trans h3', rfl⟩
  case aggregate.aggregate.aggregate =>
    obtain ⟨h1, h2, h3, h4, h5, h6⟩ := h
    obtain ⟨h1', h2', h3', h4', h5', h6'⟩ := h'
    refine ⟨h1.trans h1', Eq.trans h2 h2', ?_, ?_, h5.trans h5', h6.trans h6'⟩
    · intro m hm
      rcases List.mem_append.1 hm with hm | hm
      · exact h3 m (by simp [hm])
      · exact h3' m (by simp [hm])
    · intro m hm
      rcases List.mem_append.1 hm with hm | hm
      · exact h4 m (by simp [hm])
      · exact h4' m (by simp [hm])
  case project.project.project =>
    obtain ⟨h1, h2, h3⟩ := h
    obtain ⟨h1', h2', h3'⟩ := h'
    exact ⟨Eq.trans h1 h1', h2.trans h2', h3.trans h3'⟩
  case join.join.join =>
    obtain ⟨h1, h2, rfl, rfl, rfl, h3⟩ := h
    obtain ⟨h1', h2', rfl, rfl, rfl, h3'⟩ := h'
    refine ⟨?_, h2.trans h2', rfl, rfl, rfl, h3.trans h3'⟩
    rename_i t _ _ _ _ _ _ _
    cases t <;> exact h1.trans h1'
  case ext.ext.ext =>
    obtain ⟨rfl, h1, h2, rfl⟩ := h
    obtain ⟨rfl, h1', h2', rfl⟩ := h'
    exact ⟨rfl, h1.trans h1', h2.trans h2', rfl⟩
  case filter.filter.filter =>
    obtain ⟨h1, h2, h3, h4⟩ := h
    obtain ⟨h1', h2', h3', h4'⟩ := h'
    exact ⟨h1.trans h1', h2.trans h2', h3.trans h3', h4.trans h4'⟩
  case sort.sort.sort =>
    obtain ⟨h1, h2, h3, h4⟩ := h
    obtain ⟨h1', h2', h3', h4'⟩ := h'
    exact ⟨h1.trans h1', h2.trans h2', h3.trans h3', h4.trans h4'⟩
  case fetch.fetch.fetch =>
    obtain ⟨h1, h2, h3, h4, h5⟩ := h
    obtain ⟨h1', h2', h3', h4', h5'⟩ := h'
    exact ⟨h1.trans h1', h2.trans h2', h3.trans h3', h4.trans h4', h5.trans h5'⟩
  case set.set.set =>
    obtain ⟨h1, h2, h3, h4⟩ := h
    obtain ⟨h1', h2', h3', h4'⟩ := h'
    exact ⟨h1.trans h1', h2.trans h2', h3.trans h3', h4.trans h4'⟩
  case cross.cross.cross =>
    obtain ⟨h1, h2, h3⟩ := h
    obtain ⟨h1', h2', h3'⟩ := h'
    exact ⟨h1.trans h1', h2.trans h2', h3.trans h3'⟩

/-! ## Trees -/

theorem widths_map {α : Type} (reg : Registry ExtArgs (List Nat)) (f : α → Rel) (l : List α) :
    widths reg (l.map fun x => some (f x)) = l.map fun x => width reg (f x) := by
  induction l with
  | nil => rfl
  | cons x l ih => simp [widths, ih]

theorem equiv_width {reg : Registry ExtArgs (List Nat)} {r r' : Rel} (h : Equiv reg r r') : width reg r = width reg r' := by
  induction h with
  | node op op' inputs h1 h2 ih =>
    have : (inputs.map fun p => width reg p.1) = inputs.map fun p => width reg p.2 := List.map_congr_left ih
    rw [width, width, widths_map, widths_map, ← this]
    exact opEquiv_width h2

theorem equiv_symm {reg : Registry ExtArgs (List Nat)} {r r' : Rel} (h : Equiv reg r r') : Equiv reg r' r := by
  induction h with
  | node op op' inputs h1 h2 ih =>
    have hw : (inputs.map fun p => width reg p.1) = inputs.map fun p => width reg p.2 :=
      List.map_congr_left fun p hp => equiv_width (h1 p hp)
    have := Equiv.node (reg := reg) op' op (inputs.map fun p => (p.2, p.1)) (by
        intro p hp
        obtain ⟨q, hq, rfl⟩ := List.mem_map.1 hp
        exact ih q hq)
      (by simpa [Function.comp_def, ← hw] using opEquiv_symm h2)
    simpa [Function.comp_def] using this

theorem equiv_node_inv {reg : Registry ExtArgs (List Nat)} {op : RelOp} {ins : List (Option Rel)} {r : Rel}
    (h : Equiv reg (.node op ins) r) : ∃ (op' : RelOp) (inputs : List (Rel × Rel)), ins = inputs.map (fun p => some p.1) ∧
      r = .node op' (inputs.map fun p => some p.2) ∧ (∀ p ∈ inputs, Equiv reg p.1 p.2) ∧
      OpEquiv reg (inputs.map fun p => width reg p.1) op op' := by
  generalize hr : Rel.node op ins = x at h
  cases h with
  | node op₁ op' inputs h1 h2 =>
    cases hr
    exact ⟨op', inputs, rfl, rfl, h1, h2⟩

/-- Two lists of pairs that meet in the middle. -/
theorem pairs_join {α : Type} (l m : List (α × α)) (h : l.map (·.2) = m.map (·.1)) : ∃ t : List (α × α × α),
    l = t.map (fun x => (x.1, x.2.1)) ∧ m = t.map (fun x => (x.2.1, x.2.2)) := by
  induction l generalizing m with
  | nil =>
    cases m with
    | nil => exact ⟨[], rfl, rfl⟩
    | cons y m => cases h
  | cons x l ih =>
    cases m with
    | nil => cases h
    | cons y m =>
      obtain ⟨a, b⟩ := x
      obtain ⟨b', c⟩ := y
      simp only [List.map_cons, List.cons.injEq] at h
      obtain ⟨rfl, h⟩ := h
      obtain ⟨t, rfl, rfl⟩ := ih m h
      exact ⟨(a, b, c) :: t, rfl, rfl⟩

theorem equiv_trans {reg : Registry ExtArgs (List Nat)} {r r' : Rel} (h : Equiv reg r r') :
    ∀ r'', Equiv reg r' r'' → Equiv reg r r'' := by
  induction h with
  | node op op' inputs h1 h2 ih =>
    intro r'' h'
    obtain ⟨op'', inputs', he, rfl, h3, h4⟩ := equiv_node_inv h'
    have hm : inputs.map (·.2) = inputs'.map (·.1) := by
      have : (inputs.map (·.2)).map some = (inputs'.map (·.1)).map some := by simpa [Function.comp_def] using he
      exact (List.map_inj_right (by intro a b h; exact Option.some.inj h)).1 this
    obtain ⟨t, rfl, rfl⟩ := pairs_join _ _ hm
    have hw : (t.map fun x => width reg x.1) = t.map fun x => width reg x.2.1 :=
      List.map_congr_left fun x hx => equiv_width (h1 _ (List.mem_map_of_mem hx))
    have := Equiv.node (reg := reg) op op'' (t.map fun x => (x.1, x.2.2)) (by
        intro p hp
        obtain ⟨x, hx, rfl⟩ := List.mem_map.1 hp
        exact ih _ (List.mem_map_of_mem hx) _ (h3 _ (List.mem_map_of_mem hx)))
      (by
        simp only [List.map_map, Function.comp_def] at h2 h4 ⊢
        rw [← hw] at h4
        exact opEquiv_trans h2 h4)
    simpa [Function.comp_def] using this

/-! ## Plans -/

theorem topEquiv_symm {reg : Registry ExtArgs (List Nat)} {r r' : PlanRel} (h : TopEquiv reg r r') : TopEquiv reg r' r := by
  cases h with
  | rel r r' h => exact .rel _ _ (equiv_symm h)
  | root names r r' h => exact .root _ _ _ (equiv_symm h)

theorem topEquiv_trans {reg : Registry ExtArgs (List Nat)} {r r' r'' : PlanRel} (h : TopEquiv reg r r')
    (h' : TopEquiv reg r' r'') : TopEquiv reg r r'' := by
  cases h with
  | rel r r' h =>
    cases h' with
    | rel _ _ h' => exact .rel _ _ (equiv_trans h _ h')
  | root names r r' h =>
    cases h' with
    | root _ _ _ h' => exact .root _ _ _ (equiv_trans h _ h')

theorem planEquiv_symm {reg : Registry ExtArgs (List Nat)} {p q : Plan} (h : PlanEquiv reg p q) : PlanEquiv reg q p := by
  obtain ⟨l, h1, h2, h3⟩ := h.rels
  refine ⟨h.version.symm, fun a => (h.urns a).symm, fun a k => (h.decls a k).symm,
    l.map (fun x => (x.2, x.1)), by simpa [Function.comp_def] using h2, by simpa [Function.comp_def] using h1, ?_⟩
  intro x hx
  obtain ⟨y, hy, rfl⟩ := List.mem_map.1 hx
  exact topEquiv_symm (h3 y hy)

theorem planEquiv_trans {reg : Registry ExtArgs (List Nat)} {p q r : Plan} (h : PlanEquiv reg p q)
    (h' : PlanEquiv reg q r) : PlanEquiv reg p r := by
  obtain ⟨l, h1, h2, h3⟩ := h.rels
  obtain ⟨l', h1', h2', h3'⟩ := h'.rels
  obtain ⟨t, rfl, rfl⟩ := pairs_join l l' (by rw [← h2, ← h1'])
  refine ⟨h.version.trans h'.version, fun a => (h.urns a).trans (h'.urns a), fun a k => (h.decls a k).trans (h'.decls a k),
    t.map (fun x => (x.1, x.2.2)), by simpa [Function.comp_def] using h1, by simpa [Function.comp_def] using h2', ?_⟩
  intro x hx
  obtain ⟨y, hy, rfl⟩ := List.mem_map.1 hx
  exact topEquiv_trans (h3 (y.1, y.2.1) (List.mem_map.2 ⟨y, hy, rfl⟩)) (h3' (y.2.1, y.2.2) (List.mem_map.2 ⟨y, hy, rfl⟩))

/-- Stores with the same answers are the same. -/
theorem equiv_store {reg : Registry ExtArgs (List Nat)} {p q : Plan} (h : PlanEquiv reg p q) :
    run (history p) = run (history q) := by
  have hp := Store.ordered_run (history p)
  have hq := Store.ordered_run (history q)
  have hu : (run (history p)).urns = (run (history q)).urns :=
    OMap.find?_ext hp.1 hq.1 fun a => by rw [(Store.run_spec _).1, (Store.run_spec _).1]; exact h.urns a
  have he : (run (history p)).exts = (run (history q)).exts :=
    OMap.find?_ext hp.2 hq.2 fun a => by
      obtain ⟨a, k⟩ := a
      rw [(Store.run_spec _).2, (Store.run_spec _).2]; exact h.decls a k
  cases hx : run (history p)
  cases hy : run (history q)
  simp_all

/-- No text of a version is white space only. -/
def Nonblank (v : Option Version) : Prop :=
  ∀ x, v = some x → (x.producer ≠ [] → trim x.producer ≠ []) ∧ (x.gitHash ≠ [] → trim x.gitHash ≠ [])

theorem keptVersion_content {v w : Option Version} (hv : Nonblank v) (hw : Nonblank w)
    (h : versionContent v = versionContent w) : keptVersion v = keptVersion w := by
  have key : ∀ v : Option Version, Nonblank v →
      keptVersion v = if versionContent v = ⟨0, 0, 0, [], []⟩ then none else some (versionContent v) := by
    intro v hv
    cases v with
    | none => rfl
    | some x =>
      obtain ⟨h1, h2⟩ := hv x rfl
      obtain ⟨a, b, c, g, p⟩ := x
      have hp : trim p = [] ↔ p = [] := ⟨fun h => Classical.byContradiction fun hn => h1 hn h, fun h => by rw [h]; rfl⟩
      have hg : trim g = [] ↔ g = [] := ⟨fun h => Classical.byContradiction fun hn => h2 hn h, fun h => by rw [h]; rfl⟩
      simp [keptVersion, versionContent, hp, hg]
  rw [key v hv, key w hw, h]

section
variable [UTab] [FTab]

/-- Equivalent plans have the same text. -/
theorem equiv_text (hA : AsciiPrintable) (reg : Registry ExtArgs (List Nat)) (o : Opts) (ho : Readable o)
    (hl : o.litTypes = .required) (p q : Plan) (hp : PlanOk reg o p) (hq : answers [] (history q) = [])
    (hv : Nonblank p.version) (hw : Nonblank q.version) (he : PlanEquiv reg p q) : textPlan reg o q = textPlan reg o p := by
  obtain ⟨l, hl1, hl2, hl3⟩ := he.rels
  have hacc : ∀ p : Plan, answers [] (history p) = [] → (Store.fromExtensions p.urns p.decls).2 = [] := by
    intro p hp
    rw [Store.fromExtensions_spec]
    exact hp
  have hst : q.store = p.store := by rw [plan_store, plan_store]; exact (equiv_store he).symm
  have hver : writeVersion o.indent q.version = writeVersion o.indent p.version := by
    rw [← writeVersion_kept _ _ hw, ← writeVersion_kept _ _ hv, keptVersion_content hw hv he.version.symm]
  unfold textPlan
  simp only [hacc q hq, hacc p hp.accepted, hver, hst]
  rw [hl1, hl2]
  have := sameTops hA (env := ⟨p.store, o, reg⟩) (by rw [plan_store]; exact Store.ordered_run _) ho l (fun _ _ => .inl hl) hl3 (by
    intro q hq
    rw [plan_store]
    exact hp.rels _ (by rw [hl1]; exact List.mem_map_of_mem hq))
  rw [this]

/-- Plans with the same text are equivalent. -/
theorem text_equiv (hA : AsciiPrintable) (reg : Registry ExtArgs (List Nat)) (o o' : Opts) (ho : Readable o)
    (ho' : Readable o') (p q : Plan) (hp : PlanOk reg o p) (hq : PlanOk reg o' q)
    (h : (textPlan reg o p).text = (textPlan reg o' q).text) : PlanEquiv reg p q := by
  obtain ⟨p', h1, h2, -⟩ := planRT hA reg o ho p hp
  obtain ⟨q', h3, h4, -⟩ := planRT hA reg o' ho' q hq
  rw [h, h3] at h1
  cases h1
  exact planEquiv_trans h2 (planEquiv_symm h4)

end

end Verif
