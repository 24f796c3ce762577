import Verif.Proofs.TreesExact
import Verif.Props.LinesExact
/-!
# C89: exactly which trees of relations survive
-/

namespace Verif
open StoreSpec TextSpec RelSpec

set_option autoImplicit false

section
variable [UTab] [FTab] {h : List Op} {o : Opts} {reg : Registry ExtArgs (List Nat)}

/-- C89.  A tree of reads, filters, projects, sorts, fetches, joins, sets and crosses, however deep, is read back from its
lines, at any depth, as a tree that means the same exactly if no input is missing and every line survives, over the widths its inputs have. -/
theorem C89_tree_survives_iff (hA : AsciiPrintable) (hF : FloatsShown) (ho : o.showEmit = false) (hi : o.indent = cs!"  ")
    (r : Rel) (hd : DescribedTree reg r) (lvl : Nat) : TreeBack ⟨run h, o, reg⟩ lvl r ↔ SurvivesTree ⟨run h, o, reg⟩ r :=
  tree_exact hA hF ho hi hd lvl

/-- C89.  So one line that does not survive, anywhere in the tree, loses the tree. -/
theorem C89_one_lost_line_loses_all (hA : AsciiPrintable) (hF : FloatsShown) (ho : o.showEmit = false)
    (hi : o.indent = cs!"  ") (op : RelOp) (inputs : List Rel) (hd : DescribedTree reg (.node op (inputs.map some)))
    (lvl : Nat)
    (r : Rel) (hr : r ∈ inputs) (hn : ¬ TreeBack ⟨run h, o, reg⟩ (lvl + 1) r) : ¬ TreeBack ⟨run h, o, reg⟩ lvl (.node op (inputs.map some)) := by
  intro hb
  have hs := (C89_tree_survives_iff hA hF ho hi _ hd lvl).1 hb
  have hin : ∀ x ∈ inputs, SurvivesTree ⟨run h, o, reg⟩ x := by
    generalize hx : Rel.node op (inputs.map some) = x at hs
    cases hs with
    | node op2 inputs2 _ h2 =>
      simp only [Rel.node.injEq] at hx
      have : inputs = inputs2 := by
        have := congrArg (·.filterMap id) hx.2
        simpa using this
      rw [this]
      exact h2
  cases hd with
  | node _ _ _ _ hins =>
    exact hn ((C89_tree_survives_iff hA hF ho hi r (hins r (List.mem_map.2 ⟨r, hr, rfl⟩)) (lvl + 1)).2 (hin r hr))

/-- C89.  The parser and the printer agree on the width of every tree that is read back, and both take it to be what the
relations put out. -/
theorem C89_widths_kept (hA : AsciiPrintable) (hF : FloatsShown) (ho : o.showEmit = false) (hi : o.indent = cs!"  ")
    (r : Rel) (hd : DescribedTree reg r) (lvl : Nat) (t : RNode SLine SAddendum) (hl : LinesOf ⟨run h, o, reg⟩ lvl r t) (r' : Rel) (w : Nat)
    (hc : convNode (run h) reg t = .ok (r', w)) (he : Equiv reg r r') :
    w = width reg r ∧ relWidth ⟨run h, o, reg⟩ r = width reg r :=
  (tree_survives hA hF ho hi hl hd r' w hc he).2

/-- C89.  The same at the top of a plan: below a `Root` line the names of the columns have to survive as well, and the tree
has to be there. -/
theorem C89_top_survives_iff (hA : AsciiPrintable) (hF : FloatsShown) (ho : o.showEmit = false) (hi : o.indent = cs!"  ")
    (p : PlanRel) (hd : DescribedTop reg p) : TopBack ⟨run h, o, reg⟩ p ↔ SurvivesTop ⟨run h, o, reg⟩ p :=
  top_exact hA hF ho hi hd

end

namespace TreesSample
open LinesSample

/-- A read of two columns. -/
def table : Rel := .node (.read none (some schema) none (.named [cs!"t"] 0) none 0) []

/-- A semi join of two filtered reads, the left with its columns exchanged, and a projection above it. -/
def tree : Rel :=
  .node (.project (some ⟨some (.emit [2, 0]), 0⟩) [fld 1] none)
    [some (.node (.join none (.known .leftSemi) (some (fld 1)) none none)
      [some (.node (.filter (some ⟨some (.emit [1, 0]), 0⟩) (some (fld 1)) none) [some table]), some table])]

theorem table_width (reg : Registry ExtArgs (List Nat)) : width reg table = 2 := by
  simp [table, width, widths, outWidth, directWidth, common, shown, mapping, identity, schema]

theorem table_described (reg : Registry ExtArgs (List Nat)) : DescribedTree reg table :=
  .node _ _ rfl (by simp [Countable, widths, directWidth, outWidth, common, shown, mapping, identity, schema]) (by simp)

theorem tree_described (reg : Registry ExtArgs (List Nat)) : DescribedTree reg tree := by
  have h2 := table_described reg
  refine .node _ _ rfl (by
    simp [Countable, widths, width, table_width, directWidth, outWidth, common, shown, mapping, identity, joinColumns, joinSides]) ?_
  intro r hr
  simp only [List.mem_cons, List.not_mem_nil, or_false, Option.some.injEq] at hr
  subst hr
  refine .node _ _ rfl (by
    simp [Countable, widths, width, table_width, directWidth, outWidth, common, shown, mapping, identity, joinColumns, joinSides]) ?_
  intro r hr
  simp only [List.mem_cons, List.not_mem_nil, or_false, Option.some.injEq] at hr
  rcases hr with rfl | rfl
  · refine .node _ _ rfl (by
      simp [Countable, widths, table_width, directWidth, outWidth, common, shown, mapping]) ?_
    intro r hr
    simp only [List.mem_cons, List.not_mem_nil, or_false, Option.some.injEq] at hr
    subst hr
    exact h2
  · exact h2

theorem table_survives [UTab] [FTab] (hA : AsciiPrintable) (env : Env) : SurvivesTree env table :=
  .node _ [] ⟨rfl, rfl, rfl, rfl, rfl, by simp, by
    intro n hn
    rw [List.mem_singleton] at hn
    subst hn
    exact Ascii.spellable hA (by simp [Ascii]), schema_ok hA _ _, by rintro m ⟨⟩⟩ (by simp)

theorem tree_ok [UTab] [FTab] (hA : AsciiPrintable) (env : Env) : SurvivesTree env tree := by
  have ht := table_survives hA env
  have hf : SurvivesTree env
      (.node (.filter (some ⟨some (.emit [1, 0]), 0⟩) (some (fld 1)) none) [some table]) :=
    .node _ [table] ⟨rfl, rfl, ⟨_, rfl, fld_ok _ _⟩, by simp [Among, shown, mapping, table_width]⟩ (by simpa using ht)
  have hj : SurvivesTree env (.node (.join none (.known .leftSemi) (some (fld 1)) none none)
      [some (.node (.filter (some ⟨some (.emit [1, 0]), 0⟩) (some (fld 1)) none) [some table]), some table]) := by
    refine .node _ [.node (.filter (some ⟨some (.emit [1, 0]), 0⟩) (some (fld 1)) none) [some table], table]
      ⟨rfl, rfl, ⟨_, rfl, by decide, ?_, ?_⟩, ⟨_, rfl, fld_ok _ _⟩, by rintro e ⟨⟩⟩ (by
        intro r hr
        simp only [List.mem_cons, List.not_mem_nil, or_false] at hr
        rcases hr with rfl | rfl
        · exact hf
        · exact ht)
    · simp [Among, width, widths, table_width, joinColumns, joinSides, shown, mapping, identity, outWidth, directWidth, common,
        List.range_succ]
    · simp [width, widths, table_width, joinColumns, joinSides, shown, mapping, identity, outWidth, directWidth, common,
        List.range_succ]
  refine .node _ [_] ⟨rfl, rfl, ?_, ?_⟩ (by simpa using hj)
  · simp [Among, width, widths, table_width, joinColumns, joinSides, shown, mapping, identity, outWidth, directWidth, common]
  · intro i hi e h1 h2
    simp only [shown, mapping, List.mem_cons, List.not_mem_nil, or_false, Option.bind_some, Option.getD_some] at hi
    rcases hi with rfl | rfl
    · simp [width, widths, table_width, joinColumns, joinSides, shown, mapping, identity, outWidth, directWidth, common] at h2
      subst h2
      refine ⟨fld_ok _ _, ?_⟩
      rintro j ⟨⟩
      simp [width, widths, table_width, joinColumns, joinSides, shown, mapping, identity, outWidth, directWidth, common]
    · simp [width, widths, table_width, joinColumns, joinSides, shown, mapping, identity, outWidth, directWidth, common] at h1

/-- The tree is read back, -/
example [UTab] (hA : AsciiPrintable) (reg : Registry ExtArgs (List Nat)) : letI := halfTab
    TreeBack ⟨run [], Opts.default, reg⟩ 0 tree := by
  letI := halfTab
  exact (C89_tree_survives_iff hA halfTab_shown rfl rfl _ (tree_described reg) 0).2 (tree_ok hA _)

/-- and a sort above a read with a filter is not, although the line of the sort survives. -/
example [UTab] (hA : AsciiPrintable) (reg : Registry ExtArgs (List Nat)) : letI := halfTab
    ¬ TreeBack ⟨run [], Opts.default, reg⟩ 0
      (.node (.sort none [⟨some (fld 1), some (.direction (.known .descNullsLast))⟩] none)
        [some (.node (.read none (some schema) (some (fld 1)) (.named [cs!"t"] 0) none 0) [])]) := by
  letI := halfTab
  have hd : DescribedTree reg (.node (.read none (some schema) (some (fld 1)) (.named [cs!"t"] 0) none 0) []) :=
    .node _ _ rfl (by simp [Countable, widths, directWidth, outWidth, common, shown, mapping, identity, schema]) (by simp)
  refine C89_one_lost_line_loses_all hA halfTab_shown rfl rfl _ [_] ?_ 0 _ (List.mem_singleton.2 rfl) ?_
  · refine .node _ _ rfl ?_ ?_
    · simp [Countable, widths, width, directWidth, outWidth, common, shown, mapping, identity, schema]
    · intro r hr
      simp only [List.map_cons, List.map_nil, List.mem_cons, List.not_mem_nil, or_false, Option.some.injEq] at hr
      subst hr
      exact hd
  · rw [C89_tree_survives_iff hA halfTab_shown rfl rfl _ hd 1]
    intro hs
    generalize hx : Rel.node (.read none (some schema) (some (fld 1)) (.named [cs!"t"] 0) none 0) [] = x at hs
    cases hs with
    | node op ins h1 _ =>
      simp only [Rel.node.injEq] at hx
      obtain ⟨rfl, -⟩ := hx
      cases h1.2.2.2.2.1

/-- A root with two names above a read survives, a root above nothing does not. -/
example [UTab] (hA : AsciiPrintable) (reg : Registry ExtArgs (List Nat)) : letI := halfTab
    TopBack ⟨run [], Opts.default, reg⟩ (.root [cs!"a", cs!"b c"] (some table)) ∧
      ¬ TopBack ⟨run [], Opts.default, reg⟩ (.root [cs!"a"] none) := by
  letI := halfTab
  constructor
  · refine (C89_top_survives_iff (h := []) (o := Opts.default) (reg := reg) hA halfTab_shown rfl rfl
      (.root [cs!"a", cs!"b c"] (some table)) (table_described reg)).2 ⟨?_, table_survives hA _⟩
    intro n hn
    simp only [List.mem_cons, List.not_mem_nil, or_false] at hn
    rcases hn with rfl | rfl
    · exact Ascii.spellable hA (by simp [Ascii])
    · exact Ascii.spellable hA (by simp [Ascii])
  · exact fun hb => (C89_top_survives_iff (h := []) (o := Opts.default) (reg := reg) hA halfTab_shown rfl rfl
      (.root [cs!"a"] none) trivial).1 hb

end TreesSample
end Verif
