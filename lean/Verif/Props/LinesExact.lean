import Verif.Proofs.LinesExactProject
import Verif.Proofs.LinesExactVirtual
import Verif.Props.ExprsExact
/-!
# C88: exactly which lines of reads, filters, projects, sorts, fetches, joins, sets and crosses survive
-/

namespace Verif
open StoreSpec TextSpec RelSpec

set_option autoImplicit false

section
variable [UTab] [FTab] {h : List Op} {o : Opts} {reg : Registry ExtArgs (List Nat)}

/-- C88.  Over inputs of any widths, a filter is read back from its line exactly if it has one input, a condition that
survives and puts out columns it has. -/
theorem C88_filter_survives_iff (hA : AsciiPrintable) (hF : FloatsShown) (ho : o.showEmit = false)
    (kids : List (Rel × Nat)) (c : Option Common) (cond : Option Expr)
    (hn : Countable reg (kids.map (·.2)) (.filter c cond none)) :
    LineBack ⟨run h, o, reg⟩ kids (.filter c cond none) ↔ SurvivesLine (run h) o (kids.map (·.2)) (.filter c cond none) :=
  filter_exact hA hF ho kids c cond hn

/-- C88.  A project is read back from its line exactly if it has one input, puts out columns it has, and among these its own
expressions survive and are, where they are plain references, references to columns of the input.  Nothing is asked of the
expressions it does not put out. -/
theorem C88_project_survives_iff (hA : AsciiPrintable) (hF : FloatsShown) (ho : o.showEmit = false)
    (kids : List (Rel × Nat)) (c : Option Common) (exprs : List Expr)
    (hn : Countable reg (kids.map (·.2)) (.project c exprs none)) :
    LineBack ⟨run h, o, reg⟩ kids (.project c exprs none) ↔ SurvivesLine (run h) o (kids.map (·.2)) (.project c exprs none) :=
  project_exact hA hF ho kids c exprs hn

/-- C88.  A sort is read back from its line exactly if it has one input, some field, in each field an expression that survives
and a direction other than the unspecified and the clustered one, and puts out columns it has. -/
theorem C88_sort_survives_iff (hA : AsciiPrintable) (hF : FloatsShown) (ho : o.showEmit = false)
    (kids : List (Rel × Nat)) (c : Option Common) (sorts : List SortField)
    (hn : Countable reg (kids.map (·.2)) (.sort c sorts none)) :
    LineBack ⟨run h, o, reg⟩ kids (.sort c sorts none) ↔ SurvivesLine (run h) o (kids.map (·.2)) (.sort c sorts none) :=
  sort_exact hA hF ho kids c sorts hn

/-- C88.  A fetch is read back from its line exactly if it has one input, its limit and its offset, where given, are numbers
from 0 to 2^63 - 1 whose type is not shown or expressions that survive and are no numbers, and it puts out columns it has. -/
theorem C88_fetch_survives_iff (hA : AsciiPrintable) (hF : FloatsShown) (ho : o.showEmit = false)
    (kids : List (Rel × Nat)) (c : Option Common) (count offset : Option Count)
    (hn : Countable reg (kids.map (·.2)) (.fetch c count offset none)) :
    LineBack ⟨run h, o, reg⟩ kids (.fetch c count offset none) ↔
      SurvivesLine (run h) o (kids.map (·.2)) (.fetch c count offset none) :=
  fetch_exact hA hF ho kids c count offset hn

/-- C88.  A join is read back from its line exactly if it has two inputs, a type other than the unspecified one, a
condition, and perhaps a filter, that survive, puts out columns it has, and does not list as many columns as both inputs have
together in order unless these are its columns. -/
theorem C88_join_survives_iff (hA : AsciiPrintable) (hF : FloatsShown) (ho : o.showEmit = false)
    (kids : List (Rel × Nat)) (c : Option Common) (ty : EnumVal JoinType) (cond post : Option Expr)
    (hn : Countable reg (kids.map (·.2)) (.join c ty cond post none)) :
    LineBack ⟨run h, o, reg⟩ kids (.join c ty cond post none) ↔
      SurvivesLine (run h) o (kids.map (·.2)) (.join c ty cond post none) :=
  join_exact hA hF ho kids c ty cond post hn

/-- C88.  A set operation is read back from its line exactly if it has two or more inputs, all of one width, a known
operation, and puts out columns it has. -/
theorem C88_set_survives_iff (ho : o.showEmit = false)
    (kids : List (Rel × Nat)) (c : Option Common) (op : EnumVal SetOp)
    (hn : Countable reg (kids.map (·.2)) (.set c op none)) :
    LineBack ⟨run h, o, reg⟩ kids (.set c op none) ↔ SurvivesLine (run h) o (kids.map (·.2)) (.set c op none) :=
  set_exact ho kids c op hn

/-- C88.  A cross product is read back from its line exactly if it has two inputs and puts out columns it has. -/
theorem C88_cross_survives_iff (ho : o.showEmit = false)
    (kids : List (Rel × Nat)) (c : Option Common) (hn : Countable reg (kids.map (·.2)) (.cross c none)) :
    LineBack ⟨run h, o, reg⟩ kids (.cross c none) ↔ SurvivesLine (run h) o (kids.map (·.2)) (.cross c none) :=
  cross_exact ho kids c hn

/-- C88.  A read of a named table is read back from its line exactly if it has no input and no filter, its table has one or
more names, its columns are given with names and types that survive, and it lists no column beyond the 32 bit integers.  The
columns it lists need not be columns it has.  Nothing is assumed about the options. -/
theorem C88_named_read_survives_iff (hA : AsciiPrintable) (kids : List (Rel × Nat)) (c : Option Common)
    (schema : Option NamedStruct) (filter : Option Expr) (names : List Str) (k rest : Nat) :
    LineBack ⟨run h, o, reg⟩ kids (.read c schema filter (.named names k) none rest) ↔
      SurvivesLine (run h) o (kids.map (·.2)) (.read c schema filter (.named names k) none rest) :=
  named_exact hA kids c schema filter names k rest

/-- C88.  A virtual table is read back from its line, or its lines with a row each, exactly if it has no input and lists no
columns, the expressions of its rows and its filter, where it has one, survive, and its columns are given with names and types
that survive.  It may have no rows, rows without expressions and rows of other lengths than the columns.  The indentation is
two spaces, as rows on lines of their own need. -/
theorem C88_virtual_read_survives_iff (hA : AsciiPrintable) (hF : FloatsShown) (hi : o.indent = cs!"  ")
    (kids : List (Rel × Nat)) (c : Option Common) (schema : Option NamedStruct) (filter : Option Expr)
    (rows : List (List Expr)) (k rest : Nat) :
    LineBack ⟨run h, o, reg⟩ kids (.read c schema filter (.virtual rows k) none rest) ↔
      SurvivesLine (run h) o (kids.map (·.2)) (.read c schema filter (.virtual rows k) none rest) :=
  virtual_exact hA hF hi kids c schema filter rows k rest

end

namespace LinesSample

def fld (n : Int) : Expr := .selection (.field n none)

/-- A relation that stands for an input; only its width matters for the line above it. -/
def input : Rel := .node (.cross none none) []

instance (n : Nat) (m : List Int) : Decidable (Among n m) := inferInstanceAs (Decidable (∀ i ∈ m, _))

theorem fld_ok [UTab] [FTab] (st : Store) (o : Opts) : SurvivesExpr st o (fld 1) := by
  simp [fld, SurvivesExpr, InI32]

/-- A filter over three columns that puts out the last and the first is read back, -/
example [UTab] (hA : AsciiPrintable) (reg : Registry ExtArgs (List Nat)) : letI := halfTab
    LineBack ⟨run [], Opts.default, reg⟩ [(input, 3)] (.filter (some ⟨some (.emit [2, 0]), 0⟩) (some (fld 1)) none) := by
  letI := halfTab
  refine (C88_filter_survives_iff hA halfTab_shown rfl _ _ _ (by
    simp [Countable, directWidth, outWidth, common, shown, mapping])).2 ?_
  exact ⟨rfl, rfl, ⟨_, rfl, fld_ok _ _⟩, by simp [Among, shown, mapping]⟩

/-- and is not if it puts out a column it does not have, -/
example [UTab] (hA : AsciiPrintable) (reg : Registry ExtArgs (List Nat)) : letI := halfTab
    ¬ LineBack ⟨run [], Opts.default, reg⟩ [(input, 3)] (.filter (some ⟨some (.emit [2, 3]), 0⟩) (some (fld 1)) none) := by
  letI := halfTab
  rw [C88_filter_survives_iff hA halfTab_shown rfl _ _ _ (by
    simp [Countable, directWidth, outWidth, common, shown, mapping])]
  rintro ⟨-, -, -, h⟩
  have := h 3 (by simp [shown, mapping])
  simp at this

/-- or has no condition. -/
example [UTab] (hA : AsciiPrintable) (reg : Registry ExtArgs (List Nat)) : letI := halfTab
    ¬ LineBack ⟨run [], Opts.default, reg⟩ [(input, 3)] (.filter none none none) := by
  letI := halfTab
  rw [C88_filter_survives_iff hA halfTab_shown rfl _ _ _ (by
    simp [Countable, directWidth, outWidth, common, shown, mapping, identity])]
  rintro ⟨-, -, ⟨e, h, -⟩, -⟩
  cases h

/-- A project that puts out its second expression and a column of its input, and not its first expression, which cannot be
written, is read back, -/
example [UTab] (hA : AsciiPrintable) (reg : Registry ExtArgs (List Nat)) : letI := halfTab
    LineBack ⟨run [], Opts.default, reg⟩ [(input, 2)] (.project (some ⟨some (.emit [3, 0]), 0⟩) [.missing, fld 1] none) := by
  letI := halfTab
  refine (C88_project_survives_iff hA halfTab_shown rfl _ _ _ (by
    simp [Countable, directWidth, outWidth, common, shown, mapping])).2 ?_
  refine ⟨rfl, rfl, by simp [Among, shown, mapping], ?_⟩
  intro i hi e h1 h2
  simp only [shown, mapping, List.mem_cons, List.not_mem_nil, or_false, Option.bind_some, Option.getD_some] at hi
  rcases hi with rfl | rfl
  · cases h2
    exact ⟨fld_ok _ _, by rintro j ⟨⟩; decide⟩
  · exact absurd h1 (by decide)

/-- and is not if it refers to a column its input does not have. -/
example [UTab] (hA : AsciiPrintable) (reg : Registry ExtArgs (List Nat)) : letI := halfTab
    ¬ LineBack ⟨run [], Opts.default, reg⟩ [(input, 2)] (.project none [fld 2] none) := by
  letI := halfTab
  rw [C88_project_survives_iff hA halfTab_shown rfl _ _ _ (by
    simp [Countable, directWidth, outWidth, common, shown, mapping, identity])]
  rintro ⟨-, -, -, h⟩
  have := (h 2 (by simp [shown, mapping, identity, List.range_succ]) (fld 2) (by decide) rfl).2 2 rfl
  exact absurd this.2 (by decide)

/-- A sort by a column survives, -/
example [UTab] (hA : AsciiPrintable) (reg : Registry ExtArgs (List Nat)) : letI := halfTab
    LineBack ⟨run [], Opts.default, reg⟩ [(input, 2)]
      (.sort none [⟨some (fld 1), some (.direction (.known .descNullsLast))⟩] none) := by
  letI := halfTab
  refine (C88_sort_survives_iff hA halfTab_shown rfl _ _ _ (by
    simp [Countable, directWidth, outWidth, common, shown, mapping, identity])).2 ?_
  refine ⟨rfl, rfl, by simp, ?_, by decide⟩
  intro f hf
  rw [List.mem_singleton] at hf
  subst hf
  exact ⟨_, _, rfl, fld_ok _ _, by decide, by decide⟩

/-- a clustered one does not. -/
example [UTab] (hA : AsciiPrintable) (reg : Registry ExtArgs (List Nat)) : letI := halfTab
    ¬ LineBack ⟨run [], Opts.default, reg⟩ [(input, 2)]
      (.sort none [⟨some (fld 1), some (.direction (.known .clustered))⟩] none) := by
  letI := halfTab
  rw [C88_sort_survives_iff hA halfTab_shown rfl _ _ _ (by
    simp [Countable, directWidth, outWidth, common, shown, mapping, identity])]
  rintro ⟨-, -, -, h, -⟩
  obtain ⟨e, d, h1, -, -, h2⟩ := h _ (List.mem_singleton.2 rfl)
  simp only [SortField.mk.injEq, Option.some.injEq] at h1
  cases h1.2
  exact h2 rfl

/-- A fetch with a number and an expression survives, -/
example [UTab] (hA : AsciiPrintable) (reg : Registry ExtArgs (List Nat)) : letI := halfTab
    LineBack ⟨run [], Opts.default, reg⟩ [(input, 2)] (.fetch none (some (.deprecated 7)) (some (.expr (fld 1))) none) := by
  letI := halfTab
  refine (C88_fetch_survives_iff hA halfTab_shown rfl _ _ _ _ (by
    simp [Countable, directWidth, outWidth, common, shown, mapping, identity])).2 ?_
  refine ⟨rfl, rfl, ?_, ?_, by decide⟩
  · rintro x ⟨⟩
    exact ⟨by decide, by decide⟩
  · rintro x ⟨⟩
    exact .inr ⟨fld_ok _ _, by simp [fld, Numeric]⟩

/-- one with no limit written as -1 does not, -/
example [UTab] (hA : AsciiPrintable) (reg : Registry ExtArgs (List Nat)) : letI := halfTab
    ¬ LineBack ⟨run [], Opts.default, reg⟩ [(input, 2)] (.fetch none (some (.deprecated (-1))) none none) := by
  letI := halfTab
  rw [C88_fetch_survives_iff hA halfTab_shown rfl _ _ _ _ (by
    simp [Countable, directWidth, outWidth, common, shown, mapping, identity])]
  rintro ⟨-, -, h, -⟩
  exact absurd (h _ rfl).1 (by decide)

/-- nor one whose limit is a narrower integer. -/
example [UTab] (hA : AsciiPrintable) (reg : Registry ExtArgs (List Nat)) : letI := halfTab
    ¬ LineBack ⟨run [], Opts.default, reg⟩ [(input, 2)]
      (.fetch none (some (.expr (.literal ⟨some (.int .i32 5), false, 0⟩))) none none) := by
  letI := halfTab
  rw [C88_fetch_survives_iff hA halfTab_shown rfl _ _ _ _ (by
    simp [Countable, directWidth, outWidth, common, shown, mapping, identity])]
  rintro ⟨-, -, h, -⟩
  rcases h _ rfl with ⟨-, i, h1, -⟩ | ⟨-, h1⟩
  · simp [number] at h1
  · exact h1 trivial

/-- A semi join survives with the columns of its left input, -/
example [UTab] (hA : AsciiPrintable) (reg : Registry ExtArgs (List Nat)) : letI := halfTab
    LineBack ⟨run [], Opts.default, reg⟩ [(input, 2), (input, 2)]
      (.join none (.known .leftSemi) (some (fld 1)) (some (fld 1)) none) := by
  letI := halfTab
  refine (C88_join_survives_iff hA halfTab_shown rfl _ _ _ _ _ (by
    simp [Countable, directWidth, outWidth, common, shown, mapping, identity, joinColumns, joinSides])).2 ?_
  refine ⟨rfl, rfl, ⟨_, rfl, by decide, by decide, by decide⟩, ⟨_, rfl, fld_ok _ _⟩, ?_⟩
  rintro e ⟨⟩
  exact fld_ok _ _

/-- Sets survive over inputs of one width, -/
example [UTab] [FTab] (reg : Registry ExtArgs (List Nat)) :
    LineBack ⟨run [], Opts.default, reg⟩ [(input, 2), (input, 2), (input, 2)] (.set none (.known .unionAll) none) :=
  (C88_set_survives_iff rfl _ _ _ (by
    simp [Countable, directWidth, outWidth, common, shown, mapping, identity])).2
    ⟨by decide, rfl, ⟨_, rfl, by decide⟩, by decide, by decide⟩

/-- not over inputs of two; -/
example [UTab] [FTab] (reg : Registry ExtArgs (List Nat)) :
    ¬ LineBack ⟨run [], Opts.default, reg⟩ [(input, 2), (input, 1)] (.set none (.known .unionAll) none) := by
  rw [C88_set_survives_iff rfl _ _ _ (by
    simp [Countable, directWidth, outWidth, common, shown, mapping, identity])]
  rintro ⟨-, -, -, h, -⟩
  exact absurd (h 1 (by simp)) (by decide)

/-- and a cross product with all columns survives. -/
example [UTab] [FTab] (reg : Registry ExtArgs (List Nat)) :
    LineBack ⟨run [], Opts.default, reg⟩ [(input, 2), (input, 1)] (.cross none none) :=
  (C88_cross_survives_iff rfl _ _ (by
    simp [Countable, directWidth, outWidth, common, shown, mapping, identity])).2 ⟨rfl, rfl, by decide⟩

def schema : NamedStruct := ⟨[cs!"a", cs!"b c"], some ⟨[.simple .i64 .nullable 0, .simple .i64 .nullable 0], 0, .required⟩⟩

theorem schema_ok [UTab] (hA : AsciiPrintable) (st : Store) (o : Opts) : SurvivesColumns st o (some schema) := by
  refine ⟨[(cs!"a", .simple .i64 .nullable 0), (cs!"b c", .simple .i64 .nullable 0)], rfl, ?_⟩
  intro c hc
  simp only [List.mem_cons, List.not_mem_nil, or_false] at hc
  rcases hc with rfl | rfl
  · exact ⟨Ascii.spellable hA (by simp [Ascii]), by simp [SurvivesTy]⟩
  · exact ⟨Ascii.spellable hA (by simp [Ascii]), by simp [SurvivesTy]⟩

/-- A read of a table in a schema survives, also with the columns in another order, -/
example [UTab] [FTab] (hA : AsciiPrintable) (o : Opts) (reg : Registry ExtArgs (List Nat)) :
    LineBack ⟨run [], o, reg⟩ []
      (.read (some ⟨some (.emit [1, 0]), 0⟩) (some schema) none (.named [cs!"db", cs!"t"] 0) none 0) := by
  refine (C88_named_read_survives_iff hA _ _ _ _ _ _ _).2
    ⟨rfl, rfl, rfl, rfl, rfl, by simp, ?_, schema_ok hA _ _, ?_⟩
  · intro n hn
    simp only [List.mem_cons, List.not_mem_nil, or_false] at hn
    rcases hn with rfl | rfl
    · exact Ascii.spellable hA (by simp [Ascii])
    · exact Ascii.spellable hA (by simp [Ascii])
  · rintro m ⟨⟩
    simp [InI32]

/-- not with a filter, -/
example [UTab] [FTab] (hA : AsciiPrintable) (o : Opts) (reg : Registry ExtArgs (List Nat)) :
    ¬ LineBack ⟨run [], o, reg⟩ [] (.read none (some schema) (some (fld 1)) (.named [cs!"t"] 0) none 0) := by
  rw [C88_named_read_survives_iff hA]
  rintro ⟨-, -, -, -, h, -⟩
  cases h

/-- and not without a name. -/
example [UTab] [FTab] (hA : AsciiPrintable) (o : Opts) (reg : Registry ExtArgs (List Nat)) :
    ¬ LineBack ⟨run [], o, reg⟩ [] (.read none (some schema) none (.named [] 0) none 0) := by
  rw [C88_named_read_survives_iff hA]
  rintro ⟨-, -, -, -, -, h, -⟩
  exact h rfl

/-- A virtual table with rows of different lengths and a filter survives, -/
example [UTab] (hA : AsciiPrintable) (reg : Registry ExtArgs (List Nat)) : letI := halfTab
    LineBack ⟨run [], Opts.default, reg⟩ []
      (.read none (some schema) (some (fld 1)) (.virtual [[fld 1, fld 1], []] 0) none 0) := by
  letI := halfTab
  refine (C88_virtual_read_survives_iff hA halfTab_shown rfl _ _ _ _ _ _ _).2
    ⟨rfl, rfl, rfl, rfl, rfl, ?_, ?_, schema_ok hA _ _⟩
  · intro r hr e he
    simp only [List.mem_cons, List.not_mem_nil, or_false] at hr
    rcases hr with rfl | rfl
    · simp only [List.mem_cons, List.not_mem_nil, or_false, or_self] at he
      subst he
      exact fld_ok _ _
    · cases he
  · rintro e ⟨⟩
    exact fld_ok _ _

/-- one that lists its columns in another order does not. -/
example [UTab] (hA : AsciiPrintable) (reg : Registry ExtArgs (List Nat)) : letI := halfTab
    ¬ LineBack ⟨run [], Opts.default, reg⟩ []
      (.read (some ⟨some (.emit [1, 0]), 0⟩) (some schema) none (.virtual [[fld 1, fld 1]] 0) none 0) := by
  letI := halfTab
  rw [C88_virtual_read_survives_iff hA halfTab_shown rfl]
  rintro ⟨-, -, -, -, h, -⟩
  cases h

end LinesSample
end Verif
