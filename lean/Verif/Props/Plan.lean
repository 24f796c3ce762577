import Verif.Props.SamplePlan
/-!
# Whole plans: C46, C47, C22, C25, C51, C52, C53 and the plan part of C38
-/

namespace Verif
open StoreSpec TextSpec RelSpec PlanSpec

set_option autoImplicit false

/-! ## C46 -/

/-- C46: a plan of the supported fragment is formatted without an error, and its text is read as
a plan that means the same.  The fragment is everything that has a faithful text (`PlanOk`) and in
which nothing is missing or undeclared (`CompletePlan`), in every set of options under which text is
meant to be read. -/
theorem C46_plan_round_trip [UTab] [FTab] (hA : AsciiPrintable) (reg : Registry ExtArgs (List Nat)) (o : Opts)
    (ho : Readable o) (p : Plan) (h : PlanOk reg o p) (hc : CompletePlan reg o p) :
    (textPlan reg o p).errs = [] ∧ ∃ p', parsePlan reg (textPlan reg o p).text = .ok p' ∧ PlanEquiv reg p p' := by
  obtain ⟨p', h1, h2, -⟩ := planRT hA reg o ho p h
  exact ⟨(textPlan_errs reg o p).2 hc, p', h1, h2⟩

theorem readable_default : Readable .default := ⟨by decide, by decide, rfl, rfl⟩

theorem samplePlan_complete : letI := asciiTab; letI := halfTab; CompletePlan sampleReg .default samplePlan := by
  letI := asciiTab; letI := halfTab
  rw [← textPlan_errs]
  decide +kernel

/-- A plan with version, declarations, two relations, addenda and most kinds of relations. -/
example : letI := asciiTab; letI := halfTab
    (textPlan sampleReg .default samplePlan).errs = [] ∧
    ∃ p', parsePlan sampleReg (textPlan sampleReg .default samplePlan).text = .ok p' ∧ PlanEquiv sampleReg samplePlan p' :=
  letI := asciiTab; letI := halfTab
  C46_plan_round_trip asciiTab_printable _ _ readable_default _ (samplePlan_ok _ rfl) samplePlan_complete

/-- Its text. -/
example : letI := asciiTab; letI := halfTab
    (textPlan sampleReg .default samplePlan).text =
      cs!"=== Version 0.63.1\n  producer: a producer\n  git_hash: 0123456789abcdef0123456789abcdef01234567\n" ++
      cs!"=== Extensions\nURNs:\n  @  2: /functions.yaml\nFunctions:\n  # 10 @  2: equal\n  # 11 @  2: sum:i64\n\n=== Plan\n" ++
      cs!"Root[x, \"it\\'s\"]\n  Fetch[limit=10, offset=3 => $0, $1, $2]\n" ++
      cs!"    Sort[($2, &DescNullsLast), ($0, &AscNullsFirst) => $0, $1, $2]\n" ++
      cs!"      Aggregate[($0, $1), _ => sum($3):i64, $1, $0]\n        Project[sum($1):i64, $1, $1, 5]\n" ++
      cs!"          Filter[equal($0, $3):boolean? => $0, $3, $2]\n" ++
      cs!"            + Enh:Note[7]\n            + Opt:Note[8]\n            + Opt:Note[9]\n" ++
      cs!"            Join[&Inner, equal($2, $3):boolean? => $0, $1, $2, $3]\n" ++
      cs!"              Read[db.t +> a:i64, \"my col\":boolean?, c:i64 |> $1, $1, $2]\n" ++
      cs!"              Read:Virtual[(1), (-2) => n:i64]\n\nSet[&UnionAll => $0]\n  ExtensionLeaf:Note[4 => c:i64]\n" ++
      cs!"  Cross[$1]\n    ExtensionLeaf:Note[4 => c:i64]\n    Read:Virtual[(1), (-2) => n:i64]\n" ++
      cs!"  Read:Virtual[(1), (-2) => n:i64]\n" := by decide +kernel

/-! ### Relations at any depth -/

theorem equiv_below {reg : Registry ExtArgs (List Nat)} {path : List Nat} {r r' s : Rel} (h : Equiv reg r r')
    (hs : below path r = some s) : ∃ s', below path r' = some s' ∧ Equiv reg s s' := by
  induction path generalizing r r' with
  | nil => cases hs; exact ⟨r', rfl, h⟩
  | cons i path ih =>
    cases h with
    | node op op' inputs hin hop =>
      simp only [PlanSpec.below, List.getElem?_map] at hs ⊢
      cases hi : inputs[i]? with
      | none => rw [hi] at hs; cases hs
      | some q =>
        rw [hi] at hs
        exact ih (hin q (List.mem_of_getElem? hi)) hs

theorem planEquiv_relAt {reg : Registry ExtArgs (List Nat)} {p p' : Plan} (h : PlanEquiv reg p p') {k : Nat} {path : List Nat}
    {r : Rel} (hr : relAt p k path = some r) : ∃ r', relAt p' k path = some r' ∧ Equiv reg r r' := by
  obtain ⟨l, h1, h2, h3⟩ := h.rels
  unfold PlanSpec.relAt at hr ⊢
  rw [h1, List.getElem?_map] at hr
  rw [h2, List.getElem?_map]
  cases hk : l[k]? with
  | none => rw [hk] at hr; cases hr
  | some q =>
    rw [hk] at hr
    have h4 := h3 q (List.mem_of_getElem? hk)
    obtain ⟨a, b⟩ := q
    cases h4 with
    | rel x y he => exact equiv_below he hr
    | root ns x y he => exact equiv_below he hr

/-- Reading back keeps every relation where it was, up to equivalence. -/
theorem relAt_round_trip [UTab] [FTab] (hA : AsciiPrintable) {reg : Registry ExtArgs (List Nat)} {o : Opts}
    (ho : Readable o) {p : Plan} (h : PlanOk reg o p) : ∃ p', parsePlan reg (textPlan reg o p).text = .ok p' ∧
      ∀ k path r, relAt p k path = some r → ∃ r', relAt p' k path = some r' ∧ Equiv reg r r' := by
  obtain ⟨p', h1, h2, -⟩ := planRT hA reg o ho p h
  exact ⟨p', h1, fun k path r hr => planEquiv_relAt h2 hr⟩

theorem equiv_inv {reg : Registry ExtArgs (List Nat)} {op : RelOp} {ins : List (Option Rel)} {r' : Rel}
    (h : Equiv reg (.node op ins) r') : ∃ op' ins', r' = .node op' ins' ∧ OpEquiv reg (widths reg ins) op op' := by
  cases h with
  | node _ op' inputs hin hop =>
    refine ⟨op', _, rfl, ?_⟩
    have : widths reg (inputs.map fun p => some p.1) = inputs.map fun p => width reg p.1 := by
      clear hin hop
      induction inputs with
      | nil => rfl
      | cons q l ih => simp [widths, ih]
    rw [this]
    exact hop

/-! ## C22 -/

/-- C22: wherever a project stands in a plan, reading the text of the plan gives a project there whose
output columns are the same list, however the mapping drops, repeats or reorders them. -/
theorem C22_project_round_trip [UTab] [FTab] (hA : AsciiPrintable) (reg : Registry ExtArgs (List Nat)) (o : Opts)
    (ho : Readable o) (p : Plan) (h : PlanOk reg o p) :
    ∃ p', parsePlan reg (textPlan reg o p).text = .ok p' ∧ ∀ k path c es a ins,
      relAt p k path = some (.node (.project c es a) ins) → ∃ c' es' a' ins',
        relAt p' k path = some (.node (.project c' es' a') ins') ∧
        (shown ((widths reg ins).sum + es.length) c).map (at? (projectColumns (widths reg ins).sum es)) =
          (shown ((widths reg ins).sum + es'.length) c').map (at? (projectColumns (widths reg ins).sum es')) := by
  obtain ⟨p', h1, h2⟩ := relAt_round_trip hA ho h
  refine ⟨p', h1, ?_⟩
  intro k path c es a ins hr
  obtain ⟨r', h3, h4⟩ := h2 k path _ hr
  obtain ⟨op', ins', rfl, h5⟩ := equiv_inv h4
  cases op' with
  | project c' es' a' =>
    refine ⟨c', es', a', ins', h3, ?_⟩
    have h6 := h5.1
    simp only [SameOutputs, projectColumns, List.length_append, List.length_map, List.length_range] at h6
    exact h6
  | _ => cases h5

/-- The sample has a project in the fifth relation from the top; its columns are shown out of order
and one of them twice. -/
example : relAt samplePlan 0 [0, 0, 0] = some SamplePlan.projected := rfl

/-! ## C25 -/

/-- C25, for aggregates as in `AggregateOk`: wherever an aggregate stands in a plan, reading the text of the plan gives an aggregate there
with the same grouping sets and the same output columns, measures included. -/
theorem C25_aggregate_round_trip_partial [UTab] [FTab] (hA : AsciiPrintable) (reg : Registry ExtArgs (List Nat)) (o : Opts)
    (ho : Readable o) (p : Plan) (h : PlanOk reg o p) :
    ∃ p', parsePlan reg (textPlan reg o p).text = .ok p' ∧ ∀ k path c g gs ms a ins,
      relAt p k path = some (.node (.aggregate c g gs ms a) ins) → ∃ c' g' gs' ms' a' ins',
        relAt p' k path = some (.node (.aggregate c' g' gs' ms' a') ins') ∧
        groupSets g gs = groupSets g' gs' ∧
        (shown (g.length + ms.length) c).map (at? (aggColumns g ms)) =
          (shown (g'.length + ms'.length) c').map (at? (aggColumns g' ms')) := by
  obtain ⟨p', h1, h2⟩ := relAt_round_trip hA ho h
  refine ⟨p', h1, ?_⟩
  intro k path c g gs ms a ins hr
  obtain ⟨r', h3, h4⟩ := h2 k path _ hr
  obtain ⟨op', ins', rfl, h5⟩ := equiv_inv h4
  cases op' with
  | aggregate c' g' gs' ms' a' =>
    refine ⟨c', g', gs', ms', a', ins', h3, h5.1, ?_⟩
    have h6 := h5.2.1
    simp only [SameOutputs, aggColumns, List.length_append, List.length_map] at h6
    exact h6
  | _ => cases h5

example : relAt samplePlan 0 [0, 0] = some SamplePlan.aggregated := rfl

/-- C25 fails for a single grouping set that begins with a cast: the parenthesis of the cast is taken for
that of a set, and the text is rejected ... -/
theorem C25_cast_rejected : letI := asciiTab; letI := halfTab
    let agg : RelOp := .aggregate none [.cast (some (inputRef 0)) (some SamplePlan.i64) 0] [⟨[0], []⟩] [] none
    let p : Plan := ⟨none, [], [], [.rel (.node agg [some SamplePlan.leaf])]⟩
    (textPlan sampleReg .default p).text =
      cs!"=== Plan\nAggregate[($0)::i64 => ($0)::i64]\n  ExtensionLeaf:Note[4 => c:i64]\n" ∧
    (textPlan sampleReg .default p).errs = [] ∧
    (match parsePlan sampleReg (textPlan sampleReg .default p).text with | .err (.text _) => true | _ => false) = true := by
  decide +kernel

/-- A plan with one measure; `rest` stands for its filter, phase, sorts and invocation. -/
def measurePlan (rest : Nat) : Plan :=
  { samplePlan with rels := [.rel (.node (.aggregate none [inputRef 0] [⟨[0], []⟩]
    [⟨some ⟨11, [], [], some SamplePlan.i64, rest⟩, rest⟩] none) [some SamplePlan.leaf])] }

/-- ... and the filter of a measure, its phase and its sorts are dropped without an error. -/
theorem C25_measure_filter_dropped (rest : Nat) : letI := asciiTab; letI := halfTab
    textPlan sampleReg .default (measurePlan rest) = textPlan sampleReg .default (measurePlan 0) ∧
      (textPlan sampleReg .default (measurePlan rest)).errs = [] := by
  letI := asciiTab; letI := halfTab
  exact ⟨rfl, show (textPlan sampleReg .default (measurePlan 0)).errs = [] by decide +kernel⟩

/-! ## C52 -/

/-- C52: a read of a named table is read back with the same table, schema and output mapping, wherever
it stands. -/
theorem C52_read_round_trip [UTab] [FTab] (hA : AsciiPrintable) (reg : Registry ExtArgs (List Nat)) (o : Opts)
    (ho : Readable o) (p : Plan) (h : PlanOk reg o p) :
    ∃ p', parsePlan reg (textPlan reg o p).text = .ok p' ∧ ∀ k path c s f names n a x ins,
      relAt p k path = some (.node (.read c s f (.named names n) a x) ins) → ∃ c' a' ins',
        relAt p' k path = some (.node (.read c' s f (.named names n) a' x) ins') ∧ mapping c' = mapping c := by
  obtain ⟨p', h1, h2⟩ := relAt_round_trip hA ho h
  refine ⟨p', h1, ?_⟩
  intro k path c s f names n a x ins hr
  obtain ⟨r', h3, h4⟩ := h2 k path _ hr
  obtain ⟨op', ins', rfl, h5⟩ := equiv_inv h4
  cases op' with
  | read c' s' f' t' a' x' =>
    obtain ⟨h6, -, rfl, rfl, rfl, -, rfl⟩ := h5
    exact ⟨c', a', ins', h3, h6.symm⟩
  | _ => cases h5

/-- The table read of the sample has the mapping `[1, 1, 2]`. -/
example : relAt samplePlan 0 [0, 0, 0, 0, 0, 0] = some SamplePlan.readTable ∧
    mapping (common (match SamplePlan.readTable with | .node op _ => op)) = some [1, 1, 2] := ⟨rfl, rfl⟩

/-- Reads of virtual tables are not like that: the mapping is applied to the names and types, not to the
values, so that after reading the schema no longer fits the rows. -/
theorem C52_virtual_mapping_lost : letI := asciiTab; letI := halfTab
    let schema : Option NamedStruct := some ⟨[cs!"n"], some ⟨[SamplePlan.i64], 0, .required⟩⟩
    let p : Plan := ⟨none, [], [], [.rel (.node (.read (SamplePlan.emitOnly [0, 0]) schema none (.virtual [[number 1]] 0) none 0) [])]⟩
    (textPlan sampleReg .default p).text = cs!"=== Plan\nRead:Virtual[(1) => n:i64, n:i64]\n" ∧
    (textPlan sampleReg .default p).errs = [] ∧
    (match parsePlan sampleReg (textPlan sampleReg .default p).text with
      | .ok p' => (match relAt p' 0 [] with
        | some (.node (.read c (some s) _ (.virtual rows _) _ _) _) =>
          decide (mapping c = none) && decide (s.names.length = 2) && decide (rows.map (·.length) = [1])
        | _ => false)
      | _ => false) = true := by decide +kernel

/-! ## C53 -/

/-- C53, names: root relations stay where they are, with the same output names. -/
theorem C53_names_round_trip [UTab] [FTab] (hA : AsciiPrintable) (reg : Registry ExtArgs (List Nat)) (o : Opts)
    (ho : Readable o) (p : Plan) (h : PlanOk reg o p) :
    ∃ p', parsePlan reg (textPlan reg o p).text = .ok p' ∧ p'.rels.length = p.rels.length ∧
      ∀ k, namesAt p' k = namesAt p k := by
  obtain ⟨p', h1, h2, -⟩ := planRT hA reg o ho p h
  obtain ⟨l, h3, h4, h5⟩ := h2.rels
  refine ⟨p', h1, by rw [h3, h4]; simp, ?_⟩
  intro k
  unfold namesAt
  rw [h3, h4, List.getElem?_map, List.getElem?_map]
  cases hk : l[k]? with
  | none => rfl
  | some q =>
    have h6 := h5 q (List.mem_of_getElem? hk)
    obtain ⟨a, b⟩ := q
    cases h6 <;> rfl

example : namesAt samplePlan 0 = some [cs!"x", cs!"it's"] ∧ namesAt samplePlan 1 = none := ⟨rfl, rfl⟩

/-! ## C47 -/

/-- C47, without a literal type on every literal and for version texts that are not white space only:
formatting what was read gives the same text again, and the same errors. -/
theorem C47_canonical_partial [UTab] [FTab] (hA : AsciiPrintable) (reg : Registry ExtArgs (List Nat)) (o : Opts)
    (ho : Readable o) (hl : o.litTypes = .required) (p : Plan) (h : PlanOk reg o p)
    (hv : ∀ x, p.version = some x → (x.producer ≠ [] → trim x.producer ≠ []) ∧ (x.gitHash ≠ [] → trim x.gitHash ≠ [])) :
    ∃ p', parsePlan reg (textPlan reg o p).text = .ok p' ∧ (textPlan reg o p').text = (textPlan reg o p).text ∧
      (textPlan reg o p').errs = (textPlan reg o p).errs := by
  obtain ⟨p', h1, h2⟩ := planCanonical hA reg o ho hl p h hv
  exact ⟨p', h1, by rw [h2], by rw [h2]⟩

example : letI := asciiTab; letI := halfTab
    ∃ p', parsePlan sampleReg (textPlan sampleReg .default samplePlan).text = .ok p' ∧
      (textPlan sampleReg .default p').text = (textPlan sampleReg .default samplePlan).text ∧
      (textPlan sampleReg .default p').errs = (textPlan sampleReg .default samplePlan).errs :=
  letI := asciiTab; letI := halfTab
  C47_canonical_partial asciiTab_printable _ _ readable_default rfl _ (samplePlan_ok _ rfl) (by
    intro x hx
    cases hx
    decide +kernel)

/-- Format, read and format again. -/
def reformat [UTab] [FTab] (reg : Registry ExtArgs (List Nat)) (o : Opts) (p : Plan) : Option Str :=
  match parsePlan reg (textPlan reg o p).text with
  | .ok p' => some (textPlan reg o p').text
  | _ => none

/-- C47 fails for a producer that is white space only: its line is not written again. -/
theorem C47_blank_producer_fails : letI := asciiTab; letI := halfTab
    let p : Plan := ⟨some ⟨0, 1, 0, [], cs!" "⟩, [], [], []⟩
    (textPlan sampleReg .default p).text = cs!"=== Version 0.1.0\n  producer: \n=== Plan\n\n" ∧
    reformat sampleReg .default p = some cs!"=== Version 0.1.0\n=== Plan\n\n" := by decide +kernel

/-- C47 fails in verbose mode: a limit in the deprecated field is written without a type, and with one
after it was read. -/
theorem C47_verbose_limit_fails : letI := asciiTab; letI := halfTab
    let p : Plan := ⟨none, [], [], [.rel (.node (.fetch none (some (.deprecated 5)) none none) [some SamplePlan.leaf])]⟩
    (textPlan sampleReg .verbose p).text = cs!"=== Plan\nFetch[limit=5 => $0]\n  ExtensionLeaf:Note[4 => c:i64]\n" ∧
    reformat sampleReg .verbose p = some cs!"=== Plan\nFetch[limit=5:i64 => $0]\n  ExtensionLeaf:Note[4 => c:i64]\n" := by
  decide +kernel

/-! ## C38 -/

/-- C38 for whole plans: nothing is reported exactly when all declarations are accepted and every part
of a relation that is written is there, declared and printable. -/
theorem C38_plan_errors [UTab] [FTab] (reg : Registry ExtArgs (List Nat)) (o : Opts) (p : Plan) :
    (textPlan reg o p).errs = [] ↔ CompletePlan reg o p := textPlan_errs reg o p

/-! ## C51 -/

/-- C51, the layouts: rows, filter and columns that are readable one by one form the same table when
they stand on one line and when each stands on a line of its own, at any indentation. -/
theorem C51_layouts_read_alike [FTab] (rows : List (Str × List SExpr)) (filter : Option (Str × SExpr)) (colsText : Str)
    (cols : List (Str × STy)) (k : Nat) (hr : ∀ r ∈ rows, Item (fun _ => True) pRow r.1 r.2) (hr1 : ∀ r ∈ rows, Solid r.1)
    (hf : ∀ e, filter = some e → Item ExprFollow pExpr e.1 e.2)
    (hc : pColumns (colsText ++ [']']) = (cols, [']'])) (hn : NextNot (· == ' ') (colsText ++ [']'])) :
    let args := virtualItems (rows.map (·.1)) (filter.map (·.1))
    let dash := '\n' :: (List.replicate k ' ' ++ cs!"- ")
    pReadVirtual (cs!"Read:Virtual[" ++ joinS cs!", " args ++ cs!" => " ++ colsText ++ cs!"]") =
      some (.readVirtual (rows.map (·.2)) (filter.map (·.2)) cols, []) ∧
    pReadVirtual (cs!"Read:Virtual[" ++ dash ++ joinS (',' :: dash) args ++ dash ++ cs!"=> " ++ colsText ++ cs!"]") =
      some (.readVirtual (rows.map (·.2)) (filter.map (·.2)) cols, []) := by
  have h1 := pReadVirtual_items layout_inline hr hr1 hf hc hn
  have h2 := pReadVirtual_items (layout_rows k) hr hr1 hf hc hn
  constructor
  · rw [← h1]; simp
  · rw [← h2]; simp

section
variable [UTab] [FTab] {o o' : Opts}

omit [UTab] [FTab] in
theorem argExpr_congr (h : o.litTypes = o'.litTypes) (st : Store) (e : Expr) (he : ArgExpr st o e) : ArgExpr st o' e := by
  cases e <;> simp_all [ArgExpr, WithType]

mutual
theorem valueOk_congr (h : o.litTypes = o'.litTypes) (st : Store) : ∀ v, ValueOk st o v → ValueOk st o' v
  | .string _, hv => hv
  | .integer _, hv => hv
  | .float _, hv => hv
  | .boolean _, hv => hv
  | .null, hv => hv
  | .error _, hv => hv
  | .expr _, hv => ⟨hv.1, argExpr_congr h st _ hv.2⟩
  | .enum _, hv => hv
  | .tuple vs, hv => valuesOk_congr h st vs hv
theorem valuesOk_congr (h : o.litTypes = o'.litTypes) (st : Store) : ∀ vs, ValuesOk st o vs → ValuesOk st o' vs
  | [], _ => trivial
  | v :: l, hv => ⟨valueOk_congr h st v hv.1, valuesOk_congr h st l hv.2⟩
end

theorem argsOk_congr (h : o.litTypes = o'.litTypes) {st : Store} {a : ExtArgs} (ha : ArgsOk st o a) : ArgsOk st o' a :=
  ⟨valuesOk_congr h st _ ha.1, fun p hp => ⟨(ha.2.1 p hp).1, (ha.2.1 p hp).2.1, valueOk_congr h st _ (ha.2.1 p hp).2.2⟩, ha.2.2⟩

variable {st : Store} {reg : Registry ExtArgs (List Nat)}

theorem addendumOk_congr (h : o.litTypes = o'.litTypes) {k : AddKind} {d : AnyMsg} (ha : AddendumOk ⟨st, o, reg⟩ k d) :
    AddendumOk ⟨st, o', reg⟩ k d := by
  obtain ⟨name, args, h1, h2, h3, h4, h5⟩ := ha
  exact ⟨name, args, h1, h2, h3, h4, argsOk_congr h h5⟩

theorem advOk_congr (h : o.litTypes = o'.litTypes) {a : Option AdvExt} (ha : AdvOk ⟨st, o, reg⟩ a) : AdvOk ⟨st, o', reg⟩ a :=
  fun x hx => ⟨fun d hd => addendumOk_congr h ((ha x hx).1 d hd), fun d hd => addendumOk_congr h ((ha x hx).2 d hd)⟩

omit [UTab] in
theorem countOk_congr [UTab] (h : o.litTypes = o'.litTypes) {c : Count} (hc : CountOk st o c) : CountOk st o' c := by
  cases c with
  | deprecated i => exact hc
  | expr e =>
    rcases hc with ⟨h1, h2⟩ | h2
    · exact .inl ⟨h ▸ h1, h2⟩
    · exact .inr h2

theorem opOk_congr (h : o.litTypes = o'.litTypes) {ws : List Nat} {op : RelOp} (hop : OpOk ⟨st, o, reg⟩ ws op) :
    OpOk ⟨st, o', reg⟩ ws op := by
  cases op with
  | read c s f t a r =>
    obtain ⟨h1, h2, h3, h4, h5⟩ := hop
    refine ⟨h1, h2, h3, ?_, advOk_congr h h5⟩
    cases t with
    | named n k => exact h4
    | «virtual» rows k => exact h4
    | extension d =>
      cases d with
      | none => exact h4
      | some d => exact ⟨h4.1, addendumOk_congr h h4.2.1, h4.2.2⟩
    | other => exact h4
  | filter c e a => obtain ⟨h1, h2, h3, h4⟩ := hop; exact ⟨h1, h2, h3, advOk_congr h h4⟩
  | project c e a => obtain ⟨h1, h2, h3, h4⟩ := hop; exact ⟨h1, h2, h3, advOk_congr h h4⟩
  | aggregate c g gs ms a => obtain ⟨h1, h2, h3, h4⟩ := hop; exact ⟨h1, h2, h3, advOk_congr h h4⟩
  | sort c l a => obtain ⟨h1, h2, h3, h4, h5⟩ := hop; exact ⟨h1, h2, h3, h4, advOk_congr h h5⟩
  | fetch c l k a =>
    obtain ⟨h1, h2, h3, h4, h5⟩ := hop
    exact ⟨h1, fun x hx => countOk_congr h (h2 x hx), fun x hx => countOk_congr h (h3 x hx), h4, advOk_congr h h5⟩
  | join c t e p a => obtain ⟨h1, h2, h3, h4, h5⟩ := hop; exact ⟨h1, h2, h3, h4, advOk_congr h h5⟩
  | set c t a => obtain ⟨h1, h2, h3, h4, h5⟩ := hop; exact ⟨h1, h2, h3, h4, advOk_congr h h5⟩
  | cross c a => obtain ⟨h1, h2, h3⟩ := hop; exact ⟨h1, h2, advOk_congr h h3⟩
  | ext k c d =>
    obtain ⟨h1, h2, x, name, args, h3, h4, h5, h6, h7⟩ := hop
    exact ⟨h1, h2, x, name, args, h3, h4, h5, h6, argsOk_congr h h7⟩
  | other r => exact hop

theorem supported_congr (h : o.litTypes = o'.litTypes) {r : Rel} (hr : Supported ⟨st, o, reg⟩ r) : Supported ⟨st, o', reg⟩ r := by
  induction hr with
  | node op inputs h1 _ h3 ih => exact .node op inputs h1 ih (opOk_congr h h3)

/-- Of the options, only the visibility of literal types matters for what has a faithful text. -/
theorem planOk_congr (h : o.litTypes = o'.litTypes) {p : Plan} (hp : PlanOk reg o p) : PlanOk reg o' p := by
  refine ⟨hp.version, hp.accepted, hp.sound, fun r hr => ?_⟩
  have := hp.rels r hr
  cases r with
  | rel r => exact supported_congr h this
  | root ns r =>
    cases r with
    | none => exact this
    | some r => exact ⟨this.1, supported_congr h this.2⟩
  | missing => exact this

end

/-- C51, the threshold: whatever number of rows makes a table be written in rows, the text of a plan is
read as a plan that means the same. -/
theorem C51_threshold_keeps_meaning [UTab] [FTab] (hA : AsciiPrintable) (reg : Registry ExtArgs (List Nat)) (o : Opts)
    (ho : Readable o) (p : Plan) (h : PlanOk reg o p) (n : Nat) :
    ∃ p' p'', parsePlan reg (textPlan reg o p).text = .ok p' ∧
      parsePlan reg (textPlan reg { o with vthreshold := n } p).text = .ok p'' ∧ PlanEquiv reg p p' ∧ PlanEquiv reg p p'' := by
  obtain ⟨p', h1, h2, -⟩ := planRT hA reg o ho p h
  obtain ⟨p'', h3, h4, -⟩ := planRT hA reg { o with vthreshold := n } ho p
    (planOk_congr (o := o) (o' := { o with vthreshold := n }) rfl h)
  exact ⟨p', p'', h1, h3, h2, h4⟩

/-- The layouts differ: the same table with thresholds three and one. -/
example : letI := asciiTab; letI := halfTab
    (textRel (SamplePlan.env .default) 1 SamplePlan.readRows).text = cs!"  Read:Virtual[(1), (-2) => n:i64]" ∧
    (textRel (SamplePlan.env { Opts.default with vthreshold := 1 }) 1 SamplePlan.readRows).text =
      cs!"  Read:Virtual[\n    - (1),\n    - (-2)\n    - => n:i64]" := by decide +kernel

end Verif
