import Verif.Proofs.SilentFix
import Verif.Props.EquivRel
import Verif.Props.Unrelated

/-!
C65: formatting leaves out silently only what is listed in `Spec/Silent.lean`.
-/

set_option autoImplicit false
set_option synthInstance.maxSize 1000

namespace Verif

open SilentSpec StoreSpec TextSpec RelSpec PlanSpec

/-! ## C65 -/

section
variable [UTab] [FTab]

/-- C65: whatever the options, the text of a plan and the reported errors are those of what is kept of it. -/
theorem C65_text (reg : Registry ExtArgs (List Nat)) (o : Opts) (p : Plan) :
    textPlan reg o (kept p) = textPlan reg o p := textPlan_kept reg o p

/-- C65: if what is kept of a plan can be written, then the text of the plan is read as a plan that means
exactly that. The errors are reported for the parts that are kept, and only for them. -/
theorem C65_read_back (hA : AsciiPrintable) (reg : Registry ExtArgs (List Nat)) (o : Opts) (ho : Readable o) (p : Plan)
    (h : PlanOk reg o (kept p)) :
    ((textPlan reg o p).errs = [] ↔ CompletePlan reg o (kept p)) ∧
    ∃ q, parsePlan reg (textPlan reg o p).text = .ok q ∧ PlanEquiv reg (kept p) q := by
  rw [← textPlan_kept]
  obtain ⟨q, h1, h2, -⟩ := planRT hA reg o ho (kept p) h
  exact ⟨textPlan_errs reg o _, q, h1, h2⟩

/-- C65, nothing else is lost: if two plans have the same text, what is kept of them means the same. -/
theorem C65_nothing_else (hA : AsciiPrintable) (reg : Registry ExtArgs (List Nat)) (o o' : Opts) (ho : Readable o)
    (ho' : Readable o') (p q : Plan) (hp : PlanOk reg o (kept p)) (hq : PlanOk reg o' (kept q))
    (h : (textPlan reg o p).text = (textPlan reg o' q).text) : PlanEquiv reg (kept p) (kept q) := by
  rw [← textPlan_kept, ← textPlan_kept reg o' q] at h
  exact text_equiv hA reg o o' ho ho' (kept p) (kept q) hp hq h

/-- C65, nothing is taken out of plans that can be written. -/
theorem C65_written_kept (reg : Registry ExtArgs (List Nat)) (o : Opts) (p : Plan) (h : PlanOk reg o p) : kept p = p :=
  kept_fix h

/-- Nothing is left to take out afterwards. -/
theorem C65_kept_once (p : Plan) : kept (kept p) = kept p := kept_idem p

end

/-! ### Binary literals -/

/-- A literal with these bytes. -/
def SilentSpec.binary (bs : List Nat) (nullable : Bool) : Expr := .literal ⟨some (.binary bs), nullable, 0⟩

section
variable [UTab] [FTab]

/-- C65, the bytes of a binary literal are left out without an error unless the options ask for them: all
binary literals are written alike. -/
theorem C65_hidden_bytes (st : Store) (o : Opts) (h : o.binaries = false) (n : Bool) (bs bs' : List Nat) :
    textExpr st o (SilentSpec.binary bs n) = textExpr st o (SilentSpec.binary bs' n) ∧
      (textExpr st o (SilentSpec.binary bs n)).errs = [] := by
  have ht : ∀ c, textExpr st o (SilentSpec.binary c n) = .s cs!"{binary}" ++
      (if showSuffix o n (.binary c) then textSuffix (.binary c) n else .s []) := by
    intro c
    simp [SilentSpec.binary, textExpr, textLit, textValue, textBinary, h]
  rw [ht, ht]
  refine ⟨rfl, ?_⟩
  simp only [textSuffix, Lit.suffix]
  split <;> simp

theorem hexChar_inj {a b : Nat} (ha : a < 16) (hb : b < 16) (h : hexChar a = hexChar b) : a = b := by
  have key : ∀ x y : Fin 16, hexChar x.1 = hexChar y.1 → x = y := by decide
  exact congrArg Fin.val (key ⟨a, ha⟩ ⟨b, hb⟩ h)

theorem hex2_flatMap_inj (bs bs' : List Nat) (hb : ∀ b ∈ bs, b < 256) (hb' : ∀ b ∈ bs', b < 256)
    (h : bs.flatMap hex2 = bs'.flatMap hex2) : bs = bs' := by
  induction bs generalizing bs' with
  | nil =>
    cases bs' with
    | nil => rfl
    | cons b l => simp [hex2] at h
  | cons a l ih =>
    cases bs' with
    | nil => simp [hex2] at h
    | cons b l' =>
      simp only [List.flatMap_cons, hex2, List.cons_append, List.nil_append, List.cons.injEq] at h
      have h1 := hexChar_inj (by omega) (by omega) h.1
      have h2 := hexChar_inj (by omega) (by omega) h.2.1
      have ha := hb a (by simp)
      have hbb := hb' b (by simp)
      rw [show a = b by omega, ih l' (fun x hx => hb x (by simp [hx])) (fun x hx => hb' x (by simp [hx])) h.2.2]

/-- Reads pairs of hexadecimal digits, high digit first. -/
def SilentSpec.unhex : Str → Option (List Nat)
  | [] => some []
  | a :: b :: s =>
    match (cs!"0123456789abcdef").idxOf? a, (cs!"0123456789abcdef").idxOf? b, SilentSpec.unhex s with
    | some x, some y, some l => some ((16 * x + y) :: l)
    | _, _, _ => none
  | _ => none

theorem unhex_hex2 (bs : List Nat) (hb : ∀ b ∈ bs, b < 256) : SilentSpec.unhex (bs.flatMap hex2) = some bs := by
  have key : ∀ x : Fin 16, (cs!"0123456789abcdef").idxOf? (hexChar x.1) = some x.1 := by decide
  induction bs with
  | nil => rfl
  | cons b bs ih =>
    have h1 := key ⟨b / 16 % 16, by omega⟩
    have h2 := key ⟨b % 16, by omega⟩
    have h3 := hb b (by simp)
    dsimp only at h1 h2
    simp only [List.flatMap_cons, hex2, List.cons_append, List.nil_append, SilentSpec.unhex, h1, h2,
      ih (fun x hx => hb x (by simp [hx]))]
    congr 2
    omega

/-- C65, with the verbose options a binary literal is written as its bytes in hexadecimal. -/
theorem C65_bytes_text (st : Store) (n : Bool) (bs : List Nat) (hb : ∀ b ∈ bs, b < 256) :
    ∃ d, textExpr st .verbose (SilentSpec.binary bs n) = .s (cs!"0x" ++ d ++ cs!":binary" ++ if n then cs!"?" else []) ∧
      SilentSpec.unhex d = some bs := by
  refine ⟨bs.flatMap hex2, ?_, unhex_hex2 bs hb⟩
  have : ∀ x y : Out, x.text = y.text → x.errs = y.errs → x = y := by
    rintro ⟨a, b⟩ ⟨c, d⟩ rfl rfl; rfl
  cases n <;> apply this <;>
    simp [SilentSpec.binary, textExpr, textLit, textValue, textBinary, Opts.verbose, showSuffix, textSuffix, Lit.suffix]

/-- C65, with the verbose options the text of a binary literal says which bytes it has. -/
theorem C65_verbose_bytes (st : Store) (n n' : Bool) (bs bs' : List Nat) (hb : ∀ b ∈ bs, b < 256) (hb' : ∀ b ∈ bs', b < 256)
    (h : (textExpr st .verbose (SilentSpec.binary bs n)).text = (textExpr st .verbose (SilentSpec.binary bs' n')).text) :
    bs = bs' ∧ n = n' := by
  have ht : ∀ c m, (textExpr st .verbose (SilentSpec.binary c m)).text =
      cs!"0x" ++ c.flatMap hex2 ++ (cs!":binary" ++ if m then cs!"?" else []) := by
    intro c m
    simp [SilentSpec.binary, textExpr, textLit, textValue, textBinary, Opts.verbose, showSuffix, textSuffix, Lit.suffix]
  have hc : ∀ (c : List Nat), (∀ b ∈ c, b < 256) → ':' ∉ c.flatMap hex2 := by
    intro c _ hm
    obtain ⟨b, _, hm⟩ := List.mem_flatMap.1 hm
    have key : ∀ x : Fin 16, ':' ≠ hexChar x.1 := by decide
    simp only [hex2, List.mem_cons, List.not_mem_nil, or_false] at hm
    rcases hm with hm | hm
    · exact key ⟨b / 16 % 16, by omega⟩ hm
    · exact key ⟨b % 16, by omega⟩ hm
  rw [ht, ht, List.append_assoc, List.append_assoc, List.append_cancel_left_eq] at h
  have hsplit : ∀ (x y u v : Str), ':' ∉ x → ':' ∉ y → x ++ ':' :: u = y ++ ':' :: v → x = y ∧ u = v := by
    intro x
    induction x with
    | nil =>
      intro y u v _ hy e
      cases y with
      | nil => exact ⟨rfl, (List.cons.inj e).2⟩
      | cons d y => exact absurd (List.cons.inj e).1 (fun k => hy (by rw [k]; exact List.mem_cons_self))
    | cons c x ih =>
      intro y u v hx hy e
      cases y with
      | nil => exact absurd (List.cons.inj e).1 (fun k => hx (by rw [← k]; exact List.mem_cons_self))
      | cons d y =>
        obtain ⟨e1, e2⟩ := List.cons.inj e
        obtain ⟨i1, i2⟩ := ih y u v (fun k => hx (List.mem_cons_of_mem _ k)) (fun k => hy (List.mem_cons_of_mem _ k)) e2
        exact ⟨by rw [e1, i1], i2⟩
  obtain ⟨h1, h2⟩ := hsplit _ _ _ _ (hc bs hb) (hc bs' hb') h
  refine ⟨hex2_flatMap_inj bs bs' hb hb' h1, ?_⟩
  cases n <;> cases n' <;> simp at h2 ⊢

end

example : letI := asciiTab; letI := halfTab
    textExpr Store.empty .default (SilentSpec.binary [0, 255] false) = .s cs!"{binary}" ∧
    textExpr Store.empty .verbose (SilentSpec.binary [0, 255] true) = .s cs!"0x00ff:binary?" := by decide +kernel

/-- Neither spelling is read as a binary: the first is no literal, the second is a number that ends at the `x`. -/
theorem C65_bytes_unreadable : (pValue cs!"{binary}").isNone ∧
    (pValue cs!"0x00ff:binary").map (·.2) = some cs!"x00ff:binary" := by decide +kernel

/-! ### Examples -/

namespace SilentSample

theorem keptGrouping_second (e : Expr) (l : List Expr) (gs : List Grouping) :
    keptGrouping (e :: l) gs = ((e :: l).map keptExpr, gs.map fun g => ⟨g.refs, []⟩) := by
  unfold keptGrouping
  rw [if_neg (by simp)]

/-- The field `$0` of the input, with a field of it. -/
def nested : Expr := .selection (.field 0 (some (.field 3 none)))

/-- A filtered read of a table below a filter on a nested field, with hints. -/
def lossy : Plan where
  version := none
  urns := [(1, cs!"/f.yaml")]
  decls := UnrelSample.decls
  rels := [.rel (.node
    (.filter (some ⟨some .direct, 7⟩)
      (some (.call 10 [.value nested, .value (.literal ⟨some (.int .i64 5), false, 2⟩)] []
        (some (.simple .boolean .nullable 0)))) none)
    [some (.node (.read (some ⟨some .direct, 1⟩) (some ⟨[cs!"a"],
      some ⟨[.simple .i64 .required 0], 4, .nullable⟩⟩) (some (.literal ⟨some (.bool false), false, 0⟩))
      (.named [cs!"db", cs!"t"] 9) none 3) [])])]

/-- What is kept of it. -/
theorem lossy_kept : kept lossy = UnrelSample.plan := by rfl

/-- Hints on a filtered read of a table. -/
def noisyTable : Rel := .node (.read (some ⟨some (.emit [1, 1, 2]), 5⟩)
  (some ⟨[cs!"a", cs!"my col", cs!"c"], some ⟨[SamplePlan.i64, SamplePlan.bool, SamplePlan.i64], 3, .nullable⟩⟩)
  (some (.call 10 [] [] none)) (.named [cs!"db", cs!"t"] 8) none 2) []

/-- The sample plan with further content: measures with a filter, a phase and without a call, inner fields. -/
def noisyAggregate : Rel := .node (.aggregate (some ⟨some (.emit [2, 0, 1]), 4⟩) [.selection (.field 1 (some .other)), inputRef 0]
  [⟨[1, 0], [nested]⟩, ⟨[], []⟩] [⟨none, 0⟩, ⟨some ⟨11, [.value (inputRef 3)], [], some SamplePlan.i64, 6⟩, 7⟩] none)
  [some (.node (.project (SamplePlan.emitOnly [3, 1, 1, 4]) [SamplePlan.call 11 [inputRef 1] SamplePlan.i64, number 5] none)
    [some (.node (.filter (SamplePlan.emitOnly [0, 3, 2]) (some (SamplePlan.call 10 [inputRef 0, inputRef 3] SamplePlan.bool))
      (some ⟨some (note 7), [note 8, note 9]⟩))
      [some (.node (.join none (.known .inner) (some (SamplePlan.call 10 [inputRef 2, inputRef 3] SamplePlan.bool)) none none)
        [some noisyTable, some SamplePlan.readRows])])])]

def noisy : Plan := { samplePlan with rels := [.root [cs!"x", cs!"it's"] (some (.node
    (.fetch none (some (.deprecated 10)) (some (.expr (.literal ⟨some (.int .i64 3), false, 1⟩))) none)
    [some (.node (.sort SamplePlan.direct [⟨some (.selection (.field 2 (some (.field 0 none)))), some (.direction (.known .descNullsLast))⟩,
      ⟨some (inputRef 0), some (.direction (.known .ascNullsFirst))⟩] none) [some noisyAggregate])])),
  .rel (.node (.set (some ⟨some .direct, 1⟩) (.known .unionAll) none)
    [some (.node (.ext .leaf none (some (note 4))) []), some SamplePlan.crossed, some SamplePlan.readRows])] }

theorem noisy_kept : kept noisy = samplePlan := by
  simp only [kept, noisy, noisyAggregate, List.map_cons, List.map_nil, keptTop, Option.map_some, keptRel, keptInputs, keptOp,
    keptGrouping_second]
  rfl

end SilentSample

open SilentSample in
/-- The hypotheses of the theorems hold for it. -/
example : letI := asciiTab; letI := halfTab
    noisy.rels ≠ samplePlan.rels ∧ PlanOk sampleReg .default (kept noisy) ∧
    ∃ q, parsePlan sampleReg (textPlan sampleReg .default noisy).text = .ok q ∧ PlanEquiv sampleReg samplePlan q := by
  letI := asciiTab; letI := halfTab
  have h : PlanOk sampleReg .default (kept noisy) := by rw [noisy_kept]; exact samplePlan_ok _ rfl
  refine ⟨?_, h, ?_⟩
  · intro e
    have := congrArg (fun l => match l with | [_, PlanRel.rel (.node (.set (some c) _ _) _)] => c.rest | _ => 0) e
    cases this
  · have := (C65_read_back asciiTab_printable sampleReg .default readable_default noisy h).2
    rwa [noisy_kept] at this

open SilentSample in
/-- "Formatting without an error loses nothing" is false: the filter of a read and the inner field of a
reference are left out without an error, and the text is read as the plan without them. -/
theorem C65_loses_filter_and_field : letI := asciiTab; letI := halfTab
    textPlan sampleReg .default lossy = textPlan sampleReg .default UnrelSample.plan ∧
    (textPlan sampleReg .default lossy).errs = [] ∧
    (∃ op ins c s t a n, lossy.rels = [.rel (.node op ins)] ∧
      ins = [some (.node (.read c s (some (.literal ⟨some (.bool false), false, 0⟩)) t a n) [])]) ∧
    ∃ op ins c s t a n, UnrelSample.plan.rels = [.rel (.node op ins)] ∧
      ins = [some (.node (.read c s none t a n) [])] := by
  letI := asciiTab; letI := halfTab
  have h : textPlan sampleReg .default lossy = textPlan sampleReg .default UnrelSample.plan := by
    rw [← C65_text, lossy_kept]
  refine ⟨h, ?_, ⟨_, _, _, _, _, _, _, rfl, rfl⟩, ⟨_, _, _, _, _, _, _, rfl, rfl⟩⟩
  rw [h]
  decide +kernel

/-- Two deprecated grouping sets with an expression in common, a measure without a call and one with a
filter: the sets are kept as references, the filter and the missing call are not. -/
example : keptOp (.aggregate (some ⟨none, 1⟩) []
      [⟨[], [inputRef 0, inputRef 1]⟩, ⟨[], [inputRef 1]⟩] [⟨none, 0⟩, ⟨some ⟨11, [], [], none, 3⟩, 1⟩] none) =
    .aggregate (some ⟨none, 0⟩) [inputRef 0, inputRef 1] [⟨[0, 1], []⟩, ⟨[1], []⟩]
      [⟨some ⟨11, [], [], none, 0⟩, 0⟩] none := by
  have h : ([⟨[], [inputRef 0, inputRef 1]⟩, ⟨[], [inputRef 1]⟩] : List Grouping).flatMap (·.exprs) =
      [inputRef 0, inputRef 1, inputRef 1] := rfl
  have hd : [inputRef 0, inputRef 1, inputRef 1].eraseDups = [inputRef 0, inputRef 1] := by decide +kernel
  simp only [keptOp, keptGrouping]
  rw [if_pos ⟨trivial, _, rfl, by simp⟩, h, hd]
  have h0 : place (inputRef 0) [inputRef 0, inputRef 1] = 0 := by decide +kernel
  have h1 : place (inputRef 1) [inputRef 0, inputRef 1] = 1 := by decide +kernel
  simp only [List.map_cons, List.map_nil, h0, h1]
  rfl

end Verif
