import Verif.Proofs.ExtArgsRT
import Verif.Props.Exprs
/-!
# Property C41 and the argument part of C38
-/

namespace Verif
open StoreSpec TextSpec

set_option autoImplicit false

/-- C41, what is true of it: the text of a single argument, at any nesting of tuples, is read back
as the same value, before anything that does not continue it. -/
theorem C41_value_round_trip_partial [UTab] [FTab] (hA : AsciiPrintable) (h : List Op) (o : Opts)
    (ho : o.anchors ≠ .never) (hl : o.litTypes ≠ .never) (v : ExtValue) (hv : ValueOk (run h) o v)
    (rest : Str) (hr : NextNot litContinues rest) (hc : NextNot (· == '(') (rest.dropWhile callChar)) :
    ∃ s, pArg ((textExtValue (run h) o v).text ++ rest) = some (s, rest) ∧ convArg (run h) s = .ok v := by
  obtain ⟨a, ha⟩ := argText_value hA (Store.ordered_run h) o ho hl v hv
  exact ⟨a, ha.arg _ _ (by simp; omega) ⟨hr, hc⟩, ha.conv⟩

/-- C41, what is true of it: the line of an extension relation is read back as the same kind, name,
positional and named arguments and output columns, in the same order; what follows the line is
left. -/
theorem C41_relation_line_round_trip_partial [UTab] [FTab] (hA : AsciiPrintable) (h : List Op) (o : Opts)
    (ho : o.anchors ≠ .never) (hl : o.litTypes ≠ .never) (hs : o.showEmit = false)
    (reg : Registry ExtArgs (List Nat)) (kind : ExtKind) (d : AnyMsg) (ws : List Nat) (name : Str) (a : ExtArgs)
    (hd : reg.decode .relation d ws = .ok (name, a)) (hn : isIdentifier name = true) (ha : ArgsOk (run h) o a)
    (rest : Str) :
    ∃ sa cols, pExtRel ((textHeader o 0 (headExt ⟨run h, o, reg⟩ kind (some d) ws)).text ++ rest) =
        some (.ext kind name sa cols, rest) ∧ convExtArgs (run h) sa cols = .ok a := by
  obtain ⟨sa, cols, h1, h2⟩ := pExtRel_text hA (Store.ordered_run h) o ho hl kind name a hn ha
  refine ⟨sa, cols, ?_, h1⟩
  have := h2 rest
  simp only [headExt, decodeRel, hd, textHeader, indentAt, textOutput, implicitCols, hs]
  simpa [Out.text_sep] using this

/-- C41, what is true of it: an addendum line is read back as the same kind, name and arguments. -/
theorem C41_addendum_round_trip_partial [UTab] [FTab] (hA : AsciiPrintable) (h : List Op) (o : Opts)
    (ho : o.anchors ≠ .never) (hl : o.litTypes ≠ .never) (k : AddKind) (name : Str) (a : ExtArgs)
    (hn : isIdentifier name = true) (ha : ArgsOk (run h) o a) (hc : a.columns = []) (rest : Str) :
    ∃ sa, pAddendum ((textAddendum (run h) o k (.ok (name, a))).text ++ rest) = some (⟨k, name, sa⟩, rest) ∧
      convExtArgs (run h) sa [] = .ok a := by
  obtain ⟨sa, h1, h2⟩ := pAddendum_text hA (Store.ordered_run h) o ho hl k name a hn ha hc
  exact ⟨sa, h2 rest, h1⟩

/-- C41: different argument values have different texts, also when printed with different
options. -/
theorem C41_value_text_injective [UTab] [FTab] (hA : AsciiPrintable) (h : List Op) (o o' : Opts)
    (ho : o.anchors ≠ .never) (hl : o.litTypes ≠ .never) (ho' : o'.anchors ≠ .never) (hl' : o'.litTypes ≠ .never)
    (v v' : ExtValue) (hv : ValueOk (run h) o v) (hv' : ValueOk (run h) o' v')
    (heq : (textExtValue (run h) o v).text = (textExtValue (run h) o' v').text) : v = v' := by
  obtain ⟨s, h1, h2⟩ := C41_value_round_trip_partial hA h o ho hl v hv [] (NextNot.nil _) (NextNot.nil _)
  obtain ⟨s', h1', h2'⟩ := C41_value_round_trip_partial hA h o' ho' hl' v' hv' [] (NextNot.nil _) (NextNot.nil _)
  rw [heq, h1'] at h1
  cases h1
  rw [h2'] at h2
  cases h2
  rfl

/-- C41: a tuple of one value needs its comma.  Without it the parentheses are not an argument. -/
theorem C41_one_element_tuple_comma : letI := asciiTab; letI := halfTab
    textExtValue (run []) .default (.tuple [.tuple [.integer 1]]) = .s cs!"((1,),)" ∧
    pArg cs!"((1,),)" = some (.tuple [.tuple [.lit (.int ⟨false, 1⟩)]], []) ∧
    pArg cs!"(1)" = none := ⟨by decide +kernel, by rfl, by rfl⟩

/-- C41 fails as stated: an `i64` literal expression is printed like an integer argument and reads
back as one; with literal types shown it survives. -/
theorem C41_literal_expression_misread : letI := asciiTab; letI := halfTab
    let v : ExtValue := .expr (.literal ⟨some (.int .i64 5), false, 0⟩)
    textExtValue (run []) .default v = .s cs!"5" ∧
    pArg cs!"5" = some (.lit (.int ⟨false, 5⟩), []) ∧
    convArg (run []) (.lit (.int ⟨false, 5⟩)) = .ok (.integer 5) ∧
    textExtValue (run []) .verbose v = .s cs!"5:i64" ∧
    ∃ s, pArg cs!"5:i64" = some (s, []) ∧ convArg (run []) s = .ok v :=
  ⟨by decide +kernel, by rfl, by
    have : IntTok.toI64 ⟨false, 5⟩ = some 5 := by decide +kernel
    simp [convArg, convParamLit, this], by decide +kernel,
    .expr (.lit ⟨.int ⟨false, 5⟩, some (.simple cs!"i64" .required)⟩), by rfl, by
    have : IntTok.toI64 ⟨false, 5⟩ = some 5 := by decide +kernel
    simp [convArg, convExpr, convLit, convTy, convValue, toIntLit, this, Res.map]
    rfl⟩

/-- C41 fails as stated: a float with a whole value is printed as an integer and reads back as one. -/
theorem C41_whole_float_misread [UTab] [FTab] (h : List Op) (o : Opts) (f : Nat) (hf : FTab.show64 f = cs!"2") :
    textExtValue (run h) o (.float f) = .s cs!"2" ∧
    pArg cs!"2" = some (.lit (.int ⟨false, 2⟩), []) ∧
    convArg (run h) (.lit (.int ⟨false, 2⟩)) = .ok (.integer 2) :=
  ⟨by simp [textExtValue, hf], by rfl, by
    have : IntTok.toI64 ⟨false, 2⟩ = some 2 := by decide +kernel
    simp [convArg, convParamLit, this]⟩

/-- C41 fails as stated: an argument whose name begins with `null` (or `true`, `false`) is printed
without an error and makes the line unreadable. -/
theorem C41_value_word_name_unreadable : letI := asciiTab; letI := halfTab
    textExtArgs (run []) .default ⟨[], [(cs!"nullable", .boolean true)], []⟩ = .s cs!"nullable=true" ∧
    pExtRel cs!"ExtensionLeaf:T[nullable=true => a:i64]" = none ∧
    pAddendum cs!"+ Enh:T[nullable=true]" = none := ⟨by decide +kernel, by rfl, by rfl⟩

/-- C41 fails as stated: argument names and enum values are printed as they are, also when they are
not identifiers. -/
theorem C41_raw_names_unreadable : letI := asciiTab; letI := halfTab
    textExtArgs (run []) .default ⟨[.enum cs!"a b"], [(cs!"my key", .null)], []⟩ = .s cs!"&a b, my key=null" ∧
    pExtRel cs!"ExtensionLeaf:T[&a b => a:i64]" = none ∧
    pExtRel cs!"ExtensionLeaf:T[my key=null => a:i64]" = none ∧
    pExtRel cs!"ExtensionLeaf:T[\"my key\"=null => a:i64]" ≠ none := by
  refine ⟨by decide +kernel, by rfl, by rfl, ?_⟩
  have : pExtRel cs!"ExtensionLeaf:T[\"my key\"=null => a:i64]" =
    some (.ext .leaf cs!"T" ⟨[], [(cs!"my key", .lit .null)]⟩ [.named cs!"a" (.simple cs!"i64" .required)], []) := by rfl
  rw [this]; simp

/-- C41 fails as stated: a boolean literal with its type, as an output column, is read back as a
column called `true`. -/
theorem C41_literal_column_misread : letI := asciiTab; letI := halfTab
    let c : ExtColumn := .expr (.literal ⟨some (.bool true), true, 0⟩)
    textExtColumn (run []) .default c = .s cs!"true:boolean?" ∧
    pExtColumn cs!"true:boolean?" = some (.named cs!"true" (.simple cs!"boolean" .nullable), []) := ⟨by decide +kernel, by rfl⟩

/-- Arguments that meet the hypotheses. -/
def sampleArgs : ExtArgs :=
  ⟨[.tuple [.integer (-3), .tuple [.enum cs!"A"], .tuple []], .expr sampleExpr],
   [(cs!"limit", .string cs!"it's"), (cs!"flag", .null)],
   [.named cs!"my col" (.simple .i64 .required 0), .expr (.selection (.field 2 none))]⟩

theorem sampleArgs_ok : letI := asciiTab; letI := halfTab; ArgsOk (run sampleDecls) .default sampleArgs := by
  letI := asciiTab; letI := halfTab
  have hcl : ∀ n, n ∈ [cs!"limit", cs!"flag"] → ClearName n := by
    intro n hn w hw
    simp only [valueWords, List.mem_cons, List.not_mem_nil, or_false] at hn hw
    rcases hn with rfl | rfl <;> rcases hw with rfl | rfl | rfl <;> decide
  refine ⟨⟨⟨?_, ⟨by show isIdentifier cs!"A" = true; decide, trivial⟩, trivial, trivial⟩, ⟨sampleExpr_faithful, trivial⟩, trivial⟩, ?_, ?_, ?_⟩
  · show InI64 (-3); unfold InI64; decide
  · intro p hp
    simp only [sampleArgs, List.mem_cons, List.not_mem_nil, or_false] at hp
    rcases hp with rfl | rfl
    · refine ⟨by show isIdentifier cs!"limit" = true; decide, hcl _ (by simp), ?_⟩
      show Spellable cs!"it's"
      rw [← unescape_escape_iff]; decide
    · exact ⟨by show isIdentifier cs!"flag" = true; decide, hcl _ (by simp), trivial⟩
  · show [cs!"limit", cs!"flag"].Nodup; decide
  · intro c hc
    simp only [sampleArgs, List.mem_cons, List.not_mem_nil, or_false] at hc
    rcases hc with rfl | rfl
    · refine ⟨?_, rfl⟩
      rw [← unescape_escape_iff]; decide
    · exact ⟨by show InI32 2; unfold InI32; decide, trivial⟩

/-- C38 for extension arguments: nothing is reported exactly when no value is an error and no
expression or type in them is incomplete. -/
theorem C38_extension_arguments_errors [UTab] [FTab] (h : List Op) (o : Opts) (a : ExtArgs) :
    (textExtArgs (run h) o a).errs = [] ↔ CompleteExtArgs (run h) a :=
  textExtArgs_errs (Store.ordered_run h) o a

end Verif
