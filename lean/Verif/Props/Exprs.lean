import Verif.Proofs.ExprsErr
import Verif.Props.Literals
/-!
# Property C20 and the expression part of C38 and C49
-/

namespace Verif
open StoreSpec TextSpec

set_option autoImplicit false

/-- C20, what is true of it: an expression built from surviving literals, field references, calls of
declared functions on values, casts and conditionals is read back from its text, at any depth,
after any declarations and before anything that does not continue it. -/
theorem C20_expression_round_trip_partial [UTab] [FTab] (hA : AsciiPrintable) (h : List Op) (o : Opts)
    (ho : o.anchors ≠ .never) (hl : o.litTypes ≠ .never) (e : Expr) (he : Faithful (run h) e)
    (rest : Str) (hr : NextNot litContinues rest) (hc : NextNot (· == '(') (rest.dropWhile callChar)) :
    ∃ s, pExpr ((textExpr (run h) o e).text ++ rest) = some (s, rest) ∧ convExpr (run h) s = .ok e := by
  obtain ⟨s, h1, h2⟩ := pExpr_text hA (Store.ordered_run h) o ho hl e he
  exact ⟨s, h2 rest ⟨hr, hc⟩, h1⟩

/-- C20: different faithful expressions have different texts, also when printed with different
options. -/
theorem C20_expression_text_injective [UTab] [FTab] (hA : AsciiPrintable) (h : List Op) (o o' : Opts)
    (ho : o.anchors ≠ .never) (hl : o.litTypes ≠ .never) (ho' : o'.anchors ≠ .never) (hl' : o'.litTypes ≠ .never)
    (e e' : Expr) (he : Faithful (run h) e) (he' : Faithful (run h) e')
    (heq : (textExpr (run h) o e).text = (textExpr (run h) o' e').text) : e = e' := by
  obtain ⟨s, h1, h2⟩ := C20_expression_round_trip_partial hA h o ho hl e he [] (NextNot.nil _) (NextNot.nil _)
  obtain ⟨s', h1', h2'⟩ := C20_expression_round_trip_partial hA h o' ho' hl' e' he' [] (NextNot.nil _) (NextNot.nil _)
  rw [heq, h1'] at h1
  cases h1
  rw [h2'] at h2
  cases h2
  rfl

/-- C20: whatever text is read, the expression built has all its parts, refers to declared
functions only, has no function options and only values as arguments. -/
theorem C20_parser_builds_supported [FTab] (h : List Op) (s : SExpr) (e : Expr) (hc : convExpr (run h) s = .ok e) :
    ExprImage (run h) e := convExpr_image (Store.ordered_run h) s e hc

/-- C20 fails as stated: a reference to a field inside a field is printed like a reference to the
outer field, without an error, and reads back as that. -/
theorem C20_nested_field_lost [UTab] [FTab] (h : List Op) (o : Opts) (i j : Int) (hi : InI32 i) :
    textExpr (run h) o (.selection (.field i (some (.field j none)))) = textExpr (run h) o (.selection (.field i none)) ∧
    (textExpr (run h) o (.selection (.field i (some (.field j none))))).errs = [] ∧
    ∃ s, pExpr (textExpr (run h) o (.selection (.field i (some (.field j none))))).text = some (s, []) ∧
      convExpr (run h) s = .ok (.selection (.field i none)) := by
  refine ⟨by simp [textExpr, textFieldRef], by simp [textExpr, textFieldRef, textRef], .ref (.ofInt i), ?_, ?_⟩
  · have h1 : (textExpr (run h) o (.selection (.field i (some (.field j none))))).text = '$' :: (decInt i ++ []) := by
      simp [textExpr, textFieldRef, textRef]
    have hp : pRef ('$' :: (decInt i ++ [])) = some (.ofInt i, []) := by
      simp only [pRef, lit]
      exact pInteger_decInt i [] (NextNot.nil _)
    rw [h1, pExpr, pExprN, lit_if_none (by decide), pCast_none (by decide), pCall_none_head (by decide), hp]
    rfl
  · simp [convExpr, convIndex, ofInt_toI32 hi]

/-- C20: no text at all reads back as a nested reference, a call with options, with an enum or type
argument, a call or cast without a type, or a conditional without an else branch. -/
theorem C20_unsupported_unreadable [FTab] (h : List Op) (s : SExpr) (i : Int) (g : Seg) (f : Nat) (op : FOption)
    (args : List Arg) (opts : List FOption) (t : Option Ty) (x : Str) (y : Ty) (e : Option Expr) (ifs : List Clause) (fb : Int) :
    convExpr (run h) s ≠ .ok (.selection (.field i (some g))) ∧
    convExpr (run h) s ≠ .ok (.call f args (op :: opts) t) ∧
    convExpr (run h) s ≠ .ok (.call f (.enum x :: args) opts t) ∧
    convExpr (run h) s ≠ .ok (.call f (.ty y :: args) opts t) ∧
    convExpr (run h) s ≠ .ok (.call f args opts none) ∧
    convExpr (run h) s ≠ .ok (.cast e none fb) ∧
    convExpr (run h) s ≠ .ok (.ifThen ifs none) := by
  have key := C20_parser_builds_supported h s
  refine ⟨?_, ?_, ?_, ?_, ?_, ?_, ?_⟩
  · intro hc; have := key _ hc; simp [ExprImage] at this
  · intro hc; have := key _ hc; cases t <;> simp [ExprImage] at this
  · intro hc; have := key _ hc; cases t <;> simp [ExprImage, ImageArgs] at this
  · intro hc; have := key _ hc; cases t <;> simp [ExprImage, ImageArgs] at this
  · intro hc; have := key _ hc; simp [ExprImage] at this
  · intro hc; have := key _ hc; cases e <;> simp [ExprImage] at this
  · intro hc; have := key _ hc; simp [ExprImage] at this

/-- C20: a conditional without clauses is printed without an error, as text that is not an
expression. -/
theorem C20_no_clauses_unreadable : letI := asciiTab; letI := halfTab
    textExpr (run []) .default (.ifThen [] (some (.selection (.field 0 none)))) = .s cs!"if_then(_ -> $0)" ∧
    pExpr cs!"if_then(_ -> $0)" = none := ⟨by decide +kernel, by rfl⟩

/-- C20: enum arguments, type arguments and function options are printed without an error, as text
that is not an expression. -/
theorem C20_other_arguments_unreadable : letI := asciiTab; letI := halfTab
    let st := run [Op.urn cs!"u" 1, .ext .function 1 5 cs!"f"]
    let i64 : Ty := .simple .i64 .required 0
    textExpr st .default (.call 5 [.enum cs!"A"] [] (some i64)) = .s cs!"f(&A):i64" ∧
    pExpr cs!"f(&A):i64" = none ∧
    textExpr st .default (.call 5 [.ty i64] [] (some i64)) = .s cs!"f(i64):i64" ∧
    pExpr cs!"f(i64):i64" = none ∧
    textExpr st .default (.call 5 [] [⟨cs!"o", [cs!"X", cs!"Y"]⟩] (some i64)) = .s cs!"f(o⇒[X, Y]):i64" ∧
    pExpr cs!"f(o⇒[X, Y]):i64" = none := ⟨by rfl, by rfl, by rfl, by rfl, by rfl, by rfl⟩

/-- A type argument can even be read as something else: a user-defined type called `true` in
argument position becomes the boolean literal. -/
theorem C20_type_argument_misread : letI := asciiTab; letI := halfTab
    let st := run [Op.urn cs!"u" 1, .ext .function 1 5 cs!"f", .ext .type 1 5 cs!"true"]
    let i64 : Ty := .simple .i64 .required 0
    textExpr st .default (.call 5 [.ty (.user 5 [] .required 0)] [] (some i64)) = .s cs!"f(true):i64" ∧
    ∃ s, pExpr cs!"f(true):i64" = some (s, []) ∧
      convExpr st s = .ok (.call 5 [.value (.literal ⟨some (.bool true), false, 0⟩)] [] (some i64)) :=
  ⟨by rfl, .call cs!"f" none none [.lit ⟨.bool true, none⟩] (.simple cs!"i64" .required), by rfl, by rfl⟩

/-- An expression that meets the hypotheses of the round trip: a conditional with a call of an
overloaded function whose name is `if_then`, on a cast and a nullable literal. -/
def sampleExpr : Expr :=
  .ifThen [.mk (some (.call 5 [.value (.cast (some (.selection (.field 3 none))) (some (.simple .i64 .nullable 0)) 1),
      .value (.literal ⟨some (.int .i32 (-7)), true, 0⟩)] [] (some (.simple .boolean .required 0))))
    (some (.literal ⟨some (.bool true), false, 0⟩))]
    (some (.call 6 [] [] (some (.simple .boolean .required 0))))

def sampleDecls : List Op :=
  [Op.urn cs!"u" 1, .ext .function 1 5 cs!"if_then:i64_u!pt", .ext .function 1 6 cs!"if_then:"]

theorem sampleExpr_faithful : letI := asciiTab; letI := halfTab; Faithful (run sampleDecls) sampleExpr := by
  have h5 : Declared (run sampleDecls) .function 5 cs!"if_then:i64_u!pt" := ⟨1, by decide⟩
  have h6 : Declared (run sampleDecls) .function 6 cs!"if_then:" := ⟨1, by decide⟩
  have n5 : FunctionName cs!"if_then:i64_u!pt" :=
    ⟨cs!"if_then", by decide, Or.inr (Or.inr ⟨cs!"i64_u!pt",
      .more cs!"i64" cs!"u!pt" ⟨false, 'i', cs!"64", rfl, by decide, by decide⟩
        (.one _ ⟨true, 'p', cs!"t", rfl, by decide, by decide⟩), rfl⟩)⟩
  have n6 : FunctionName cs!"if_then:" := ⟨cs!"if_then", by decide, Or.inr (Or.inl rfl)⟩
  refine ⟨by simp, ⟨⟨by decide, rfl, ⟨_, h5, n5⟩, ⟨⟨Or.inr (Or.inl rfl), ?_, rfl⟩, ?_, trivial⟩, rfl⟩, ?_, trivial⟩,
    ⟨by decide, rfl, ⟨_, h6, n6⟩, trivial, rfl⟩⟩
  · show InI32 3; unfold InI32; decide
  · exact ⟨rfl, _, rfl, by show InI32 (-7); unfold InI32; decide⟩
  · exact ⟨rfl, _, rfl, trivial⟩

example : letI := asciiTab; letI := halfTab
    (textExpr (run sampleDecls) .default sampleExpr).text =
      cs!"if_then(if_then:i64_u!pt(($3)::?i64?, -7:i32?):boolean -> true, _ -> if_then:():boolean)" := by decide +kernel

/-- C38 for expressions: nothing is reported exactly when no part of the expression is missing,
undeclared or unprintable. -/
theorem C38_expression_errors [UTab] [FTab] (h : List Op) (o : Opts) (e : Expr) :
    (textExpr (run h) o e).errs = [] ↔ CompleteExpr (run h) e :=
  textExpr_errs (Store.ordered_run h) o e

/-- C49 fails: a call of an undeclared function in a clause of a conditional panics, elsewhere it is
an error. -/
theorem C49_clause_error_panics : letI := halfTab
    ∃ s t, pExpr cs!"if_then(g():i64 -> $0, _ -> $1)" = some (s, []) ∧ convExpr (run []) s = .panic ∧
      pExpr cs!"g():i64" = some (t, []) ∧ ∃ e, convExpr (run []) t = .err e :=
  ⟨.ifThen [(.call cs!"g" none none [] (.simple cs!"i64" .required), .ref ⟨false, 0⟩)] (.ref ⟨false, 1⟩),
    .call cs!"g" none none [] (.simple cs!"i64" .required), by rfl, by rfl, by rfl, _, by rfl⟩

/-- C49 fails: a field reference beyond `i32` panics. -/
theorem C49_reference_panics : letI := halfTab
    ∃ s, pExpr cs!"$2147483648" = some (s, []) ∧ convExpr (run []) s = .panic :=
  ⟨.ref ⟨false, 2147483648⟩, by rfl, by
    have : IntTok.toI32 ⟨false, 2147483648⟩ = none := by decide +kernel
    simp [convExpr, convIndex, this, Res.bind]⟩

end Verif
