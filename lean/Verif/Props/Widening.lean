import Verif.Model.Examples
import Verif.Spec.Registry
import Verif.Props.ExtArgs
/-!
# Expressions as extension arguments: C57
-/

namespace Verif
open StoreSpec TextSpec

set_option autoImplicit false

/-- Calls of functions whose names are not taken for `true`, `false` or `null`. -/
def ClearCall (st : Store) : Expr → Prop
  | .call f _ _ _ => ∀ n, Declared st .function f n → ClearName n
  | _ => True

/-- The scalar that a literal is written like when its type is not shown. -/
def scalarOf : Lit → Option ExtValue
  | .bool b => some (.boolean b)
  | .int .i64 i => some (.integer i)
  | .fp64 f => some (.float f)
  | .string s => some (.string s)
  | _ => none

/-- **C57.** An expression given as an argument reaches a handler that asks for an expression
unchanged, at whatever verbosity it was written: either it is read as that expression, or as a scalar
that widens to it. -/
theorem C57_expression_reaches_handler [UTab] [FTab] (hA : AsciiPrintable) (h : List Op) (o : Opts)
    (ho : o.anchors ≠ .never) (hl : o.litTypes ≠ .never) (e : Expr) (he : Faithful (run h) e) (hc : ClearCall (run h) e)
    (rest : Str) (hr : NextNot litContinues rest) (hp : NextNot (· == '(') (rest.dropWhile callChar)) :
    ∃ s v, pArg ((textExtValue (run h) o (.expr e)).text ++ rest) = some (s, rest) ∧ convArg (run h) s = .ok v ∧
      v.asExpr = some e ∧ v.asRef = e.directRef := by
  by_cases ha : ArgExpr (run h) o e
  · obtain ⟨s, h1, h2⟩ := C41_value_round_trip_partial hA h o ho hl (.expr e) ⟨he, ha⟩ rest hr hp
    exact ⟨s, _, h1, h2, rfl, rfl⟩
  · cases e with
    | literal l =>
      obtain ⟨val, nul, tv⟩ := l
      obtain ⟨htv, v, hv, hs⟩ := he
      simp only at htv hv hs
      subst htv hv
      simp only [ArgExpr, WithType, not_or] at ha
      obtain ⟨hal, hn, hk⟩ := ha
      have hn : nul = false := by simpa using hn
      subst hn
      replace hk : ScalarKind v := by
        apply Classical.byContradiction
        intro hk'
        exact hk fun v' hv' => by cases hv'; exact hk'
      have ho' : o.litTypes = .required := by
        cases hx : o.litTypes <;> simp_all
      have key : ∃ w, ValueOk (run h) o w ∧ w.asExpr = some (litExpr v) ∧ w.asRef = none ∧
          (textExtValue (run h) o (.expr (.literal ⟨some v, false, 0⟩))).text = (textExtValue (run h) o w).text := by
        cases v <;> simp only [ScalarKind] at hk
        case bool b => exact ⟨.boolean b, trivial, rfl, rfl, by
          simp [textExtValue, textExpr, textLit, textValue, showSuffix, ho', Lit.isDefault]⟩
        case int k i =>
          cases k <;> simp only [ScalarKind] at hk
          exact ⟨.integer i, hs, rfl, rfl, by
            simp [textExtValue, textExpr, textLit, textValue, showSuffix, ho', Lit.isDefault]⟩
        case fp64 f => exact ⟨.float f, hs, rfl, rfl, by
          simp [textExtValue, textExpr, textLit, textValue, showSuffix, ho', Lit.isDefault]⟩
        case string s => exact ⟨.string s, hs.1, rfl, rfl, by
          simp [textExtValue, textExpr, textLit, textValue, showSuffix, ho', Lit.isDefault]⟩
      obtain ⟨w, hw, h3, h4, h5⟩ := key
      obtain ⟨s, h1, h2⟩ := C41_value_round_trip_partial hA h o ho hl w hw rest hr hp
      exact ⟨s, w, by rw [h5, h1], h2, h3, by rw [h4]; rfl⟩
    | call f args opts t => exact absurd hc ha
    | _ => exact absurd trivial ha

/-- A scalar argument means the same as an argument and as an expression: what it widens to is what
the same text stands for where an expression is expected. -/
theorem C57_scalar_is_expression [UTab] [FTab] (hA : AsciiPrintable) (h : List Op) (o : Opts)
    (v : ExtValue) (hv : ValueOk (run h) o v) (e : Expr) (hw : v.asExpr = some e) (hs : ∀ x, v ≠ .expr x)
    (rest : Str) (hr : NextNot litContinues rest) (hp : NextNot (· == '(') (rest.dropWhile callChar)) :
    ∃ s, pExpr ((textExtValue (run h) o v).text ++ rest) = some (s, rest) ∧ convExpr (run h) s = .ok e := by
  have main : ∀ l : Lit, Spelled (run h) false l → scalarOf l = some v → ∃ s,
      pExpr ((textExtValue (run h) o v).text ++ rest) = some (s, rest) ∧ convExpr (run h) s = .ok (litExpr l) := by
    intro l hsp hsc
    obtain ⟨s, h1, h2⟩ := C20_expression_round_trip_partial hA h .default (by decide) (by decide) (litExpr l)
      ⟨rfl, l, rfl, hsp⟩ rest hr hp
    refine ⟨s, ?_, h2⟩
    rw [← h1]
    congr 2
    cases l <;> simp only [scalarOf, reduceCtorEq] at hsc
    case bool b => cases hsc; simp [litExpr, textExtValue, textExpr, textLit, textValue, showSuffix, Opts.default, Lit.isDefault]
    case int k i =>
      cases k <;> simp only [scalarOf, reduceCtorEq] at hsc
      cases hsc; simp [litExpr, textExtValue, textExpr, textLit, textValue, showSuffix, Opts.default, Lit.isDefault]
    case fp64 f => cases hsc; simp [litExpr, textExtValue, textExpr, textLit, textValue, showSuffix, Opts.default, Lit.isDefault]
    case string s => cases hsc; simp [litExpr, textExtValue, textExpr, textLit, textValue, showSuffix, Opts.default, Lit.isDefault]
  cases v <;> simp only [ExtValue.asExpr, Option.some.injEq, reduceCtorEq] at hw
  case string s => subst hw; exact main _ ⟨hv, rfl⟩ rfl
  case integer i => subst hw; exact main _ hv rfl
  case float f => subst hw; exact main _ hv rfl
  case boolean b => subst hw; exact main _ trivial rfl
  case expr x => exact absurd rfl (hs x)

/-- The conversions of a value exclude each other, apart from widening to an expression: at most one
of them succeeds. -/
theorem C57_scalar_kinds_apart (v : ExtValue) :
    ([v.asStr.isSome, v.asEnum.isSome, v.asTuple.isSome, v.asInt.isSome, v.asFloat.isSome, v.asBool.isSome,
      v.asRef.isSome].filter id).length ≤ 1 := by
  cases v <;> simp [ExtValue.asStr, ExtValue.asEnum, ExtValue.asTuple, ExtValue.asInt, ExtValue.asFloat, ExtValue.asBool,
    ExtValue.asRef]
  rename_i e
  cases e.directRef <;> simp

/-- A handler that asks for a reference gets one exactly when the argument is a reference to a field of the
input; a reference into a nested field is refused, not cut short. -/
theorem C57_reference_is_direct (v : ExtValue) (i : Int) :
    v.asRef = some i ↔ v = .expr (.selection (.field i none)) := by
  constructor
  · intro h
    cases v <;> simp only [ExtValue.asRef, reduceCtorEq] at h
    rename_i e
    unfold Expr.directRef at h
    split at h <;> cases h
    rfl
  · rintro rfl
    rfl

-- `$3` is one, `$3.1` is not
example : (ExtValue.expr (.selection (.field 3 none))).asRef = some 3 ∧
    (ExtValue.expr (.selection (.field 3 (some (.field 1 none))))).asRef = none := ⟨rfl, rfl⟩

theorem mapM_map {α β : Type} (f : ExtValue → Option β) (g : α → ExtValue) (k : α → β) (h : ∀ a, f (g a) = some (k a))
    (l : List α) : (l.map g).mapM f = some (l.map k) := by
  induction l with
  | nil => rfl
  | cons a l ih => simp [List.mapM_cons, h, ih]

/-- A vector given as a tuple (`From<Vec<T>>`, args.rs L533-540) is read back by `get_named_tuple` as the
same vector, element by element. -/
theorem C57_vector_round_trip {α : Type} (a : ArgSet ExtValue) (n : Str) :
    (∀ (l : List Int) (k : Option (List Int) → Reader ExtValue α), getKey a.named n = some (.tuple (l.map .integer)) →
      (Reader.getNamedTuple n ExtValue.asInt k).answer a = (k (some l)).answer a) ∧
    (∀ (l : List Str) (k : Option (List Str) → Reader ExtValue α), getKey a.named n = some (.tuple (l.map .string)) →
      (Reader.getNamedTuple n ExtValue.asStr k).answer a = (k (some l)).answer a) ∧
    (∀ (l : List Expr) (k : Option (List Expr) → Reader ExtValue α), getKey a.named n = some (.tuple (l.map .expr)) →
      (Reader.getNamedTuple n ExtValue.asExpr k).answer a = (k (some l)).answer a) := by
  refine ⟨?_, ?_, ?_⟩ <;> intro l k h <;>
    simp only [Reader.getNamedTuple, Reader.getNamed, Reader.answer, h, ExtValue.asTuple, Option.bind_some]
  · rw [mapM_map ExtValue.asInt ExtValue.integer id (fun _ => rfl)]; simp
  · rw [mapM_map ExtValue.asStr ExtValue.string id (fun _ => rfl)]; simp
  · rw [mapM_map ExtValue.asExpr ExtValue.expr id (fun _ => rfl)]; simp

/-- A tuple with an element of another kind is an error that names the argument. -/
theorem C57_tuple_element_rejected {α β : Type} (a : ArgSet ExtValue) (n : Str) (f : ExtValue → Option β) (vs : List ExtValue)
    (k : Option (List β) → Reader ExtValue α) (h : getKey a.named n = some (.tuple vs)) (v : ExtValue) (hv : v ∈ vs)
    (hf : f v = none) : (Reader.getNamedTuple n f k).answer a = .error (.conversion n) := by
  have : ∀ ws : List ExtValue, v ∈ ws → ws.mapM f = none := by
    intro ws
    induction ws with
    | nil => intro h; cases h
    | cons w ws ih =>
      intro hw
      rw [List.mapM_cons]
      rcases List.mem_cons.1 hw with rfl | hw
      · simp [hf]
      · cases f w <;> simp [ih hw]
  simp only [Reader.getNamedTuple, Reader.getNamed, Reader.answer, h, ExtValue.asTuple, Option.bind_some, this vs hv]

/-- The literal `5` of type `i64`, read as an integer and widened. -/
example : letI := asciiTab; letI := halfTab
    ∃ s v, pArg cs!"5" = some (s, []) ∧ convArg (run []) s = .ok v ∧
      v.asExpr = some (litExpr (.int .i64 5)) ∧ v.asRef = none := by
  letI := asciiTab; letI := halfTab
  have := C57_expression_reaches_handler asciiTab_printable [] .default (by decide) (by decide)
    (litExpr (.int .i64 5)) ⟨rfl, _, rfl, by show InI64 5; unfold InI64; omega⟩ trivial [] (NextNot.nil _) (NextNot.nil _)
  have ht : (textExtValue (run []) .default (.expr (litExpr (.int .i64 5)))).text = cs!"5" := by decide +kernel
  rwa [ht] at this

end Verif
