import Verif.Proofs.OptErrs
import Verif.Props.SamplePlan
/-!
# Property C74: what options change
-/

namespace Verif
open StoreSpec TextSpec RelSpec PlanSpec PanicSpec

set_option autoImplicit false

/-- C74: whether anchors, types of literals or bytes are shown, how lines are indented and when rows go to lines of
their own has no influence on the errors that are reported (in the model, where errors are in text order, nor on their order). -/
theorem C74_errors_independent [UTab] [FTab] (reg : Registry ExtArgs (List Nat)) (o o' : Opts)
    (h : o.showEmit = o'.showEmit) (p : Plan) : (textPlan reg o p).errs = (textPlan reg o' p).errs :=
  oe_plan reg h p

/-- The values whose text alone gives their type away, as far as the formatter is concerned. -/
def Telling : Lit → Prop
  | .bool _ | .string _ | .binary _ | .int .i64 _ | .fp64 _ => True
  | _ => False

/-- C74: the text of a literal with its type is the text without it, a colon and the type; when the type is shown only
as far as required, it is left out exactly for values of the types that are assumed without it, if they are not nullable. -/
theorem C74_literal_text [UTab] [FTab] (st : Store) (o : Opts) (v : Lit) (nullable : Bool) (var : Nat)
    (hv : (∀ t, v ≠ .null t) ∧ ∀ x, v ≠ .other x) :
    let shown := fun l => (textLit st { o with litTypes := l } ⟨some v, nullable, var⟩).text
    shown .always = shown .never ++ cs!":" ++ (textTy st o (v.ty nullable)).text ∧
    (nullable = false → Telling v → shown .required = shown .never) ∧
    (nullable = true ∨ ¬ Telling v → shown .required = shown .always) := by
  have hs : v.suffix.isSome = true := by
    cases v with
    | null t => exact absurd rfl (hv.1 t)
    | other x => exact absurd rfl (hv.2 x)
    | int w i => cases w <;> rfl
    | prec k p x => cases k <;> rfl
    | _ => rfl
  have hb : ∀ l l', textValue { o with litTypes := l } v = textValue { o with litTypes := l' } v := by
    intro l l'; cases v <;> rfl
  have he : ∀ l, (textLit st { o with litTypes := l } ⟨some v, nullable, var⟩).text =
      (textValue { o with litTypes := .never } v).text ++
        if showSuffix { o with litTypes := l } nullable v then ':' :: (textTy st o (v.ty nullable)).text else [] := by
    intro l
    rw [← textSuffix_ty st o v nullable hs, hb .never l]
    cases v with
    | null t => exact absurd rfl (hv.1 t)
    | _ => simp only [textLit]; split <;> simp
  have ht : Telling v ↔ v.isDefault = true := by
    cases v with
    | int w i => cases w <;> simp [Telling, Lit.isDefault]
    | _ => simp [Telling, Lit.isDefault]
  dsimp only
  refine ⟨?_, fun h1 h2 => ?_, fun h => ?_⟩
  · rw [he, he]; simp [showSuffix]
  · rw [he, he]; simp [showSuffix, h1, ht.1 h2]
  · rw [he, he]
    rcases h with h | h
    · simp [showSuffix, h]
    · have : v.isDefault = false := by
        cases hd : v.isDefault with
        | true => exact absurd (ht.2 hd) h
        | false => rfl
      simp [showSuffix, this]

example : letI := asciiTab; letI := halfTab
    [Visibility.never, .required, .always].map
      (fun l => (textLit Store.empty { Opts.default with litTypes := l } ⟨some (.int .i8 5), true, 0⟩).text) =
      [cs!"5", cs!"5:i8?", cs!"5:i8?"] ∧
    [Visibility.never, .required, .always].map
      (fun l => (textLit Store.empty { Opts.default with litTypes := l } ⟨some (.string cs!"x"), false, 0⟩).text) =
      [cs!"'x'", cs!"'x'", cs!"'x':string"] := by decide +kernel

namespace OptionSample

/-- A projection with an incomplete expression that is not emitted. -/
def plan : Plan :=
  ⟨none, [], [], [.rel (.node (.project (some { emit := some (.emit [0]) }) [.missing] none) [some SamplePlan.leaf])]⟩

end OptionSample

/-- C74, for the option that shows all columns: an incomplete expression is reported only then, if it is not emitted. -/
theorem C74_hidden_column : letI := asciiTab; letI := halfTab
    (textPlan sampleReg .default OptionSample.plan).errs = [] ∧
    (textPlan sampleReg { Opts.default with showEmit := true } OptionSample.plan).errs = [cs!"RexType"] := by
  decide +kernel

example : letI := asciiTab; letI := halfTab
    (textPlan sampleReg .verbose ⟨none, [(1, cs!"u")], [], [.missing]⟩).errs =
      (textPlan sampleReg .default ⟨none, [(1, cs!"u")], [], [.missing]⟩).errs ∧
    (textPlan sampleReg .default ⟨none, [(1, cs!"u")], [], [.missing]⟩).errs ≠ [] := by decide +kernel

end Verif
