import Verif.Proofs.ExtArgsExact
import Verif.Props.ExtArgs
import Verif.Props.ExprsExact
/-!
# C41: exactly which argument values survive as text
-/

namespace Verif
open StoreSpec TextSpec

set_option autoImplicit false

/-- C41.  Under any options an argument value, at any nesting of tuples and expressions, is read back from its own text
exactly when it is one of `SurvivesValue`; of the standard library only that it writes floats as numbers is assumed. -/
theorem C41_value_survives_iff [UTab] [FTab] (hA : AsciiPrintable) (hF : FloatsShown) (h : List Op) (o : Opts) (v : ExtValue)
    (rest : Str) (hr : NextNot litContinues rest) (hc : NextNot (· == '(') (rest.dropWhile callChar)) :
    (∃ s, pArg ((textExtValue (run h) o v).text ++ rest) = some (s, rest) ∧ convArg (run h) s = .ok v) ↔
      SurvivesValue (run h) o v := by
  constructor
  · rintro ⟨s, h1, h2⟩
    exact survives_value_of_read hA hF o v _ rest _ s (by simp only [List.length_append]; omega) ⟨hr, hc⟩ h1 h2
  · intro hs
    obtain ⟨a, ha⟩ := argText_survives hA o v hs
    exact ⟨a, ha.arg _ rest (by simp only [List.length_append]; omega) ⟨hr, hc⟩, ha.conv⟩

/-- C41: of two values with the same text, perhaps printed under different options, at most one can be read back. -/
theorem C41_survivors_injective [UTab] [FTab] (hA : AsciiPrintable) (h : List Op) (o o' : Opts) (v v' : ExtValue)
    (hv : SurvivesValue (run h) o v) (hv' : SurvivesValue (run h) o' v')
    (heq : (textExtValue (run h) o v).text = (textExtValue (run h) o' v').text) : v = v' := by
  obtain ⟨a, ha⟩ := argText_survives hA o v hv
  obtain ⟨a', ha'⟩ := argText_survives hA o' v' hv'
  have e1 := ha.arg ((textExtValue (run h) o v).text.length + 1) [] (by omega) ⟨NextNot.nil _, NextNot.nil _⟩
  have e2 := ha'.arg ((textExtValue (run h) o v).text.length + 1) [] (by rw [heq]; omega) ⟨NextNot.nil _, NextNot.nil _⟩
  rw [heq, ← heq] at e1
  rw [← heq, e1] at e2
  cases e2
  have := ha.conv
  rw [ha'.conv] at this
  cases this
  rfl

namespace SurviveArgSample

def bops : List Op := [.urn cs!"u" 1, .ext .function 1 5 cs!"true:x", .ext .function 1 6 cs!"true:y"]

theorem bdecl5 : Declared (run bops) .function 5 cs!"true:x" := ⟨1, by decide +kernel⟩
theorem bdecl6 : Declared (run bops) .function 6 cs!"true:y" := ⟨1, by decide +kernel⟩

def shown : Opts := { Opts.default with anchors := .always }
def hidden : Opts := { Opts.default with anchors := .never }

/-- A call of a function named `true:x` is read back where the signature is shown, -/
example [UTab] [FTab] : SurvivesValue (run bops) shown
    (.tuple [.boolean true, .expr (.call 5 [] [] (some (.simple .i64 .required 0)))]) := by
  have hs : ∀ nm a, ShownFn (run bops) shown.anchors 5 nm a → nm = cs!"true:x" ∧ a = some 5 := by
    rintro nm a ⟨n, b, hd, hb, rfl, rfl⟩
    exact ⟨declared_fun hd bdecl5, rfl⟩
  simp only [SurvivesValue, SurvivesValues, and_true, true_and]
  refine ⟨?_, ?_⟩
  · rw [SurvivesExpr]
    refine ⟨rfl, ⟨cs!"true:x", some 5, ⟨_, cs!"true", bdecl5, ⟨by decide, .inr ⟨cs!"x", rfl⟩⟩, rfl, rfl⟩, ?_⟩, by simp [SurvivesArgs], by rw [SurvivesTy]⟩
    exact ⟨⟨cs!"true", by decide, .inr (.inr ⟨cs!"x", .one _ ⟨false, 'x', [], rfl, by decide, by simp⟩, rfl⟩)⟩, by decide⟩
  · intro nm a hn w hw hp
    obtain ⟨rfl, -⟩ := hs nm a hn
    revert hp
    simp only [valueWords, List.mem_cons, List.not_mem_nil, or_false] at hw
    rcases hw with rfl | rfl | rfl <;> decide

/-- and not where it is hidden. -/
example [UTab] [FTab] : ¬ SurvivesValue (run bops) hidden (.expr (.call 5 [] [] (some (.simple .i64 .required 0)))) := by
  simp only [SurvivesValue]
  rintro ⟨-, hn⟩
  have := hn cs!"true" none ⟨_, _, bdecl5, ⟨by decide, .inr ⟨cs!"x", rfl⟩⟩, rfl, rfl⟩ cs!"true" (by decide) (by decide)
  revert this
  decide

end SurviveArgSample

end Verif
