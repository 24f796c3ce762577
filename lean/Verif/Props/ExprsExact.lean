import Verif.Proofs.ExprsExactRead
import Verif.Props.LiteralsExact
import Verif.Props.Exprs
/-!
# C20: exactly which expressions survive as text
-/

namespace Verif
open StoreSpec TextSpec

set_option autoImplicit false

/-- C20.  Under any options an expression of any depth is read back from its own text exactly when it is one of
`SurvivesExpr`; of the standard library only that it writes floats as numbers is assumed. -/
theorem C20_survives_iff [UTab] [FTab] (hA : AsciiPrintable) (hF : FloatsShown) (h : List Op) (o : Opts) (e : Expr)
    (rest : Str) (hr : NextNot litContinues rest) (hc : NextNot (· == '(') (rest.dropWhile callChar)) :
    (∃ s, pExpr ((textExpr (run h) o e).text ++ rest) = some (s, rest) ∧ convExpr (run h) s = .ok e) ↔
      SurvivesExpr (run h) o e := by
  constructor
  · rintro ⟨s, h1, h2⟩
    exact survives_expr_of_read hA hF o e _ rest _ s (by simp only [List.length_append]; omega) ⟨hr, hc⟩ h1 h2
  · intro hs
    obtain ⟨s, h1, h2⟩ := read_expr hA o e hs
    exact ⟨s, h2 _ rest (by simp only [List.length_append]; omega) ⟨hr, hc⟩, h1⟩

/-- C20: of two expressions with the same text, perhaps printed under different options, at most one can be read back:
nothing that survives is confused with anything else that does. -/
theorem C20_survivors_injective [UTab] [FTab] (hA : AsciiPrintable) (h : List Op) (o o' : Opts) (e e' : Expr)
    (he : SurvivesExpr (run h) o e) (he' : SurvivesExpr (run h) o' e')
    (heq : (textExpr (run h) o e).text = (textExpr (run h) o' e').text) : e = e' := by
  obtain ⟨s, h1, h2⟩ := read_expr hA o e he
  obtain ⟨s', h1', h2'⟩ := read_expr hA o' e' he'
  have a := h2 ((textExpr (run h) o e).text.length + 1) [] (by omega) ⟨NextNot.nil _, NextNot.nil _⟩
  have b := h2' ((textExpr (run h) o e).text.length + 1) [] (by rw [heq]; omega) ⟨NextNot.nil _, NextNot.nil _⟩
  rw [heq, ← heq] at a
  rw [← heq, a] at b
  cases b
  rw [h1'] at h1
  cases h1
  rfl

/-- The assumption about floats holds of a table. -/
theorem halfTab_shown : @FloatsShown halfTab := by
  intro f
  have : FloatShown (dec f ++ cs!".5") :=
    .inr (.inr ⟨false, dec f, cs!"5", dec_ne_nil f, by decide, dec_all_digits f, by decide, by simp⟩)
  exact ⟨this, this⟩

namespace SurviveExprSample

def fops : List Op := [.urn cs!"u" 1, .ext .function 1 5 cs!"add:i64", .ext .function 1 6 cs!"neg", .ext .function 1 7 cs!"neg:x"]

theorem fdecl5 : Declared (run fops) .function 5 cs!"add:i64" := ⟨1, by decide +kernel⟩
theorem fdecl6 : Declared (run fops) .function 6 cs!"neg" := ⟨1, by decide +kernel⟩
theorem fdecl7 : Declared (run fops) .function 7 cs!"neg:x" := ⟨1, by decide +kernel⟩

def hidden : Opts := { Opts.default with anchors := .never }

theorem add_is : UsableFn (run fops) 5 cs!"add" none :=
  ⟨⟨cs!"add", by decide, .inl rfl⟩, ((Store.getAndValidate_function (Store.ordered_run fops) cs!"add" none 5).1 (by decide +kernel)).2⟩

/-- With anchors hidden, a call survives if its function is the only one of its name, -/
example [UTab] [FTab] : SurvivesExpr (run fops) hidden
    (.call 5 [.value (.selection (.field 3 none)), .value (.cast (some (.selection (.field 0 none))) (some (.simple .i64 .nullable 0)) 1)] []
      (some (.simple .i64 .required 0))) := by
  rw [SurvivesExpr]
  refine ⟨rfl, ⟨_, _, ⟨_, _, fdecl5, ⟨by decide, .inr ⟨cs!"i64", rfl⟩⟩, rfl, rfl⟩, add_is⟩, ?_, by rw [SurvivesTy]⟩
  simp [SurvivesArgs, SurvivesExpr, SurvivesTy, InI32]

/-- and does not if another one is called the same up to the signature. -/
example [UTab] [FTab] : ¬ SurvivesExpr (run fops) hidden (.call 7 [] [] (some (.simple .i64 .required 0))) := by
  rw [SurvivesExpr]
  rintro ⟨-, ⟨nm, a, ⟨n, b, hd, hb, rfl, rfl⟩, hu⟩, -⟩
  obtain rfl := declared_fun hd fdecl7
  have hb' : nm = cs!"neg" := by
    rw [← (bareName_iff _ _).1 hb]; decide
  have := hu.2 6 _ fdecl6 (.inl hb'.symm)
  cases this

end SurviveExprSample

end Verif
