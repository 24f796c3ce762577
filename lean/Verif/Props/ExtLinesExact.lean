import Verif.Proofs.ExtLinesExact
import Verif.Props.ExtArgsExact
/-!
# C41: exactly which arguments, columns and lines survive as text
-/

namespace Verif
open StoreSpec TextSpec

set_option autoImplicit false

/-- C41, exactly: a column, whatever it is and whatever the options, is read back from its text exactly if it survives. -/
theorem C41_column_survives_iff [UTab] [FTab] (hA : AsciiPrintable) (hF : FloatsShown) (h : List Op) (o : Opts) (c : ExtColumn)
    (rest : Str) (hr : NextNot litContinues rest) (hc : NextNot (· == '(') (rest.dropWhile callChar)) :
    (∃ s, pExtColumn ((textExtColumn (run h) o c).text ++ rest) = some (s, rest) ∧ convExtColumn (run h) s = .ok c) ↔
      SurvivesColumn (run h) o c := by
  constructor
  · rintro ⟨s, h1, h2⟩
    have hk := extColumn_parts h1
    refine (survives_column_of_read hA hF o c (r := rest) (s := s) ⟨hr, hc⟩ ?_ h2).1
    have hsk : skipSp ((textExtColumn (run h) o c).text ++ rest) = (textExtColumn (run h) o c).text ++ rest := by
      generalize (textExtColumn (run h) o c).text ++ rest = x at h1
      cases x with
      | nil => rfl
      | cons d x =>
        apply skipSp_cons
        rintro rfl
        have he : pExpr (' ' :: x) = none := pExprN_none (by decide) (by decide) (by decide) (by decide) _
        simp [pExtColumn, pNamedColumn, pName_none (c := ' ') (by decide) (by decide), pRef_none (c := ' ') (by decide), he, mapFst] at h1
    rw [hsk]
    exact h1
  · intro hs
    obtain ⟨s, hs⟩ := columnText_survives hA o c hs
    exact ⟨s, hs.read rest ⟨hr, hc⟩, hs.conv⟩

/-- C41, exactly: the line of an addendum is read back, with as many named arguments, exactly if its name is an
identifier, its arguments survive and it has no columns. -/
theorem C41_addendum_survives_iff [UTab] [FTab] (hA : AsciiPrintable) (hF : FloatsShown) (h : List Op) (o : Opts) (k : AddKind)
    (name : Str) (a : ExtArgs) (rest : Str) :
    (∃ sa : SArgs, pAddendum ((textAddendum (run h) o k (.ok (name, a))).text ++ rest) = some (⟨k, name, sa⟩, rest) ∧
        sa.named.length = a.named.length ∧ convExtArgs (run h) sa [] = .ok a) ↔
      isIdentifier name = true ∧ SurvivesList (run h) o a.positional a.named ∧ a.columns = [] := by
  constructor
  · rintro ⟨sa, h1, h2, h3⟩
    exact addendum_of_read hA hF o k name a h1 h2 h3
  · rintro ⟨h1, h2, h3⟩
    obtain ⟨sa, h4, h5, h6⟩ := addendum_read hA o k name a h1 h2 h3
    exact ⟨sa, h6 rest, h4, h5⟩

/-- C41, exactly: the line of an extension relation is read back, with as many named arguments, exactly if its name,
its arguments and its columns survive. -/
theorem C41_relation_survives_iff [UTab] [FTab] (hA : AsciiPrintable) (hF : FloatsShown) (h : List Op) (o : Opts)
    (hs : o.showEmit = false) (reg : Registry ExtArgs (List Nat)) (kind : ExtKind) (d : AnyMsg) (ws : List Nat) (name : Str) (a : ExtArgs)
    (hd : reg.decode .relation d ws = .ok (name, a)) (rest : Str) :
    (∃ (sa : SArgs) (cols : List SCol), pExtRel ((textHeader o 0 (headExt ⟨run h, o, reg⟩ kind (some d) ws)).text ++ rest) =
          some (.ext kind name sa cols, rest) ∧
        sa.named.length = a.named.length ∧ convExtArgs (run h) sa cols = .ok a) ↔
      SurvivesRelName name ∧ SurvivesList (run h) o a.positional a.named ∧ ∀ c ∈ a.columns, SurvivesColumn (run h) o c := by
  have htx : (textHeader o 0 (headExt ⟨run h, o, reg⟩ kind (some d) ws)).text = extLine (run h) o kind name a := by
    simp only [headExt, decodeRel, hd, textHeader, indentAt, textOutput, implicitCols, hs]
    simp [Out.text_sep, extLine]
  rw [htx]
  constructor
  · rintro ⟨sa, cols, h1, h2, h3⟩
    exact relation_of_read hA hF o kind name a h1 h2 h3
  · rintro ⟨h1, h2, h3⟩
    obtain ⟨sa, cols, h4, h5, h6⟩ := relation_read hA o kind name a h1 h2 h3
    exact ⟨sa, cols, h6 rest, h4, h5⟩

namespace SurviveLineSample

/-- Named arguments that survive: the second may be called `nullable`, the first may not. -/
example [UTab] [FTab] (h : List Op) (o : Opts) :
    SurvivesList (run h) o [.integer 3] [(cs!"limit", .boolean true), (cs!"nullable", .null)] ∧
      ¬ SurvivesList (run h) o [.integer 3] [(cs!"nullable", .null), (cs!"limit", .boolean true)] := by
  refine ⟨⟨?_, ?_, by decide, ?_⟩, ?_⟩
  · simp [SurvivesValues, SurvivesValue, InI64]
  · intro p hp
    simp only [List.mem_cons, List.not_mem_nil, or_false] at hp
    rcases hp with rfl | rfl <;> exact ⟨by decide, by simp [SurvivesValue]⟩
  · rintro p hp
    cases hp
    intro w hw
    simp only [valueWords, List.mem_cons, List.not_mem_nil, or_false] at hw
    rcases hw with rfl | rfl | rfl <;> decide
  · rintro ⟨-, -, -, hc⟩
    exact hc _ rfl cs!"null" (by decide) (by decide)

/-- A name with quotes around it survives, the same name without does not. -/
example : SurvivesRelName cs!"\"my relation\"" ∧ ¬ SurvivesRelName cs!"my relation" := by
  refine ⟨.inr ⟨cs!"my relation", ?_, rfl⟩, ?_⟩
  · rw [quotedBody_iff]
    simp [QBody]
  · rintro (hi | ⟨b, -, hb⟩)
    · exact absurd hi (by decide)
    · cases hb

/-- A column that is a boolean survives without its type and not with it. -/
example [UTab] [FTab] (h : List Op) : SurvivesColumn (run h) .default (.expr (.literal ⟨some (.bool true), false, 0⟩)) ∧
    ¬ SurvivesColumn (run h) .default (.expr (.literal ⟨some (.bool true), true, 0⟩)) := by
  have ho : Opts.default.litTypes = .required := rfl
  constructor
  · refine ⟨?_, by simp, ?_⟩
    · rw [SurvivesExpr]
      exact ⟨rfl, _, rfl, by trivial, fun _ => ⟨trivial, rfl⟩⟩
    · rintro b - ht
      rcases ht _ rfl with ⟨t, e⟩ | e | ⟨-, e | e⟩
      · cases e
      · rw [ho] at e; cases e
      · cases e
      · exact e trivial
  · rintro ⟨-, hn⟩
    refine hn.2 true rfl ?_
    intro v hv
    exact .inr (.inr ⟨ho, .inl rfl⟩)

end SurviveLineSample

end Verif
