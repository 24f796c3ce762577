import Verif.Proofs.LiteralsExact
import Verif.Props.Literals
/-!
# C14: exactly which literals survive as text
-/

namespace Verif
open StoreSpec TextSpec

set_option autoImplicit false

/-- C14.  Under any options a literal is read back from its own text exactly when it is one of `SurvivesLit`; of the
standard library only that it writes floats as numbers (`ShownLit`) is assumed. -/
theorem C14_survives_iff [UTab] [FTab] (hA : AsciiPrintable) (h : List Op) (o : Opts) (l : Literal) (hl : ShownLit l) (rest : Str)
    (hr : NextNot litContinues rest) :
    (∃ s, pLiteral ((textLit (run h) o l).text ++ rest) = some (s, rest) ∧ convLit (run h) s = .ok l) ↔
      SurvivesLit (run h) o l := by
  constructor
  · rintro ⟨s, h1, h2⟩
    exact survives_of_read_lit o l hl hr h1 h2
  · intro hs
    obtain ⟨s, h1, h2⟩ := read_of_survives_lit hA o l hs
    exact ⟨s, h2 rest hr, h1⟩

/-- C14: for a null, nothing counts but its type and its own flag. -/
theorem C14_null_survives_iff [UTab] [FTab] (hA : AsciiPrintable) (h : List Op) (o : Opts) (t : Ty) (nullable : Bool) (v : Nat)
    (rest : Str) (hr : NextNot litContinues rest) :
    (∃ s, pLiteral ((textLit (run h) o ⟨some (.null t), nullable, v⟩).text ++ rest) = some (s, rest) ∧
        convLit (run h) s = .ok ⟨some (.null t), nullable, v⟩) ↔
      SurvivesTy (run h) o.anchors t ∧ nullable = false ∧ v = 0 := by
  rw [C14_survives_iff hA h o _ ⟨fun f e => (by cases e), fun f e => (by cases e)⟩ rest hr]
  constructor
  · rintro ⟨h1, v, h2, h3⟩
    cases h2
    exact ⟨h3.1, h3.2, h1⟩
  · rintro ⟨h1, h2, h3⟩
    exact ⟨h3, _, rfl, h1, h2⟩

/-- C14: without types only four kinds survive, none of them nullable. -/
theorem C14_untyped_survives_iff [UTab] [FTab] (hA : AsciiPrintable) (h : List Op) (o : Opts) (ho : o.litTypes = .never) (l : Literal)
    (hl : ShownLit l) (hn : ∀ t, l.value ≠ some (.null t)) (rest : Str) (hr : NextNot litContinues rest) :
    (∃ s, pLiteral ((textLit (run h) o l).text ++ rest) = some (s, rest) ∧ convLit (run h) s = .ok l) ↔
      l.tvar = 0 ∧ l.nullable = false ∧
        ((∃ b, l.value = some (.bool b)) ∨ (∃ i, l.value = some (.int .i64 i) ∧ InI64 i) ∨
          (∃ f, l.value = some (.fp64 f) ∧ FloatText (FTab.show64 f) ∧ FTab.parse64 (FTab.show64 f) = f) ∨
          ∃ s, l.value = some (.string s) ∧ Spellable s) := by
  rw [C14_survives_iff hA h o l hl rest hr]
  obtain ⟨value, nullable, tvar⟩ := l
  constructor
  · rintro ⟨h1, v, h2, h3⟩
    simp only at h1 h2 h3 hn ⊢
    subst h1 h2
    cases v with
    | null t => exact absurd rfl (hn t)
    | bool b => exact ⟨rfl, (h3.2 ho).2, .inl ⟨b, rfl⟩⟩
    | int w i =>
      cases w with
      | i64 => exact ⟨rfl, (h3.2 ho).2, .inr (.inl ⟨i, rfl, h3.1⟩)⟩
      | _ => exact (h3.2 ho).1.elim
    | fp64 f => exact ⟨rfl, (h3.2 ho).2, .inr (.inr (.inl ⟨f, rfl, h3.1⟩))⟩
    | string s => exact ⟨rfl, (h3.2 ho).2, .inr (.inr (.inr ⟨s, rfl, h3.1.1⟩))⟩
    | _ => exact (h3.2 ho).1.elim
  · rintro ⟨h1, h2, h3⟩
    simp only at h1 h2 h3
    subst h1 h2
    rcases h3 with ⟨b, rfl⟩ | ⟨i, rfl, h3⟩ | ⟨f, rfl, h3⟩ | ⟨s, rfl, h3⟩
    · exact ⟨rfl, _, rfl, trivial, fun _ => ⟨trivial, rfl⟩⟩
    · exact ⟨rfl, _, rfl, h3, fun _ => ⟨trivial, rfl⟩⟩
    · exact ⟨rfl, _, rfl, h3, fun _ => ⟨trivial, rfl⟩⟩
    · exact ⟨rfl, _, rfl, ⟨h3, rfl⟩, fun _ => ⟨trivial, rfl⟩⟩

/-- A float and a nullable integer survive if types are shown; without types only the float does. -/
example : letI := asciiTab; letI := halfTab
    ShownLit ⟨some (.fp64 12), false, 0⟩ ∧ SurvivesLit (run []) { Opts.default with litTypes := .never } ⟨some (.fp64 12), false, 0⟩ ∧
    SurvivesLit (run []) .default ⟨some (.int .i16 (-7)), true, 0⟩ ∧
    ¬ SurvivesLit (run []) { Opts.default with litTypes := .never } ⟨some (.int .i16 (-7)), true, 0⟩ := by
  letI := asciiTab; letI := halfTab
  have hf : FloatText (FTab.show64 12) := ⟨false, cs!"12", cs!"5", by decide, by decide, by decide, by decide, by decide +kernel⟩
  refine ⟨⟨fun f e => (by cases e), fun f e => (by cases e; exact .inr (.inr hf))⟩, ⟨rfl, _, rfl, ⟨hf, by decide +kernel⟩, fun _ => ⟨trivial, rfl⟩⟩,
    ⟨rfl, _, rfl, by simp [Spelled, InI32], fun e => (by cases e)⟩, ?_⟩
  rintro ⟨-, v, h1, h2⟩
  cases h1
  exact (h2.2 rfl).1

/-- A null of a type survives although anchors are hidden. -/
example [UTab] [FTab] : SurvivesLit (run []) { Opts.default with anchors := .never } ⟨some (.null (.simple .i32 .nullable 0)), false, 0⟩ :=
  ⟨rfl, _, rfl, by rw [SurvivesTy], rfl⟩

end Verif
