import Verif.Proofs.TypesExact
/-!
# Property C12, exactly
-/

namespace Verif
open StoreSpec

set_option autoImplicit false

/-- C12, with the exact condition.  Whatever declarations are in force and whatever the options: a type is read
back from its text, in a context that does not continue it, exactly if it is one of those that `SurvivesTy` lists. -/
theorem C12_survives_iff (h : List Op) (o : Opts) (t : Ty) (rest : Str) (hr : NextNot typeContinues rest) :
    (∃ s, pType ((textTy (run h) o t).text ++ rest) = some (s, rest) ∧ convTy (run h) s = .ok t) ↔
      SurvivesTy (run h) o.anchors t := by
  have hl : (textTy (run h) o t).text.length < ((textTy (run h) o t).text ++ rest).length + 1 := by
    simp only [List.length_append]; omega
  constructor
  · rintro ⟨s, h1, h2⟩
    exact survives_of_read o t _ _ _ _ hl hr h1 h2
  · intro hs
    obtain ⟨s, h1, h2⟩ := survives_ty o t hs
    exact ⟨s, h2 _ rest hl hr, h1⟩

/-- C12: a type that is read back at all, with whatever text left over, leaves nothing of its own text over. -/
theorem C12_survives_whole (h : List Op) (o : Opts) (t : Ty) (rest r : Str) (s : STy) (hr : NextNot typeContinues rest)
    (h1 : pType ((textTy (run h) o t).text ++ rest) = some (s, r)) (h2 : convTy (run h) s = .ok t) : r = rest := by
  have hl : (textTy (run h) o t).text.length < ((textTy (run h) o t).text ++ rest).length + 1 := by
    simp only [List.length_append]; omega
  obtain ⟨s', -, h4⟩ := survives_ty o t (survives_of_read o t _ _ _ _ hl hr h1 h2)
  have := h4 _ rest hl hr
  rw [pType] at h1
  rw [h1] at this
  cases this
  rfl

namespace SurviveSample

/-- Two types of the same name, one called like a built-in type, and one with a colon that shares its name. -/
def ops : List Op := [.urn cs!"u" 1, .ext .type 1 5 cs!"point", .ext .type 1 6 cs!"point", .ext .type 1 7 cs!"list",
  .ext .type 1 8 cs!"q:x"]

def inner : Ty := .simple .i64 .required 0

theorem decl5 : Declared (run ops) .type 5 cs!"point" := ⟨1, by decide +kernel⟩
theorem decl6 : Declared (run ops) .type 6 cs!"point" := ⟨1, by decide +kernel⟩
theorem decl7 : Declared (run ops) .type 7 cs!"list" := ⟨1, by decide +kernel⟩
theorem decl8 : Declared (run ops) .type 8 cs!"q:x" := ⟨1, by decide +kernel⟩

-- a name that is used twice survives with its number,
example : SurvivesTy (run ops) .required (.user 5 [.ty inner] .nullable 0) := by
  rw [SurvivesTy]
  refine ⟨rfl, ⟨cs!"point", some 5, ⟨cs!"point", cs!"point", decl5, ⟨by decide, .inl rfl⟩, rfl, .inl ⟨⟨6, by decide, decl6⟩, rfl⟩⟩,
    ⟨by decide, by decide, by decide⟩, by simp⟩, ?_⟩
  simp [SurvivesParams, inner, SurvivesTy]

-- but not when numbers are never written;
example : ¬ SurvivesTy (run ops) .never (.user 5 [.ty inner] .nullable 0) := by
  rw [SurvivesTy]
  rintro ⟨-, ⟨nm, a, ⟨n, b, hd, hb, rfl, rfl⟩, hu, -⟩, -⟩
  have := declared_fun hd hu.2.2.1
  subst this
  obtain rfl := declared_fun hd decl5
  exact hu.2.2.2 ⟨6, by decide, decl6⟩

-- `list` survives with a number whatever its parameters,
example : SurvivesTy (run ops) .always (.user 7 [.ty inner] .required 0) := by
  rw [SurvivesTy]
  refine ⟨rfl, ⟨cs!"list", some 7, ⟨cs!"list", cs!"list", decl7, ⟨by decide, .inl rfl⟩, rfl, rfl⟩,
    ⟨by decide, by decide, by decide⟩, by simp⟩, ?_⟩
  simp [SurvivesParams, inner, SurvivesTy]

/-- There is one type called `list`. -/
theorem one7 : ¬ Twin (run ops) .type 7 cs!"list" := by
  intro h
  have := (any_twin (Store.ordered_run ops) .type 7 cs!"list").2 h
  revert this
  decide +kernel

-- and without one if the number of its parameters is not that of a list.
example : SurvivesTy (run ops) .required (.user 7 [.ty inner, .ty inner] .required 0) := by
  rw [SurvivesTy]
  refine ⟨rfl, ⟨cs!"list", none, ⟨cs!"list", cs!"list", decl7, ⟨by decide, .inl rfl⟩, rfl, .inr ⟨one7, rfl⟩⟩,
    ⟨by decide, by decide, decl7, one7⟩, fun _ => ?_⟩, ?_⟩
  · rintro (⟨-, h⟩ | ⟨h, -⟩ | ⟨h, -⟩) <;> revert h <;> decide
  · simp [SurvivesParams, inner, SurvivesTy]

example : ¬ SurvivesTy (run ops) .required (.user 7 [.ty inner] .required 0) := by
  rw [SurvivesTy]
  rintro ⟨-, ⟨nm, a, ⟨n, b, hd, hb, rfl, hm⟩, hu, hl⟩, -⟩
  obtain rfl := declared_fun hd decl7
  have hb' : nm = cs!"list" := by
    rw [← (bareName_iff _ _).1 hb]; decide
  rcases hm with ⟨h1, -⟩ | ⟨-, rfl⟩
  · exact one7 h1
  · exact hl rfl (.inl ⟨by rw [hb']; decide, rfl⟩)

-- a name with a colon is written without the part after it, which is not enough
example : ¬ SurvivesTy (run ops) .never (.user 8 [] .required 0) := by
  rw [SurvivesTy]
  rintro ⟨-, ⟨nm, a, ⟨n, b, hd, hb, rfl, rfl⟩, hu, -⟩, -⟩
  obtain rfl := declared_fun hd decl8
  have := declared_fun hd hu.2.2.1
  have h2 := hb.1
  rw [← this] at h2
  exact h2 (by decide)

end SurviveSample

end Verif
