import Verif.Props.ExtSection
import Verif.Props.Reparse
import Verif.Proofs.Image
/-!
# C07, exactly
-/

namespace Verif
open StoreSpec TextSpec RelSpec PlanSpec ImageSpec ChunkSpec SectionSpec

set_option autoImplicit false

section
variable [FTab]

/-- Whatever the text, the declarations read from it can be written. -/
theorem readExts_sound {text : Str} {s : Store} (h : readExts text = .ok s) : Sound s := by
  unfold readExts at h
  rw [PState.parseSections_eq] at h
  cases hr : PState.runLines (PState.init : PState planLang) (physLines text) with
  | err e => rw [hr] at h; cases h
  | panic => rw [hr] at h; cases h
  | ok st =>
    rw [hr] at h
    obtain ⟨blanks, r1, r2, ops, r3, lines, tails, hphys, hb, hv, hx, h3, h4, h5⟩ := initial_run _ _ _ rfl rfl rfl hr
    obtain ⟨hans, hst⟩ := StoreRun.run (past := []) h4
    rw [List.nil_append] at hst
    have hs : (st.ext : ExtState).store = s := by injection h
    have hflat : ∀ l ∈ r1, '\n' ∉ trimEnd l := fun l hl => physLines_flat (text := text) (by rw [hphys]; exact List.mem_append_right _ hl)
    have hflat2 : ∀ l ∈ r2, '\n' ∉ trimEnd l := by
      generalize st.version = v at hv
      cases hv with
      | none => exact hflat
      | some _ _ _ _ => intro l hl; exact hflat l (by simp [hl])
    have hread : ∀ op ∈ ops, OpRead op := by
      cases hx with
      | none => intro op h; cases h
      | some _ hs => exact extSays_read hs fun l hl => hflat2 l (by simp [hl])
    rw [← hs, hst]
    exact sound_of_read hans hread

/-- C07, exactly: the written extensions section of a store is read as that store precisely when every declaration
refers to a declared URN and every URN, name and number has a form that the grammar can read. -/
theorem C07_extensions_iff (s : Store) (ho : s.Ordered) : readExts (writeExts s cs!"  ") = .ok s ↔ Sound s :=
  ⟨readExts_sound, C07_extensions_round_trip_partial s ho⟩

/-- C07: the extensions section of a store that was read from any text is read as that store again. -/
theorem C07_read_again (text : Str) (s : Store) (ho : s.Ordered) (h : readExts text = .ok s) :
    readExts (writeExts s cs!"  ") = .ok s :=
  C07_extensions_round_trip_partial s ho (readExts_sound h)

end

/-- C07 of whole plans, exactly: of a plan that is fine but for its declarations, the declarations that formatting
uses come back precisely when they can be written. -/
theorem C07_plan_iff [UTab] [FTab] (hA : AsciiPrintable) (reg : Registry ExtArgs (List Nat)) (o : Opts)
    (ho : Readable o) (p : Plan) (hv : VersionOk p.version) (hr : ∀ r ∈ p.rels, TopOk ⟨run (history p), o, reg⟩ r) :
    (∃ p', parsePlan reg (textPlan reg o p).text = .ok p' ∧ p'.store = p.store) ↔ Sound p.store := by
  constructor
  · rintro ⟨p', hp, hs⟩
    rw [← hs, plan_store]
    exact (plan_image hp).sound
  · intro h
    obtain ⟨v, urns, decls, rels⟩ := p
    have e1 := plan_store ⟨v, urns, decls, rels⟩
    rw [e1] at h ⊢
    obtain ⟨g1, g2, -, -⟩ := history_export h v rels
    obtain ⟨q, hq, -, -, -, hs, -⟩ := planRT hA reg o ho
      ⟨v, (run (history ⟨v, urns, decls, rels⟩)).toUrns, (run (history ⟨v, urns, decls, rels⟩)).toDecls, rels⟩
      ⟨hv, g2, by rw [g1]; exact h, by rw [g1]; exact hr⟩
    have e2 := plan_store
      ⟨v, (run (history ⟨v, urns, decls, rels⟩)).toUrns, (run (history ⟨v, urns, decls, rels⟩)).toDecls, rels⟩
    rw [g1] at e2
    rw [e2] at hs
    refine ⟨q, ?_, hs⟩
    rw [← hq]
    congr 1
    simp [textPlan, e1, e2]

/-- A plan that declares an anchor twice is reported but meets the conditions, and its text gives the
declarations that came first. -/
def repeatedPlan : Plan := ⟨none, [(1, cs!"/u"), (1, cs!"/v")], [some (.function, 1, 5, cs!"f")], []⟩

example : VersionOk repeatedPlan.version ∧ Sound repeatedPlan.store ∧ answers [] (history repeatedPlan) ≠ [] := by
  have hv : repeatedPlan.store = ⟨[(1, cs!"/u")], [((5, .function), (1, cs!"f"))]⟩ := by decide +kernel
  refine ⟨by rintro x ⟨⟩, ?_, by decide +kernel⟩
  rw [hv]
  refine ⟨?_, ?_, ?_⟩
  · intro e he
    cases List.mem_singleton.1 he
    exact ⟨by decide, by decide, by decide, by decide, by intro c hc; cases hc; decide⟩
  · intro e he
    cases List.mem_singleton.1 he
    exact ⟨by decide, cs!"f", by decide, .inl rfl⟩
  · intro e he
    cases List.mem_singleton.1 he
    exact ⟨cs!"/u", by simp⟩

end Verif
