import Verif.Proofs.ExtSection
/-!
# C07: the extensions section
-/

namespace Verif
open StoreSpec PlanSpec

set_option autoImplicit false

/-- The declarations read from a text. -/
def readExts (text : Str) : Res PErr Store :=
  (parseSections planLang text).map fun st => (st.ext : ExtState).store

/-- C07 (for stores whose declarations all refer to a declared URN): the written extensions
section is read without an error, and gives the store that was written.  `Ordered` is the
representation invariant of the store; every history of declarations produces such a store. -/
theorem C07_extensions_round_trip_partial (s : Store) (ho : s.Ordered) (hs : Sound s) :
    readExts (writeExts s cs!"  ") = .ok s := by
  unfold readExts
  rw [PState.parseSections_eq]
  cases hne : s.isEmpty with
  | true =>
    have hw : writeExts s cs!"  " = [] := by simp [writeExts, hne]
    have : s = .empty := by
      obtain ⟨u, e⟩ := s
      simp [Store.isEmpty] at hne
      rw [hne.1, hne.2]
      rfl
    rw [hw, this, ChunkSpec.physLines, PState.runLines_nil]
    rfl
  | false =>
    obtain ⟨x, hx⟩ := PState.runLines_writeExts s ho hs hne (st := PState.init) (by decide) rfl (rest := []) noDash_nil
    rw [List.append_nil] at hx
    rw [hx, ChunkSpec.physLines, PState.runLines_nil]
    rfl

/-- C07: the same inside a document: whatever the sections before left behind, and whatever plan
section follows, reading goes on with exactly the written declarations. -/
theorem C07_extensions_in_context_partial (s : Store) (ho : s.Ordered) (hs : Sound s) (hne : s.isEmpty = false)
    (st : PState planLang) (hsec : st.sec = .initial ∨ st.sec = .version) (hinit : st.ext = ExtState.init) (rest : Str) :
    ∃ st' : PState planLang, st'.sec = .plan ∧ st'.version = st.version ∧ st'.tree = st.tree ∧
      (st'.ext : ExtState).store = s ∧
      (NoDash rest → PState.runLines st (ChunkSpec.physLines (writeExts s cs!"  " ++ cs!"\n=== Plan\n" ++ rest)) =
        PState.runLines st' (ChunkSpec.physLines rest)) := by
  have hr : st.sec.rank < 2 := by rcases hsec with h | h <;> rw [h] <;> decide
  obtain ⟨x, hx⟩ := PState.runLines_writeExts s ho hs hne (st := st) hr hinit (rest := cs!"\n=== Plan\n" ++ rest)
    (noDash_nl _)
  refine ⟨{ st with sec := .plan, ext := (⟨x, s⟩ : ExtState) }, rfl, rfl, rfl, rfl, ?_⟩
  intro hd
  have hx2 : PState.runLines { st with sec := .extensions, ext := (⟨x, s⟩ : ExtState) }
      (ChunkSpec.physLines (cs!"\n=== Plan\n" ++ rest)) = PState.runLines { st with sec := .plan, ext := (⟨x, s⟩ : ExtState) }
        (ChunkSpec.physLines rest) := by
    have h1 := PState.runLines_empty (L := planLang) (rest := planHeader ++ '\n' :: rest)
      (noDash_spaces 0 (c := '=') _ (by decide) (by decide)) { st with sec := .extensions, ext := (⟨x, s⟩ : ExtState) }
    have h2 := PState.runLines_header (L := planLang) (st := { st with sec := .extensions, ext := (⟨x, s⟩ : ExtState) })
      (h := planHeader) (next := .plan) (Or.inr ⟨rfl, rfl⟩)
      (show Sec.rank .extensions < Sec.rank .plan by decide) hd
    rw [h2] at h1
    exact h1
  rw [List.append_assoc, hx, hx2]

/-- C07 fails without the condition on URN references: the section of a store with a dangling
reference (loading such a plan reports it, but keeps the declaration) is rejected ... -/
theorem C07_dangling_rejected :
    readExts (writeExts (run [.ext .function 9 1 cs!"add"]) cs!"  ") = .err .extensionLine := by decide +kernel

/-- ... a URN with a space in it makes the parser panic, since text after the match is an
assertion failure and not an error ... -/
theorem C07_space_panics :
    readExts (writeExts (run [.urn cs!"a b" 1]) cs!"  ") = .panic := by decide +kernel

/-- ... and so does a name outside the grammar. -/
theorem C07_name_panics :
    readExts (writeExts (run [.urn cs!"u" 1, .ext .function 1 2 cs!"a.b"]) cs!"  ") = .panic := by decide +kernel

/-- The conditions of C07 hold for a store with all kinds of declarations under equal anchors. -/
def sampleStore : Store := run [.urn cs!"https://x/f.yaml" 4294967295, .urn cs!"/u" 7,
  .ext .type 7 1 cs!"u!json", .ext .function 7 1 cs!"equal:any_u!json", .ext .function 4294967295 1000 cs!"count:",
  .ext .typeVariation 7 1 cs!"v_1"]

theorem sampleStore_ordered : sampleStore.Ordered := Store.ordered_run _

theorem sampleStore_sound : Sound sampleStore := by
  have hv : sampleStore = ⟨[(7, cs!"/u"), (4294967295, cs!"https://x/f.yaml")],
      [((1, .function), (7, cs!"equal:any_u!json")), ((1, .type), (7, cs!"json")), ((1, .typeVariation), (7, cs!"v_1")),
       ((1000, .function), (4294967295, cs!"count:"))]⟩ := by decide +kernel
  have h1 : FunctionName cs!"equal:any_u!json" :=
    ⟨cs!"equal", by decide, Or.inr (Or.inr ⟨cs!"any_u!json",
      .more cs!"any" cs!"u!json" ⟨false, 'a', cs!"ny", rfl, by decide, by decide⟩
        (.one _ ⟨true, 'j', cs!"son", rfl, by decide, by decide⟩), rfl⟩)⟩
  have h2 : FunctionName cs!"count:" := ⟨cs!"count", by decide, Or.inr (Or.inl rfl)⟩
  refine ⟨?_, ?_, ?_⟩
  · rw [hv]
    intro e he
    simp only [List.mem_cons, List.not_mem_nil, or_false] at he
    rcases he with rfl | rfl
    · exact ⟨by decide, by decide, by decide, by decide, by intro c hc; cases hc; decide⟩
    · exact ⟨by decide, by decide, by decide, by decide, by intro c hc; cases hc; decide⟩
  · rw [hv]
    intro e he
    simp only [List.mem_cons, List.not_mem_nil, or_false] at he
    rcases he with rfl | rfl | rfl | rfl
    · exact ⟨by decide, h1⟩
    · exact ⟨by decide, by show isIdentifier _ = true; decide⟩
    · exact ⟨by decide, by show isIdentifier _ = true; decide⟩
    · exact ⟨by decide, h2⟩
  · rw [hv]
    intro e he
    simp only [List.mem_cons, List.not_mem_nil, or_false] at he
    rcases he with rfl | rfl | rfl | rfl
    · exact ⟨cs!"/u", by simp⟩
    · exact ⟨cs!"/u", by simp⟩
    · exact ⟨cs!"/u", by simp⟩
    · exact ⟨cs!"https://x/f.yaml", by simp⟩

example : readExts (writeExts sampleStore cs!"  ") = .ok sampleStore :=
  C07_extensions_round_trip_partial _ sampleStore_ordered sampleStore_sound

end Verif
