import Verif.Spec.Bytes
import Verif.Proofs.Bytes
import Verif.Props.Sections
/-!
# C70: slicing by byte offsets never panics and never shows
-/
set_option autoImplicit false

namespace Verif
open ByteSpec ChunkSpec

theorem byteLen_utf8 (s : Str) : byteLen s = (utf8 s).length := by
  induction s with
  | nil => rfl
  | cons c s ih =>
    show c.utf8Size + byteLen s = (String.utf8EncodeChar c ++ utf8 s).length
    rw [List.length_append, String.length_utf8EncodeChar, ih]

theorem utf8_append (a b : Str) : utf8 (a ++ b) = utf8 a ++ utf8 b := List.flatMap_append

/-- C70 (what slicing means): the model of slicing splits a text at a byte offset of its UTF-8
form, and panics exactly at the offsets that do not lie between two characters. -/
theorem C70_slice {ε : Type} (s : Str) (n : Nat) :
    (∀ a b, (sliceAt s n : Res ε (Str × Str)) = .ok (a, b) ↔ Boundary s n a b) ∧
    ((sliceAt s n : Res ε (Str × Str)) = .panic ↔ ∀ a b, ¬ Boundary s n a b) := by
  have key : ∀ a b, (sliceAt s n : Res ε (Str × Str)) = .ok (a, b) ↔ Boundary s n a b := by
    intro a b
    constructor
    · intro h
      obtain ⟨h1, h2⟩ := sliceAt_ok h
      exact ⟨by rw [h1, utf8_append], h1, by rw [← byteLen_utf8]; exact h2⟩
    · rintro ⟨_, rfl, h3⟩
      rw [← byteLen_utf8] at h3
      rw [← h3]
      exact sliceAt_append a b
  refine ⟨key, ?_⟩
  constructor
  · intro h a b hb
    rw [(key a b).mpr hb] at h
    cases h
  · intro h
    cases hs : (sliceAt s n : Res ε (Str × Str)) with
    | panic => rfl
    | ok r => exact absurd ((key r.1 r.2).mp hs) (h _ _)
    | err e => exact absurd hs (sliceAt_no_err s n e)

/-- The offsets matter: one byte into a two-byte character is a panic. -/
example : (sliceAt cs!"aéb" 2 : Res Unit (Str × Str)) = .panic ∧
    (sliceAt cs!"aéb" 3 : Res Unit (Str × Str)) = .ok (cs!"aé", cs!"b") ∧
    (sliceAt cs!"aéb" 5 : Res Unit (Str × Str)) = .panic ∧
    findByte 'b' cs!"aéb" = some 3 := by decide

/-- C70 (searching): the byte index of a character is the length in bytes of what stands before its
first occurrence. -/
theorem C70_find (x : Char) (s : Str) (n : Nat) :
    findByte x s = some n ↔ ∃ a b, s = a ++ x :: b ∧ x ∉ a ∧ (utf8 a).length = n := by
  induction s generalizing n with
  | nil => simp [findByte]
  | cons c s ih =>
    rw [findByte]
    by_cases hc : c = x
    · subst hc
      rw [if_pos rfl]
      constructor
      · intro h
        cases h
        exact ⟨[], s, rfl, by simp, rfl⟩
      · rintro ⟨a, b, h1, h2, h3⟩
        cases a with
        | nil => rw [← h3]; rfl
        | cons d a => simp at h1; simp [h1.1] at h2
    · rw [if_neg hc]
      constructor
      · intro h
        cases hs : findByte x s with
        | none => rw [hs] at h; cases h
        | some k =>
          rw [hs] at h
          cases h
          obtain ⟨a, b, h1, h2, h3⟩ := (ih k).mp hs
          refine ⟨c :: a, b, by rw [h1]; rfl, ?_, ?_⟩
          · simp only [List.mem_cons, not_or]; exact ⟨Ne.symm hc, h2⟩
          · rw [← byteLen_utf8] at h3 ⊢
            rw [byteLen, h3, Nat.add_comm]
      · rintro ⟨a, b, h1, h2, h3⟩
        cases a with
        | nil => simp at h1; exact absurd h1.1 hc
        | cons d a =>
          rw [List.cons_append, List.cons.injEq] at h1
          obtain ⟨rfl, h1⟩ := h1
          simp only [List.mem_cons, not_or] at h2
          rw [(ih (utf8 a).length).mpr ⟨a, b, h1, h2.2, rfl⟩, ← h3, ← byteLen_utf8,
            ← byteLen_utf8, byteLen, Nat.add_comm]
          rfl

/-- C70 (`IndentedLine`): splitting off the indentation never panics, whatever the line contains;
what is split off is twice the depth in spaces and nothing else. -/
theorem C70_indentation {ε : Type} (line : Str) :
    ∃ depth body, (byteIndented line : Res ε Indented) = .ok ⟨depth, body⟩ ∧
      trimEnd line = List.replicate (2 * depth) ' ' ++ body ∧
      ∀ rest, body ≠ ' ' :: ' ' :: rest := by
  refine ⟨_, _, byteIndented_ok line, ?_, ?_⟩
  · exact indent_split (trimEnd line)
  · exact indent_rest (trimEnd line)

example : (byteIndented cs!"     é " : Res Unit Indented) = .ok ⟨2, cs!" é"⟩ := by decide

/-- Another program would panic: white space counted in characters is not white space counted in
bytes.  Two no-break spaces, split off as one level at byte offset 2, leave one of them; three
characters of three bytes cannot be split at byte offset 2 at all. -/
example : (sliceAt [' ', ' ', 'x'] 2 : Res Unit (Str × Str)) =
      .ok ([' '], [' ', 'x']) ∧
    (sliceAt ['　', '　', 'x'] 2 : Res Unit (Str × Str)) = .panic := by decide

/-- C70 (`next_chunk` in the plan section): the cursor over bytes takes the first physical line and
the longest run of dash lines below it, and goes on right behind them. -/
theorem C70_plan_chunk {ε : Type} (text : Str) (n : Nat) (f : Str) (ls : List Str)
    (h : physLines text = f :: ls) :
    ∃ run rest, ls = run ++ rest ∧
      (∀ l ∈ run, DashUnder (depthOf (content f)) (content l)) ∧
      (∀ l, rest.head? = some l → ¬ DashUnder (depthOf (content f)) (content l)) ∧
      (ByteCursor.nextChunk true ⟨text, 0, n, n⟩ : Res ε (Str × Nat × Option ByteCursor)) =
        .ok ((f :: run).flatten, n, ByteCursor.new rest.flatten (n + 1 + run.length)) := by
  obtain ⟨run, rest, h1, h2, h3, h4, _⟩ := C32_plan_chunk text n f ls h
  refine ⟨run, rest, h1, h2, h3, ?_⟩
  exact nextChunk_of_takeChunk .plan h4

/-- C70 (`next_chunk` outside the plan section): exactly one physical line. -/
theorem C70_other_chunk {ε : Type} (text : Str) (n : Nat) (f : Str) (ls : List Str)
    (h : physLines text = f :: ls) :
    (ByteCursor.nextChunk false ⟨text, 0, n, n⟩ : Res ε (Str × Nat × Option ByteCursor)) =
      .ok (f, n, ByteCursor.new ls.flatten (n + 1)) :=
  nextChunk_of_takeChunk .extensions (C32_other_chunk .extensions (by decide) text n f ls h)

/-- Not vacuous: a chunk of two lines with characters of two and three bytes. -/
example : (ByteCursor.nextChunk true ⟨cs!"é[\n  - ‰]\r\nx", 0, 1, 1⟩ :
      Res Unit (Str × Nat × Option ByteCursor)) =
    .ok (cs!"é[\n  - ‰]\r\n", 1, some ⟨cs!"x", 0, 3, 3⟩) := by decide

/-- C70 (the whole text): for every text the parser over byte offsets, with the panics of slicing
and the assertions of the cursor, does what the parser over characters does.  In particular no
slice of the cursor or of the indentation ever panics. -/
theorem C70_same_sections (L : Lang) (text : Str) :
    byteSections L text = parseSections L text ∧
    byteSections L text = PState.runLines PState.init (physLines text) :=
  ⟨byteSections_eq L text, by rw [byteSections_eq]; exact C32_driver L text⟩

/-- C70 (the whole parser): the same plan, the same error or the same panic. -/
theorem C70_same_parse [FTab] (reg : Registry ExtArgs (List Nat)) (text : Str) :
    byteParsePlan reg text = parsePlan reg text := by
  unfold byteParsePlan parsePlan
  rw [byteSections_eq]

/-- C70 (names): `CompoundName::base` never panics and is the part of the name before its first
colon; `has_signature` says whether there is a colon. -/
theorem C70_compound_name {ε : Type} (name : Str) :
    (∃ b, ((ByteName.new name).base : Res ε Str) = .ok b ∧ ':' ∉ b ∧
      (name = b ∨ ∃ sig, name = b ++ ':' :: sig)) ∧
    ((ByteName.new name).hasSignature = true ↔ ':' ∈ name) := by
  refine ⟨⟨_, byteName_base name, not_mem_takeWhile_ne name, ?_⟩, byteName_signature name⟩
  exact baseName_split name

/-- C70 (names): the base name of the other modules. -/
theorem C70_base_name {ε : Type} (name : Str) :
    ((ByteName.new name).base : Res ε Str) = .ok (baseName name) :=
  byteName_base name

example : ((ByteName.new cs!"prüfe:any_any").base : Res Unit Str) = .ok cs!"prüfe" ∧
    (ByteName.new cs!"prüfe:any_any").index = 6 := by decide

end Verif
