import Verif.Model.Tool
import Verif.Props.Cli
/-!
# Conversions one after the other
-/

namespace Verif

set_option autoImplicit false

theorem readUtf8_utf8 (s : Str) : readUtf8 (utf8 s) = some s := by
  have h : (utf8 s).map UInt8.ofNat = s.flatMap String.utf8EncodeChar := by
    unfold utf8
    induction s with
    | nil => rfl
    | cons c s ih =>
      rw [List.flatMap_cons, List.flatMap_cons, List.map_append, ih, List.map_map]
      congr 1
      have : (UInt8.ofNat ∘ UInt8.toNat) = id := by funext x; simp
      rw [this, List.map_id]
  unfold readUtf8
  rw [h]
  have := List.utf8Decode?_utf8Encode (l := s)
  rw [show (ByteArray.mk (s.flatMap String.utf8EncodeChar).toArray) = s.utf8Encode from ?_, this]
  · simp
  · apply ByteArray.ext
    simp [List.utf8Encode]

theorem utf8_readUtf8 {b : Bytes} (hb : ∀ x ∈ b, x < 256) {s : Str} (h : readUtf8 b = some s) : b = utf8 s := by
  unfold readUtf8 at h
  rw [Option.map_eq_some_iff] at h
  obtain ⟨a, ha, rfl⟩ := h
  have h1 := ByteArray.utf8Encode_get_utf8Decode? (b := ByteArray.mk (b.map UInt8.ofNat).toArray) (h := by rw [ha]; rfl)
  have h2 : b.map UInt8.ofNat = a.toList.flatMap String.utf8EncodeChar := by
    have h3 := congrArg (fun x => x.data.toList) h1
    simp only [ha, Option.get_some] at h3
    simpa [List.utf8Encode] using h3.symm
  have h4 : (b.map UInt8.ofNat).map UInt8.toNat = b := by
    rw [List.map_map, List.map_congr_left (g := id) ?_, List.map_id]
    intro x hx
    simpa using Nat.mod_eq_of_lt (hb x hx)
  rw [← h4, h2]
  unfold utf8
  rw [List.map_flatMap]

section
variable {P O : Type}

/-- What no command changes: which files there are to name, open, create and fill. -/
structure World.Same (w w' : World) : Prop where
  file : w'.file = w.file
  openable : w'.openable = w.openable
  creatable : w'.creatable = w.creatable
  broken : w'.broken = w.broken
  stdoutBroken : w'.stdoutBroken = w.stdoutBroken

theorem World.Same.trans {w w' w'' : World} (h : w.Same w') (h' : w'.Same w'') : w.Same w'' :=
  ⟨h'.file.trans h.file, h'.openable.trans h.openable, h'.creatable.trans h.creatable, h'.broken.trans h.broken,
    h'.stdoutBroken.trans h.stdoutBroken⟩

theorem World.Same.refl (w : World) : w.Same w := ⟨rfl, rfl, rfl, rfl, rfl⟩

theorem World.write_same (w : World) (s : Stream) (b : Bytes) : w.Same (w.write s b).2 := by
  unfold World.write
  split <;> split <;> try split
  all_goals exact ⟨rfl, rfl, rfl, rfl, rfl⟩

theorem Codec.write_same (c : Codec P O) (o : O) (f : Fmt) (p : P) (w : World) (s : Stream) :
    w.Same (c.write o f p w s).2 := by
  have h : ∀ b, w.Same (match w.write s b with
    | (true, w) => (Exit.success, w)
    | (false, w) => (Exit.failure, w)).2 := by
    intro b
    have := World.write_same w s b
    split <;> next h => rw [h] at this; exact this
  unfold Codec.write
  cases f with
  | text =>
    have := World.write_same w s (c.writeText o p).1
    simp only
    split <;> next h => rw [h] at this; exact this
  | json =>
    simp only
    split
    · exact h _
    · exact .refl w
  | yaml =>
    simp only
    split
    · exact h _
    · exact .refl w
  | protobuf => exact h _

theorem getWriter_same {w w' : World} {path : Str} {s : Stream} (h : getWriter w path = some (s, w')) : w.Same w' := by
  unfold getWriter at h
  split at h
  · cases h; exact .refl w
  · split at h
    · cases h; exact ⟨rfl, rfl, rfl, rfl, rfl⟩
    · cases h

theorem runCli_same (c : Codec P O) (w : World) (cmd : Cmd) : w.Same (runCli c w cmd).2 := by
  have ht : ∀ (w : World) (r s : Stream) (f g : Fmt) (o : O), w.Same (transfer c w r s f g o).2 := by
    intro w r s f g o
    unfold transfer
    split
    · exact .refl w
    · exact .refl w
    · exact Codec.write_same ..
  cases cmd with
  | convert input output src dst t =>
    simp only [runCli]
    split
    · exact .refl w
    · split
      · exact .refl w
      · next h =>
        have hf := getWriter_same h
        split
        · exact hf
        · split
          · exact hf
          · exact hf.trans (ht ..)
  | validate input output =>
    simp only [runCli]
    split
    · exact .refl w
    · split
      · exact .refl w
      · next h => exact (getWriter_same h).trans (ht ..)

theorem runCli_file (c : Codec P O) (w : World) (cmd : Cmd) : (runCli c w cmd).2.file = w.file := (runCli_same c w cmd).file

theorem runCli_fits (c : Codec P O) (w : World) (cmd cmd' : Cmd) (b : Bytes) (h : Fits w cmd' b) :
    Fits (runCli c w cmd).2 cmd' b := by
  unfold Fits
  have := runCli_same c w cmd
  rw [this.broken, this.file, this.stdoutBroken]
  exact h

/-- What the first command wrote is what the second reads. -/
theorem chain (c : Codec P O) (w : World) (cmd cmd' : Cmd) (b : Bytes) (hy : Yields c w cmd b []) (hf : Fits w cmd b)
    (h1 : cmd.output ≠ cs!"-") (h2 : cmd'.input ≠ cs!"-") (h3 : w.file cmd'.input = w.file cmd.output)
    (h4 : ¬ cmd'.InPlace w) :
    (runCli c w cmd).1 = .success ∧ (runCli c w cmd).2.content (w.file cmd.output) = some b ∧
    inputBytes (runCli c w cmd).2 cmd' = b := by
  have hw := (C44_text_written_despite_errors c w cmd b [] hy hf).1
  have hc : (runCli c w cmd).2.content (w.file cmd.output) = some b := by
    have : outputContent (runCli c w cmd).2 cmd = (runCli c w cmd).2.content (w.file cmd.output) := by
      rw [outputContent, if_neg h1, runCli_file]
    rw [← this, hw, before, if_neg h1, List.nil_append]
  refine ⟨(C44_success_exact c w cmd).2 ⟨b, hy, hf⟩, hc, ?_⟩
  have hp : ¬ cmd'.InPlace (runCli c w cmd).2 := by
    unfold Cmd.InPlace at h4 ⊢
    rw [runCli_file]
    exact h4
  rw [inputBytes, if_neg h2, if_neg hp, runCli_file, h3, hc]
  rfl

end

end Verif
