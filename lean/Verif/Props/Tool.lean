import Verif.Proofs.Tool
import Verif.Props.Reparse

/-!
C66: conversions with the tool, one after the other.
-/

set_option autoImplicit false

namespace Verif

open StoreSpec TextSpec RelSpec PlanSpec

/-- The second command reads the file that the first writes, and does not write it; that file can be opened and
the second output created. -/
structure Follows (w : World) (cmd cmd' : Cmd) : Prop where
  output : cmd.output ≠ cs!"-"
  input : cmd'.input ≠ cs!"-"
  same : w.file cmd'.input = w.file cmd.output
  apart : ¬ cmd'.InPlace w
  opens : w.openable cmd'.input = true
  creates : cmd'.output = cs!"-" ∨ w.creatable cmd'.output = true

section
variable [UTab] [FTab]

omit [UTab] [FTab] in
theorem Follows.opened {P O : Type} {c : Codec P O} {w : World} {cmd cmd' : Cmd} {b : Bytes} (h : Follows w cmd cmd')
    (hc : (runCli c w cmd).2.content (w.file cmd.output) = some b) : Opens (runCli c w cmd).2 cmd' := by
  have hs := runCli_same c w cmd
  refine ⟨.inr ⟨?_, ?_⟩, ?_⟩
  · rw [hs.openable]; exact h.opens
  · rw [hs.file, h.same, hc]; rfl
  · rw [hs.creatable]; exact h.creates

theorem tool_readText {reg : Registry ExtArgs (List Nat)} {x : Others} {text : Str} {p : Plan}
    (h : parsePlan reg text = .ok p) : (tool reg x).readText (utf8 text) = .ok p := by
  show (match readUtf8 (utf8 text) with | none => _ | some s => _) = _
  rw [readUtf8_utf8]
  simp only [h]

/-- C66: a command that reads text succeeds only if its input is the UTF-8 form of a text that is accepted. -/
theorem C66_text_input (reg : Registry ExtArgs (List Nat)) (x : Others) (w : World) (cmd : Cmd) (hs : cmd.Reads .text)
    (hb : ∀ n ∈ inputBytes w cmd, n < 256) (h : (runCli (tool reg x) w cmd).1 = .success) :
    ∃ text p, inputBytes w cmd = utf8 text ∧ parsePlan reg text = .ok p := by
  obtain ⟨b, ⟨-, src, dst, p, h1, -, h2, -⟩, -⟩ := (C44_success_exact _ _ _).1 h
  have : src = .text := by
    rw [reads_iff] at hs h1
    rw [hs] at h1
    exact (Option.some.inj h1).symm
  subst this
  cases h2 with
  | text _ h2 =>
    simp only [tool] at h2
    split at h2
    · cases h2
    · next s hs =>
      split at h2
      · next q hq => exact ⟨s, q, utf8_readUtf8 hb hs, hq⟩
      · cases h2
      · cases h2

/-- C66, text to text: an accepted text whose plan is plain and tidy is converted with success. Converting the
result again succeeds too and gives the same bytes. -/
theorem C66_text_settles (hA : AsciiPrintable) (reg : Registry ExtArgs (List Nat)) (x : Others) (w : World) (cmd cmd' : Cmd)
    (hs : cmd.Reads .text) (hd : cmd.Writes .text) (hs' : cmd'.Reads .text) (hd' : cmd'.Writes .text)
    (ho : cmd.options (tool reg x) = .default) (ho' : cmd'.options (tool reg x) = .default) (hw : Follows w cmd cmd')
    (text : Str) (p : Plan) (hi : inputBytes w cmd = utf8 text) (h : parsePlan reg text = .ok p)
    (hp : PlainPlan reg .default p) (ht : TidyPlan reg .default p) (hO : Opens w cmd)
    (hF : Fits w cmd (utf8 (textPlan reg .default p).text))
    (hF' : Fits w cmd' (utf8 (textPlan reg .default p).text)) :
    let w' := (runCli (tool reg x) w cmd).2
    (runCli (tool reg x) w cmd).1 = .success ∧ w'.content (w.file cmd.output) = some (utf8 (textPlan reg .default p).text) ∧
    (runCli (tool reg x) w' cmd').1 = .success ∧
    outputContent (runCli (tool reg x) w' cmd').2 cmd' = some (before w' cmd' ++ utf8 (textPlan reg .default p).text) := by
  have he := C58_no_errors hA reg .default readable_default text p h hp ht
  obtain ⟨p', h1, h2, h3⟩ := C58_settles hA reg .default readable_default rfl text p h hp
  have hy : Yields (tool reg x) w cmd (utf8 (textPlan reg .default p).text) [] := by
    refine ⟨hO, .text, .text, p, hs, hd, ?_, ?_⟩
    · rw [hi]; exact .text p (tool_readText h)
    · rw [ho, ← he]; exact .text
  obtain ⟨k1, k2, k3⟩ := chain _ w cmd cmd' _ hy hF hw.output hw.input hw.same hw.apart
  have hy' : Yields (tool reg x) (runCli (tool reg x) w cmd).2 cmd' (utf8 (textPlan reg .default p).text) [] := by
    refine ⟨hw.opened k2, .text, .text, p', hs', hd', ?_, ?_⟩
    · rw [k3]; exact .text p' (tool_readText h1)
    · rw [ho', ← h2, ← he, ← h3]; exact .text
  exact ⟨k1, k2, (C44_success_exact _ _ _).2 ⟨_, hy', runCli_fits _ _ _ _ _ hF'⟩, (C44_text_written_despite_errors _ _ _ _ _ hy' (runCli_fits _ _ _ _ _ hF')).1⟩

/-- C66, by way of another format: if that format reads what it writes for the plan of the text, then the result
is the same as that of converting the text at once. -/
theorem C66_by_way_of (reg : Registry ExtArgs (List Nat)) (x : Others) (w : World) (cmd cmd' : Cmd)
    (f : Fmt) (hs : cmd.Reads .text) (hd : cmd.Writes f) (hs' : cmd'.Reads f) (hd' : cmd'.Writes .text) (hw : Follows w cmd cmd')
    (text : Str) (p : Plan) (hi : inputBytes w cmd = utf8 text) (h : parsePlan reg text = .ok p)
    (b : Bytes) (hb : Renders (tool reg x) (cmd.options (tool reg x)) p f b []) (hr : ReadsAs (tool reg x) b f p)
    (hO : Opens w cmd) (hF : Fits w cmd b)
    (hF' : Fits w cmd' (utf8 (textPlan reg (cmd'.options (tool reg x)) p).text)) :
    let w' := (runCli (tool reg x) w cmd).2
    (runCli (tool reg x) w cmd).1 = .success ∧ w'.content (w.file cmd.output) = some b ∧
    outputContent (runCli (tool reg x) w' cmd').2 cmd' =
      some (before w' cmd' ++ utf8 (textPlan reg (cmd'.options (tool reg x)) p).text) ∧
    ((runCli (tool reg x) w' cmd').1 = .success ↔ (textPlan reg (cmd'.options (tool reg x)) p).errs = []) := by
  have hy : Yields (tool reg x) w cmd b [] := by
    refine ⟨hO, .text, f, p, hs, hd, ?_, hb⟩
    rw [hi]; exact .text p (tool_readText h)
  obtain ⟨k1, k2, k3⟩ := chain _ w cmd cmd' _ hy hF hw.output hw.input hw.same hw.apart
  have hy' : Yields (tool reg x) (runCli (tool reg x) w cmd).2 cmd'
      (utf8 (textPlan reg (cmd'.options (tool reg x)) p).text) (textPlan reg (cmd'.options (tool reg x)) p).errs := by
    refine ⟨hw.opened k2, f, .text, p, hs', hd', ?_, .text⟩
    rw [k3]; exact hr
  have := C44_text_written_despite_errors _ _ _ _ _ hy' (runCli_fits _ _ _ _ _ hF')
  refine ⟨k1, k2, this.1, ?_, ?_⟩
  · intro hsucc
    refine Classical.byContradiction fun hne => ?_
    rw [this.2 hne] at hsucc
    cases hsucc
  · intro he
    rw [he] at hy'
    exact (C44_success_exact _ _ _).2 ⟨_, hy', runCli_fits _ _ _ _ _ hF'⟩

/-- C66, text in between: a plan in another format that can be written as text without an error is converted to
text and from there to any format with success, and what is written at the end is a plan with the same
meaning. -/
theorem C66_text_between (hA : AsciiPrintable) (reg : Registry ExtArgs (List Nat)) (x : Others) (w : World) (cmd cmd' : Cmd)
    (f g : Fmt) (hs : cmd.Reads f) (hd : cmd.Writes .text) (hs' : cmd'.Reads .text) (hd' : cmd'.Writes g) (hw : Follows w cmd cmd')
    (p : Plan) (hi : ReadsAs (tool reg x) (inputBytes w cmd) f p)
    (hp : PlanOk reg (cmd.options (tool reg x)) p) (hc : CompletePlan reg (cmd.options (tool reg x)) p)
    (hO : Opens w cmd) (hF : Fits w cmd (utf8 (textPlan reg (cmd.options (tool reg x)) p).text)) :
    let w' := (runCli (tool reg x) w cmd).2
    (runCli (tool reg x) w cmd).1 = .success ∧
    ∃ q, PlanEquiv reg p q ∧ (∀ b, Renders (tool reg x) (cmd'.options (tool reg x)) q g b [] → Fits w cmd' b →
      (runCli (tool reg x) w' cmd').1 = .success ∧
      outputContent (runCli (tool reg x) w' cmd').2 cmd' = some (before w' cmd' ++ b)) := by
  have ho : Readable (cmd.options (tool reg x)) := by
    have h1 : Readable (tool reg x).defaults := readable_default
    have h2 : Readable (tool reg x).literalTypes := ⟨by show Opts.default.anchors ≠ _; decide, by show Visibility.always ≠ _; decide, rfl, rfl⟩
    cases cmd with
    | convert i o s d t => cases t; exact h1; exact h2
    | validate i o => exact h1
  obtain ⟨he, q, h1, h2⟩ := C46_plan_round_trip hA reg _ ho p hp hc
  have hy : Yields (tool reg x) w cmd (utf8 (textPlan reg (cmd.options (tool reg x)) p).text) [] := by
    refine ⟨hO, f, .text, p, hs, hd, hi, ?_⟩
    rw [← he]; exact .text
  obtain ⟨k1, k2, k3⟩ := chain _ w cmd cmd' _ hy hF hw.output hw.input hw.same hw.apart
  refine ⟨k1, q, h2, fun b hb hF' => ?_⟩
  have hy' : Yields (tool reg x) (runCli (tool reg x) w cmd).2 cmd' b [] := by
    refine ⟨hw.opened k2, .text, g, q, hs', hd', ?_, hb⟩
    rw [k3]; exact .text q (tool_readText h1)
  exact ⟨(C44_success_exact _ _ _).2 ⟨_, hy', runCli_fits _ _ _ _ _ hF'⟩, (C44_text_written_despite_errors _ _ _ _ _ hy' (runCli_fits _ _ _ _ _ hF')).1⟩

end

/-! ### Examples -/

namespace ToolSample

/-- Another format that only knows one plan. -/
def others (p : Plan) : Others where
  readJson _ := none
  readYaml _ := none
  readProto b := if b = [7] then some p else none
  writeJson _ := none
  writeYaml _ := none
  writeProto _ := [7]

/-- `in.txt` holds the bytes; nothing is broken. -/
def world (b : Bytes) : World where
  file p := if p = cs!"in.txt" ∨ p = cs!"./in.txt" then 0 else if p = cs!"b.pb" then 1 else if p = cs!"c.txt" then 2 else 3
  content i := if i = 0 then some b else none
  openable _ := true
  creatable _ := true
  broken _ := none
  stdin := []
  stdout := []
  stdoutBroken := none

/-- A lone continuation byte is not a text. -/
example : letI := asciiTab; letI := halfTab
    (runCli (tool sampleReg (others ReparseSample.plan)) (world [128]) (.validate cs!"in.txt" cs!"c.txt")).1 ≠ .success := by
  letI := asciiTab; letI := halfTab
  intro h
  obtain ⟨text, p, h1, -⟩ := C66_text_input sampleReg _ _ _ (.validate _ _) (by decide) h
  have h2 := readUtf8_utf8 text
  rw [← h1] at h2
  revert h2
  have : readUtf8 (inputBytes (world [128]) (.validate cs!"in.txt" cs!"c.txt")) = none := by decide +kernel
  rw [this]
  simp

/-- First from text to text, then the result again. -/
example : letI := asciiTab; letI := halfTab
    let c := tool sampleReg (others ReparseSample.plan)
    let w := world (utf8 ReparseSample.text)
    let w' := (runCli c w (.convert cs!"in.txt" cs!"c.txt" none none false)).2
    (runCli c w' (.validate cs!"c.txt" cs!"d.txt")).1 = .success ∧
    outputContent (runCli c w' (.validate cs!"c.txt" cs!"d.txt")).2 (.validate cs!"c.txt" cs!"d.txt") =
      some (utf8 (textPlan sampleReg .default ReparseSample.plan).text) := by
  letI := asciiTab; letI := halfTab
  have h := C66_text_settles asciiTab_printable sampleReg (others ReparseSample.plan) (world (utf8 ReparseSample.text))
    (.convert cs!"in.txt" cs!"c.txt" none none false) (.validate cs!"c.txt" cs!"d.txt")
    (.extension _ _ _ _ _ (by decide)) (.extension _ _ _ _ _ (by decide)) (.validate _ _) (.validate _ _) rfl rfl
    ⟨by decide, by decide, rfl, by decide, rfl, .inr rfl⟩ ReparseSample.text ReparseSample.plan rfl
    ReparseSample.read ReparseSample.isPlain ReparseSample.tidy ⟨.inr ⟨rfl, rfl⟩, .inr rfl⟩
    (by intro n h; cases h) (by intro n h; cases h)
  exact h.2.2

/-- By way of a file `b.pb`. -/
example : letI := asciiTab; letI := halfTab
    let c := tool sampleReg (others ReparseSample.plan)
    let w := world (utf8 ReparseSample.text)
    let w' := (runCli c w (.convert cs!"in.txt" cs!"b.pb" none none false)).2
    outputContent (runCli c w' (.convert cs!"b.pb" cs!"d.txt" none none true)).2 (.convert cs!"b.pb" cs!"d.txt" none none true) =
      some (utf8 (textPlan sampleReg { Opts.default with litTypes := .always } ReparseSample.plan).text) := by
  letI := asciiTab; letI := halfTab
  have h := C66_by_way_of sampleReg (others ReparseSample.plan) (world (utf8 ReparseSample.text))
    (.convert cs!"in.txt" cs!"b.pb" none none false) (.convert cs!"b.pb" cs!"d.txt" none none true) .protobuf
    (.extension _ _ _ _ _ (by decide)) (.extension _ _ _ _ _ (by decide)) (.extension _ _ _ _ _ (by decide))
    (.extension _ _ _ _ _ (by decide))
    ⟨by decide, by decide, rfl, by decide, rfl, .inr rfl⟩ ReparseSample.text ReparseSample.plan rfl
    ReparseSample.read [7] .protobuf (.protobuf _ rfl) ⟨.inr ⟨rfl, rfl⟩, .inr rfl⟩
    (by intro n h; cases h) (by intro n h; cases h)
  exact h.2.2.1

/-- From a file of the other format to text and back. -/
example : letI := asciiTab; letI := halfTab
    let c := tool sampleReg (others samplePlan)
    let w := world [7]
    let w' := (runCli c w (.convert cs!"in.txt" cs!"c.txt" (some .protobuf) none false)).2
    (runCli c w' (.convert cs!"c.txt" cs!"b.pb" none none false)).1 = .success := by
  letI := asciiTab; letI := halfTab
  obtain ⟨-, q, -, h⟩ := C66_text_between asciiTab_printable sampleReg (others samplePlan) (world [7])
    (.convert cs!"in.txt" cs!"c.txt" (some .protobuf) none false) (.convert cs!"c.txt" cs!"b.pb" none none false)
    .protobuf .protobuf (.explicit _ _ _ _ _) (.extension _ _ _ _ _ (by decide)) (.extension _ _ _ _ _ (by decide))
    (.extension _ _ _ _ _ (by decide))
    ⟨by decide, by decide, rfl, by decide, rfl, .inr rfl⟩ samplePlan (.protobuf _ rfl)
    (samplePlan_ok .default rfl) samplePlan_complete ⟨.inr ⟨rfl, rfl⟩, .inr rfl⟩
    (by intro n h; cases h)
  exact (h [7] .protobuf (by intro n h; cases h)).1

end ToolSample

end Verif
