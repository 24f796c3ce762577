import Verif.Proofs.Cli
/-!
# The command line tool: C43, C44, C45
-/

namespace Verif

set_option autoImplicit false
variable {P O B D : Type}

/-! ## C43 -/

/-- Merging fails exactly on a blob that does not decode; otherwise the files kept are the first
file of each name, in order, over the core files and all extra files. -/
theorem C43_merge_keeps_first (decode : B → Option (List (FileDesc D))) (core : B) (extra : List B)
    (files : List (FileDesc D)) (hc : decode core = some files) (hn : (files.map (·.name)).Nodup) :
    (∀ out, mergedFiles decode core extra = some out →
      ∃ fs, extra.mapM decode = some fs ∧ FirstFiles (files ++ fs.flatten) out) ∧
    (mergedFiles decode core extra = none ↔ ∃ b ∈ extra, decode b = none) := by
  rw [mergedFiles, hc]
  exact mergeBlobs_first decode _ files files extra (fun _ => Iff.rfl) (FirstFiles.self hn)

/-- Keeping the first file of each name: no two files have one name, every name is kept, and a file
kept is the first of its name. -/
theorem C43_first_files (l k : List (FileDesc D)) (h : FirstFiles l k) :
    (k.map (·.name)).Nodup ∧ (∀ n, n ∈ k.map (·.name) ↔ n ∈ l.map (·.name)) ∧
    (∀ n, k.find? (fun f => f.name == n) = l.find? (fun f => f.name == n)) ∧ k.Sublist l := by
  refine ⟨?_, h.names, ?_, ?_⟩
  · induction h with
    | nil => simp
    | keep l k f hk hne ih =>
      rw [List.map_append, List.nodup_append]
      refine ⟨ih, by simp, ?_⟩
      intro a ha b hb he
      simp at hb
      obtain ⟨g, hg, hga⟩ := List.mem_map.1 ((hk.names a).1 ha)
      exact hne g hg (by rw [hga, he, hb])
    | drop l k f hk _ ih => exact ih
  · intro n
    induction h with
    | nil => rfl
    | keep l k f hk hne ih => rw [List.find?_append, List.find?_append, ih]
    | drop l k f hk hg ih =>
      rw [List.find?_append, ih]
      cases hl : l.find? (fun f => f.name == n) with
      | some g => rfl
      | none =>
        obtain ⟨g, hg, he⟩ := hg
        have := List.find?_eq_none.1 hl g hg
        simp only [beq_iff_eq] at this
        simp [← he, this]
  · induction h with
    | nil => exact List.Sublist.slnil
    | keep l k f hk hne ih => exact ih.append (List.Sublist.refl _)
    | drop l k f hk hg ih => exact ih.trans (List.sublist_append_left _ _)

/-- The core files are all kept, in front. -/
theorem C43_core_kept (decode : B → Option (List (FileDesc D))) (core : B) (extra : List B)
    (files out : List (FileDesc D)) (hc : decode core = some files) (ho : mergedFiles decode core extra = some out) :
    files <+: out := by
  have hf : ∀ (extra : List (FileDesc D)) seen fs, fs <+: (mergeFiles seen fs extra).2 := by
    intro extra
    induction extra with
    | nil => intro seen fs; exact List.prefix_refl _
    | cons f extra ih =>
      intro seen fs
      rw [mergeFiles]
      split
      · exact ih _ _
      · exact (List.prefix_append _ _).trans (ih _ _)
  have hb : ∀ (bs : List B) seen fs out, mergeBlobs decode seen fs bs = some out → fs <+: out := by
    intro bs
    induction bs with
    | nil => intro seen fs out h; simp [mergeBlobs] at h; subst h; exact List.prefix_refl _
    | cons b bs ih =>
      intro seen fs out h
      rw [mergeBlobs] at h
      cases hd : decode b with
      | none => rw [hd] at h; cases h
      | some x => rw [hd] at h; exact (hf _ _ _).trans (ih _ _ _ h)
  rw [mergedFiles, hc] at ho
  exact hb _ _ _ _ ho

/-- Two extra sets that repeat a core file and each other. -/
example : (mergedFiles (fun b : List (FileDesc Nat) => some b) [⟨cs!"any", 0⟩, ⟨cs!"plan", 1⟩]
    [[⟨cs!"any", 2⟩, ⟨cs!"x", 3⟩], [⟨cs!"x", 4⟩, ⟨cs!"y", 5⟩]]).map (fun l => l.map fun f => (f.name, f.body)) =
    some [(cs!"any", 0), (cs!"plan", 1), (cs!"x", 3), (cs!"y", 5)] := by decide

/-! ## C44 -/

/-- The tool exits successfully exactly when both files open, the formats are known, the input
reads as a plan, the output takes all of it and there was no formatting error. -/
theorem C44_success_exact (c : Codec P O) (w : World) (cmd : Cmd) :
    (runCli c w cmd).1 = .success ↔ ∃ b, Yields c w cmd b [] ∧ Fits w cmd b := by
  constructor
  · intro h
    have : ∃ b errs, Yields c w cmd b errs := by
      refine Classical.byContradiction fun hno => ?_
      exact (run_no_yield c w cmd fun b errs hy => hno ⟨b, errs, hy⟩).1 h
    obtain ⟨b, errs, hy⟩ := this
    have hs := ((run_yields c w cmd b errs hy).2.1).1 h
    obtain ⟨hw, rfl⟩ := hs
    refine ⟨b, hy, ?_⟩
    rcases write_cases w cmd b with ⟨hf, _⟩ | ⟨_, hf, _⟩
    · exact hf
    · rw [hw] at hf; cases hf
  · rintro ⟨b, hy, hf⟩
    rw [(run_yields c w cmd b [] hy).2.1]
    rcases write_cases w cmd b with ⟨_, h, _⟩ | ⟨h, _⟩
    · exact ⟨h, rfl⟩
    · exact absurd hf h

/-- Whatever a plan renders to is written in full, formatting errors or not; with such errors the
exit is a failure. -/
theorem C44_text_written_despite_errors (c : Codec P O) (w : World) (cmd : Cmd) (b : Bytes) (errs : List Str)
    (hy : Yields c w cmd b errs) (hf : Fits w cmd b) :
    outputContent (runCli c w cmd).2 cmd = some (before w cmd ++ b) ∧
    (errs ≠ [] → (runCli c w cmd).1 = .failure) := by
  have h := run_yields c w cmd b errs hy
  rcases write_cases w cmd b with ⟨_, h1, h2⟩ | ⟨hn, _⟩
  · rw [h.1]
    exact ⟨h2, fun he => h.2.2.2 (fun hx => he hx.2)⟩
  · exact absurd hf hn

/-- A format on the command line decides whatever the file is called. -/
theorem C44_explicit_format_decides (i o : Str) (s d : Option Fmt) (t : Bool) (f g : Fmt) :
    ((Cmd.convert i o (some f) d t).Reads g ↔ g = f) ∧ ((Cmd.convert i o s (some f) t).Writes g ↔ g = f) := by
  rw [reads_iff, writes_iff]
  simp [Cmd.src, Cmd.dst, resolveFmt, eq_comm]

theorem lowerChar_eq_iff {c : Char} (hc : c ∈ capitals.map Prod.fst) (d : Char) :
    lowerChar d = c ↔ d = c ∨ (c, d) ∈ capitals := by
  by_cases hd : 65 ≤ d.toNat ∧ d.toNat ≤ 90
  · have hcap : ∀ n, 65 ≤ n → n ≤ 90 → ∀ c ∈ capitals.map Prod.fst,
        (lowerChar (Char.ofNat n) = c ↔ Char.ofNat n = c ∨ (c, Char.ofNat n) ∈ capitals) := by
      have : ∀ n < 91, 65 ≤ n → ∀ c ∈ capitals.map Prod.fst,
          (lowerChar (Char.ofNat n) = c ↔ Char.ofNat n = c ∨ (c, Char.ofNat n) ∈ capitals) := by decide +kernel
      intro n h1 h2
      exact this n (by omega) h1
    have := hcap d.toNat hd.1 hd.2 c hc
    rwa [Char.ofNat_toNat] at this
  · have hl : lowerChar d = d := by unfold lowerChar; rw [if_neg hd]
    rw [hl]
    refine ⟨Or.inl, ?_⟩
    rintro (h | h)
    · exact h
    · exfalso
      have : ∀ x ∈ capitals, 65 ≤ x.2.toNat ∧ x.2.toNat ≤ 90 := by decide +kernel
      exact hd (this _ h)

theorem map_lowerChar_iff {n : Str} (hn : ∀ c ∈ n, c ∈ capitals.map Prod.fst) (s : Str) :
    s.map lowerChar = n ↔ InAnyCase n s := by
  induction n generalizing s with
  | nil =>
    constructor
    · intro h
      rw [List.map_eq_nil_iff.1 h]
      exact .nil
    · intro h; cases h; rfl
  | cons c n ih =>
    have hc := hn c (by simp)
    have hn' : ∀ c ∈ n, c ∈ capitals.map Prod.fst := fun c h => hn c (by simp [h])
    cases s with
    | nil =>
      constructor
      · intro h; cases h
      · intro h; cases h
    | cons d s =>
      rw [List.map_cons, List.cons.injEq, lowerChar_eq_iff hc, ih hn']
      constructor
      · rintro ⟨rfl | h, hs⟩
        · exact .same _ _ _ hs
        · exact .capital _ _ _ _ h hs
      · intro h
        cases h with
        | same _ _ _ h => exact ⟨Or.inl rfl, h⟩
        | capital _ _ _ _ h hs => exact ⟨Or.inr h, hs⟩

/-- The extensions and their formats. -/
def extensionTable : List (Str × Fmt) :=
  [(cs!"substrait", Fmt.text), (cs!"txt", .text), (cs!"json", .json), (cs!"yaml", .yaml),
    (cs!"yml", .yaml), (cs!"pb", .protobuf), (cs!"proto", .protobuf), (cs!"protobuf", .protobuf)]

/-- Detection looks at what follows the last dot of the file name, in any case, whatever the
directory. -/
theorem C44_extension_detected (dir stem ext : Str) (hd : dir = [] ∨ ∃ d, dir = d ++ cs!"/") (hs : stem ≠ [])
    (hs' : '/' ∉ stem) (he : ext ≠ []) (he' : '/' ∉ ext) (hdot : '.' ∉ ext) (f : Fmt) :
    Fmt.ofExtension (dir ++ stem ++ '.' :: ext) = some f ↔
      ∃ n, (n, f) ∈ [(cs!"substrait", Fmt.text), (cs!"txt", .text), (cs!"json", .json), (cs!"yaml", .yaml),
        (cs!"yml", .yaml), (cs!"pb", .protobuf), (cs!"proto", .protobuf), (cs!"protobuf", .protobuf)] ∧ InAnyCase n ext := by
  have hlow : (∃ n, (n, f) ∈ extensionTable ∧ InAnyCase n ext) ↔ (ext.map lowerChar, f) ∈ extensionTable := by
    have htab : ∀ x ∈ extensionTable, ∀ c ∈ x.1, c ∈ capitals.map Prod.fst := by decide +kernel
    constructor
    · rintro ⟨n, hn, h⟩
      rw [(map_lowerChar_iff (htab _ hn) ext).2 h]
      exact hn
    · intro h
      exact ⟨_, h, (map_lowerChar_iff (htab _ h) ext).1 rfl⟩
  show _ ↔ ∃ n, (n, f) ∈ extensionTable ∧ InAnyCase n ext
  rw [hlow, extensionTable]
  have hne : dir ++ stem ++ '.' :: ext ≠ cs!"-" := by
    intro h
    have := congrArg List.length h
    have h1 := List.length_pos_iff.2 hs
    simp at this; omega
  rw [Fmt.ofExtension, if_neg hne, extension_eq dir stem ext hd hs hs' he he' hdot]
  simp only [List.mem_cons, Prod.mk.injEq, List.not_mem_nil, or_false]
  generalize ext.map lowerChar = l
  by_cases h1 : l = cs!"substrait"
  · subst h1; cases f <;> decide
  by_cases h2 : l = cs!"txt"
  · subst h2; cases f <;> decide
  by_cases h3 : l = cs!"json"
  · subst h3; cases f <;> decide
  by_cases h4 : l = cs!"yaml"
  · subst h4; cases f <;> decide
  by_cases h5 : l = cs!"yml"
  · subst h5; cases f <;> decide
  by_cases h6 : l = cs!"pb"
  · subst h6; cases f <;> decide
  by_cases h7 : l = cs!"proto"
  · subst h7; cases f <;> decide
  by_cases h8 : l = cs!"protobuf"
  · subst h8; cases f <;> decide
  simp [h1, h2, h3, h4, h5, h6, h7, h8]

/-- The names of the formats on the command line, in any case. -/
theorem C44_format_named (s : Str) (f : Fmt) :
    Fmt.ofName s = some f ↔ ∃ n, (n, f) ∈ [(cs!"text", Fmt.text), (cs!"json", .json), (cs!"yaml", .yaml),
      (cs!"protobuf", .protobuf), (cs!"proto", .protobuf), (cs!"pb", .protobuf)] ∧ InAnyCase n s := by
  have htab : ∀ x ∈ [(cs!"text", Fmt.text), (cs!"json", .json), (cs!"yaml", .yaml),
      (cs!"protobuf", .protobuf), (cs!"proto", .protobuf), (cs!"pb", .protobuf)], ∀ c ∈ x.1, c ∈ capitals.map Prod.fst := by
    decide +kernel
  have hlow : (∃ n, (n, f) ∈ [(cs!"text", Fmt.text), (cs!"json", .json), (cs!"yaml", .yaml),
      (cs!"protobuf", .protobuf), (cs!"proto", .protobuf), (cs!"pb", .protobuf)] ∧ InAnyCase n s) ↔
      (s.map lowerChar, f) ∈ [(cs!"text", Fmt.text), (cs!"json", .json), (cs!"yaml", .yaml),
      (cs!"protobuf", .protobuf), (cs!"proto", .protobuf), (cs!"pb", .protobuf)] := by
    constructor
    · rintro ⟨n, hn, h⟩
      rw [(map_lowerChar_iff (htab _ hn) s).2 h]
      exact hn
    · intro h
      exact ⟨_, h, (map_lowerChar_iff (htab _ h) s).1 rfl⟩
  rw [hlow]
  unfold Fmt.ofName
  simp only [List.mem_cons, Prod.mk.injEq, List.not_mem_nil, or_false]
  generalize s.map lowerChar = l
  by_cases h1 : l = cs!"text"
  · subst h1; cases f <;> decide
  by_cases h2 : l = cs!"json"
  · subst h2; cases f <;> decide
  by_cases h3 : l = cs!"yaml"
  · subst h3; cases f <;> decide
  by_cases h4 : l = cs!"protobuf"
  · subst h4; cases f <;> decide
  by_cases h5 : l = cs!"proto"
  · subst h5; cases f <;> decide
  by_cases h6 : l = cs!"pb"
  · subst h6; cases f <;> decide
  simp [h1, h2, h3, h4, h5, h6]

example : Fmt.ofName cs!"Yaml" = some .yaml ∧ Fmt.ofName cs!"Proto" = some .protobuf ∧ Fmt.ofName cs!"yml" = none := by decide

/-- A codec on single bytes: text is a plan unless empty, and byte 9 has a formatting error. -/
def sampleCodec : Codec Nat Unit where
  readText b := match b with | [n] => .ok n | _ => .err ()
  readJson b := b.head?
  readYaml _ := none
  readProto _ := some 0
  writeText _ p := ([p, p], if p = 9 then [cs!"Type"] else [])
  writeJson p := some [p]
  writeYaml _ := none
  writeProto p := [p]
  defaults := ()
  literalTypes := ()

/-- `in.txt` holds a plan, `old.txt` an earlier result. -/
def sampleWorld (n : Nat) : World where
  file p := if p = cs!"in.txt" then 0 else if p = cs!"old.txt" then 1 else 2
  content i := if i = 0 then some [n] else if i = 1 then some [42] else none
  openable _ := true
  creatable _ := true
  broken _ := none
  stdin := [1]
  stdout := []
  stdoutBroken := none

example : Yields sampleCodec (sampleWorld 5) (.convert cs!"in.txt" cs!"old.txt" none none false) [5, 5] [] ∧
    Fits (sampleWorld 5) (.convert cs!"in.txt" cs!"old.txt" none none false) [5, 5] ∧
    Yields sampleCodec (sampleWorld 9) (.convert cs!"in.txt" cs!"old.txt" none none false) [9, 9] [cs!"Type"] := by
  refine ⟨⟨by decide, .text, .text, 5, .extension _ _ _ _ _ (by decide), .extension _ _ _ _ _ (by decide),
    .text _ (by rfl), .text⟩, ?_, ⟨by decide, .text, .text, 9, .extension _ _ _ _ _ (by decide),
    .extension _ _ _ _ _ (by decide), .text _ (by rfl), .text⟩⟩
  intro n h
  simp [sampleWorld] at h

/-! ## C45 -/

/-- C45 fails: whenever the output can be created and the conversion has no result (unknown
format, unreadable input), the output is emptied although the tool fails. -/
theorem C45_failed_conversion_truncates (c : Codec P O) (w : World) (cmd : Cmd) (ho : Opens w cmd)
    (hf : cmd.output ≠ cs!"-") (hno : ∀ b errs, ¬ Yields c w cmd b errs) :
    (runCli c w cmd).1 ≠ .success ∧ outputContent (runCli c w cmd).2 cmd = some [] := by
  have h := run_no_yield c w cmd hno
  refine ⟨h.1, ?_⟩
  rw [h.2, if_pos ho]
  simp [opened, outputContent, hf, World.set]

/-- The case of the previous theorem occurs: the input is not a plan, the old result is lost. -/
theorem C45_old_result_lost :
    (runCli sampleCodec (sampleWorld 5) (.convert cs!"in.txt" cs!"old.txt" (some .yaml) none false)).1 = .failure ∧
    (sampleWorld 5).content 1 = some [42] ∧
    (runCli sampleCodec (sampleWorld 5) (.convert cs!"in.txt" cs!"old.txt" (some .yaml) none false)).2.content 1 =
      some [] := by
  refine ⟨by rfl, by rfl, by rfl⟩

/-- Converting a file onto itself loses the plan before it is read: what is read is empty. -/
theorem C45_in_place_reads_nothing (w : World) (cmd : Cmd) (h : cmd.InPlace w) : inputBytes w cmd = [] := by
  rw [inputBytes, if_neg h.1, if_pos h]

/-- What does hold: if the input cannot be opened or the output not created, nothing changes.
Missing from C45: failures after the output was opened. -/
theorem C45_open_failure_partial (c : Codec P O) (w : World) (cmd : Cmd) (h : ¬ Opens w cmd) :
    (runCli c w cmd).1 ≠ .success ∧ (runCli c w cmd).2 = w := by
  have := run_no_yield c w cmd fun b errs hy => h hy.1
  rw [if_neg h] at this
  exact this

/-- And no other file is ever changed. -/
theorem C45_other_files_untouched_partial (c : Codec P O) (w : World) (cmd : Cmd) (i : Nat)
    (h : cmd.output = cs!"-" ∨ i ≠ w.file cmd.output) : (runCli c w cmd).2.content i = w.content i := by
  have hopen : (opened w cmd).content i = w.content i := by
    rw [opened]
    split
    · rfl
    · rcases h with h | h
      · contradiction
      · simp [World.set, h]
  by_cases hy : ∃ b errs, Yields c w cmd b errs
  · obtain ⟨b, errs, hy⟩ := hy
    rw [(run_yields c w cmd b errs hy).1, ← hopen]
    rw [Cmd.sink]
    split
    · rw [World.write]; split <;> try split
      all_goals rfl
    · rename_i hne
      have hi : i ≠ w.file cmd.output := h.resolve_left hne
      rw [World.write]
      split
      · simp [World.set, hi]
      · split <;> simp [World.set, hi]
  · have := run_no_yield c w cmd fun b errs h => hy ⟨b, errs, h⟩
    rw [this.2]
    split
    · exact hopen
    · rfl

end Verif
