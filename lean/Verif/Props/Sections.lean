import Verif.Proofs.SectionRun
/-!
# C31, C32, C35, C36, C50: lines, chunks, sections, version

`L : Lang` is the rest of the parser (line syntax and extension declarations); everything here
holds for every `L`.
-/

namespace Verif
open ChunkSpec SectionSpec

/-- C31: for every text and every merge policy, even one that depends on what was read so far, the
chunks concatenate to the text, each is non-empty and, unless it is the last, ends at a line end,
and each carries the number of its first line.  (Totality of `chunks` is termination.) -/
theorem C31_chunks_partition (pol : List (Str × Nat) → Line → Cursor → Line → Bool) (text : Str) :
    ((Cursor.chunks pol text).map (·.1)).flatten = text ∧
    ∀ pre t n post, Cursor.chunks pol text = pre ++ (t, n) :: post →
      t ≠ [] ∧ (post ≠ [] → t.getLast? = some '\n') ∧
      n = 1 + newlines (pre.map (·.1)).flatten := by
  have key : ∃ out, Cursor.chunks pol text = out ∧ (out.map (·.1)).flatten = text ∧
      Cursor.NumberedFrom 1 out := by
    unfold Cursor.chunks
    cases hn : Cursor.new text 1 with
    | none =>
      unfold Cursor.new at hn
      split at hn
      · rename_i h
        have : text = [] := by simpa using h
        subst this
        exact ⟨[], rfl, rfl, trivial⟩
      · cases hn
    | some c =>
      obtain ⟨h1, h2, h3, h4, h5⟩ := Cursor.inv_new hn
      obtain ⟨out, ho, hf, hnum⟩ := Cursor.collect_spec pol text.length [] c h1 h2 h3 (by rw [h4]; exact Nat.le_refl _)
      exact ⟨out, by simpa using ho, by rw [hf, h4], by rw [← h5]; exact hnum⟩
  obtain ⟨out, ho, hf, hnum⟩ := key
  rw [ho]
  refine ⟨hf, ?_⟩
  clear hf ho
  have gen : ∀ (k : Nat) (out : List (Str × Nat)), Cursor.NumberedFrom k out →
      ∀ pre t n post, out = pre ++ (t, n) :: post →
      t ≠ [] ∧ (post ≠ [] → t.getLast? = some '\n') ∧ n = k + newlines (pre.map (·.1)).flatten := by
    intro k out
    induction out generalizing k with
    | nil => intro _ pre t n post h; simp at h
    | cons x out ih =>
      obtain ⟨t0, n0⟩ := x
      intro hnum pre t n post h
      obtain ⟨e1, e2, e3, e4⟩ := hnum
      cases pre with
      | nil =>
        simp only [List.nil_append, List.cons.injEq, Prod.mk.injEq] at h
        obtain ⟨⟨rfl, rfl⟩, rfl⟩ := h
        exact ⟨e2, e3, by simp [newlines, e1]⟩
      | cons y pre =>
        simp only [List.cons_append, List.cons.injEq] at h
        obtain ⟨rfl, h⟩ := h
        obtain ⟨f1, f2, f3⟩ := ih _ e4 pre t n post h
        refine ⟨f1, f2, ?_⟩
        rw [f3]
        simp [newlines]; omega
  exact gen 1 out hnum

/-- The debug assertion of `merge` (chunks.rs L134-140) holds whenever the line is the peeked one. -/
theorem C31_merge_assertion {c : Cursor} {l : Line} (h : c.peekLine = some l) :
    c.currentEnd < l.stop ∧ l.stop ≤ c.text.length :=
  Cursor.merge_assertions_hold h

/-- Not vacuous: three lines, the second merged into the first. -/
example : Cursor.chunks (fun _ _ _ l => l.line == cs!"b") cs!"a\r\nb\nc" =
    [(cs!"a\r\nb\n", 1), (cs!"c", 3)] := by decide

/-- C32: in the plan section a chunk is a physical line followed by the longest run of dash lines
exactly one level deeper than that first line; the next chunk starts right after it. -/
theorem C32_plan_chunk (text : Str) (n : Nat) (f : Str) (ls : List Str)
    (h : physLines text = f :: ls) :
    ∃ run rest, ls = run ++ rest ∧
      (∀ l ∈ run, DashUnder (depthOf (content f)) (content l)) ∧
      (∀ l, rest.head? = some l → ¬ DashUnder (depthOf (content f)) (content l)) ∧
      Cursor.takeChunk (PState.policy .plan) ⟨text, 0, n, n⟩ =
        some ((f :: run).flatten, n, Cursor.new rest.flatten (n + 1 + run.length)) ∧
      physLines rest.flatten = rest := by
  refine ⟨ls.takeWhile (PState.continues .plan f), ls.dropWhile (PState.continues .plan f),
    (List.takeWhile_append_dropWhile ..).symm, ?_, ?_, PState.takeChunk_continues .plan text n f ls h, ?_⟩
  · intro l hl
    have := List.all_takeWhile (p := PState.continues .plan f) (l := ls)
    rw [List.all_eq_true] at this
    have := this l hl
    simp only [PState.continues, decide_true, Bool.true_and] at this
    exact (dash_iff _ _).1 this
  · intro l hl hd
    have := List.head?_dropWhile_not (p := PState.continues .plan f) (l := ls)
    rw [hl] at this
    simp only [PState.continues, decide_true, Bool.true_and] at this
    rw [(dash_iff _ _).2 hd] at this
    cases this
  · apply physLines_append_suffix (pre := f :: ls.takeWhile (PState.continues .plan f)) (s := text)
    rw [h, List.cons_append, List.takeWhile_append_dropWhile]

/-- C32: in every other section a chunk is one physical line. -/
theorem C32_other_chunk (sec : Sec) (hs : sec ≠ .plan) (text : Str) (n : Nat) (f : Str)
    (ls : List Str) (h : physLines text = f :: ls) :
    Cursor.takeChunk (PState.policy sec) ⟨text, 0, n, n⟩ =
      some (f, n, Cursor.new ls.flatten (n + 1)) := by
  have h1 := PState.takeChunk_continues sec text n f ls h
  have h2 := PState.takeWhile_not_plan sec hs f ls
  have h3 : ls.dropWhile (PState.continues sec f) = ls := by
    have := List.takeWhile_append_dropWhile (p := PState.continues sec f) (l := ls)
    rw [h2] at this; exact this
  rw [h2, h3] at h1
  simpa using h1

/-- C32: the parser consumes the text exactly in those chunks: it is `runLines` on the physical
lines of the text. -/
theorem C32_driver (L : Lang) (text : Str) :
    parseSections L text = PState.runLines PState.init (physLines text) :=
  PState.parseSections_eq text

example : Cursor.takeChunk (PState.policy .plan) ⟨cs!"A[\n  - x\n  - y]\n    - z\n", 0, 1, 1⟩ =
    some (cs!"A[\n  - x\n  - y]\n", 1, some ⟨cs!"    - z\n", 0, 4, 4⟩) := by decide

/-- C35: the header lines of an accepted text are the headers of a subsequence of Version,
Extensions, Plan: no header is repeated, out of order or unknown. -/
theorem C35_section_order (L : Lang) (text : Str) (st : PState L)
    (h : parseSections L text = .ok st) :
    ∃ ss, HeadersAre (physLines text) ss ∧ ss.Sublist order := by
  rw [PState.parseSections_eq] at h
  obtain ⟨ss, h1, h2, h3, _⟩ := PState.runLines_headers _ _ _ h
  exact ⟨ss, h1, PState.rank_pairwise_sublist ss h2 h3⟩

/-- C35: text before the first header, other than blank lines, is refused. -/
theorem C35_nothing_before_first_header (L : Lang) (pre : Str) (rest : List Str)
    (hpre : trimEnd pre ≠ []) (hh : ¬ IsHeader pre) (blanks : List Str)
    (hb : ∀ l ∈ blanks, trimEnd l = []) (text : Str)
    (ht : physLines text = blanks ++ pre :: rest) :
    parseSections L text = .err .initialLine := by
  rw [PState.parseSections_eq, ht]
  clear ht
  induction blanks with
  | nil =>
    rw [List.nil_append, PState.runLines_cons _ _ _ (PState.takeWhile_not_plan _ (by simp [PState.init]) _ _) hpre]
    have : (PState.init (L := L)).parseLine pre = .err .initialLine := by
      unfold PState.parseLine
      simp only
      rw [if_neg]
      · simp only [PState.init]
        rw [if_neg]
        rintro ⟨h1, h2⟩
        simp only [indentedLine] at h1 h2
        rw [h1] at h2
        simp only [Nat.zero_mul, List.drop_zero] at h2
        rw [trim_eq_nil_iff] at h2
        apply hpre
        rw [← trimEnd_idem, trimEnd_eq_nil_iff]
        exact h2
      · rintro ⟨h1, h2⟩
        apply hh
        rw [stripPrefix_eq_lit] at h2
        obtain ⟨r, hr⟩ := Option.isSome_iff_exists.1 h2
        rw [header_trim]
        exact ⟨r, indentedLine_depth_zero_header pre r h1 (by have := lit_some hr; simpa using this)⟩
    rw [this]; rfl
  | cons b bs ih =>
    rw [List.cons_append, PState.runLines_blank _ _ _ (PState.takeWhile_not_plan _ (by simp [PState.init]) _ _)
      (hb b (by simp))]
    exact ih (fun l hl => hb l (by simp [hl]))

/-- A language without any plan line and any extension line, for examples. -/
def noLang : Lang where
  Rel := Unit
  Add := Unit
  top _ := none
  node _ := none
  Ext := Unit
  extInit := ()
  extLine _ _ := .err ()

/-- Section and version read from a text. -/
def secVersion (text : Str) : Res PErr (Sec × Option Version) :=
  (parseSections noLang text).map (fun st => (st.sec, st.version))

example : secVersion cs!"\n=== Version 1.2.3\n  producer: p\n\n=== Plan\n" =
    .ok (.plan, some ⟨1, 2, 3, [], cs!"p"⟩) := by decide +kernel
example : secVersion cs!"=== Plan\n=== Extensions\n" = .err .sectionOrder := by decide +kernel

/-- C36: a version written with the default indent is read back, producer and git hash trimmed,
whatever sections follow.  Needs a non-default version and no line break inside producer and git
hash. -/
theorem C36_version_round_trip_partial (L : Lang) (v : Version) (rest : Str)
    (hne : v ≠ Version.empty)
    (h1 : v.major < 2 ^ 32) (h2 : v.minor < 2 ^ 32) (h3 : v.patch < 2 ^ 32)
    (hp : '\n' ∉ trim v.producer) (hg : '\n' ∉ trim v.gitHash)
    (hrest : rest = [] ∨ ∃ r, rest = '=' :: '=' :: '=' :: r)
    (st : PState L)
    (hok : parseSections L (writeVersion cs!"  " (some v) ++ rest) = .ok st) :
    st.version = some { v with producer := trim v.producer, gitHash := trim v.gitHash } := by
  rw [PState.parseSections_eq, PState.runLines_writeVersion v rest hne h1 h2 h3 hp hg] at hok
  rcases hrest with rfl | ⟨r, rfl⟩
  · rw [physLines, PState.runLines_nil] at hok
    cases hok; rfl
  · cases hpl : physLines ('=' :: '=' :: '=' :: r) with
    | nil =>
      have := physLines_flatten ('=' :: '=' :: '=' :: r)
      rw [hpl] at this; cases this
    | cons f ls =>
      have hf : IsHeader f := by
        have h1 := (physLines_cons hpl).1
        rcases (physLines_cons hpl).2.2 with ⟨a, rfl, ha⟩ | ⟨_, _, rfl⟩
        · match a, h1 with
          | [], h1 => simp at h1
          | [x], h1 => simp at h1
          | [x, y], h1 => simp at h1
          | x :: y :: z :: w, h1 =>
            simp only [List.cons_append, List.cons.injEq] at h1
            obtain ⟨rfl, rfl, rfl, _⟩ := h1
            exact ⟨w ++ ['\n'], rfl⟩
        · exact ⟨r, by simpa using h1.symm⟩
      rw [hpl, PState.runLines_cons _ _ _ (PState.takeWhile_not_plan _ (by simp) _ _)] at hok
      · generalize hst : PState.mk (L := L) _ _ _ _ = s0 at hok
        cases hpl : s0.parseLine f with
        | err e => rw [hpl] at hok; cases hok
        | panic => rw [hpl] at hok; cases hok
        | ok s1 =>
          rw [hpl] at hok
          simp only [Res.bind] at hok
          -- the header moves past the version section and keeps the version
          obtain ⟨w, hw⟩ := (header_trim f).1 hf
          have hs1 : 2 ≤ s1.sec.rank ∧ s1.version = s0.version := by
            unfold PState.parseLine at hpl
            rw [indentedLine_header f _ hw] at hpl
            simp only at hpl
            rw [if_pos ⟨trivial, by simp [stripPrefix]⟩] at hpl
            split at hpl
            · cases hpl
            · rename_i st2 next hsec
              split at hpl
              · cases hpl
              · rename_i hrank
                cases hpl
                have hr0 : s0.sec.rank = 1 := by rw [← hst]; rfl
                unfold PState.sectionHeader at hsec
                split at hsec
                · cases hsec; exact ⟨by simp [Sec.rank], rfl⟩
                · split at hsec
                  · cases hsec; exact ⟨by simp [Sec.rank], rfl⟩
                  · split at hsec
                    · split at hsec
                      · split at hsec
                        · cases hsec
                        · cases hsec
                          rw [hr0] at hrank; exact absurd (Nat.le_refl 1) hrank
                      · cases hsec
                    · cases hsec
          rw [PState.runLines_version _ _ _ hok hs1.1, hs1.2, ← hst]
      · obtain ⟨w, hw⟩ := (header_trim f).1 hf
        rw [hw]; simp

/-- C36: and that text is accepted when nothing follows. -/
theorem C36_version_accepted (L : Lang) (v : Version) (hne : v ≠ Version.empty)
    (h1 : v.major < 2 ^ 32) (h2 : v.minor < 2 ^ 32) (h3 : v.patch < 2 ^ 32)
    (hp : '\n' ∉ trim v.producer) (hg : '\n' ∉ trim v.gitHash) :
    ∃ st, parseSections L (writeVersion cs!"  " (some v)) = .ok st ∧ st.sec = .version ∧
      st.version = some { v with producer := trim v.producer, gitHash := trim v.gitHash } := by
  have := PState.runLines_writeVersion (L := L) v [] hne h1 h2 h3 hp hg
  rw [List.append_nil] at this
  rw [PState.parseSections_eq, this, physLines, PState.runLines_nil]
  exact ⟨_, rfl, rfl, rfl⟩

example : ({ major := 0, minor := 79, patch := 0, gitHash := [], producer := cs!" dd: 1 " } : Version) ≠ Version.empty ∧
    '\n' ∉ trim cs!" dd: 1 " := by decide

/-- C36 fails as stated: a producer with a line break makes the text unreadable ... -/
theorem C36_version_fails_newline :
    ∃ v : Version, v ≠ Version.empty ∧ v.major < 2 ^ 32 ∧
      secVersion (writeVersion cs!"  " (some v)) = .err .versionLine :=
  ⟨⟨1, 0, 0, [], cs!"a\nb"⟩, by decide +kernel⟩

/-- ... or changes its meaning ... -/
theorem C36_version_fails_injection :
    ∃ v w : Version, v.gitHash = [] ∧ w.gitHash ≠ [] ∧
      secVersion (writeVersion cs!"  " (some v)) = .ok (.version, some w) :=
  ⟨⟨1, 0, 0, [], cs!"a\n  git_hash: b"⟩, ⟨1, 0, 0, cs!"b", cs!"a"⟩, by decide +kernel⟩

/-- ... and a present but default version is not written at all. -/
theorem C36_version_fails_default :
    writeVersion cs!"  " (some Version.empty) = [] ∧
    secVersion (writeVersion cs!"  " (some Version.empty)) = .ok (.initial, none) := by decide +kernel

theorem splitDot_pieces : ∀ (s : Str) (ps : List Str), splitDot s = ps →
    ps ≠ [] ∧ (∀ p ∈ ps, '.' ∉ p) ∧ s = joinDots ps
  | [], ps, h => by subst h; simp [splitDot, joinDots]
  | c :: s, ps, h => by
    obtain ⟨h1, h2, h3⟩ := splitDot_pieces s _ rfl
    simp only [splitDot] at h
    split at h
    · next hc =>
      subst hc h
      refine ⟨by simp, ?_, ?_⟩
      · intro p hp
        rcases List.mem_cons.1 hp with rfl | hp
        · simp
        · exact h2 p hp
      · cases hs : splitDot s with
        | nil => exact absurd hs h1
        | cons q qs =>
          rw [joinDots, ← hs, ← h3]
          · rfl
          · simp
    · next hc =>
      cases hs : splitDot s with
      | nil => exact absurd hs h1
      | cons q qs =>
        rw [hs] at h h2 h3
        subst h
        refine ⟨by simp, ?_, ?_⟩
        · intro p hp
          rcases List.mem_cons.1 hp with rfl | hp
          · have := h2 q (by simp)
            simp only [List.mem_cons, not_or]
            exact ⟨fun h => hc h.symm, this⟩
          · exact h2 p (by simp [hp])
        · rw [h3]
          cases qs <;> simp [joinDots]

/-- C36: a version header is accepted exactly when the text after `=== Version` is, white space
aside, three numbers below `2^32` with dots between them; they are the version. -/
theorem C36_header_exact (rest : Str) (v : Version) :
    versionHeader rest = .ok v ↔ ∃ a b c : Str, '.' ∉ a ∧ '.' ∉ b ∧ '.' ∉ c ∧
      trim rest = a ++ '.' :: (b ++ '.' :: c) ∧ parseU32 a = some v.major ∧ parseU32 b = some v.minor ∧
      parseU32 c = some v.patch ∧ v.gitHash = [] ∧ v.producer = [] := by
  have num : ∀ {ps : List Str} {n : Nat} {qs : List Str}, versionNumber ps = .ok (n, qs) ↔
      ∃ p, ps = p :: qs ∧ parseU32 p = some n := by
    intro ps n qs
    cases ps with
    | nil => simp [versionNumber]
    | cons p ps =>
      simp only [versionNumber]
      constructor
      · intro h
        split at h
        · cases h
        · split at h
          · cases h
          · next hp => cases h; exact ⟨p, rfl, hp⟩
      · rintro ⟨q, hq, h⟩
        cases hq
        have hne : p.isEmpty = false := by
          cases p with
          | nil => simp [parseU32, stripPlus] at h
          | cons _ _ => rfl
        simp [hne, h]
  constructor
  · intro h
    obtain ⟨h1, h2, h3⟩ := splitDot_pieces (trim rest) _ rfl
    unfold versionHeader at h
    split at h
    · cases h
    · next a ps hA =>
      split at h
      · cases h
      · next b qs hB =>
        split at h
        · cases h
        · next c rs hC =>
          split at h
          · cases h
            obtain ⟨p, e1, g1⟩ := num.1 hA
            obtain ⟨q, rfl, g2⟩ := num.1 hB
            obtain ⟨r, rfl, g3⟩ := num.1 hC
            rw [e1] at h2 h3
            exact ⟨p, q, r, h2 p (by simp), h2 q (by simp), h2 r (by simp), by rw [h3]; rfl, g1, g2, g3, rfl, rfl⟩
          · cases h
  · rintro ⟨a, b, c, ha, hb, hc, h, g1, g2, g3, g4, g5⟩
    obtain ⟨x, y, z, g, p⟩ := v
    simp only at g1 g2 g3 g4 g5
    subst g4 g5
    unfold versionHeader
    rw [h, splitDot_append a _ ha, splitDot_append b _ hb, splitDot_nodot c hc]
    rw [num.2 ⟨a, rfl, g1⟩]
    simp only
    rw [num.2 ⟨b, rfl, g2⟩]
    simp only
    rw [num.2 ⟨c, rfl, g3⟩]

example : versionHeader cs!" 1.2.3 " = .ok ⟨1, 2, 3, [], []⟩ := by decide +kernel
example : versionHeader cs!" 1.2.3.4" = .error .versionTooManyParts := by decide +kernel

/-- C50, without continuation lines: two texts with the same significant lines (blank lines and
trailing white space, including carriage returns, removed) are parsed alike, errors included. -/
theorem C50_layout_insensitive_partial (L : Lang) (a b : Str)
    (h : significant a = significant b)
    (hd : ∀ l ∈ significant a, ¬ Dash l) :
    parseSections L a = parseSections L b := by
  have key : ∀ t, (∀ l ∈ significant t, ¬ Dash l) →
      parseSections L t = PState.runSig PState.init (significant t) := by
    intro t ht
    rw [PState.parseSections_eq, PState.runLines_eq_runSig]
    · rfl
    · intro l hl hdash
      apply ht (trimEnd l) _ hdash
      simp only [significant, List.mem_filter, List.mem_map, decide_eq_true_eq]
      refine ⟨⟨l, hl, rfl⟩, ?_⟩
      intro hn
      obtain ⟨n, r, hr⟩ := hdash
      rw [hn] at hr
      have := congrArg List.length hr
      simp at this
  rw [key a hd, key b (by rw [← h]; exact hd), h]

/-- Every line feed preceded by a carriage return. -/
def toCrlf (s : Str) : Str := s.flatMap (fun c => if c = '\n' then ['\r', '\n'] else [c])

theorem toCrlf_append (a b : Str) : toCrlf (a ++ b) = toCrlf a ++ toCrlf b := by simp [toCrlf]

theorem toCrlf_no_nl (a : Str) (h : '\n' ∉ a) : toCrlf a = a := by
  induction a with
  | nil => rfl
  | cons c a ih =>
    simp only [List.mem_cons, not_or] at h
    have : toCrlf (c :: a) = c :: toCrlf a := by simp [toCrlf, Ne.symm h.1]
    rw [this, ih h.2]

theorem significant_nl (a b : Str) (ha : '\n' ∉ a) :
    significant (a ++ '\n' :: b) = (if trimEnd a = [] then [] else [trimEnd a]) ++ significant b := by
  have hws : ∀ c ∈ ['\n'], isWs c = true := by intro c hc; simp at hc; subst hc; decide
  unfold significant
  rw [physLines_nl a b ha]
  simp only [List.map_cons, List.filter_cons, trimEnd_append_ws a ['\n'] hws]
  by_cases h : trimEnd a = [] <;> simp [h]

theorem text_lines_induction {motive : Str → Prop} (last : ∀ a, '\n' ∉ a → motive a)
    (step : ∀ a b, '\n' ∉ a → motive b → motive (a ++ '\n' :: b)) (s : Str) : motive s := by
  have : ∀ n, ∀ s : Str, s.length ≤ n → motive s := by
    intro n
    induction n with
    | zero =>
      intro s hs
      have : s = [] := List.length_eq_zero_iff.1 (by omega)
      subst this; exact last _ (by simp)
    | succ n ih =>
      intro s hs
      cases hf : findNewline s with
      | none => exact last _ (findNewline_none hf)
      | some k =>
        obtain ⟨a, b, rfl, ha, _⟩ := findNewline_some hf
        exact step a b ha (ih b (by simp at hs; omega))
  exact this _ s (Nat.le_refl _)

/-- C50: switching a text without continuation lines to Windows line ends changes nothing. -/
theorem C50_crlf_partial (L : Lang) (a : Str) (hd : ∀ l ∈ significant a, ¬ Dash l) :
    parseSections L (toCrlf a) = parseSections L a := by
  apply (C50_layout_insensitive_partial L a (toCrlf a) ?_ hd).symm
  clear hd
  induction a using text_lines_induction with
  | last a ha => rw [toCrlf_no_nl a ha]
  | step a b ha ih =>
    have h1 : toCrlf (a ++ '\n' :: b) = (a ++ ['\r']) ++ '\n' :: toCrlf b := by
      rw [toCrlf_append, toCrlf_no_nl a ha]
      simp [toCrlf]
    rw [h1, significant_nl a b ha, significant_nl (a ++ ['\r']) _ (by simp [ha]), ih]
    rw [trimEnd_append_ws]
    intro c hc; simp at hc; subst hc; decide

/-- C50: a blank line inserted between two lines of such a text changes nothing. -/
theorem C50_blank_line_partial (L : Lang) (a b ws : Str) (hws : ∀ c ∈ ws, isWs c = true)
    (hnl : '\n' ∉ ws) (hd : ∀ l ∈ significant (a ++ '\n' :: b), ¬ Dash l) :
    parseSections L (a ++ '\n' :: (ws ++ '\n' :: b)) = parseSections L (a ++ '\n' :: b) := by
  apply (C50_layout_insensitive_partial L _ _ ?_ hd).symm
  clear hd
  induction a using text_lines_induction with
  | last a ha =>
    rw [significant_nl a _ ha, significant_nl a _ ha, significant_nl ws b hnl, (trimEnd_eq_nil_iff ws).2 hws]
    simp
  | step a a' ha ih =>
    have e : ∀ x : Str, (a ++ '\n' :: a') ++ '\n' :: x = a ++ '\n' :: (a' ++ '\n' :: x) := by intro x; simp
    rw [e, e, significant_nl a _ ha, significant_nl a _ ha, ih]

example : significant cs!"=== Plan\r\n\n  Read[a]  \n" = significant cs!"=== Plan\n  Read[a]" := by decide

/-- C49, structural part: splitting a text into chunks and sections never panics, whatever the line
syntax, unless a line of the extensions section does. -/
theorem C49_structure_never_panics_partial (L : Lang) (hL : ∀ e l, L.extLine e l ≠ .panic) (text : Str) :
    parseSections L text ≠ .panic := by
  rw [PState.parseSections_eq]
  exact PState.runLines_ne_panic hL _ _ (by intro h; cases h)

end Verif
