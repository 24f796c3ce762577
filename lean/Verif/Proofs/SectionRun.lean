import Verif.Proofs.SectionOrder
import Verif.Proofs.Num

namespace Verif
open ChunkSpec SectionSpec

namespace PState
variable {L : Lang}

theorem parseLine_congr (st : PState L) {a b : Str} (h : indentedLine a = indentedLine b) :
    st.parseLine a = st.parseLine b := by
  unfold parseLine; rw [h]

theorem parseLine_trimNl (st : PState L) (a : Str) : st.parseLine (trimNl a) = st.parseLine a :=
  parseLine_congr st (indentedLine_trimNl a)

theorem parseLine_trimEnd (st : PState L) (a : Str) : st.parseLine (trimEnd a) = st.parseLine a :=
  parseLine_congr st (indentedLine_trimEnd a)

theorem parseLine_nl (st : PState L) (a : Str) : st.parseLine (a ++ ['\n']) = st.parseLine a := by
  rw [← parseLine_trimEnd, trimEnd_append_ws, parseLine_trimEnd]
  intro c hc; simp at hc; subst hc; decide

theorem runLines_nil (st : PState L) : runLines st [] = .ok st := by rw [runLines]

/-- A line nothing is merged into. -/
theorem runLines_cons (st : PState L) (f : Str) (ls : List Str)
    (hc : ls.takeWhile (continues st.sec f) = []) (hne : trimEnd f ≠ []) :
    runLines st (f :: ls) = (st.parseLine f).bind (fun st' => runLines st' ls) := by
  have hd : ls.dropWhile (continues st.sec f) = ls := by
    have := List.takeWhile_append_dropWhile (p := continues st.sec f) (l := ls)
    rw [hc] at this; exact this
  rw [runLines]
  simp only [hc, hd, List.flatten_cons, List.flatten_nil, List.append_nil]
  have : ¬ (trim (trimNl f)).isEmpty = true := by
    rw [trim_isEmpty_iff, trimEnd_trimNl]; exact hne
  rw [if_neg this, parseLine_trimNl]
  cases st.parseLine f <;> rfl

theorem runLines_blank (st : PState L) (f : Str) (ls : List Str)
    (hc : ls.takeWhile (continues st.sec f) = []) (he : trimEnd f = []) :
    runLines st (f :: ls) = runLines st ls := by
  have hd : ls.dropWhile (continues st.sec f) = ls := by
    have := List.takeWhile_append_dropWhile (p := continues st.sec f) (l := ls)
    rw [hc] at this; exact this
  rw [runLines]
  simp only [hc, hd, List.flatten_cons, List.flatten_nil, List.append_nil]
  have : (trim (trimNl f)).isEmpty = true := by
    rw [trim_isEmpty_iff, trimEnd_trimNl]; exact he
  rw [if_pos this]

theorem takeWhile_not_plan (sec : Sec) (h : sec ≠ .plan) (f : Str) (ls : List Str) :
    ls.takeWhile (continues sec f) = [] := by
  have : continues sec f = fun _ => false := by funext l; simp [continues, h]
  rw [this]; cases ls <;> simp

theorem takeWhile_not_dash (sec : Sec) (f : Str) (ls : List Str) (h : ∀ l ∈ ls, ¬ Dash (trimEnd l)) :
    ls.takeWhile (continues sec f) = [] := by
  cases ls with
  | nil => rfl
  | cons l ls =>
    rw [List.takeWhile_cons_of_neg]
    intro hc
    obtain ⟨_, _, n, r, hr⟩ := continues_not_header sec f l hc
    exact h l (by simp) ⟨n, r, hr⟩

/-- Without dash lines only the significant lines matter. -/
def runSig (st : PState L) : List Str → Res PErr (PState L)
  | [] => .ok st
  | l :: ls => (st.parseLine l).bind (fun st' => runSig st' ls)

theorem runLines_eq_runSig (ls : List Str) (st : PState L) (h : ∀ l ∈ ls, ¬ Dash (trimEnd l)) :
    runLines st ls = runSig st ((ls.map trimEnd).filter (fun l => decide (l ≠ []))) := by
  induction ls generalizing st with
  | nil => rw [runLines_nil]; rfl
  | cons f ls ih =>
    have hls : ∀ l ∈ ls, ¬ Dash (trimEnd l) := fun l hl => h l (by simp [hl])
    have htw := takeWhile_not_dash st.sec f ls hls
    by_cases he : trimEnd f = []
    · rw [runLines_blank st f ls htw he, ih st hls]
      simp [he]
    · rw [runLines_cons st f ls htw he]
      simp only [List.map_cons, List.filter_cons, he, ne_eq, not_false_eq_true, decide_true, if_true,
        runSig, parseLine_trimEnd]
      cases st.parseLine f with
      | ok st' => simp only [Res.bind]; exact ih st' hls
      | err e => rfl
      | panic => rfl

theorem parseLine_sec_mono (st st' : PState L) (c : Str) (h : st.parseLine c = .ok st') :
    st.sec.rank ≤ st'.sec.rank ∧
    (st.sec ≠ .version → st.sec ≠ .initial → st'.version = st.version) := by
  simp only [parseLine] at h
  split at h
  · split at h
    · cases h
    · rename_i st2 next hsec
      split at h
      · cases h
      · rename_i hrank
        cases h
        refine ⟨by simp only; omega, ?_⟩
        intro h1 h2
        simp only
        have hn : next ≠ .version := by
          intro hn; subst hn
          cases hs : st.sec <;> simp [hs, Sec.rank] at hrank h1 h2
        unfold sectionHeader at hsec
        split at hsec
        · cases hsec; rfl
        · split at hsec
          · cases hsec; rfl
          · split at hsec
            · split at hsec
              · split at hsec
                · cases hsec
                · cases hsec; exact absurd rfl hn
              · cases hsec
            · cases hsec
  · split at h
    · split at h
      · cases h; exact ⟨Nat.le_refl _, fun _ _ => rfl⟩
      · cases h
    · rename_i hs
      refine ⟨?_, fun h1 => absurd hs h1⟩
      simp only [versionLine] at h
      split at h
      · cases h; exact Nat.le_refl _
      · split at h
        · simp only [versionDetail] at h
          split at h
          · cases h
          · split at h
            · cases h
            · split at h
              · cases h; exact Nat.le_refl _
              · split at h
                · cases h; exact Nat.le_refl _
                · cases h
        · cases h
    · split at h
      · cases h
      · cases h
      · cases h; exact ⟨Nat.le_refl _, fun _ _ => rfl⟩
    · simp only [planLine] at h
      split at h
      · cases h
      · split at h
        · cases h
        · cases h; exact ⟨Nat.le_refl _, fun _ _ => rfl⟩

/-- Past the version section the version is settled. -/
theorem runLines_version (ls : List Str) (st st' : PState L) (h : runLines st ls = .ok st')
    (hr : 2 ≤ st.sec.rank) : st'.version = st.version := by
  fun_induction runLines st ls with
  | case1 st => cases h; rfl
  | case2 st f ls chunk he ih => exact ih h hr
  | case3 => cases h
  | case4 => cases h
  | case5 st f ls chunk he st1 hpl ih =>
    have hm := parseLine_sec_mono st st1 _ hpl
    rw [ih h (by omega)]
    apply hm.2 <;> intro hs <;> rw [hs] at hr <;> simp [Sec.rank] at hr

/-- The structural layer never panics: a version is present whenever version details are read. -/
def VersionOk (st : PState L) : Prop := st.sec = .version → st.version.isSome

theorem parseLine_versionOk (hL : ∀ e l, L.extLine e l ≠ .panic) (st : PState L) (c : Str) (hv : st.VersionOk) :
    st.parseLine c ≠ .panic ∧ ∀ st', st.parseLine c = .ok st' → st'.VersionOk := by
  unfold parseLine
  simp only
  split
  · split
    · simp
    · rename_i st2 next hsec
      split
      · simp
      · simp only [ne_eq, reduceCtorEq, not_false_eq_true, Res.ok.injEq, true_and]
        rintro st' rfl
        intro hn
        simp only at hn ⊢
        subst hn
        unfold sectionHeader at hsec
        split at hsec
        · cases hsec
        · split at hsec
          · cases hsec
          · split at hsec
            · split at hsec
              · split at hsec
                · cases hsec
                · cases hsec; rfl
              · cases hsec
            · cases hsec
  · split
    · rename_i hs
      split <;> simp
      intro h; rw [hs] at h; cases h
    · rename_i hs
      have hsome := hv hs
      unfold versionLine
      split
      · simp; exact hv
      · split
        · unfold versionDetail
          split
          · simp
          · split
            · rename_i hn; rw [hn] at hsome; cases hsome
            · split
              · simp; intro _; rfl
              · split
                · simp; intro _; rfl
                · simp
        · simp
    · rename_i hs
      split
      · simp
      · rename_i hp; exact absurd hp (hL _ _)
      · simp; intro h; simp only at h; rw [hs] at h; cases h
    · rename_i hs
      unfold planLine
      split
      · simp
      · split
        · simp
        · simp; intro h; simp only at h; rw [hs] at h; cases h

theorem runLines_ne_panic (hL : ∀ e l, L.extLine e l ≠ .panic) (ls : List Str) (st : PState L) (hv : st.VersionOk) :
    runLines st ls ≠ .panic := by
  fun_induction runLines st ls with
  | case1 st => simp
  | case2 st f ls chunk he ih => exact ih hv
  | case3 => simp
  | case4 st f ls chunk he hp => exact absurd hp (parseLine_versionOk hL st chunk hv).1
  | case5 st f ls chunk he st1 hpl ih => exact ih ((parseLine_versionOk hL st chunk hv).2 st1 hpl)

end PState

/-! ### The version section -/

theorem getLast?_append_ne (a b : Str) (h : b ≠ []) : (a ++ b).getLast? = b.getLast? := by
  rw [List.getLast?_append, List.getLast?_eq_some_getLast h]; rfl


theorem splitDot_nodot (a : Str) (h : '.' ∉ a) : splitDot a = [a] := by
  induction a with
  | nil => rfl
  | cons c a ih =>
    simp only [List.mem_cons, not_or] at h
    rw [splitDot, if_neg (Ne.symm h.1), ih h.2]

theorem splitDot_append (a b : Str) (h : '.' ∉ a) : splitDot (a ++ '.' :: b) = a :: splitDot b := by
  induction a with
  | nil => simp [splitDot]
  | cons c a ih =>
    simp only [List.mem_cons, not_or] at h
    rw [List.cons_append, splitDot, if_neg (Ne.symm h.1), ih h.2]

theorem dec_mem {n : Nat} {c : Char} (h : c ∈ dec n) : isDigit c = true := by
  have := dec_all_digits n
  exact this c h

theorem versionNumber_dec (n : Nat) (h : n < 2 ^ 32) (ps : List Str) :
    versionNumber (dec n :: ps) = .ok (n, ps) := by
  have hne : (dec n).isEmpty = false := by
    cases hd : dec n with
    | nil => exact absurd hd (dec_ne_nil n)
    | cons => rfl
  simp [versionNumber, hne, parseU32_dec n h]

theorem versionHeader_dec (a b c : Nat) (ha : a < 2 ^ 32) (hb : b < 2 ^ 32) (hc : c < 2 ^ 32) :
    versionHeader (cs!" " ++ dec a ++ cs!"." ++ dec b ++ cs!"." ++ dec c) = .ok ⟨a, b, c, [], []⟩ := by
  have nodot : ∀ n, '.' ∉ dec n := by
    intro n h; have := dec_mem h; revert this; decide
  have hws : ∀ c, isDigit c = true → isWs c = false := by
    intro c hc
    unfold isDigit at hc
    simp only [Bool.and_eq_true, decide_eq_true_eq] at hc
    cases hw : isWs c with
    | false => rfl
    | true =>
      simp only [isWs, Bool.or_eq_true, Bool.and_eq_true, decide_eq_true_eq, beq_iff_eq] at hw
      omega
  have htrim : trim (cs!" " ++ dec a ++ cs!"." ++ dec b ++ cs!"." ++ dec c) =
      dec a ++ '.' :: (dec b ++ '.' :: dec c) := by
    have : cs!" " ++ dec a ++ cs!"." ++ dec b ++ cs!"." ++ dec c =
        ' ' :: (dec a ++ '.' :: (dec b ++ '.' :: dec c)) := by simp
    rw [this, trim_space_append]
    apply trim_clean
    · intro x hx
      cases hd : dec a with
      | nil => exact absurd hd (dec_ne_nil a)
      | cons y t =>
        rw [hd] at hx
        simp at hx
        subst hx
        exact hws _ (dec_mem (n := a) (by rw [hd]; simp))
    · intro x hx
      have : dec a ++ '.' :: (dec b ++ '.' :: dec c) = (dec a ++ '.' :: dec b ++ ['.']) ++ dec c := by simp
      rw [this, getLast?_append_ne _ _ (dec_ne_nil c)] at hx
      exact hws _ (dec_mem (List.mem_of_getLast? hx))
  unfold versionHeader
  rw [htrim, splitDot_append _ _ (nodot a), splitDot_append _ _ (nodot b), splitDot_nodot _ (nodot c),
    versionNumber_dec a ha]
  simp only
  rw [versionNumber_dec b hb]
  simp only
  rw [versionNumber_dec c hc]

theorem newline_not_dec (n : Nat) : '\n' ∉ dec n := by
  intro h; have := dec_mem h; revert this; decide

theorem splitColon_key (k v : Str) (h : ':' ∉ k) : splitColon (k ++ ':' :: v) = some (k, v) := by
  induction k with
  | nil => simp [splitColon]
  | cons c k ih =>
    simp only [List.mem_cons, not_or] at h
    simp [splitColon, Ne.symm h.1, ih h.2]

/-- A detail line as written: two spaces, key, colon, space, trimmed value. -/
theorem indentedLine_detail (k v : Str) (hk : StartClean k) (hne : k ≠ []) :
    ∃ v', indentedLine (cs!"  " ++ k ++ cs!": " ++ v) = ⟨1, k ++ ':' :: v'⟩ ∧ trim v' = trim v := by
  have hsp : k.head? ≠ some ' ' := by
    intro h; have := hk ' ' h; revert this; decide
  have hbody : ∀ v', trimEnd (cs!"  " ++ k ++ cs!": " ++ v) = cs!"  " ++ k ++ ':' :: v' →
      indentedLine (cs!"  " ++ k ++ cs!": " ++ v) = ⟨1, k ++ ':' :: v'⟩ := by
    intro v' hv
    simp only [indentedLine, hv]
    cases k with
    | nil => exact absurd rfl hne
    | cons c k =>
      have hc : c ≠ ' ' := by intro h; apply hsp; simp [h]
      simp [hc]
  by_cases he : trimEnd v = []
  · refine ⟨[], hbody _ ?_, ?_⟩
    · have : cs!"  " ++ k ++ cs!": " ++ v = (cs!"  " ++ k ++ [':']) ++ (' ' :: v) := by simp
      rw [this, trimEnd_append_ws]
      · apply trimEnd_clean
        intro x hx
        rw [List.getLast?_append] at hx
        simp at hx; subst hx; decide
      · intro x hx
        rw [trimEnd_eq_nil_iff] at he
        simp only [List.mem_cons] at hx
        rcases hx with rfl | hx
        · decide
        · exact he x hx
    · rw [trimEnd_eq_nil_iff] at he
      rw [(trim_eq_nil_iff v).2 he]; rfl
  · refine ⟨' ' :: trimEnd v, hbody _ ?_, ?_⟩
    · rw [trimEnd_append_ne _ _ he]; simp
    · rw [trim_space_append]
      have h2 : trim (trimEnd v) = trim v := by
        obtain ⟨t, ht, hall⟩ := dropEnd_eq isWs v
        have hd : dropEnd isWs v = trimEnd v := rfl
        rw [hd] at ht
        conv => rhs; rw [ht]
        unfold trim trimStart
        -- the front of `trimEnd v` contains a non-white character
        obtain ⟨x, hx, hxw⟩ : ∃ x ∈ trimEnd v, isWs x = false := by
          apply Classical.byContradiction
          intro hn
          apply he
          rw [← trimEnd_idem, trimEnd_eq_nil_iff]
          intro c hc
          cases h : isWs c with
          | true => rfl
          | false => exact absurd ⟨c, hc, h⟩ hn
        have : (trimEnd v ++ t).dropWhile isWs = (trimEnd v).dropWhile isWs ++ t := by
          generalize trimEnd v = w at hx
          induction w with
          | nil => cases hx
          | cons y w ih =>
            simp only [List.mem_cons] at hx
            cases hy : isWs y with
            | false => simp [hy]
            | true =>
              rcases hx with rfl | hx
              · rw [hy] at hxw; cases hxw
              · simp [hy, ih hx]
        rw [this, trimEnd_append_ws _ _ hall]
      exact h2

namespace PState
variable {L : Lang}

theorem detail_line (st : PState L) (v : Version) (k x : Str) (hs : st.sec = .version)
    (hv : st.version = some v) (hk : k = cs!"producer" ∨ k = cs!"git_hash") :
    st.parseLine (cs!"  " ++ k ++ cs!": " ++ x) =
      .ok { st with version := some (if k = cs!"producer" then { v with producer := trim x }
                                     else { v with gitHash := trim x }) } := by
  have hcl : StartClean k := by
    rcases hk with rfl | rfl <;> intro c hc <;> simp at hc <;> subst hc <;> decide
  have hne : k ≠ [] := by rcases hk with rfl | rfl <;> simp
  have hnc : ':' ∉ k := by rcases hk with rfl | rfl <;> decide
  obtain ⟨v', hil, htr⟩ := indentedLine_detail k x hcl hne
  simp only [parseLine, hil, hs, versionLine, versionDetail]
  rw [if_neg (by simp), if_neg (by simp), if_pos trivial, splitColon_key _ _ hnc]
  simp only [hv, htr]
  rcases hk with rfl | rfl
  · rw [if_pos (by decide), if_pos rfl]
  · rw [if_neg (by decide), if_pos (by decide), if_neg (by decide)]

/-- Reading back what `write_version` wrote. -/
theorem runLines_writeVersion (v : Version) (rest : Str) (hne : v ≠ Version.empty)
    (h1 : v.major < 2 ^ 32) (h2 : v.minor < 2 ^ 32) (h3 : v.patch < 2 ^ 32)
    (hp : '\n' ∉ trim v.producer) (hg : '\n' ∉ trim v.gitHash) :
    runLines (PState.init (L := L)) (physLines (writeVersion cs!"  " (some v) ++ rest)) =
      runLines { (PState.init : PState L) with
        sec := .version
        version := some { v with producer := trim v.producer, gitHash := trim v.gitHash } }
        (physLines rest) := by
  have hstep : ∀ (st : PState L) (a b : Str), st.sec ≠ .plan → '\n' ∉ a → trimEnd a ≠ [] →
      runLines st (physLines (a ++ '\n' :: b)) =
        (st.parseLine a).bind (fun st' => runLines st' (physLines b)) := by
    intro st a b hs ha hb
    rw [physLines_nl a b ha, runLines_cons st _ _ (takeWhile_not_plan _ hs _ _), parseLine_nl]
    rw [trimEnd_append_ws]
    · exact hb
    · intro c hc; simp at hc; subst hc; decide
  have hdet : ∀ (st : PState L) (w : Version) (k x b : Str), st.sec = .version →
      st.version = some w → (k = cs!"producer" ∨ k = cs!"git_hash") → '\n' ∉ x →
      runLines st (physLines ((cs!"  " ++ k ++ cs!": " ++ x) ++ '\n' :: b)) =
        runLines { st with version := some (if k = cs!"producer" then { w with producer := trim x }
                                     else { w with gitHash := trim x }) } (physLines b) := by
    intro st w k x b hs hw hk hx
    rw [hstep st _ b (by rw [hs]; simp), detail_line st w k x hs hw hk]
    · rfl
    · simp only [List.mem_append, not_or]
      refine ⟨⟨⟨by decide, ?_⟩, by decide⟩, hx⟩
      rcases hk with rfl | rfl <;> decide
    · intro h
      rw [trimEnd_eq_nil_iff] at h
      have := h ':' (by simp)
      revert this; decide
  -- the text, line by line
  have hhead : (PState.init (L := L)).parseLine
      (versionPrefix ++ (cs!" " ++ dec v.major ++ cs!"." ++ dec v.minor ++ cs!"." ++ dec v.patch)) =
      .ok { (PState.init : PState L) with sec := .version, version := some ⟨v.major, v.minor, v.patch, [], []⟩ } := by
    have hclean : trimEnd (versionPrefix ++ (cs!" " ++ dec v.major ++ cs!"." ++ dec v.minor ++ cs!"." ++ dec v.patch)) =
        versionPrefix ++ (cs!" " ++ dec v.major ++ cs!"." ++ dec v.minor ++ cs!"." ++ dec v.patch) := by
      apply trimEnd_clean
      intro x hx
      rw [← List.append_assoc, getLast?_append_ne _ _ (dec_ne_nil _)] at hx
      have hd := dec_mem (List.mem_of_getLast? hx)
      unfold isDigit at hd
      simp only [Bool.and_eq_true, decide_eq_true_eq] at hd
      cases hw : isWs x with
      | false => rfl
      | true =>
        simp only [isWs, Bool.or_eq_true, Bool.and_eq_true, decide_eq_true_eq, beq_iff_eq] at hw
        omega
    have hvh := versionHeader_dec v.major v.minor v.patch h1 h2 h3
    have hnum : ∃ r, (cs!" " ++ dec v.major ++ cs!"." ++ dec v.minor ++ cs!"." ++ dec v.patch) = ' ' :: r :=
      ⟨_, by simp only [List.cons_append, List.nil_append, List.append_assoc]; rfl⟩
    obtain ⟨r, hr⟩ := hnum
    rw [hr] at hclean hvh ⊢
    have hil := indentedLine_header _ _ hclean
    have hsh : (PState.init (L := L)).sectionHeader (versionPrefix ++ ' ' :: r) =
        .ok ({ (PState.init : PState L) with version := some ⟨v.major, v.minor, v.patch, [], []⟩ }, .version) := by
      unfold sectionHeader
      rw [if_neg (by simp [versionPrefix, extensionsHeader]), if_neg (by simp [versionPrefix, planHeader]),
        stripPrefix_eq_lit, lit_append]
      simp [hvh]
    unfold parseLine
    rw [hil]
    have hbody : '=' :: (['=', '=', ' ', 'V', 'e', 'r', 's', 'i', 'o', 'n'] ++ ' ' :: r) =
      versionPrefix ++ ' ' :: r := rfl
    simp only
    rw [if_pos ⟨trivial, by simp [stripPrefix]⟩]
    have := hsh
    simp only [versionPrefix, List.cons_append, List.nil_append] at this
    simp only [List.append_eq, List.cons_append, List.nil_append]
    rw [this]
    simp [PState.init, Sec.rank]
  unfold writeVersion
  simp only [if_neg hne]
  have hassoc : ∀ (a b c : Str), versionPrefix ++ cs!" " ++ dec v.major ++ cs!"." ++ dec v.minor ++ cs!"." ++
      dec v.patch ++ cs!"\n" ++ a ++ b ++ c =
      (versionPrefix ++ (cs!" " ++ dec v.major ++ cs!"." ++ dec v.minor ++ cs!"." ++ dec v.patch)) ++
        '\n' :: (a ++ (b ++ c)) := by
    intro a b c; simp
  rw [hassoc, hstep _ _ _ (by simp [PState.init]), hhead]
  · simp only [Res.bind]
    by_cases hpe : v.producer.isEmpty = true
    · have hp0 : v.producer = [] := List.isEmpty_iff.1 hpe
      rw [if_pos hpe, List.nil_append, hp0]
      by_cases hge : v.gitHash.isEmpty = true
      · have hg0 : v.gitHash = [] := List.isEmpty_iff.1 hge
        rw [if_pos hge, List.nil_append, hg0]
        rfl
      · rw [if_neg hge]
        have := hdet { (PState.init : PState L) with sec := .version, version := some ⟨v.major, v.minor, v.patch, [], []⟩ }
          _ cs!"git_hash" (trim v.gitHash) rest rfl rfl (Or.inr rfl) hg
        simp only [List.append_assoc, List.cons_append, List.nil_append] at this ⊢
        rw [this, trim_trim]
        rfl
    · rw [if_neg hpe]
      have := fun b => hdet { (PState.init : PState L) with sec := .version, version := some ⟨v.major, v.minor, v.patch, [], []⟩ }
          _ cs!"producer" (trim v.producer) b rfl rfl (Or.inl rfl) hp
      simp only [List.append_assoc, List.cons_append, List.nil_append] at this ⊢
      rw [this, trim_trim]
      by_cases hge : v.gitHash.isEmpty = true
      · have hg0 : v.gitHash = [] := List.isEmpty_iff.1 hge
        rw [if_pos hge, List.nil_append, hg0]
        rfl
      · rw [if_neg hge]
        have := hdet { (PState.init : PState L) with sec := .version, version := some ⟨v.major, v.minor, v.patch, [], trim v.producer⟩ }
          _ cs!"git_hash" (trim v.gitHash) rest rfl rfl (Or.inr rfl) hg
        simp only [List.append_assoc, List.cons_append, List.nil_append] at this ⊢
        rw [if_pos trivial]
        rw [this, trim_trim]
        rfl
  · simp only [List.mem_append, not_or]
    exact ⟨by decide, ⟨⟨⟨⟨by decide, newline_not_dec _⟩, by decide⟩, newline_not_dec _⟩, by decide⟩, newline_not_dec _⟩
  · intro h
    rw [trimEnd_eq_nil_iff] at h
    have := h '=' (by simp [versionPrefix])
    revert this; decide

end PState
end Verif
