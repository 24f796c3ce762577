import Verif.Model.Bytes
import Verif.Proofs.Chunks
/-!
# The code over byte offsets does what the code over character offsets does
-/
set_option autoImplicit false

namespace Verif

theorem byteLen_append (a b : Str) : byteLen (a ++ b) = byteLen a + byteLen b := by
  induction a with
  | nil => simp [byteLen]
  | cons c a ih => simp only [List.cons_append, byteLen, ih]; omega

theorem utf8Size_ne_zero (c : Char) : 0 < c.utf8Size := c.utf8Size_pos

theorem byteLen_pos {s : Str} (h : s ≠ []) : 0 < byteLen s := by
  cases s with
  | nil => exact absurd rfl h
  | cons c s => have := utf8Size_ne_zero c; simp only [byteLen]; omega

theorem sliceAt_append {ε : Type} (a b : Str) :
    (sliceAt (a ++ b) (byteLen a) : Res ε (Str × Str)) = .ok (a, b) := by
  induction a with
  | nil => cases b <;> rfl
  | cons c a ih =>
    have h := utf8Size_ne_zero c
    obtain ⟨n, hn⟩ : ∃ n, byteLen (c :: a) = n + 1 := ⟨c.utf8Size - 1 + byteLen a, by
      simp only [byteLen]; omega⟩
    have hd : n + 1 - c.utf8Size = byteLen a := by rw [← hn]; simp [byteLen]
    have hle : c.utf8Size ≤ n + 1 := by rw [← hn]; simp [byteLen]
    rw [hn, List.cons_append, sliceAt, if_pos hle, hd, ih]
    rfl

theorem sliceAt_ok {ε : Type} {s a b : Str} {n : Nat}
    (h : (sliceAt s n : Res ε (Str × Str)) = .ok (a, b)) : s = a ++ b ∧ byteLen a = n := by
  induction s generalizing n a b with
  | nil =>
    cases n with
    | zero => cases h; exact ⟨rfl, rfl⟩
    | succ n => cases h
  | cons c s ih =>
    cases n with
    | zero => cases h; exact ⟨rfl, rfl⟩
    | succ n =>
      rw [sliceAt] at h
      split at h
      · cases hs : (sliceAt s (n + 1 - c.utf8Size) : Res ε (Str × Str)) with
        | ok r =>
          rw [hs] at h
          cases h
          obtain ⟨h1, h2⟩ := ih (a := r.1) (b := r.2) hs
          refine ⟨by rw [List.cons_append, ← h1], ?_⟩
          simp only [byteLen, h2]; omega
        | err e => rw [hs] at h; cases h
        | panic => rw [hs] at h; cases h
      · cases h

theorem sliceAt_no_err {ε : Type} (s : Str) (n : Nat) (e : ε) :
    (sliceAt s n : Res ε (Str × Str)) ≠ .err e := by
  induction s generalizing n with
  | nil => cases n <;> simp [sliceAt]
  | cons c s ih =>
    cases n with
    | zero => simp [sliceAt]
    | succ n =>
      rw [sliceAt]
      split
      · have := ih (n + 1 - c.utf8Size)
        cases hs : (sliceAt s (n + 1 - c.utf8Size) : Res ε (Str × Str)) with
        | err e' => rw [hs] at this; intro h; cases h; exact this rfl
        | ok r => intro h; cases h
        | panic => intro h; cases h
      · intro h; cases h

theorem sliceAt_take {ε : Type} (s : Str) (k : Nat) :
    (sliceAt s (byteLen (s.take k)) : Res ε (Str × Str)) = .ok (s.take k, s.drop k) := by
  have := sliceAt_append (ε := ε) (s.take k) (s.drop k)
  rwa [List.take_append_drop] at this

theorem findByte_newline (s : Str) :
    findByte '\n' s = (findNewline s).map fun k => byteLen (s.take k) := by
  induction s with
  | nil => rfl
  | cons c s ih =>
    rw [findByte, findNewline]
    split
    · rfl
    · rw [ih]
      cases findNewline s with
      | none => rfl
      | some k => simp [byteLen, Nat.add_comm]

theorem byteLen_take_le (s : Str) (k : Nat) : byteLen (s.take k) ≤ byteLen s := by
  have := byteLen_append (s.take k) (s.drop k)
  rw [List.take_append_drop] at this
  omega

theorem byteLen_take_lt {s : Str} {k : Nat} (h : k < s.length) :
    byteLen (s.take k) < byteLen s := by
  have := byteLen_append (s.take k) (s.drop k)
  rw [List.take_append_drop] at this
  have := byteLen_pos (s := s.drop k) (by simp; omega)
  omega

theorem byteLen_take_add (s : Str) (i j : Nat) :
    byteLen (s.take (i + j)) = byteLen (s.take i) + byteLen ((s.drop i).take j) := by
  rw [List.take_add, byteLen_append]

theorem byteLen_take_mono {s : Str} {i j : Nat} (h : i < j) (hj : j ≤ s.length) :
    byteLen (s.take i) < byteLen (s.take j) := by
  obtain ⟨d, rfl⟩ : ∃ d, j = i + d := ⟨j - i, by omega⟩
  rw [byteLen_take_add]
  have := byteLen_pos (s := (s.drop i).take d) (by
    intro h0
    have := congrArg List.length h0
    simp at this
    omega)
  omega

theorem byteLen_spaces (s : Str) (k : Nat) (h : k ≤ (s.takeWhile (· = ' ')).length) :
    byteLen (s.take k) = k := by
  induction s generalizing k with
  | nil => simp at h; subst h; rfl
  | cons c s ih =>
    cases k with
    | zero => rfl
    | succ k =>
      rw [List.takeWhile_cons] at h
      split at h
      · rename_i hc
        have hc : c = ' ' := by simpa using hc
        subst hc
        rw [List.take_succ_cons, byteLen, ih k (by simpa using h)]
        have : Char.utf8Size ' ' = 1 := by decide
        omega
      · simp at h

theorem byteIndented_ok {ε : Type} (line : Str) :
    (byteIndented line : Res ε Indented) = .ok (indentedLine line) := by
  have h := byteLen_spaces (trimEnd line) (((trimEnd line).takeWhile (· = ' ')).length / 2 * 2)
    (by omega)
  have h2 := sliceAt_take (ε := ε) (trimEnd line)
    (((trimEnd line).takeWhile (· = ' ')).length / 2 * 2)
  rw [h] at h2
  simp only [byteIndented, indentedLine, h2, Res.bind_ok]

/-! ## The cursor -/

/-- A cursor over bytes stands where a cursor over characters stands. -/
structure SamePlace (c : Cursor) (b : ByteCursor) : Prop where
  le : c.currentEnd ≤ c.text.length
  text : b.text = c.text
  pos : b.currentEnd = byteLen (c.text.take c.currentEnd)
  start : b.startLineNo = c.startLineNo
  next : b.nextLineNo = c.nextLineNo

/-- The peeked line over bytes. -/
def lineBytes (c : Cursor) (l : Line) : ByteLine :=
  ⟨l.line, byteLen (c.text.take c.currentEnd), byteLen (c.text.take l.stop)⟩

theorem samePlace_peek {ε : Type} {c : Cursor} {b : ByteCursor} (h : SamePlace c b) :
    (b.peekLine : Res ε (Option ByteLine)) = .ok (c.peekLine.map (lineBytes c)) := by
  unfold ByteCursor.peekLine Cursor.peekLine
  rw [h.text, h.pos]
  by_cases hlt : c.currentEnd ≥ c.text.length
  · have he : c.text.take c.currentEnd = c.text := List.take_of_length_le hlt
    rw [if_pos hlt, if_pos (by rw [he]; omega)]
    rfl
  · have hb := byteLen_take_lt (s := c.text) (k := c.currentEnd) (by omega)
    rw [if_neg hlt, if_neg (by omega), sliceAt_take]
    simp only [Res.bind_ok]
    rw [findByte_newline]
    cases hn : findNewline (c.text.drop c.currentEnd) with
    | none => simp only [Option.map_none, Option.map_some, lineBytes, List.take_length]
    | some nl =>
      simp only [Option.map_some]
      rw [sliceAt_take]
      simp only [Res.bind_ok, lineBytes, Nat.add_assoc]
      rw [byteLen_take_add c.text c.currentEnd (nl + 1),
        byteLen_take_add (c.text.drop c.currentEnd) nl 1]
      obtain ⟨a, r, hs, ha, hl⟩ := findNewline_some hn
      have : byteLen (((c.text.drop c.currentEnd).drop nl).take 1) = 1 := by
        rw [hs, ← hl, List.drop_left]
        show Char.utf8Size '\n' + 0 = 1
        decide
      rw [this]

theorem samePlace_merge {ε : Type} {c : Cursor} {b : ByteCursor} {l : Line} (h : SamePlace c b)
    (hl : c.peekLine = some l) :
    ∃ b', (b.merge (lineBytes c l) : Res ε ByteCursor) = .ok b' ∧ SamePlace (c.merge l) b' := by
  obtain ⟨h1, h2⟩ := Cursor.merge_assertions_hold hl
  unfold ByteCursor.merge
  have hpos : (lineBytes c l).stop > b.currentEnd ∧ (lineBytes c l).stop ≤ byteLen b.text := by
    rw [h.pos, h.text]
    exact ⟨byteLen_take_mono h1 h2, byteLen_take_le _ _⟩
  rw [if_pos hpos, h.text, h.pos, sliceAt_take]
  simp only [Res.bind_ok, lineBytes, if_true]
  exact ⟨_, rfl, ⟨h2, rfl, rfl, h.start, by simp [Cursor.merge, h.next]⟩⟩

theorem samePlace_next {ε : Type} {c : Cursor} {b : ByteCursor} (h : SamePlace c b) :
    ∃ r, (b.next : Res ε (Str × Option ByteCursor)) = .ok (c.next.1, r) ∧
      match c.next.2, r with
      | none, none => True
      | some c', some b' => SamePlace c' b'
      | _, _ => False := by
  unfold ByteCursor.next Cursor.next
  rw [h.text, h.pos, sliceAt_take]
  simp only [Res.bind_ok]
  refine ⟨_, rfl, ?_⟩
  by_cases hr : (c.text.drop c.currentEnd).isEmpty
  · simp [hr]
  · rw [if_neg hr, if_neg hr]
    exact ⟨Nat.zero_le _, rfl, rfl, h.next, h.next⟩

theorem samePlace_dashes {ε : Type} {first : Line} (fuel : Nat) {c : Cursor} {b : ByteCursor}
    (h : SamePlace c b) :
    ∃ b', (b.mergeDashes (indentedLine first.line).depth fuel : Res ε ByteCursor) = .ok b' ∧
      SamePlace (c.mergeWhile (dashPolicy first) fuel) b' := by
  induction fuel generalizing c b with
  | zero => exact ⟨b, rfl, h⟩
  | succ fuel ih =>
    rw [ByteCursor.mergeDashes, samePlace_peek h, Cursor.mergeWhile]
    cases hl : c.peekLine with
    | none => exact ⟨b, rfl, h⟩
    | some l =>
      simp only [Option.map_some, Res.bind_ok]
      have hb : (byteIndented (lineBytes c l).line : Res ε Indented) = .ok (indentedLine l.line) :=
        byteIndented_ok _
      rw [hb]
      simp only [Res.bind_ok]
      have hp : dashPolicy first c l = ((indentedLine l.line).depth ==
          (indentedLine first.line).depth + 1 && startsDash (indentedLine l.line).body) := rfl
      rw [← hp]
      split
      · obtain ⟨b', hm, hs⟩ := samePlace_merge (ε := ε) h hl
        rw [hm]
        exact ih hs
      · exact ⟨b, rfl, h⟩

theorem mergeWhile_never (fuel : Nat) (c : Cursor) :
    Cursor.mergeWhile (fun _ _ => false) fuel c = c := by
  cases fuel with
  | zero => rfl
  | succ n => rw [Cursor.mergeWhile]; split <;> simp

theorem samePlace_chunk {ε : Type} {c : Cursor} {b : ByteCursor} (sec : Sec) (h : SamePlace c b) :
    match c.takeChunk (PState.policy sec) with
    | none => (b.nextChunk (sec == .plan) : Res ε (Str × Nat × Option ByteCursor)) = .panic
    | some (t, n, rest) => ∃ r,
        (b.nextChunk (sec == .plan) : Res ε (Str × Nat × Option ByteCursor)) = .ok (t, n, r) ∧
        match rest, r with
        | none, none => True
        | some c', some b' => SamePlace c' b'
        | _, _ => False := by
  unfold Cursor.takeChunk ByteCursor.nextChunk
  rw [samePlace_peek h]
  cases hl : c.peekLine with
  | none => rfl
  | some l =>
    simp only [Option.map_some, Res.bind_ok]
    obtain ⟨b1, hm, hs⟩ := samePlace_merge (ε := ε) h hl
    rw [hm]
    simp only [Res.bind_ok]
    by_cases hp : sec = .plan
    · subst hp
      have hb : (byteIndented (lineBytes c l).line : Res ε Indented) = .ok (indentedLine l.line) :=
        byteIndented_ok _
      obtain ⟨b2, hd, hs2⟩ := samePlace_dashes (ε := ε) (first := l) c.text.length hs
      obtain ⟨r, hn, hr⟩ := samePlace_next (ε := ε) hs2
      simp only [beq_self_eq_true, if_true, hb, Res.bind_ok, h.text, hd, hn, hs2.start,
        PState.policy]
      exact ⟨r, rfl, hr⟩
    · obtain ⟨r, hn, hr⟩ := samePlace_next (ε := ε) hs
      have hne : (sec == Sec.plan) = false := by simpa using hp
      simp only [hne, PState.policy, if_neg hp, Res.bind_ok, mergeWhile_never, hn, hs.start,
        Bool.false_eq_true, if_false]
      exact ⟨r, rfl, hr⟩

namespace PState
variable {L : Lang}

theorem byteLoop_eq (fuel : Nat) (st : PState L) (c : Option Cursor) (b : Option ByteCursor)
    (h : match c, b with
      | none, none => True
      | some c', some b' => SamePlace c' b'
      | _, _ => False) : byteLoop fuel st b = parseLoop fuel st c := by
  induction fuel generalizing st c b with
  | zero =>
    cases c <;> cases b <;> simp at h <;> rfl
  | succ fuel ih =>
    cases c with
    | none => cases b <;> simp at h; rfl
    | some c =>
      cases b with
      | none => simp at h
      | some b =>
        have hc := samePlace_chunk (ε := PErr) st.sec h
        rw [byteLoop, parseLoop]
        cases ht : c.takeChunk (policy st.sec) with
        | none => rw [ht] at hc; simp only at hc; rw [hc]; rfl
        | some r =>
          obtain ⟨t, n, rest⟩ := r
          rw [ht] at hc
          obtain ⟨r, hn, hr⟩ := hc
          rw [hn]
          simp only [Res.bind_ok, byteIndented_ok]
          split
          · exact ih _ _ _ hr
          · cases st.parseLine (trimNl t) with
            | ok st' => exact ih _ _ _ hr
            | err e => rfl
            | panic => rfl

end PState

theorem byteSections_eq (L : Lang) (text : Str) : byteSections L text = parseSections L text := by
  unfold byteSections parseSections
  apply PState.byteLoop_eq
  unfold Cursor.new ByteCursor.new
  by_cases h : text.isEmpty
  · simp [h]
  · rw [if_neg h, if_neg h]
    exact ⟨Nat.zero_le _, rfl, rfl, rfl, rfl⟩

/-! ## Compound names -/

theorem findByte_some {x : Char} {s : Str} {n : Nat} (h : findByte x s = some n) :
    n = byteLen (s.takeWhile (· ≠ x)) ∧ x ∈ s := by
  induction s generalizing n with
  | nil => cases h
  | cons c s ih =>
    rw [findByte] at h
    split at h
    · rename_i hc
      cases h
      subst hc
      simp [byteLen]
    · rename_i hc
      cases hs : findByte x s with
      | none => rw [hs] at h; cases h
      | some k =>
        rw [hs] at h
        cases h
        obtain ⟨h1, h2⟩ := ih hs
        refine ⟨?_, List.mem_cons_of_mem _ h2⟩
        rw [List.takeWhile_cons, if_pos (by simpa using hc), byteLen, ← h1, Nat.add_comm]

theorem findByte_none {x : Char} {s : Str} (h : findByte x s = none) : x ∉ s := by
  induction s with
  | nil => simp
  | cons c s ih =>
    rw [findByte] at h
    split at h
    · cases h
    · rename_i hc
      cases hs : findByte x s with
      | none => simp [ih hs, Ne.symm hc]
      | some k => rw [hs] at h; cases h

theorem takeWhile_ne_self {x : Char} {s : Str} (h : x ∉ s) : s.takeWhile (· ≠ x) = s := by
  induction s with
  | nil => rfl
  | cons c s ih =>
    simp only [List.mem_cons, not_or] at h
    rw [List.takeWhile_cons, if_pos (by simpa using Ne.symm h.1), ih h.2]

theorem not_mem_takeWhile_ne {x : Char} (s : Str) : x ∉ s.takeWhile (· ≠ x) := by
  induction s with
  | nil => simp
  | cons c s ih =>
    rw [List.takeWhile_cons]
    split
    · rename_i hc
      have hc : c ≠ x := by simpa using hc
      simp only [List.mem_cons, not_or]
      exact ⟨Ne.symm hc, ih⟩
    · simp

theorem byteName_index (n : Str) : (ByteName.new n).index = byteLen (baseName n) := by
  unfold ByteName.new baseName
  cases h : findByte ':' n with
  | some k => exact (findByte_some h).1
  | none => simp only [Option.getD_none]; rw [takeWhile_ne_self (findByte_none h)]

theorem byteName_prefix (n : Str) : ∃ r, n = baseName n ++ r ∧ (r = [] ↔ ':' ∉ n) := by
  refine ⟨n.dropWhile (· ≠ ':'), (List.takeWhile_append_dropWhile).symm, ?_⟩
  constructor
  · intro h hm
    have := List.takeWhile_append_dropWhile (p := fun c : Char => decide (c ≠ ':')) (l := n)
    rw [h, List.append_nil] at this
    rw [← this] at hm
    exact absurd hm (not_mem_takeWhile_ne n)
  · intro h
    have := List.takeWhile_append_dropWhile (p := fun c : Char => decide (c ≠ ':')) (l := n)
    rw [takeWhile_ne_self h] at this
    simpa using this

theorem byteName_base {ε : Type} (n : Str) :
    ((ByteName.new n).base : Res ε Str) = .ok (baseName n) := by
  unfold ByteName.base
  rw [byteName_index]
  obtain ⟨r, hr, _⟩ := byteName_prefix n
  have : (ByteName.new n).name = n := rfl
  rw [this]
  have h := sliceAt_append (ε := ε) (baseName n) r
  rw [← hr] at h
  rw [h]
  rfl

theorem byteName_signature (n : Str) : (ByteName.new n).hasSignature = true ↔ ':' ∈ n := by
  unfold ByteName.hasSignature
  rw [byteName_index]
  obtain ⟨r, hr, hn⟩ := byteName_prefix n
  have : (ByteName.new n).name = n := rfl
  rw [this, decide_eq_true_iff]
  have hl := congrArg byteLen hr
  rw [byteLen_append] at hl
  rw [hl]
  cases r with
  | nil => simp [byteLen]; simpa using hn
  | cons c r =>
    have := byteLen_pos (s := c :: r) (by simp)
    constructor
    · intro _
      exact Classical.byContradiction fun hm => by simpa using hn.mpr hm
    · intro _; omega

theorem baseName_split (n : Str) : n = baseName n ∨ ∃ sig, n = baseName n ++ ':' :: sig := by
  induction n with
  | nil => exact Or.inl rfl
  | cons c s ih =>
    by_cases hc : c = ':'
    · subst hc
      exact Or.inr ⟨s, rfl⟩
    · have hb : baseName (c :: s) = c :: baseName s := by
        unfold baseName
        rw [List.takeWhile_cons, if_pos (by simpa using hc)]
      rw [hb]
      rcases ih with h | ⟨sig, h⟩
      · exact Or.inl (by rw [← h])
      · exact Or.inr ⟨sig, by rw [List.cons_append, ← h]⟩

/-! ## Indentation -/

theorem indent_split (s : Str) :
    s = List.replicate (2 * ((s.takeWhile (· = ' ')).length / 2)) ' ' ++
      s.drop ((s.takeWhile (· = ' ')).length / 2 * 2) := by
  have key : ∀ (s : Str) (k : Nat), k ≤ (s.takeWhile (· = ' ')).length →
      s = List.replicate k ' ' ++ s.drop k := by
    intro s
    induction s with
    | nil => intro k h; simp at h; subst h; rfl
    | cons c s ih =>
      intro k h
      cases k with
      | zero => rfl
      | succ k =>
        rw [List.takeWhile_cons] at h
        split at h
        · rename_i hc
          have hc : c = ' ' := by simpa using hc
          subst hc
          rw [List.replicate_succ, List.cons_append, List.drop_succ_cons,
            ← ih k (by simpa using h)]
        · simp at h
  rw [Nat.mul_comm]
  exact key s _ (by omega)

theorem indent_rest (s : Str) (rest : Str) :
    s.drop ((s.takeWhile (· = ' ')).length / 2 * 2) ≠ ' ' :: ' ' :: rest := by
  intro h
  have key : ∀ (s : Str) (k : Nat), s.drop k = ' ' :: ' ' :: rest →
      k ≤ (s.takeWhile (· = ' ')).length → k + 2 ≤ (s.takeWhile (· = ' ')).length := by
    intro s
    induction s with
    | nil => intro k h; simp at h
    | cons c s ih =>
      intro k h hk
      cases k with
      | zero =>
        rw [List.drop_zero] at h
        rw [h]
        simp
      | succ k =>
        rw [List.takeWhile_cons] at hk ⊢
        split at hk
        · rename_i hc
          rw [if_pos hc]
          have := ih k h (by simpa using hk)
          simp only [List.length_cons]
          omega
        · simp at hk
  have := key s _ h (by omega)
  omega

/-! ## Chunks -/

theorem nextChunk_of_takeChunk {ε : Type} (sec : Sec) {text : Str} {n : Nat} {t : Str} {m k : Nat}
    {r : Str}
    (h : Cursor.takeChunk (PState.policy sec) ⟨text, 0, n, n⟩ = some (t, m, Cursor.new r k)) :
    (ByteCursor.nextChunk (sec == .plan) ⟨text, 0, n, n⟩ :
      Res ε (Str × Nat × Option ByteCursor)) = .ok (t, m, ByteCursor.new r k) := by
  have hs : SamePlace ⟨text, 0, n, n⟩ ⟨text, 0, n, n⟩ := ⟨Nat.zero_le _, rfl, rfl, rfl, rfl⟩
  have hc := samePlace_chunk (ε := ε) sec hs
  rw [h] at hc
  obtain ⟨r', hn, hr⟩ := hc
  rw [hn]
  unfold Cursor.new at hr
  unfold ByteCursor.new
  by_cases he : r.isEmpty
  · rw [if_pos he] at hr ⊢
    cases r' with
    | none => rfl
    | some b => exact absurd hr (by simp)
  · rw [if_neg he] at hr ⊢
    cases r' with
    | none => exact absurd hr (by simp)
    | some b =>
      obtain ⟨_, h2, h3, h4, h5⟩ := hr
      obtain ⟨bt, be, bs, bn⟩ := b
      simp only at h2 h3 h4 h5
      subst h2 h4 h5
      rw [h3]
      rfl

end Verif
