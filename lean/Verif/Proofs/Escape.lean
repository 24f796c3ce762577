import Verif.Spec.Text
import Verif.Proofs.Peg

namespace Verif
open TextSpec

theorem qbody_append (q : Char) (a b : Str) (ha : QBody q a) (hb : QBody q b) : QBody q (a ++ b) := by
  fun_induction QBody q a with
  | case1 => exact hb
  | case2 => exact ha.elim
  | case3 c s ih => simp only [List.cons_append]; unfold QBody; exact ih ha
  | case4 c s h1 h2 ih =>
    have hc : c ≠ '\\' := by
      rintro rfl
      cases s with
      | nil => exact h1 rfl rfl
      | cons d s => exact h2 d s rfl rfl
    simp only [List.cons_append]; unfold QBody
    split
    · simp at *
    · simp at *; exact absurd ‹c = _ ∧ _›.1 hc
    · simp at *; exact absurd ‹c = _ ∧ _›.1 hc
    · rename_i heq; cases heq; exact ⟨ha.1, ih ha.2⟩

theorem unescape_append_char (c : Char) (s : Str) (hc : c ≠ '\\') : unescape (c :: s) = c :: unescape s := by
  rw [unescape]
  · intro h; exact absurd h hc
  · intro _ _ h; exact absurd h hc

theorem unescape_append_plain (a s : Str) (ha : '\\' ∉ a) : unescape (a ++ s) = a ++ unescape s := by
  induction a with
  | nil => rfl
  | cons c a ih =>
    simp only [List.mem_cons, not_or] at ha
    rw [List.cons_append, unescape_append_char _ _ (Ne.symm ha.1), ih ha.2]; rfl

theorem toNat_hexChar {n : Nat} (h : n < 16) : (hexChar n).toNat = if n < 10 then 48 + n else 87 + n := by
  rcases n with _|_|_|_|_|_|_|_|_|_|_|_|_|_|_|_|n <;> first | rfl | omega

theorem hex_chars (n : Nat) : ∀ c ∈ hex n, 48 ≤ c.toNat ∧ c.toNat ≤ 102 ∧ c ≠ '\\' := by
  have key : ∀ m, m < 16 → 48 ≤ (hexChar m).toNat ∧ (hexChar m).toNat ≤ 102 ∧ hexChar m ≠ '\\' := by
    intro m hm
    have h := toNat_hexChar hm
    refine ⟨?_, ?_, ?_⟩
    · rw [h]; split <;> omega
    · rw [h]; split <;> omega
    · intro hh
      rw [hh] at h
      have : ('\\' : Char).toNat = 92 := rfl
      rw [this] at h
      split at h <;> omega
  fun_induction hex n with
  | case1 n h => simp only [List.mem_singleton]; rintro c rfl; exact key n h
  | case2 n h ih =>
    intro c hc
    simp only [List.mem_append, List.mem_singleton] at hc
    rcases hc with hc | rfl
    · exact ih c hc
    · exact key _ (Nat.mod_lt _ (by omega))

/-- What the reader makes of the escape of one character. -/
def readBack [UTab] (first : Bool) (c : Char) : Str :=
  if c = '\x00' then cs!"0"
  else if c = '\t' ∨ c = '\r' ∨ c = '\n' ∨ c = '\\' ∨ c = '"' ∨ c = '\'' then [c]
  else if first && UTab.graphemeExt c then cs!"u{" ++ hex c.toNat ++ cs!"}"
  else if UTab.printable c then [c]
  else cs!"u{" ++ hex c.toNat ++ cs!"}"

theorem unescape_escUnicode (c : Char) (s : Str) :
    unescape (escUnicode c ++ s) = cs!"u{" ++ hex c.toNat ++ cs!"}" ++ unescape s := by
  have h1 : escUnicode c ++ s = '\\' :: 'u' :: (('{' :: hex c.toNat ++ ['}']) ++ s) := by
    simp [escUnicode]
  rw [h1, unescape]
  rw [unescape_append_plain]
  · simp
  · intro hh
    simp only [List.cons_append, List.mem_cons, List.mem_append, List.not_mem_nil, or_false] at hh
    rcases hh with h | h | h
    · simp at h
    · exact (hex_chars _ _ h).2.2 rfl
    · simp at h

theorem unescape_escChar [UTab] (first : Bool) (c : Char) (s : Str) :
    unescape (escChar first c ++ s) = readBack first c ++ unescape s := by
  unfold escChar readBack
  by_cases h0 : c = '\x00'
  · subst h0; simp [unescape]
  rw [if_neg h0, if_neg h0]
  by_cases h1 : c = '\t'
  · subst h1; simp [unescape]
  rw [if_neg h1]
  by_cases h2 : c = '\r'
  · subst h2; simp [unescape]
  rw [if_neg h2]
  by_cases h3 : c = '\n'
  · subst h3; simp [unescape]
  rw [if_neg h3]
  by_cases h4 : c = '\\'
  · subst h4; simp [unescape]
  rw [if_neg h4]
  by_cases h5 : c = '"'
  · subst h5; simp [unescape]
  rw [if_neg h5]
  by_cases h6 : c = '\''
  · subst h6; simp [unescape]
  have hn : ¬ (c = '\t' ∨ c = '\r' ∨ c = '\n' ∨ c = '\\' ∨ c = '"' ∨ c = '\'') := by
    rintro (h | h | h | h | h | h) <;> contradiction
  rw [if_neg h6, if_neg hn]
  by_cases h7 : (first && UTab.graphemeExt c) = true
  · rw [if_pos h7, if_pos h7, unescape_escUnicode]
  rw [if_neg h7, if_neg h7]
  by_cases h8 : UTab.printable c = true
  · rw [if_pos h8, if_pos h8]; simp [unescape_append_char c s h4]
  · rw [if_neg h8, if_neg h8, unescape_escUnicode]

theorem unescape_flatMap [UTab] (s t : Str) :
    unescape (s.flatMap (escChar false) ++ t) = s.flatMap (readBack false) ++ unescape t := by
  induction s with
  | nil => rfl
  | cons c s ih =>
    simp only [List.flatMap_cons, List.append_assoc, unescape_escChar, ih]

theorem unescape_escape [UTab] (s : Str) :
    unescape (escape s) = match s with
      | [] => []
      | c :: s => readBack true c ++ s.flatMap (readBack false) := by
  cases s with
  | nil => rfl
  | cons c s =>
    simp only [escape]
    rw [unescape_escChar]
    have := unescape_flatMap s []
    simp only [List.append_nil, unescape] at this
    rw [this]

theorem readBack_eq_iff [UTab] (first : Bool) (c : Char) : readBack first c = [c] ↔ SpellChar first c := by
  unfold readBack SpellChar
  by_cases h0 : c = '\x00'
  · subst h0; simp [Special]
  rw [if_neg h0]
  by_cases h1 : c = '\t' ∨ c = '\r' ∨ c = '\n' ∨ c = '\\' ∨ c = '"' ∨ c = '\''
  · rw [if_pos h1]; simp only [true_iff]; left; exact h1
  rw [if_neg h1]
  have hs : ¬ Special c := h1
  by_cases h2 : (first && UTab.graphemeExt c) = true
  · rw [if_pos h2]
    simp only [Bool.and_eq_true] at h2
    simp [hs, h2.1, h2.2]
  rw [if_neg h2]
  by_cases h3 : UTab.printable c = true
  · rw [if_pos h3]
    simp only [Bool.and_eq_true, not_and, Bool.not_eq_true] at h2
    simp only [true_iff]; right; exact ⟨h0, h3, h2⟩
  · rw [if_neg h3]
    simp [hs, h3]

theorem readBack_len [UTab] (first : Bool) (c : Char) : 1 ≤ (readBack first c).length := by
  unfold readBack
  split
  · simp
  split
  · simp
  split
  · simp
  split <;> simp

theorem flatMap_eq_self [UTab] (s : Str) (h : s.flatMap (readBack false) = s) :
    ∀ d ∈ s, readBack false d = [d] := by
  have hlen : ∀ t : Str, t.length ≤ (t.flatMap (readBack false)).length := by
    intro t
    induction t with
    | nil => simp
    | cons c t ih =>
      have := readBack_len false c
      simp only [List.flatMap_cons, List.length_append, List.length_cons]; omega
  induction s with
  | nil => simp
  | cons c s ih =>
    simp only [List.flatMap_cons] at h
    have h1 := readBack_len false c
    have h2 := hlen s
    have h3 := congrArg List.length h
    simp only [List.length_append, List.length_cons] at h3
    have h4 : (readBack false c).length = 1 := by omega
    obtain ⟨x, hx⟩ := List.length_eq_one_iff.1 h4
    rw [hx] at h
    simp only [List.cons_append, List.nil_append, List.cons.injEq] at h
    intro d hd
    simp only [List.mem_cons] at hd
    rcases hd with rfl | hd
    · rw [hx, h.1]
    · exact ih h.2 d hd

/-- The escape of a string reads back as the string exactly for spellable strings. -/
theorem unescape_escape_iff [UTab] (s : Str) : unescape (escape s) = s ↔ Spellable s := by
  rw [unescape_escape]
  cases s with
  | nil => simp [Spellable]
  | cons c s =>
    simp only [Spellable]
    constructor
    · intro h
      have h1 := readBack_len true c
      have h2 : s.length ≤ (s.flatMap (readBack false)).length := by
        clear h
        induction s with
        | nil => simp
        | cons c s ih =>
          have := readBack_len false c
          simp only [List.flatMap_cons, List.length_append, List.length_cons]; omega
      have h3 := congrArg List.length h
      simp only [List.length_append, List.length_cons] at h3
      have h4 : (readBack true c).length = 1 := by omega
      obtain ⟨x, hx⟩ := List.length_eq_one_iff.1 h4
      rw [hx] at h
      simp only [List.cons_append, List.nil_append, List.cons.injEq] at h
      refine ⟨(readBack_eq_iff true c).1 (by rw [hx, h.1]), ?_⟩
      intro d hd
      exact (readBack_eq_iff false d).1 (flatMap_eq_self s h.2 d hd)
    · rintro ⟨h1, h2⟩
      rw [(readBack_eq_iff true c).2 h1]
      have : s.flatMap (readBack false) = s := by
        clear h1
        induction s with
        | nil => rfl
        | cons d s ih =>
          rw [List.flatMap_cons, (readBack_eq_iff false d).2 (h2 d (by simp)),
            ih (fun e he => h2 e (by simp [he]))]
          rfl
      rw [this]; rfl

theorem qbody_escUnicode (q : Char) (hq : q = '\'' ∨ q = '"') (c : Char) : QBody q (escUnicode c) := by
  have h1 : escUnicode c = '\\' :: 'u' :: ('{' :: hex c.toNat ++ ['}']) := by simp [escUnicode]
  rw [h1]
  unfold QBody
  have plain : ∀ a : Str, (∀ d ∈ a, d ≠ '\\' ∧ d ≠ q) → QBody q a := by
    intro a ha
    induction a with
    | nil => trivial
    | cons d a ih =>
      have hd := ha d (by simp)
      unfold QBody
      split
      · trivial
      · rename_i heq; simp at heq; exact absurd heq.1 hd.1
      · rename_i heq; simp at heq; exact absurd heq.1 hd.1
      · rename_i heq; cases heq; exact ⟨hd.2, ih (fun e he => ha e (by simp [he]))⟩
  apply plain
  intro d hd
  simp only [List.cons_append, List.mem_cons, List.mem_append, List.not_mem_nil, or_false] at hd
  rcases hd with rfl | hd | rfl
  · rcases hq with rfl | rfl <;> simp
  · have := hex_chars _ _ hd
    refine ⟨this.2.2, ?_⟩
    rintro rfl
    have h34 : ('"' : Char).toNat = 34 := rfl
    have h39 : ('\'' : Char).toNat = 39 := rfl
    rcases hq with rfl | rfl <;> omega
  · rcases hq with rfl | rfl <;> simp

theorem qbody_escChar [UTab] (q : Char) (hq : q = '\'' ∨ q = '"') (first : Bool) (c : Char) :
    QBody q (escChar first c) := by
  unfold escChar
  by_cases h0 : c = '\x00'
  · rw [if_pos h0]; trivial
  rw [if_neg h0]
  by_cases h1 : c = '\t'
  · rw [if_pos h1]; trivial
  rw [if_neg h1]
  by_cases h2 : c = '\r'
  · rw [if_pos h2]; trivial
  rw [if_neg h2]
  by_cases h3 : c = '\n'
  · rw [if_pos h3]; trivial
  rw [if_neg h3]
  by_cases h4 : c = '\\'
  · rw [if_pos h4]; trivial
  rw [if_neg h4]
  by_cases h5 : c = '"'
  · rw [if_pos h5]; trivial
  rw [if_neg h5]
  by_cases h6 : c = '\''
  · rw [if_pos h6]; trivial
  rw [if_neg h6]
  split
  · exact qbody_escUnicode q hq c
  split
  · unfold QBody
    split
    · trivial
    · rename_i h; simp at h; exact absurd h h4
    · rename_i h; simp at h
    · rename_i h; simp at h; obtain ⟨rfl, rfl⟩ := h
      refine ⟨?_, trivial⟩
      rcases hq with rfl | rfl
      · exact h6
      · exact h5
  · exact qbody_escUnicode q hq c

theorem qbody_escape [UTab] (q : Char) (hq : q = '\'' ∨ q = '"') (s : Str) : QBody q (escape s) := by
  cases s with
  | nil => trivial
  | cons c s =>
    simp only [escape]
    apply qbody_append _ _ _ (qbody_escChar q hq true c)
    induction s with
    | nil => trivial
    | cons d s ih => rw [List.flatMap_cons]; exact qbody_append _ _ _ (qbody_escChar q hq false d) ih

theorem pString_showString [UTab] (s rest : Str) :
    pString (showString s ++ rest) = some (unescape (escape s), rest) := by
  have : showString s ++ rest = '\'' :: (escape s ++ '\'' :: rest) := by simp [showString]
  rw [this]
  simp [pString, pQuoted_body '\'' (by decide) _ rest (qbody_escape '\'' (Or.inl rfl) s)]

theorem pQuotedName_quoted [UTab] (s rest : Str) :
    pQuotedName (cs!"\"" ++ escape s ++ cs!"\"" ++ rest) = some (unescape (escape s), rest) := by
  have : cs!"\"" ++ escape s ++ cs!"\"" ++ rest = '"' :: (escape s ++ '"' :: rest) := by simp
  rw [this]
  simp [pQuotedName, pQuoted_body '"' (by decide) _ rest (qbody_escape '"' (Or.inr rfl) s)]

theorem isIdentifier_iff (s : Str) : isIdentifier s = true ↔
    ∃ c t, s = c :: t ∧ isAlpha c = true ∧ ∀ d ∈ t, isIdentChar d = true := by
  cases s with
  | nil => simp [isIdentifier]
  | cons c t =>
    simp only [isIdentifier, Bool.and_eq_true, List.all_eq_true]
    constructor
    · rintro ⟨h1, h2⟩; exact ⟨c, t, rfl, h1, h2⟩
    · rintro ⟨_, _, h, h1, h2⟩; cases h; exact ⟨h1, h2⟩

/-- What a printed name reads back as. -/
theorem pName_showName [UTab] (s rest : Str) (hr : NextNot isIdentChar rest) :
    pName (showName s ++ rest) =
      some (if isIdentifier s then s else unescape (escape s), rest) := by
  unfold showName
  by_cases h : isIdentifier s = true
  · rw [if_pos h, if_pos h]
    obtain ⟨c, t, rfl, hc, ht⟩ := (isIdentifier_iff s).1 h
    unfold pName
    rw [pIdent_append t rest c hc ht hr]
  · rw [if_neg h, if_neg h]
    unfold pName
    have : pIdent (cs!"\"" ++ escape s ++ cs!"\"" ++ rest) = none := by
      simp [pIdent, isAlpha, isUpper, isLower]
    rw [this]
    exact pQuotedName_quoted s rest

end Verif
