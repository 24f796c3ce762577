import Verif.Proofs.Escape
/-!
# Properties C01, C02, C03: strings, names, integers
-/

namespace Verif
open TextSpec

/-! ## C01: string values

Full statement (false, see `C01_string_round_trip_fails`): for every string `s`,
`pString (showString s ++ rest) = some (s, rest)`. -/

/-- C01.  A printed string literal always reads back as some string and leaves the following text
alone; the string is the original exactly when all its characters are spellable. -/
theorem C01_string_round_trip_iff [UTab] (s rest : Str) :
    (∃ t, pString (showString s ++ rest) = some (t, rest)) ∧
    (pString (showString s ++ rest) = some (s, rest) ↔ Spellable s) := by
  rw [pString_showString]
  refine ⟨⟨_, rfl⟩, ?_⟩
  simp [unescape_escape_iff]

/-- C01, restricted to spellable strings (missing: NUL, unprintable characters, a leading
combining character). -/
theorem C01_string_round_trip_partial [UTab] (s rest : Str) (h : Spellable s) :
    pString (showString s ++ rest) = some (s, rest) :=
  (C01_string_round_trip_iff s rest).2.2 h

/-- C01 is false of the code: whatever the Unicode tables, a NUL character comes back as the
digit zero. -/
theorem C01_string_round_trip_fails [UTab] :
    pString (showString ['\x00']) = some (['0'], []) := by
  have := pString_showString ['\x00'] []
  rw [List.append_nil] at this
  rw [this]
  simp [escape, escChar, unescape]

-- quotes, backslashes and line breaks survive with any tables
example [UTab] : Spellable ['\'', '\n', '\\', '"', '\t'] := by
  refine ⟨Or.inl (by simp [Special]), ?_⟩
  intro d hd
  left
  simp only [List.mem_cons, List.not_mem_nil, or_false] at hd
  simp only [Special]
  rcases hd with rfl | rfl | rfl | rfl <;> simp

/-! ## C02: names -/

/-- C02.  A printed name followed by anything but an identifier character reads back as a name;
it is the original name exactly when it is an identifier or spellable. -/
theorem C02_name_round_trip_iff [UTab] (s rest : Str) (hr : NextNot isIdentChar rest) :
    (∃ t, pName (showName s ++ rest) = some (t, rest)) ∧
    (pName (showName s ++ rest) = some (s, rest) ↔ (isIdentifier s = true ∨ Spellable s)) := by
  rw [pName_showName s rest hr]
  refine ⟨⟨_, rfl⟩, ?_⟩
  by_cases h : isIdentifier s = true
  · simp [h]
  · simp [h, unescape_escape_iff]

/-- C02, restricted to spellable names. -/
theorem C02_name_round_trip_partial [UTab] (s rest : Str) (hr : NextNot isIdentChar rest)
    (h : isIdentifier s = true ∨ Spellable s) : pName (showName s ++ rest) = some (s, rest) :=
  (C02_name_round_trip_iff s rest hr).2.2 h

/-- C02.  The empty name is spellable (it prints as `""`). -/
theorem C02_empty_name [UTab] (rest : Str) : pName (showName [] ++ rest) = some ([], rest) := by
  have h : pQuoted '"' ('"' :: rest) = some ([], rest) := pQuoted_body '"' (by decide) [] rest trivial
  simp [showName, isIdentifier, escape, pName, pIdent, isAlpha, isUpper, isLower, pQuotedName,
    h, unescape]

/-- C02 is false of the code: a name made of one NUL character comes back as `0`. -/
theorem C02_name_round_trip_fails [UTab] : pName (showName ['\x00']) = some (['0'], []) := by
  have := pName_showName ['\x00'] [] (NextNot.nil _)
  rw [List.append_nil] at this
  rw [this]
  simp [escape, escChar, unescape, isIdentifier, isAlpha, isUpper, isLower]

/-- C02.  Distinct spellable names are printed differently. -/
theorem C02_names_distinct [UTab] (s t : Str) (hs : isIdentifier s = true ∨ Spellable s)
    (ht : isIdentifier t = true ∨ Spellable t) (h : showName s = showName t) : s = t := by
  have h1 := C02_name_round_trip_partial s [] (NextNot.nil _) hs
  have h2 := C02_name_round_trip_partial t [] (NextNot.nil _) ht
  rw [h, h2] at h1
  simpa using h1.symm

example : isIdentifier cs!"order_id2" = true := by decide
example : NextNot isIdentChar cs!":i64, x" := by simp [NextNot]; decide

/-! ## C03: integers -/

/-- C03.  Every integer printed and followed by anything but a digit is read back as the token of
that integer; the token converts back to the integer for each target type it fits. -/
theorem C03_integer_round_trip (i : Int) (rest : Str) (hr : NextNot isDigit rest) :
    ∃ t, pInteger (decInt i ++ rest) = some (t, rest) ∧ t.toInt = i ∧
      (-(2 ^ 63 : Int) ≤ i → i < 2 ^ 63 → t.toI64 = some i) ∧
      (-(2 ^ 31 : Int) ≤ i → i < 2 ^ 31 → t.toI32 = some i) ∧
      (∀ n : Nat, i = n → n < 2 ^ 32 → t.toU32 = some n) := by
  refine ⟨_, pInteger_decInt i rest hr, IntTok.toInt_ofInt i, ?_, ?_, ?_⟩
  · intro h1 h2; unfold IntTok.toI64; rw [IntTok.toInt_ofInt, if_pos ⟨h1, h2⟩]
  · intro h1 h2; unfold IntTok.toI32; rw [IntTok.toInt_ofInt, if_pos ⟨h1, h2⟩]
  · rintro n rfl h
    have hneg : ¬ ((n : Int) < 0) := by omega
    unfold IntTok.toU32 IntTok.ofInt
    simp only [hneg, decide_false, Bool.false_eq_true, if_false, Int.natAbs_natCast]
    rw [if_pos h]

/-- C03.  Conversions never change a value: whatever token is read, an accepted conversion is the
number the token denotes, and a number that does not fit is refused. -/
theorem C03_conversion_exact (t : IntTok) :
    (∀ i, t.toI64 = some i ↔ t.toInt = i ∧ -(2 ^ 63 : Int) ≤ i ∧ i < 2 ^ 63) ∧
    (∀ i, t.toI32 = some i ↔ t.toInt = i ∧ -(2 ^ 31 : Int) ≤ i ∧ i < 2 ^ 31) ∧
    (∀ n, t.toU32 = some n → t.toInt = (n : Int) ∧ n < 2 ^ 32) := by
  refine ⟨?_, ?_, ?_⟩
  · intro i; unfold IntTok.toI64; split
    · rename_i h; simp only [Option.some.injEq]; constructor
      · rintro rfl; exact ⟨rfl, h⟩
      · exact fun h => h.1
    · rename_i h; simp only [reduceCtorEq, false_iff]; rintro ⟨rfl, h'⟩; exact h h'
  · intro i; unfold IntTok.toI32; split
    · rename_i h; simp only [Option.some.injEq]; constructor
      · rintro rfl; exact ⟨rfl, h⟩
      · exact fun h => h.1
    · rename_i h; simp only [reduceCtorEq, false_iff]; rintro ⟨rfl, h'⟩; exact h h'
  · intro n h
    unfold IntTok.toU32 at h
    split at h
    · cases h
    · rename_i hn
      split at h
      · rename_i hv
        cases h
        simp only [Bool.not_eq_true] at hn
        simp [IntTok.toInt, hn, hv]
      · cases h

example : pInteger (decInt (-42) ++ cs!", $1") = some (⟨true, 42⟩, cs!", $1") :=
  pInteger_decInt (-42) _ (by simp [NextNot]; decide)

end Verif
