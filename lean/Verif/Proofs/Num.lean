import Verif.Model.Num

namespace Verif

theorem toNat_digitChar {n : Nat} (h : n < 10) : (digitChar n).toNat = 48 + n := by
  rcases n with _|_|_|_|_|_|_|_|_|_|n <;> first | rfl | omega

theorem isDigit_digitChar {n : Nat} (h : n < 10) : isDigit (digitChar n) = true := by
  simp only [isDigit, toNat_digitChar h, Bool.and_eq_true, decide_eq_true_eq]; omega

theorem dec_ne_nil (n : Nat) : dec n ≠ [] := by
  unfold dec; split <;> simp

theorem dec_all_digits (n : Nat) : ∀ c ∈ dec n, isDigit c = true := by
  fun_induction dec n with
  | case1 n h => simp only [List.mem_singleton]; rintro c rfl; exact isDigit_digitChar h
  | case2 n h ih =>
    intro c hc
    simp only [List.mem_append, List.mem_singleton] at hc
    rcases hc with hc | rfl
    · exact ih c hc
    · exact isDigit_digitChar (Nat.mod_lt _ (by omega))

theorem decVal_append_single (ds : Str) (c : Char) :
    decVal (ds ++ [c]) = decVal ds * 10 + (c.toNat - 48) := by
  simp [decVal]

theorem decVal_dec (n : Nat) : decVal (dec n) = n := by
  fun_induction dec n with
  | case1 n h => simp [decVal, toNat_digitChar h]
  | case2 n h ih =>
    rw [decVal_append_single, ih, toNat_digitChar (Nat.mod_lt _ (by omega))]
    omega

theorem IntTok.toInt_ofInt (i : Int) : (IntTok.ofInt i).toInt = i := by
  unfold IntTok.ofInt IntTok.toInt
  by_cases h : i < 0
  · simp [h]; omega
  · simp [h]; omega

theorem parseU32_dec (n : Nat) (h : n < 2 ^ 32) : parseU32 (dec n) = some n := by
  have hd := dec_all_digits n
  have hne := dec_ne_nil n
  have hm : stripPlus (dec n) = dec n := by
    unfold stripPlus
    split
    · rename_i ds heq
      have := hd '+' (by rw [heq]; simp)
      simp [isDigit] at this
    · rfl
  unfold parseU32
  simp only [hm]
  rw [if_pos, decVal_dec]
  refine ⟨hne, ?_, ?_⟩
  · rw [List.all_eq_true]; exact hd
  · rw [decVal_dec]; exact h

end Verif
