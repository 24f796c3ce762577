import Verif.Proofs.CountedNests
/-!
# Property C69: how often a rule is tried
-/

namespace Verif
open StoreSpec AttemptSpec

set_option autoImplicit false

/-- C69: the rules written a second time with their attempts counted find the same matches. -/
theorem C69_same_parser (s : Str) :
    (Counted.type s).val = pType s ∧ (Counted.expr s).val = pExpr s ∧
    (Counted.arg s).val = pArg s ∧ (Counted.argShared s).val = pArg s :=
  ⟨Counted.val_type s, Counted.val_expr s, Counted.val_arg s, Counted.val_argShared s⟩

/-! ## Upper bounds -/

/-- C69 (types).  There are at most `2 ^ (b + 1) - 1` attempts for each character, and for the end, where
`b` is the number of opening brackets in the text.  Without brackets there are no repeated attempts. -/
theorem C69_type_attempts_partial (s : Str) :
    (Counted.type s).tries ≤ (2 ^ (s.count '<' + 1) - 1) * (s.length + 1) :=
  (Counted.typeN_fair _ (s.count '<' + 1)).all s (Nat.lt_succ_self _)

/-- C69 (expressions).  The same with opening parentheses. -/
theorem C69_expr_attempts_partial (s : Str) :
    (Counted.expr s).tries ≤ (2 ^ (s.count '(' + 1) - 1) * (s.length + 1) :=
  (Counted.exprN_fair _ (s.count '(' + 1)).all s (Nat.lt_succ_self _)

/-- C69 (arguments, as the rule is written).  The same with opening parentheses. -/
theorem C69_arg_attempts_partial (s : Str) :
    (Counted.arg s).tries ≤ (2 ^ (s.count '(' + 1) - 1) * (s.length + 1) :=
  (Counted.argN_fair _ (s.count '(' + 1)).all s (Nat.lt_succ_self _)

example : (Counted.expr cs!"if_then($0 -> f($1):i64, _ -> (1)::i64)").tries = 7 ∧
    (Counted.type cs!"map<list<i64>, struct<i8, u!point<3>>>").tries = 7 := by decide +kernel

/-- C69 (types that do not use the names of compound types).  However deep the nesting, a type none of
whose user-defined types is called `list`, `map` or `struct` takes at most one attempt for each character. -/
theorem C69_type_linear (s r : Str) (t : STy) (h : pType s = some (t, r)) (ht : Clean t) (hr : r.head? ≠ some '<') :
    (Counted.type s).tries + r.length ≤ s.length := by
  have := (Counted.typeN_clean (s.length + 1)).some s t r trivial (by rw [Counted.val_typeN]; exact h) ht hr
  rwa [Nat.one_mul, Nat.one_mul] at this

/-- C69: a text that is not a type is given up after one attempt. -/
theorem C69_type_rejected (s : Str) (h : pType s = none) : (Counted.type s).tries ≤ 1 :=
  (Counted.typeN_clean (s.length + 1)).none s trivial (by rw [Counted.val_typeN]; exact h)

example : Clean (.map .required (.simple cs!"i64" .required)
    (.user cs!"point" none none .required (some [.ty (.list .nullable (.simple cs!"i8" .required))]))) :=
  .map .simple (.user (by decide) (by rintro _ ⟨⟩ t ht; simp at ht; subst ht; exact .list .simple))

/-- C69 (arguments, with the common beginning of two alternatives shared as pest's code generator does it).
However deep the nesting, there are at most as many attempts as characters, and one for the end. -/
theorem C69_arg_linear (s : Str) : (Counted.argShared s).tries ≤ s.length + 1 := by
  have := (Counted.argSharedN_fair (s.length + 1)).all s trivial
  rwa [Nat.one_mul] at this

/-! ## Lower bounds -/

theorem Out.s_append (a b : Str) : Out.s a ++ Out.s b = Out.s (a ++ b) := rfl

theorem length_nestTy (d : Nat) : (nestTy d).length = 11 * d + 3 := by
  induction d with
  | zero => rfl
  | succ d ih => simp [nestTy, ih]; omega

theorem length_nestIf (d : Nat) : (nestIf d).length = 13 * d + 2 := by
  induction d with
  | zero => rfl
  | succ d ih => simp [nestIf, ih]; omega

theorem length_ifs (d : Nat) : (ifs d).length = 8 * d := by
  induction d with
  | zero => rfl
  | succ d ih => simp [ifs, ih]; omega

/-- C69 fails for types: with a declared type named `list`, the text written for a type of nesting `d` has
`11 * d + 3` characters, it is read back, and reading it tries the rule `3 * 2 ^ d - 2` times. -/
theorem C69_type_exponential (d : Nat) : let h := [Op.urn cs!"u" 1, .ext .type 1 5 cs!"list"]
    textTy (run h) .default (nestedTy d) = .s (nestTy d) ∧ (nestTy d).length = 11 * d + 3 ∧
    (∃ t, pType (nestTy d) = some (t, []) ∧ convTy (run h) t = .ok (nestedTy d)) ∧
    (Counted.type (nestTy d)).tries = 3 * 2 ^ d - 2 := by
  intro h
  have ht : ∀ d, textTy (run h) .default (nestedTy d) = .s (nestTy d) := by
    intro d
    induction d with
    | zero => rfl
    | succ d ih =>
      show textUser (run h) .default 5 .required 0 [textTy (run h) .default (nestedTy d), .s cs!"i64"] = _
      rw [ih]
      have ha : textAnchor (run h) .default .type 5 = .s cs!"list" := by rfl
      simp only [textUser, textifyType, ha]
      simp [textNul, textVariation, textParamList, Out.sep, nestTy, Out.s_append]
  have hc : ∀ d, convTy (run h) (Counted.nestSTy d) = .ok (nestedTy d) := by
    intro d
    induction d with
    | zero => rfl
    | succ d ih =>
      simp only [Counted.nestSTy, convTy, convParams, convParam, ih]
      rfl
  have hn := Counted.typeN_nest d (nestTy d).length (by rw [length_nestTy]; omega) [] (by simp) (NextNot.nil _)
  rw [List.append_nil] at hn
  have hv := Counted.val_type (nestTy d)
  unfold Counted.type at hv ⊢
  rw [hn] at hv ⊢
  exact ⟨ht d, length_nestTy d, ⟨_, hv.symm, hc d⟩, rfl⟩

/-- C69 fails for expressions: with a declared function named `if_then`, the text written for calls of
nesting `d` has `13 * d + 2` characters, it is read back, and reading it tries the rule
`2 ^ (d + 1) - 1` times. -/
theorem C69_expr_exponential [UTab] [FTab] (d : Nat) : let h := [Op.urn cs!"u" 1, .ext .function 1 7 cs!"if_then"]
    textExpr (run h) .default (nestedCall d) = .s (nestIf d) ∧ (nestIf d).length = 13 * d + 2 ∧
    (∃ e, pExpr (nestIf d) = some (e, []) ∧ convExpr (run h) e = .ok (nestedCall d)) ∧
    (Counted.expr (nestIf d)).tries = 2 ^ (d + 1) - 1 := by
  intro h
  have ht : ∀ d, textExpr (run h) .default (nestedCall d) = .s (nestIf d) := by
    intro d
    induction d with
    | zero =>
      show Out.s (cs!"$" ++ decInt 0) = _
      rw [show decInt 0 = cs!"0" by decide +kernel]
      rfl
    | succ d ih =>
      show textInvocation (run h) .default 7 [textExpr (run h) .default (nestedCall d)] [] ++ .s cs!":i64" = _
      rw [ih]
      have ha : textAnchor (run h) .default .function 7 = .s cs!"if_then" := by rfl
      simp only [textInvocation, ha]
      simp [Out.sep, nestIf, Out.s_append]
  have hc : ∀ d, convExpr (run h) (Counted.nestSIf d) = .ok (nestedCall d) := by
    intro d
    induction d with
    | zero => rfl
    | succ d ih =>
      simp only [Counted.nestSIf, convExpr, convArgs, ih]
      rfl
  have hn := Counted.exprN_nest d (nestIf d).length (by rw [length_nestIf]; omega) [] (by simp) (NextNot.nil _)
  rw [List.append_nil] at hn
  have hv := Counted.val_expr (nestIf d)
  unfold Counted.expr at hv ⊢
  rw [hn] at hv ⊢
  exact ⟨ht d, length_nestIf d, ⟨_, hv.symm, hc d⟩, rfl⟩

/-- C69 fails for texts that are rejected: `if_then(` written `d` times is no expression, and finding
that out tries the rule `2 ^ (d + 1) - 1` times. -/
theorem C69_rejected_exponential (d : Nat) : (ifs d).length = 8 * d ∧ pExpr (ifs d) = none ∧
    (Counted.expr (ifs d)).tries = 2 ^ (d + 1) - 1 := by
  have hn := Counted.exprN_ifs d (ifs d).length (by rw [length_ifs]; omega)
  have hv := Counted.val_expr (ifs d)
  unfold Counted.expr at hv ⊢
  rw [hn] at hv ⊢
  exact ⟨length_ifs d, hv.symm, rfl⟩

/-- C69: without sharing the common beginning, `d` opening parentheses would be tried as an argument
`2 ^ (d + 1) - 1` times. -/
theorem C69_arg_as_written (d : Nat) : pArg (List.replicate d '(') = none ∧
    (Counted.arg (List.replicate d '(')).tries = 2 ^ (d + 1) - 1 := by
  have hn := Counted.argN_parens d (List.replicate d '(').length (by rw [List.length_replicate]; omega)
  have hv := Counted.val_arg (List.replicate d '(')
  unfold Counted.arg at hv ⊢
  rw [hn] at hv ⊢
  exact ⟨hv.symm, rfl⟩

/-! ## No polynomial is a bound -/

theorem pow_beats (k : Nat) : ∀ c, ∃ N, ∀ d, N ≤ d → c * (d + 1) ^ k ≤ 2 ^ d := by
  induction k with
  | zero =>
    intro c
    exact ⟨c, fun d h => by
      rw [Nat.pow_zero, Nat.mul_one]
      exact Nat.le_of_lt (Nat.lt_of_lt_of_le (Nat.lt_two_pow_self (n := c)) (Nat.pow_le_pow_right (by decide) h))⟩
  | succ k ih =>
    intro c
    obtain ⟨N, hN⟩ := ih (c * 2 ^ (k + 1))
    refine ⟨2 * N, fun d h => ?_⟩
    have h1 : d + 1 ≤ 2 * (d / 2 + 1) := by omega
    have h2 : (d + 1) ^ (k + 1) ≤ 2 ^ (k + 1) * (d / 2 + 1) ^ (k + 1) := by
      rw [← Nat.mul_pow]
      exact Nat.pow_le_pow_left h1 _
    have h3 := hN (d / 2) (by omega)
    have h4 : d / 2 + 1 ≤ 2 ^ (d / 2) := Nat.lt_two_pow_self
    calc c * (d + 1) ^ (k + 1) ≤ c * (2 ^ (k + 1) * (d / 2 + 1) ^ (k + 1)) := Nat.mul_le_mul_left _ h2
      _ = (c * 2 ^ (k + 1) * (d / 2 + 1) ^ k) * (d / 2 + 1) := by
        rw [Nat.pow_succ (d / 2 + 1)]; simp only [Nat.mul_assoc]
      _ ≤ 2 ^ (d / 2) * 2 ^ (d / 2) := Nat.mul_le_mul h3 h4
      _ = 2 ^ (d / 2 + d / 2) := (Nat.pow_add _ _ _).symm
      _ ≤ 2 ^ d := Nat.pow_le_pow_right (by decide) (by omega)

/-- C69 fails as stated: whatever polynomial is proposed, some expression text that is accepted takes more
attempts than it allows. -/
theorem C69_no_polynomial_bound (c k : Nat) : ∃ s e, pExpr s = some (e, []) ∧
    c * (s.length + 1) ^ k < (Counted.expr s).tries := by
  obtain ⟨N, hN⟩ := pow_beats k (c * 13 ^ k + 1)
  have hn := Counted.exprN_nest (N + 1) (nestIf (N + 1)).length (by rw [length_nestIf]; omega) [] (by simp) (NextNot.nil _)
  rw [List.append_nil] at hn
  have hv := Counted.val_expr (nestIf (N + 1))
  unfold Counted.expr at hv
  rw [hn] at hv
  refine ⟨nestIf (N + 1), _, hv.symm, ?_⟩
  unfold Counted.expr
  rw [hn]
  dsimp only
  have h1 := hN (N + 1) (by omega)
  have h2 : c * ((nestIf (N + 1)).length + 1) ^ k ≤ c * 13 ^ k * (N + 1 + 1) ^ k := by
    rw [Nat.mul_assoc, ← Nat.mul_pow]
    exact Nat.mul_le_mul_left _ (Nat.pow_le_pow_left (by rw [length_nestIf]; omega) _)
  rw [Nat.add_mul, Nat.one_mul] at h1
  have h3 : 0 < (N + 1 + 1) ^ k := Nat.pow_pos (by omega)
  rw [Nat.pow_succ]
  omega

end Verif
