import Verif.Proofs.CountedTypes
import Verif.Proofs.CountedExprs
import Verif.Proofs.CountedShared
/-!
# Families of texts with exactly known numbers of attempts
-/

set_option autoImplicit false
set_option linter.unusedSectionVars false

namespace Verif
open StoreSpec Grammar AttemptSpec

namespace Counted

theorem double (d : Nat) : 1 + (2 ^ (d + 1) - 1) + (2 ^ (d + 1) - 1) = 2 ^ (d + 1 + 1) - 1 := by
  have := Nat.one_le_two_pow (n := d + 1)
  rw [Nat.pow_succ 2 (d + 1)]
  omega

theorem double3 (d : Nat) : 1 + (3 * 2 ^ d - 2) + (3 * 2 ^ d - 2) + 1 = 3 * 2 ^ (d + 1) - 2 := by
  have := Nat.one_le_two_pow (n := d)
  rw [Nat.pow_succ 2 d]
  omega

/-! ### Opening parentheses -/

theorem lit_other {c d : Char} {k s : Str} (h : c ≠ d) : lit (c :: k) (d :: s) = none := by
  simp [lit, h]

theorem pLiteral_other {c : Char} {s : Str} (hv : valueHead c = false) (h1 : c ≠ 't') (h2 : c ≠ 'f') (h3 : c ≠ 'n') :
    pLiteral (c :: s) = none := by
  unfold pLiteral
  cases hx : pValue (c :: s) with
  | none => rfl
  | some x =>
    exfalso
    rcases pValue_head (v := x.1) (r := x.2) hx with ⟨d, t, h, hc⟩ | h | h | h
    · simp only [List.cons.injEq] at h; rw [← h.1, hv] at hc; cases hc
    · simp at h; exact h1 h.1
    · simp at h; exact h2 h.1
    · simp at h; exact h3 h.1

theorem pValue_paren (s : Str) : pValue ('(' :: s) = none := by
  cases hx : pValue ('(' :: s) with
  | none => rfl
  | some x =>
    exfalso
    rcases pValue_head (v := x.1) (r := x.2) hx with ⟨d, t, h, hc⟩ | h | h | h
    · simp only [List.cons.injEq] at h; rw [← h.1] at hc; cases hc
    all_goals simp at h

/-- Nothing but opening parentheses is no expression. -/
theorem pExprN_parens : ∀ n d, pExprN n (List.replicate d '(') = none
  | 0, _ => rfl
  | n + 1, 0 => by simp [pExprN, pIfThenWith, pCastWith, pCallWith, pFunSig, pIdent, pRef, pLiteral, lit]; decide
  | n + 1, d + 1 => by
    rw [List.replicate_succ]
    have h1 : pIfThenWith (pExprN n) ('(' :: List.replicate d '(') = none := by
      unfold pIfThenWith; rw [lit_other (by decide)]; rfl
    have hs : skipSp (List.replicate d '(') = List.replicate d '(' := by
      cases d with
      | zero => rfl
      | succ d => exact skipSp_cons _ _ (by decide)
    have h2 : pCastWith (pExprN n) ('(' :: List.replicate d '(') = none := by
      unfold pCastWith
      rw [show lit cs!"(" ('(' :: List.replicate d '(') = some (List.replicate d '(') by simp [lit]]
      simp only [Option.bind_eq_bind, Option.bind_some]
      rw [hs, pExprN_parens n d]; rfl
    have h3 : pCallWith (pExprN n) ('(' :: List.replicate d '(') = none := by
      have : pFunSig ('(' :: List.replicate d '(') = none := by
        have : pIdent ('(' :: List.replicate d '(') = none := by simp [pIdent, isAlpha, isUpper, isLower]
        unfold pFunSig
        rw [this]
      unfold pCallWith
      rw [this]; rfl
    rw [pExprN, h1, h2, h3, pRef_none (by decide),
      pLiteral_other (by decide) (by decide) (by decide) (by decide)]
    rfl

/-- **As the rule is written, each opening parenthesis doubles the attempts.** -/
theorem argN_parens : ∀ (d n : Nat), d ≤ n →
    argN (n + 1) (List.replicate d '(') = ⟨none, 2 ^ (d + 1) - 1⟩
  | 0, n, _ => by
    rw [argN]
    rfl
  | d + 1, n, h => by
    obtain ⟨n, rfl⟩ : ∃ m, n = m + 1 := ⟨n - 1, by omega⟩
    have ih := argN_parens d n (by omega)
    rw [List.replicate_succ]
    have hs : skipSp (List.replicate d '(') = List.replicate d '(' := by
      cases d with
      | zero => rfl
      | succ d => exact skipSp_cons _ _ (by decide)
    have hl : lit cs!"(" ('(' :: List.replicate d '(') = some (List.replicate d '(') := by simp [lit]
    have h0 : pTuple0 ('(' :: List.replicate d '(') = none := by
      unfold pTuple0
      simp only [hl, Option.bind_eq_bind, Option.bind_some]
      rw [hs]
      cases d with
      | zero => rfl
      | succ d => rw [List.replicate_succ, lit_other (by decide)]; rfl
    have hleaf : leaf ('(' :: List.replicate d '(') = none := by
      have h1 : pEnumValue ('(' :: List.replicate d '(') = none := by simp [pEnumValue, lit]
      have h2 : pParamLit ('(' :: List.replicate d '(') = none := by
        unfold pParamLit
        rw [pValue_paren]; rfl
      have h4 : pExpr ('(' :: List.replicate d '(') = none := by
        rw [← List.replicate_succ]; exact pExprN_parens _ _
      unfold leaf
      rw [h1, h2, pRef_none (by decide), h4]
      rfl
    have ihv : (argN (n + 1) (List.replicate d '(')).val = none := by rw [ih]
    have iht : (argN (n + 1) (List.replicate d '(')).tries = 2 ^ (d + 1) - 1 := by rw [ih]
    have h1 : (tuple1 (argN (n + 1)) ('(' :: List.replicate d '(')).val = none := by
      unfold tuple1
      rw [free_some_bind _ hl, hs, val_bind, ihv]; rfl
    have h2 : (tuple2 (argN (n + 1)) ('(' :: List.replicate d '(')).val = none := by
      unfold tuple2
      rw [free_some_bind _ hl, hs, val_bind, (sep1_none ihv).2]; rfl
    show argStep (argN (n + 1)) ('(' :: List.replicate d '(') = _
    rw [argStep_eq, hleaf, idle_or (m := free none) _ rfl rfl]
    have ht : (tuple (argN (n + 1)) ('(' :: List.replicate d '(')).tries = (2 ^ (d + 1) - 1) + (2 ^ (d + 1) - 1) := by
      unfold tuple
      rw [h0, idle_or (m := free none) _ rfl rfl, tries_or_none _ h1, tuple1_tries hl, tuple2_tries hl, hs,
        (sep1_none ihv).1, iht]
    have hv : (tuple (argN (n + 1)) ('(' :: List.replicate d '(')).val = none := by
      unfold tuple
      rw [val_or, val_or, h0, h1, h2]
      rfl
    show Counted.mk _ _ = Counted.mk _ _
    congr 1
    · rw [val_mapFst, hv]; rfl
    · rw [tries_mapFst, ht, ← double]
      omega

/-! ### `if_then` -/

theorem skipSp_ifs (d : Nat) : skipSp (ifs d) = ifs d := by
  cases d with
  | zero => rfl
  | succ d => exact skipSp_cons _ _ (by decide)

/-- **Each unfinished `if_then(` doubles the attempts.** -/
theorem exprN_ifs : ∀ (d n : Nat), d ≤ n → exprN (n + 1) (ifs d) = ⟨none, 2 ^ (d + 1) - 1⟩
  | 0, n, _ => by
    rw [exprN]
    rfl
  | d + 1, n, h => by
    obtain ⟨n, rfl⟩ : ∃ m, n = m + 1 := ⟨n - 1, by omega⟩
    have ih := exprN_ifs d n (by omega)
    have ihv : (exprN (n + 1) (ifs d)).val = none := by rw [ih]
    have iht : (exprN (n + 1) (ifs d)).tries = 2 ^ (d + 1) - 1 := by rw [ih]
    have hl : lit cs!"if_then(" (ifs (d + 1)) = some (ifs d) := lit_append _ _
    have hcl : (clauseComma (exprN (n + 1)) (ifs d)).val = none := by
      unfold clauseComma clause
      simp only [val_bind, ihv, Option.bind_none]
    have i1 : (ifThen (exprN (n + 1)) (ifs (d + 1))).val = none ∧
        (ifThen (exprN (n + 1)) (ifs (d + 1))).tries = 2 ^ (d + 1) - 1 := by
      rw [ifThen_some hl, skipSp_ifs]
      refine ⟨by rw [val_bind, hcl]; rfl, ?_⟩
      rw [tries_bind_none _ hcl, clause_tries, ihv, iht]
      rfl
    have i2 : (cast (exprN (n + 1)) (ifs (d + 1))).val = none ∧ (cast (exprN (n + 1)) (ifs (d + 1))).tries = 0 :=
      cast_none (lit_other (by decide))
    have hf : pFunSig (ifs (d + 1)) = some (cs!"if_then", '(' :: ifs d) := funSig_if (ifs d)
    have i3 : (call (exprN (n + 1)) (ifs (d + 1))).val = none ∧
        (call (exprN (n + 1)) (ifs (d + 1))).tries = 2 ^ (d + 1) - 1 := by
      constructor
      · cases hv : (call (exprN (n + 1)) (ifs (d + 1))).val with
        | none => rfl
        | some x =>
          exfalso
          obtain ⟨l, r1, h1, -⟩ := call_val hf hv
          rw [callRest_paren] at h1
          unfold args at h1
          rw [free_some_bind (a := ifs d) _ (by simp [lit])] at h1
          have : (sep0 spCommaSp (exprN (n + 1)) (ifs d)).val = some ([], ifs d) := by
            unfold sep0
            rw [val_or, (sep1_none ihv).2]; rfl
          rw [val_bind, this, Option.bind_some] at h1
          have : lit cs!")" (ifs d) = none := by
            cases d with
            | zero => rfl
            | succ d => exact lit_other (by decide)
          rw [(free_none_bind _ this).1] at h1
          cases h1
      · rw [call_tries hf, callRest_paren, args_tries, (sep1_none ihv).1, iht]
    have i4 : pRef (ifs (d + 1)) = none := pRef_none (by decide)
    have i5 : pLiteral (ifs (d + 1)) = none := pLiteral_other (by decide) (by decide) (by decide) (by decide)
    have hn : (((ifThen (exprN (n + 1)) (ifs (d + 1))).or (cast (exprN (n + 1)) (ifs (d + 1)))).or
        (call (exprN (n + 1)) (ifs (d + 1)))).val = none := by
      rw [val_or, val_or, i1.1, i2.1, i3.1]; rfl
    have hv : (exprN (n + 2) (ifs (d + 1))).val = none := by
      show (exprStep (exprN (n + 1)) (ifs (d + 1))).val = none
      unfold exprStep
      simp only [val_tick, val_or, val_free, i1.1, i2.1, i3.1, i4, i5]
      rfl
    have ht : (exprN (n + 2) (ifs (d + 1))).tries = 2 ^ (d + 1 + 1) - 1 := by
      show (exprStep (exprN (n + 1)) (ifs (d + 1))).tries = _
      rw [exprStep_tries, tries_or_none _ (by rw [val_or, i1.1, i2.1]; rfl), tries_or_none _ i1.1, i1.2, i2.2, i3.2,
        ← double]
      omega
    show exprN (n + 2) (ifs (d + 1)) = _
    rw [← hv, ← ht]

/-! ### A user-defined type named `list` -/

/-- The same as it is read. -/
def nestSTy : Nat → STy
  | 0 => .simple cs!"i64" .required
  | d + 1 => .user cs!"list" none none .required (some [.ty (nestSTy d), .ty (.simple cs!"i64" .required)])

theorem typeN_i64 (n : Nat) (r : Str) (hr : r.head? ≠ some '?' ∧ r.head? ≠ some '⁉') (hi : NextNot isIdentChar r) :
    typeN (n + 1) (cs!"i64" ++ r) = ⟨some (.simple cs!"i64" .required, r), 1⟩ := by
  have h : pSimpleType (cs!"i64" ++ r) = some (.simple cs!"i64" .required, r) := by
    rw [pSimpleType_name _ _ hi, show simpleNames.find? (·.isPrefixOf cs!"i64") = some cs!"i64" by decide]
    have : pNullability r = (.required, r) := by
      cases r with
      | nil => rfl
      | cons c r =>
        have h1 : '?' ≠ c := fun e => hr.1 (by rw [← e]; rfl)
        have h2 : '⁉' ≠ c := fun e => hr.2 (by rw [← e]; rfl)
        unfold pNullability
        split
        · rename_i e; cases e; exact absurd rfl h1
        · rename_i e; cases e; exact absurd rfl h2
        · rfl
    simp [this]
  rw [typeN, h]
  rfl

theorem typeN_nest : ∀ (d n : Nat), d ≤ n → ∀ r, (r.head? ≠ some '?' ∧ r.head? ≠ some '⁉') → NextNot isIdentChar r →
    typeN (n + 1) (nestTy d ++ r) = ⟨some (nestSTy d, r), 3 * 2 ^ d - 2⟩
  | 0, n, _, r, hr, hi => typeN_i64 n r hr hi
  | d + 1, n, h, r, hr, hi => by
    obtain ⟨n, rfl⟩ : ∃ m, n = m + 1 := ⟨n - 1, by omega⟩
    have es : nestTy (d + 1) ++ r = cs!"list" ++ ('<' :: (nestTy d ++ (',' :: (' ' :: (cs!"i64" ++ ('>' :: r)))))) := by
      simp [nestTy]
    have hbr : NextNot isIdentChar ('<' :: (nestTy d ++ (',' :: (' ' :: (cs!"i64" ++ ('>' :: r)))))) :=
      (nextNot_cons _ _ _).2 (by decide)
    have ih := typeN_nest d n (by omega) (',' :: (' ' :: (cs!"i64" ++ ('>' :: r)))) (by simp) ((nextNot_cons _ _ _).2 (by decide))
    have hi64 := typeN_i64 n ('>' :: r) (by simp) ((nextNot_cons _ _ _).2 (by decide))
    have ihv := congrArg Counted.val ih
    have iht := congrArg Counted.tries ih
    have iv := congrArg Counted.val hi64
    have it := congrArg Counted.tries hi64
    dsimp only at ihv iht iv it
    have hk : pKwOpen cs!"list" (nestTy (d + 1) ++ r) = some (.required, nestTy d ++ (',' :: (' ' :: (cs!"i64" ++ ('>' :: r))))) := by
      rw [es]
      exact pKwOpen_self cs!"list" _ .required
    have hsim : pSimpleType (nestTy (d + 1) ++ r) = none := by
      rw [es]; exact pSimpleType_none _ _ hbr (by decide)
    have hlist : (listType (typeN (n + 1)) (nestTy (d + 1) ++ r)).val = none := by
      unfold listType
      rw [free_some_bind _ hk]
      dsimp only
      rw [val_bind, ihv, Option.bind_some, (free_none_bind _ (lit_other (by decide))).1]
    have hlt : (listType (typeN (n + 1)) (nestTy (d + 1) ++ r)).tries = 3 * 2 ^ d - 2 := by
      rw [listType_tries hk, iht]
    have hcomp : compound (typeN (n + 1)) (nestTy (d + 1) ++ r) = listType (typeN (n + 1)) (nestTy (d + 1) ++ r) :=
      compound_list hk
    have hu : pIdent (skipUBang (nestTy (d + 1) ++ r)) =
        some (cs!"list", '<' :: (nestTy d ++ (',' :: (' ' :: (cs!"i64" ++ ('>' :: r)))))) := by
      rw [es]
      have : skipUBang (cs!"list" ++ ('<' :: (nestTy d ++ (',' :: (' ' :: (cs!"i64" ++ ('>' :: r))))))) =
          cs!"list" ++ ('<' :: (nestTy d ++ (',' :: (' ' :: (cs!"i64" ++ ('>' :: r)))))) := by
        simp [skipUBang, lit]
      rw [this]
      exact pIdent_append cs!"ist" _ 'l' (by decide) (by decide) hbr
    have ha : pOpt pAnchor ('<' :: (nestTy d ++ (',' :: (' ' :: (cs!"i64" ++ ('>' :: r)))))) = (none, '<' :: (nestTy d ++ (',' :: (' ' :: (cs!"i64" ++ ('>' :: r)))))) := by
      simp [pOpt, pAnchor, lit]
    have hb : pOpt pUrnAnchor ('<' :: (nestTy d ++ (',' :: (' ' :: (cs!"i64" ++ ('>' :: r)))))) = (none, '<' :: (nestTy d ++ (',' :: (' ' :: (cs!"i64" ++ ('>' :: r)))))) := by
      simp [pOpt, pUrnAnchor, lit]
    have hn : pNullability ('<' :: (nestTy d ++ (',' :: (' ' :: (cs!"i64" ++ ('>' :: r)))))) = (.required, '<' :: (nestTy d ++ (',' :: (' ' :: (cs!"i64" ++ ('>' :: r)))))) := by
      rfl
    have p1 : (param (typeN (n + 1)) (nestTy d ++ (',' :: (' ' :: (cs!"i64" ++ ('>' :: r)))))).val =
        some (.ty (nestSTy d), ',' :: (' ' :: (cs!"i64" ++ ('>' :: r)))) := by
      unfold param
      rw [val_or, val_or, val_mapFst, ihv]; rfl
    have p2 : (param (typeN (n + 1)) (cs!"i64" ++ ('>' :: r))).val = some (.ty (.simple cs!"i64" .required), '>' :: r) := by
      unfold param
      rw [val_or, val_or, val_mapFst, iv]; rfl
    have hc : commaSp (',' :: (' ' :: (cs!"i64" ++ ('>' :: r)))) = some (cs!"i64" ++ ('>' :: r)) := by
      have : skipSp (' ' :: (cs!"i64" ++ ('>' :: r))) = cs!"i64" ++ ('>' :: r) := by
        rw [show skipSp (' ' :: (cs!"i64" ++ ('>' :: r))) = skipSp (cs!"i64" ++ ('>' :: r)) from rfl]
        exact skipSp_cons _ _ (by decide)
      simp [commaSp, lit]
      exact this
    have hstop : commaSp ('>' :: r) = none := commaSp_none (by simp)
    have hstar := starN_step (n := (' ' :: (cs!"i64" ++ ('>' :: r))).length) hc p2
    have hend := starN_stop (param (typeN (n + 1))) (' ' :: (cs!"i64" ++ ('>' :: r))).length hstop
    have hsep := sep1_some (sep := commaSp) p1
    rw [show (',' :: (' ' :: (cs!"i64" ++ ('>' :: r)))).length = (' ' :: (cs!"i64" ++ ('>' :: r))).length + 1 from rfl] at hsep
    rw [hend.1, hend.2] at hstar
    have hpt : (paramsTail (typeN (n + 1)) (nestTy d ++ (',' :: (' ' :: (cs!"i64" ++ ('>' :: r)))))).tries = 3 * 2 ^ d - 2 + 1 := by
      rw [paramsTail_tries, hsep.1, hstar.1, param_tries, param_tries, iht, it]
    have hpv : (paramsTail (typeN (n + 1)) (nestTy d ++ (',' :: (' ' :: (cs!"i64" ++ ('>' :: r)))))).val =
        some ([.ty (nestSTy d), .ty (.simple cs!"i64" .required)], r) := by
      unfold paramsTail sep0
      rw [val_bind, val_or, hsep.2, hstar.2]
      simp [lit]
    have huser : user (typeN (n + 1)) (nestTy (d + 1) ++ r) = ⟨some (nestSTy (d + 1), r), 3 * 2 ^ d - 2 + 1⟩ := by
      unfold user
      rw [free_some_bind _ hu]
      dsimp only
      rw [ha]; dsimp only
      rw [hb]; dsimp only
      rw [hn]; dsimp only
      have ho : pOpt (fun s => (params (typeN (n + 1)) s).val) ('<' :: (nestTy d ++ (',' :: (' ' :: (cs!"i64" ++ ('>' :: r)))))) =
          (some [.ty (nestSTy d), .ty (.simple cs!"i64" .required)], r) := by
        simp only [pOpt, params_open, hpv]
      show Counted.mk _ _ = Counted.mk _ _
      congr 1
      · rw [ho]; rfl
      · rw [tries_opt, params_open, hpt]; rfl
    rw [typeN, hsim, idle_or (m := free none) _ rfl rfl, hcomp]
    show Counted.mk _ _ = Counted.mk _ _
    congr 1
    · rw [val_or, hlist, huser]; rfl
    · rw [tries_or_none _ hlist, hlt, huser, ← double3]
      dsimp only
      omega

/-! ### A function named `if_then` -/

/-- The same as it is read. -/
def nestSIf : Nat → SExpr
  | 0 => .ref ⟨false, 0⟩
  | d + 1 => .call cs!"if_then" none none [nestSIf d] (.simple cs!"i64" .required)

theorem nestIf_head (d : Nat) (r : Str) : ∃ c t, nestIf d ++ r = c :: t ∧ c ≠ ' ' := by
  cases d with
  | zero => exact ⟨'$', _, rfl, by decide⟩
  | succ d => exact ⟨'i', _, rfl, by decide⟩

theorem exprN_nest : ∀ (d n : Nat), d ≤ n → ∀ r, (r.head? ≠ some '?' ∧ r.head? ≠ some '⁉') → NextNot isIdentChar r →
    exprN (n + 1) (nestIf d ++ r) = ⟨some (nestSIf d, r), 2 ^ (d + 1) - 1⟩
  | 0, n, _, r, hr, hi => by
    have k1 : lit cs!"(" (nestIf 0 ++ r) = none := lit_other (by decide)
    have k2 : lit cs!"if_then(" (nestIf 0 ++ r) = none := lit_other (by decide)
    have k3 : pFunSig (nestIf 0 ++ r) = none := by
      have : pIdent (nestIf 0 ++ r) = none := by
        show pIdent ('$' :: _) = none
        simp [pIdent, isAlpha, isUpper, isLower]
      unfold pFunSig
      rw [this]
    have k4 : pRef (nestIf 0 ++ r) = some (⟨false, 0⟩, r) := by
      have hd : NextNot isDigit r := hi.mono (fun c h => by simp [isIdentChar, isAlnum, h])
      have := pInteger_decInt 0 r hd
      unfold pRef
      rw [show lit cs!"$" (nestIf 0 ++ r) = some ('0' :: r) from by simp [lit, nestIf]]
      show pInteger (cs!"0" ++ r) = _
      rw [show cs!"0" = decInt 0 by decide +kernel, this]
      rfl
    have hv : (exprN (n + 1) (nestIf 0 ++ r)).val = some (nestSIf 0, r) := by
      show (exprStep (exprN n) (nestIf 0 ++ r)).val = _
      unfold exprStep
      simp only [val_tick, val_or, val_free, (ifThen_none k2).1, (cast_none k1).1, (call_none k3).1, k4]
      rfl
    have ht : (exprN (n + 1) (nestIf 0 ++ r)).tries = 1 := by
      show (exprStep (exprN n) (nestIf 0 ++ r)).tries = _
      rw [exprStep_tries, tries_or_none _ (by rw [val_or, (ifThen_none k2).1, (cast_none k1).1]; rfl),
        tries_or_none _ (ifThen_none k2).1, (ifThen_none k2).2, (cast_none k1).2, (call_none k3).2]
    show Counted.mk _ _ = Counted.mk _ _
    congr 1
  | d + 1, n, h, r, hr, hi => by
    obtain ⟨n, rfl⟩ : ∃ m, n = m + 1 := ⟨n - 1, by omega⟩
    have es : nestIf (d + 1) ++ r = cs!"if_then(" ++ (nestIf d ++ (')' :: (':' :: (cs!"i64" ++ r)))) := by
      simp [nestIf]
    have ih := exprN_nest d n (by omega) (')' :: (':' :: (cs!"i64" ++ r))) (by simp) ((nextNot_cons _ _ _).2 (by decide))
    have ihv := congrArg Counted.val ih
    have iht := congrArg Counted.tries ih
    dsimp only at ihv iht
    generalize ht : nestIf d ++ (')' :: (':' :: (cs!"i64" ++ r))) = t at ihv iht es
    have hsk : skipSp t = t := by
      obtain ⟨c, u, e, hc⟩ := nestIf_head d (')' :: (':' :: (cs!"i64" ++ r)))
      rw [← ht, e]
      exact skipSp_cons _ _ hc
    rw [es]
    have hl : lit cs!"if_then(" (cs!"if_then(" ++ t) = some t := lit_append _ _
    have harrow : lit cs!"->" (skipSp (')' :: (':' :: (cs!"i64" ++ r)))) = none := by
      rw [skipSp_cons _ _ (by decide)]; exact lit_other (by decide)
    have hcl : (clauseComma (exprN (n + 1)) t).val = none := by
      unfold clauseComma clause
      simp only [val_bind, ihv, Option.bind_some, val_free, harrow, Option.bind_none]
    have i1 : (ifThen (exprN (n + 1)) (cs!"if_then(" ++ t)).val = none ∧
        (ifThen (exprN (n + 1)) (cs!"if_then(" ++ t)).tries = 2 ^ (d + 1) - 1 := by
      rw [ifThen_some hl, hsk]
      refine ⟨by rw [val_bind, hcl]; rfl, ?_⟩
      rw [tries_bind_none _ hcl, clause_tries, ihv, iht]
      dsimp only
      rw [harrow]
      rfl
    have i2 : (cast (exprN (n + 1)) (cs!"if_then(" ++ t)).val = none ∧ (cast (exprN (n + 1)) (cs!"if_then(" ++ t)).tries = 0 :=
      cast_none (lit_other (by decide))
    have hsep : spCommaSp (')' :: (':' :: (cs!"i64" ++ r))) = none := by
      unfold spCommaSp
      rw [skipSp_cons _ _ (by decide), lit_other (by decide)]; rfl
    have hend := starN_stop (exprN (n + 1)) (')' :: (':' :: (cs!"i64" ++ r))).length hsep
    have hs1 := sep1_some (sep := spCommaSp) ihv
    rw [hend.1, hend.2] at hs1
    have hargs : args (exprN (n + 1)) ('(' :: t) = ⟨some ([nestSIf d], ':' :: (cs!"i64" ++ r)), 2 ^ (d + 1) - 1⟩ := by
      have hv : (args (exprN (n + 1)) ('(' :: t)).val = some ([nestSIf d], ':' :: (cs!"i64" ++ r)) := by
        unfold args sep0
        rw [free_some_bind (a := t) _ (by simp [lit]), val_bind, val_or, hs1.2]
        simp [lit]
      have ht : (args (exprN (n + 1)) ('(' :: t)).tries = 2 ^ (d + 1) - 1 := by
        rw [args_tries, hs1.1, iht]; rfl
      rw [← hv, ← ht]
    have hty : pType (skipSp (cs!"i64" ++ r)) = some (.simple cs!"i64" .required, r) := by
      rw [show skipSp (cs!"i64" ++ r) = cs!"i64" ++ r from skipSp_cons _ _ (by decide), ← val_type, type, typeN_i64 _ r hr hi]
    have i3 : call (exprN (n + 1)) (cs!"if_then(" ++ t) = ⟨some (nestSIf (d + 1), r), 2 ^ (d + 1) - 1⟩ := by
      have hv : (call (exprN (n + 1)) (cs!"if_then(" ++ t)).val = some (nestSIf (d + 1), r) := by
        have h1 : skipSp ('(' :: t) = '(' :: t := skipSp_cons _ _ (by decide)
        have h2 : pOpt pAnchor ('(' :: t) = (none, '(' :: t) := by simp [pOpt, pAnchor, lit]
        have h3 : pOpt pUrnAnchor ('(' :: t) = (none, '(' :: t) := by simp [pOpt, pUrnAnchor, lit]
        unfold call
        rw [free_some_bind _ (funSig_if t)]
        dsimp only
        rw [h1, h2]; dsimp only
        rw [h1, h3]; dsimp only
        rw [h1, hargs]
        simp only [val_bind, Option.bind_some, val_free]
        rw [show lit cs!":" (':' :: (cs!"i64" ++ r)) = some (cs!"i64" ++ r) by simp [lit]]
        simp only [Option.bind_some, val_bind, val_free, hty]
        rfl
      have ht : (call (exprN (n + 1)) (cs!"if_then(" ++ t)).tries = 2 ^ (d + 1) - 1 := by
        rw [call_tries (funSig_if t), callRest_paren, hargs]
      rw [← hv, ← ht]
    have hv : (exprN (n + 2) (cs!"if_then(" ++ t)).val = some (nestSIf (d + 1), r) := by
      show (exprStep (exprN (n + 1)) (cs!"if_then(" ++ t)).val = _
      unfold exprStep
      simp only [val_tick, val_or, val_free, i1.1, i2.1, i3]
      rfl
    have ht : (exprN (n + 2) (cs!"if_then(" ++ t)).tries = 2 ^ (d + 1 + 1) - 1 := by
      show (exprStep (exprN (n + 1)) (cs!"if_then(" ++ t)).tries = _
      rw [exprStep_tries, tries_or_none _ (by rw [val_or, i1.1, i2.1]; rfl), tries_or_none _ i1.1, i1.2, i2.2, i3,
        ← double]
      dsimp only
      omega
    show exprN (n + 2) (cs!"if_then(" ++ t) = _
    rw [← hv, ← ht]

end Counted
end Verif
