import Verif.Proofs.Pest
/-!
# The recognisers are the grammar file: expressions and extension arguments
-/

namespace Verif
namespace PestSpec

set_option autoImplicit false

variable {α β : Type}

/-! ## Signatures -/

theorem peg_short_arg_name (s : Str) : Peg R.short_arg_name s (ext (pShortName s)) := by
  refine .rule ?_
  cases s with
  | nil => exact .seqFail isClass_alpha.1
  | cons c s =>
    have hc := isClass_alpha.2 c s
    unfold pShortName
    dsimp only
    by_cases e : isAlpha c = true
    · rw [if_pos e] at hc ⊢
      exact .seq hc (isClass_alnum.star s)
    · rw [if_neg e] at hc ⊢
      exact .seqFail hc

theorem peg_short_arg_type (s : Str) : Peg R.short_arg_type s (ext (pShortArg s)) := by
  refine .rule (.alt ?_ (peg_short_arg_name s))
  have := peg_lit cs!"u!" s
  cases e : lit cs!"u!" s with
  | none => rw [e] at this; exact .seqFail this
  | some r => rw [e] at this; exact .seq this (.mapFst_ (peg_short_arg_name r))

theorem peg_argument_signature (s : Str) : Peg R.argument_signature s (ext (pArgSig s)) :=
  .rule (.mapFst_ (peg_sep1 (N := s.length + 1) (fun t _ => peg_short_arg_type t)
    (round_lit (by decide) fun t _ => peg_short_arg_type t) (lit_lt (by decide)) s (Nat.lt_succ_self _)))

theorem peg_function_signature (s : Str) : Peg R.function_signature s (ext (pFunSig s)) := by
  refine .rule ?_
  have h1 := peg_identifier s
  unfold pFunSig
  cases e : pIdent s with
  | none => rw [e] at h1; exact .seqFail h1
  | some x =>
    rw [e] at h1
    refine .seq h1 ?_
    have h2 := peg_lit cs!":" x.2
    dsimp only
    cases e2 : lit cs!":" x.2 with
    | none => rw [e2] at h2; exact .optNone (.seqFail h2)
    | some t =>
      rw [e2] at h2
      have h3 := peg_argument_signature t
      dsimp only
      cases e3 : pArgSig t with
      | none => rw [e3] at h3; exact .optSome (.seq h2 (.optNone h3))
      | some y => rw [e3] at h3; exact .optSome (.seq h2 (.optSome h3))

/-! ## Literals and references -/

theorem peg_value (s : Str) : Peg (R.float /// R.integer /// R.boolean /// R.string_literal /// R.null) s (ext (pValue s)) := by
  unfold pValue
  simp only [Option.or_assoc]
  exact .alt (.mapFst_ (peg_float s)) (.alt (.mapFst_ (peg_integer s)) (.alt (.mapFst_ (peg_boolean s))
    (.alt (.mapFst_ (peg_string s)) (.tag (peg_null s)))))

theorem peg_ascription (s : Str) : Peg (.lit cs!":" ~~ R.sp ~~ R.type) s (ext (pAscription s)) :=
  .bindStr (peg_lit _ s) fun _ _ _ => .sp_ (peg_type _)

theorem peg_expression_literal (s : Str) : Peg R.expression_literal s (ext (pLiteral s)) :=
  .rule (.bindPair (peg_value s) fun _ r _ _ => .opt_ (peg_ascription r))

theorem peg_reference (s : Str) : Peg R.reference s (ext (pRef s)) :=
  .rule (.bindStr (peg_lit _ s) fun _ _ _ => peg_integer _)

/-! ## Expressions -/

section exprs
variable {e : Str → Option (SExpr × Str)} {N : Nat}

theorem peg_argument_list (s : Str) (hN : s.length ≤ N) (he : ∀ s, s.length < N → Peg R.expression s (ext (e s))) :
    Peg R.argument_list s (ext (pArgsWith e s)) := by
  refine .rule (.bindStr (peg_lit _ s) fun r hr _ => ?_)
  have := lit_lt (by decide) _ _ hr
  exact .seq (peg_sep he (round_spCommaSp he) spCommaSp_lt r (by omega)) (.last (peg_lit _ _))

theorem peg_function_call (s : Str) (hN : s.length ≤ N) (he : ∀ s, s.length < N → Peg R.expression s (ext (e s))) :
    Peg R.function_call s (ext (pCallWith e s)) := by
  refine .rule ?_
  have h1 := peg_function_signature s
  unfold pCallWith
  cases e1 : pFunSig s with
  | none => rw [e1] at h1; exact .seqFail (.rule (.seqFail h1))
  | some x =>
    rw [e1] at h1
    have h2 : Peg (.opt R.anchor) _ _ := .opt_ (peg_anchor (skipSp x.2))
    have h3 : Peg (.opt R.urn_anchor) _ _ := .opt_ (peg_urn_anchor (skipSp (pOpt pAnchor (skipSp x.2)).2))
    have l1 : x.2.length ≤ s.length := h1.le
    have l2 := h2.le
    have l3 := h3.le
    have l4 := skipSp_le' x.2
    have l5 := skipSp_le' (pOpt pAnchor (skipSp x.2)).2
    have l6 := skipSp_le' (pOpt pUrnAnchor (skipSp (pOpt pAnchor (skipSp x.2)).2)).2
    refine .seq (.rule (.seq h1 (.sp_ (.seq h2 (.sp_ h3))))) (.sp_ ?_)
    show Peg _ _ (ext (pArgsWith e (skipSp (pOpt pUrnAnchor (skipSp (pOpt pAnchor (skipSp x.2)).2)).2) >>= fun y =>
      lit cs!":" y.2 >>= fun s => pType (skipSp s) >>= fun z => some (SExpr.call x.1 _ _ y.1 z.1, z.2)))
    exact .bindPair (peg_argument_list _ (by omega) he) fun _ _ _ _ =>
      .bindStr (peg_lit _ _) fun _ _ _ => .sp_ (.lastPair (fun _ => rfl) (peg_type _))

theorem peg_if_clause (he : ∀ s, s.length < N → Peg R.expression s (ext (e s))) (s : Str) (hN : s.length < N) :
    Peg R.if_clause s (ext (pClauseWith e s)) := by
  refine .rule (.bindPair (he s hN) fun _ r _ _ => .sp_ (.bindStr (peg_lit _ _) fun t _ _ => .sp_ ?_))
  have := skipSp_le' r
  have := skipSp_le' t
  exact .lastPair (fun _ => rfl) (he _ (by omega))

theorem peg_clauseComma (he : ∀ s, s.length < N → Peg R.expression s (ext (e s))) (s : Str) (hN : s.length < N) :
    Peg (R.if_clause ~~ R.sp ~~ .lit cs!"," ~~ R.sp) s (ext (pClauseComma e s)) :=
  .bindPair (peg_if_clause he s hN) fun _ _ _ _ => .sp_ (.bindStr (peg_lit _ _) fun t _ _ => peg_sp t)

theorem clauseComma_lt (he : ∀ s, s.length < N → Peg R.expression s (ext (e s))) (s : Str) (hN : s.length < N)
    {x : SExpr × SExpr} {t : Str} (h : pClauseComma e s = some (x, t)) : t.length < s.length := by
  unfold pClauseComma at h
  have h1 := peg_if_clause he s hN
  cases e1 : pClauseWith e s with
  | none => rw [e1] at h; cases h
  | some y =>
    rw [e1] at h h1
    have l1 : y.2.length ≤ s.length := h1.le
    have l2 := skipSp_le' y.2
    change (lit cs!"," (skipSp y.2) >>= fun s => some (y.1, skipSp s)) = _ at h
    cases e2 : lit cs!"," (skipSp y.2) with
    | none => rw [e2] at h; cases h
    | some u =>
      rw [e2] at h
      cases h
      have := lit_lt (by decide) _ _ e2
      have := skipSp_le' u
      omega

theorem peg_many {g : G} {p : Str → Option (α × Str)} (hg : ∀ s, s.length < N → Peg g s (ext (p s)))
    (hs : ∀ s x t, s.length < N → p s = some (x, t) → t.length < s.length) :
    ∀ (n : Nat) (s : Str), s.length ≤ n → s.length < N → Peg (.star g) s (some (pManyN p n s).2)
  | 0, s, hn, hN => by
    have h0 : s = [] := List.eq_nil_of_length_eq_zero (Nat.le_zero.1 hn)
    subst h0
    have := hg [] hN
    unfold pManyN
    cases e : p [] with
    | none => rw [e] at this; exact .starStop this
    | some x => exact absurd (hs [] x.1 x.2 hN e) (Nat.not_lt_zero _)
  | n + 1, s, hn, hN => by
    have := hg s hN
    unfold pManyN
    cases e : p s with
    | none => rw [e] at this; exact .starStop this
    | some x =>
      have hl := hs s x.1 x.2 hN e
      rw [e] at this
      exact .starMore this (peg_many hg hs n x.2 (by omega) (by omega))

/-- Grouping of three in a row does not matter. -/
theorem Peg.assoc {a b c : G} {s : Str} {o : Option Str} (h : Peg (a ~~ b ~~ c) s o) : Peg ((a ~~ b) ~~ c) s o := by
  cases h with
  | seqFail h => exact .seqFail (.seqFail h)
  | seq h1 h2 =>
    cases h2 with
    | seqFail h => exact .seqFail (.seq h1 h)
    | seq h2 h3 => exact .seq (.seq h1 h2) h3

theorem peg_if_then (s : Str) (hN : s.length ≤ N) (he : ∀ s, s.length < N → Peg R.expression s (ext (e s))) :
    Peg R.if_then s (ext (pIfThenWith e s)) := by
  refine .rule (.bindStr (peg_lit _ s) fun r hr _ => .sp_ (.assoc ?_))
  have l1 := lit_lt (by decide) _ _ hr
  have l2 := skipSp_le' r
  refine .bindPair (peg_clauseComma he _ (by omega)) fun x t _ ht => ?_
  have h3 := peg_many (peg_clauseComma he) (fun s _ _ h1 h2 => clauseComma_lt he s h1 h2) t.length t (Nat.le_refl _) (by omega)
  have l3 := h3.le
  refine .seq h3 (.sp_ (.bindStr (peg_lit _ _) fun u _ _ => .sp_ (.bindStr (peg_lit _ _) fun v _ _ => .sp_ ?_)))
  have l4 := skipSp_le' (pManyN (pClauseComma e) t.length t).2
  have l5 := skipSp_le' u
  have l6 := skipSp_le' v
  exact .bindPair (he _ (by omega)) fun _ _ _ _ => .last (peg_lit _ _)

theorem peg_behavior (s : Str) : Peg (.opt R.cast_failure_behavior) s (some (pBehavior s).2) := by
  unfold pBehavior
  split
  · exact .optSome (.rule (.altFirst (peg_lit cs!"?" (_ :: _))))
  · exact .optSome (.rule (.altNext (peg_lit cs!"?" (_ :: _)) (peg_lit cs!"!" (_ :: _))))
  · rename_i h1 h2
    refine .optNone (.rule (.altNext ?_ ?_))
    · have := peg_lit cs!"?" s
      cases e : lit cs!"?" s with
      | none => rwa [e] at this
      | some r => exact absurd ((lit_iff _ _ _).1 e) (h1 r)
    · have := peg_lit cs!"!" s
      cases e : lit cs!"!" s with
      | none => rwa [e] at this
      | some r => exact absurd ((lit_iff _ _ _).1 e) (h2 r)

theorem peg_cast_expression (s : Str) (hN : s.length ≤ N) (he : ∀ s, s.length < N → Peg R.expression s (ext (e s))) :
    Peg R.cast_expression s (ext (pCastWith e s)) := by
  refine .rule (.bindStr (peg_lit _ s) fun r hr _ => .sp_ ?_)
  have l1 := lit_lt (by decide) _ _ hr
  have l2 := skipSp_le' r
  refine .bindPair (he _ (by omega)) fun _ t _ _ => .sp_ (.bindStr (peg_lit _ _) fun u _ _ =>
    .sp_ (.bindStr (peg_lit _ _) fun v _ _ => .sp_ (.seq (peg_behavior _) (.sp_ ?_))))
  exact .lastPair (fun _ => rfl) (peg_type _)

theorem peg_exprN : ∀ (n : Nat) (s : Str), s.length < n → Peg R.expression s (ext (pExprN n s))
  | 0, _, h => absurd h (Nat.not_lt_zero _)
  | n + 1, s, h => by
    have he := peg_exprN n
    unfold pExprN
    simp only [Option.or_assoc]
    exact .rule (.alt (peg_if_then s (by omega) he) (.alt (peg_cast_expression s (by omega) he)
      (.alt (peg_function_call s (by omega) he) (.alt (.mapFst_ (peg_reference s)) (.mapFst_ (peg_expression_literal s))))))

theorem peg_expression (s : Str) : Peg R.expression s (ext (pExpr s)) := peg_exprN _ s (Nat.lt_succ_self _)

end exprs

/-! ## Extension arguments -/

theorem peg_enum_value (s : Str) : Peg R.enum_value s (ext (pEnumValue s)) :=
  .rule (.bindStr (peg_lit _ s) fun _ _ _ => peg_identifier _)

theorem peg_notAhead (c : Char) (s : Str) : Peg (.no (.lit [c])) s (notAhead c s) := by
  unfold notAhead
  cases s with
  | nil => exact .no (isClass_lit c).1
  | cons d s =>
    have := (isClass_lit c).2 d s
    by_cases h : d = c
    · rw [if_pos (by simpa using h)] at this
      rw [if_pos (by simpa using h)]
      exact .noFail this
    · rw [if_neg (by simpa using h)] at this
      rw [if_neg (by simpa using h)]
      exact .no this

theorem peg_parameter_literal (s : Str) : Peg R.parameter_literal s (ext (pParamLit s)) :=
  .rule (.bindPair (peg_value s) fun _ _ _ _ => .last (peg_notAhead ':' _))

section args
variable {p : Str → Option (SArg × Str)} {N : Nat}

theorem peg_tuple0 (s : Str) : Peg (.lit cs!"(" ~~ R.sp ~~ .lit cs!")") s (ext (pTuple0 s)) :=
  .bindStr (peg_lit _ s) fun _ _ _ => .sp_ (.last (peg_lit _ _))

theorem peg_tuple1 (s : Str) (hN : s.length ≤ N) (hp : ∀ s, s.length < N → Peg R.extension_argument s (ext (p s))) :
    Peg (.lit cs!"(" ~~ R.sp ~~ R.extension_argument ~~ R.sp ~~ .lit cs!"," ~~ R.sp ~~ .lit cs!")") s
      (ext (pTuple1With p s)) := by
  refine .bindStr (peg_lit _ s) fun r hr _ => .sp_ ?_
  have l1 := lit_lt (by decide) _ _ hr
  have l2 := skipSp_le' r
  exact .bindPair (hp _ (by omega)) fun _ _ _ _ => .sp_ (.bindStr (peg_lit _ _) fun _ _ _ => .sp_ (.last (peg_lit _ _)))

theorem peg_spComma (s : Str) : Peg (R.sp ~~ .lit cs!",") s (ext (spComma s)) := .sp_ (.tag (peg_lit _ _))

theorem peg_tuple2 (s : Str) (hN : s.length ≤ N) (hp : ∀ s, s.length < N → Peg R.extension_argument s (ext (p s))) :
    Peg (.lit cs!"(" ~~ R.sp ~~ R.extension_argument ~~
      .plus (R.sp ~~ .lit cs!"," ~~ R.sp ~~ R.extension_argument) ~~ .opt (R.sp ~~ .lit cs!",") ~~ R.sp ~~ .lit cs!")") s
      (ext (pTuple2With p s)) := by
  refine .bindStr (peg_lit _ s) fun r hr _ => .sp_ ?_
  have l1 := lit_lt (by decide) _ _ hr
  have l2 := skipSp_le' r
  have h1 := hp (skipSp r) (by omega)
  unfold pSep1
  cases e1 : p (skipSp r) with
  | none => rw [e1] at h1; exact .seqFail h1
  | some x =>
    rw [e1] at h1
    refine .seq h1 ?_
    have l3 : x.2.length ≤ (skipSp r).length := h1.le
    have h2 := round_spCommaSp hp x.2 (by omega)
    have hs : ∀ s t a u, s.length < N → spCommaSp s = some t → p t = some (a, u) → u.length < s.length := by
      intro s t a u hN h2 h3
      have h4 := spCommaSp_lt s t h2
      have h5 := hp t (by omega)
      rw [h3] at h5
      have : u.length ≤ t.length := h5.le
      omega
    dsimp only
    have hfin : ∀ (l : List SArg) (t : Str), Peg (.opt (R.sp ~~ .lit cs!",") ~~ R.sp ~~ .lit cs!")") t
        (ext (match pOpt spComma t with
          | (_, s) => do
            let s ← lit cs!")" (skipSp s)
            some (l, s))) := fun l t =>
      .seq (.opt_ (peg_spComma t)) (.sp_ (.last (peg_lit _ _)))
    cases e2 : x.2.length with
    | zero =>
      have h0 : x.2 = [] := List.eq_nil_of_length_eq_zero e2
      rw [h0] at h2 ⊢
      exact .seqFail (.seqFail h2)
    | succ n =>
      unfold pStarN
      cases e3 : spCommaSp x.2 with
      | none => rw [e3] at h2; exact .seqFail (.seqFail h2)
      | some t =>
        rw [e3] at h2
        cases e4 : p t with
        | none => simp only [Option.bind_some, e4] at h2; simp only [e4]; exact .seqFail (.seqFail h2)
        | some y =>
          have l4 := hs x.2 t y.1 y.2 (by omega) e3 e4
          simp only [Option.bind_some, e4] at h2
          have h5 := peg_star (round_spCommaSp hp) hs n y.2 (by omega) (by omega)
          simp only [e4]
          refine .seq (.seq h2 h5) ?_
          exact hfin _ _

theorem peg_tuple (s : Str) (hN : s.length ≤ N) (hp : ∀ s, s.length < N → Peg R.extension_argument s (ext (p s))) :
    Peg R.tuple s (ext (pTupleWith p s)) := by
  unfold pTupleWith
  simp only [Option.or_assoc]
  exact .rule (.alt (peg_tuple0 s) (.alt (peg_tuple1 s hN hp) (peg_tuple2 s hN hp)))

theorem peg_argN : ∀ (n : Nat) (s : Str), s.length < n → Peg R.extension_argument s (ext (pArgN n s))
  | 0, _, h => absurd h (Nat.not_lt_zero _)
  | n + 1, s, h => by
    have hp := peg_argN n
    unfold pArgN
    simp only [Option.or_assoc]
    exact .rule (.alt (.mapFst_ (peg_enum_value s)) (.alt (.mapFst_ (peg_parameter_literal s))
      (.alt (.mapFst_ (peg_reference s)) (.alt (.mapFst_ (peg_expression s)) (.mapFst_ (peg_tuple s (by omega) hp))))))

theorem peg_extension_argument (s : Str) : Peg R.extension_argument s (ext (pArg s)) := peg_argN _ s (Nat.lt_succ_self _)

end args

theorem sep1_spComma {g : G} {p : Str → Option (α × Str)} (hg : ∀ s, Peg g s (ext (p s))) (s : Str) :
    Peg (g ~~ .star (R.sp ~~ .lit cs!"," ~~ R.sp ~~ g)) s (ext (pSep1 spCommaSp p s)) :=
  peg_sep1 (N := s.length + 1) (fun s _ => hg s) (round_spCommaSp fun s _ => hg s) spCommaSp_lt s (Nat.lt_succ_self _)

theorem sep_spComma {g : G} {p : Str → Option (α × Str)} (hg : ∀ s, Peg g s (ext (p s))) (s : Str) :
    Peg (.opt (g ~~ .star (R.sp ~~ .lit cs!"," ~~ R.sp ~~ g))) s (some (pSep spCommaSp p s).2) :=
  peg_sep (N := s.length + 1) (fun s _ => hg s) (round_spCommaSp fun s _ => hg s) spCommaSp_lt s (Nat.lt_succ_self _)

theorem sep_comma {g : G} {p : Str → Option (α × Str)} (hg : ∀ s, Peg g s (ext (p s))) (s : Str) :
    Peg (.opt (g ~~ .star (.lit cs!"," ~~ R.sp ~~ g))) s (some (pSep commaSp p s).2) :=
  peg_sep (N := s.length + 1) (fun s _ => hg s) (round_commaSp fun s _ => hg s) commaSp_lt s (Nat.lt_succ_self _)

theorem peg_extension_named_argument (s : Str) : Peg R.extension_named_argument s (ext (pNamedArg s)) :=
  .rule (.bindPair (peg_name s) fun _ _ _ _ => .sp_ (.bindStr (peg_lit _ _) fun _ _ _ =>
    .sp_ (.lastPair (fun _ => rfl) (peg_extension_argument _))))

theorem peg_extension_named_arguments (s : Str) :
    Peg R.extension_named_arguments s (ext (pSep1 spCommaSp pNamedArg s)) :=
  .rule (sep1_spComma peg_extension_named_argument s)

theorem peg_extension_arguments (s : Str) : Peg R.extension_arguments s (ext (pSep1 spCommaSp pArg s)) :=
  .rule (sep1_spComma peg_extension_argument s)

theorem spComma_then {b : G} {s : Str} {f : Str → Option (α × Str)} (h : ∀ r, Peg b r (ext (f r))) :
    Peg (R.sp ~~ .lit cs!"," ~~ R.sp ~~ b) s (ext (spCommaSp s >>= f)) := by
  refine .sp_ ?_
  have h1 := peg_lit cs!"," (skipSp s)
  unfold spCommaSp
  cases e : lit cs!"," (skipSp s) with
  | none => rw [e] at h1; exact .seqFail h1
  | some r => rw [e] at h1; exact .seq h1 (.sp_ (h _))

theorem peg_commaNamed (s : Str) :
    Peg (R.sp ~~ .lit cs!"," ~~ R.sp ~~ R.extension_named_arguments) s (ext (pCommaNamed s)) :=
  spComma_then peg_extension_named_arguments

theorem peg_positional (s : Str) :
    Peg (R.extension_arguments ~~ .opt (R.sp ~~ .lit cs!"," ~~ R.sp ~~ R.extension_named_arguments)) s
      (ext (pPositional s)) :=
  .bindPair (peg_extension_arguments s) fun _ r _ _ => .opt_ (peg_commaNamed r)

theorem peg_empty (s : Str) : Peg R.empty s (lit cs!"_" s) := .rule (peg_lit _ _)

theorem peg_extension_args (s : Str) : Peg R.extension_args s (some (pExtArgs s).2) := by
  have := Peg.alt (.tag (v := ({} : SArgs)) (peg_empty s)) (.alt (peg_positional s)
    (.mapFst_ (f := fun n => (⟨[], n⟩ : SArgs)) (peg_extension_named_arguments s)))
  rw [← Option.or_assoc] at this
  have key : ∀ (g : G) (o : Option (SArgs × Str)), Peg g s (ext o) →
      Peg (.opt g) s (some (match o with | some r => r | none => (({} : SArgs), s)).2) := by
    intro g o h
    cases o with
    | none => exact .optNone h
    | some x => exact .optSome h
  exact .rule (key _ _ this)

theorem peg_named_column (s : Str) : Peg R.named_column s (ext (pNamedColumn s)) :=
  .rule (.bindPair (peg_name s) fun _ _ _ _ => .bindStr (peg_lit _ _) fun _ _ _ =>
    .lastPair (fun _ => rfl) (peg_type _))

theorem peg_extension_column (s : Str) : Peg R.extension_column s (ext (pExtColumn s)) := by
  unfold pExtColumn
  simp only [Option.or_assoc]
  exact .rule (.alt (.mapFst_ (peg_named_column s)) (.alt (.mapFst_ (peg_reference s)) (.mapFst_ (peg_expression s))))

end PestSpec
end Verif
