import Verif.Proofs.ExprsExact
/-!
# Expressions that are read back survive
-/

namespace Verif
open StoreSpec TextSpec Grammar

set_option autoImplicit false

/-! ## Which rule reads what -/

theorem ifThen_parts {e : Str → Option (SExpr × Str)} {x r : Str} {s : SExpr} (h : pIfThenWith e x = some (s, r)) :
    ∃ s1 y s2 xs s3 s4 s5 z s6, lit cs!"if_then(" x = some s1 ∧ pClauseComma e (skipSp s1) = some (y, s2) ∧
      pManyN (pClauseComma e) s2.length s2 = (xs, s3) ∧ lit cs!"_" (skipSp s3) = some s4 ∧ lit cs!"->" (skipSp s4) = some s5 ∧
      e (skipSp s5) = some (z, s6) ∧ s = .ifThen (y :: xs) z := by
  unfold pIfThenWith at h
  simp only [Option.bind_eq_bind, Option.bind_eq_some_iff] at h
  obtain ⟨s1, h1, ⟨y, s2⟩, h2, s4, h3, s5, h4, ⟨z, s6⟩, h5, s7, h6, h7⟩ := h
  cases h7
  exact ⟨s1, y, s2, _, _, s4, s5, z, s6, h1, h2, Prod.ext rfl rfl, h3, h4, h5, rfl⟩

theorem cast_parts {e : Str → Option (SExpr × Str)} {x r : Str} {s : SExpr} (h : pCastWith e x = some (s, r)) :
    ∃ s1 y s2 s3 s4 t, lit cs!"(" x = some s1 ∧ e (skipSp s1) = some (y, s2) ∧ lit cs!")" (skipSp s2) = some s3 ∧
      lit cs!"::" (skipSp s3) = some s4 ∧ pType (skipSp (pBehavior (skipSp s4)).2) = some (t, r) ∧
      s = .cast y (pBehavior (skipSp s4)).1 t := by
  unfold pCastWith at h
  simp only [Option.bind_eq_bind, Option.bind_eq_some_iff] at h
  obtain ⟨s1, h1, ⟨y, s2⟩, h2, s3, h3, s4, h4, ⟨t, s5⟩, h5, h6⟩ := h
  cases h6
  exact ⟨s1, y, s2, s3, s4, t, h1, h2, h3, h4, h5, rfl⟩

theorem call_parts {e : Str → Option (SExpr × Str)} {x r : Str} {s : SExpr} (h : pCallWith e x = some (s, r)) :
    ∃ name s1 args s4 s5 t, pFunSig x = some (name, s1) ∧
      pArgsWith e (skipSp (pOpt pUrnAnchor (skipSp (pOpt pAnchor (skipSp s1)).2)).2) = some (args, s4) ∧
      lit cs!":" s4 = some s5 ∧ pType (skipSp s5) = some (t, r) ∧
      s = .call name (pOpt pAnchor (skipSp s1)).1 (pOpt pUrnAnchor (skipSp (pOpt pAnchor (skipSp s1)).2)).1 args t := by
  unfold pCallWith at h
  simp only [Option.bind_eq_bind, Option.bind_eq_some_iff] at h
  obtain ⟨⟨name, s1⟩, h1, ⟨args, s4⟩, h2, s5, h3, ⟨t, s6⟩, h4, h5⟩ := h
  cases h5
  exact ⟨name, s1, args, s4, s5, t, h1, h2, h3, h4, rfl⟩

theorem exprN_parts {fuel : Nat} {x r : Str} {s : SExpr} (h : pExprN (fuel + 1) x = some (s, r)) :
    match s with
    | .ifThen _ _ => pIfThenWith (pExprN fuel) x = some (s, r)
    | .cast _ _ _ => pCastWith (pExprN fuel) x = some (s, r)
    | .call _ _ _ _ _ => pCallWith (pExprN fuel) x = some (s, r)
    | .ref _ => True
    | .lit l => pLiteral x = some (l, r) := by
  rw [pExprN] at h
  rcases or_some h with h | ⟨-, h⟩
  · rcases or_some h with h | ⟨-, h⟩
    · rcases or_some h with h | ⟨-, h⟩
      · rcases or_some h with h | ⟨-, h⟩
        · obtain ⟨_, _, _, _, _, _, _, _, _, -, -, -, -, -, -, rfl⟩ := ifThen_parts h
          exact h
        · obtain ⟨_, _, _, _, _, _, -, -, -, -, -, rfl⟩ := cast_parts h
          exact h
      · obtain ⟨_, _, _, _, _, _, -, -, -, -, rfl⟩ := call_parts h
        exact h
    · obtain ⟨i, -, rfl⟩ := mapFst_some h
      trivial
  · obtain ⟨i, h1, rfl⟩ := mapFst_some h
    exact h1

theorem clause_parts {e : Str → Option (SExpr × Str)} {x q : Str} {y : SExpr × SExpr} (h : pClauseComma e x = some (y, q)) :
    ∃ s1 s2 s3 s4, e x = some (y.1, s1) ∧ lit cs!"->" (skipSp s1) = some s2 ∧ e (skipSp s2) = some (y.2, s3) ∧
      lit cs!"," (skipSp s3) = some s4 ∧ q = skipSp s4 := by
  unfold pClauseComma pClauseWith at h
  simp only [Option.bind_eq_bind, Option.bind_eq_some_iff] at h
  obtain ⟨⟨z, s0⟩, ⟨⟨c, s1⟩, h1, s2, h2, ⟨d, s3⟩, h3, h4⟩, s4, h5, h6⟩ := h
  cases h4
  cases h6
  exact ⟨s1, s2, _, s4, h1, h2, h3, h5, rfl⟩

/-! ## What conversion says about the parts -/

theorem convExpr_literal [FTab] {st : Store} {s : SExpr} {l : Literal} (h : convExpr st s = .ok (.literal l)) :
    ∃ y, s = .lit y ∧ convLit st y = .ok l := by
  cases s with
  | lit y =>
    rw [convExpr] at h
    obtain ⟨l', h1, h2⟩ := Res.bind_ok_iff.1 h
    cases h2
    exact ⟨y, rfl, h1⟩
  | ref i => rw [convExpr] at h; obtain ⟨_, _, h2⟩ := Res.bind_ok_iff.1 h; cases h2
  | cast e fb t =>
    rw [convExpr] at h
    obtain ⟨_, _, h2⟩ := Res.bind_ok_iff.1 h
    obtain ⟨_, _, h2⟩ := Res.bind_ok_iff.1 h2
    cases h2
  | ifThen cs e =>
    rw [convExpr] at h
    obtain ⟨_, _, h2⟩ := Res.bind_ok_iff.1 h
    obtain ⟨_, _, h2⟩ := Res.bind_ok_iff.1 h2
    cases h2
  | call name a u args t =>
    rw [convExpr] at h
    obtain ⟨_, _, h2⟩ := Res.bind_ok_iff.1 h
    obtain ⟨_, _, h2⟩ := Res.bind_ok_iff.1 h2
    obtain ⟨_, _, h2⟩ := Res.bind_ok_iff.1 h2
    obtain ⟨_, _, h2⟩ := Res.bind_ok_iff.1 h2
    obtain ⟨_, _, h2⟩ := Res.bind_ok_iff.1 h2
    cases h2

theorem convExpr_cast [FTab] {st : Store} {s : SExpr} {e : Option Expr} {t : Option Ty} {fb : Int}
    (h : convExpr st s = .ok (.cast e t fb)) :
    ∃ y b q e' t', s = .cast y b q ∧ convExpr st y = .ok e' ∧ convTy st q = .ok t' ∧ e = some e' ∧ t = some t' := by
  cases s with
  | lit y => rw [convExpr] at h; obtain ⟨_, _, h2⟩ := Res.bind_ok_iff.1 h; cases h2
  | ref i => rw [convExpr] at h; obtain ⟨_, _, h2⟩ := Res.bind_ok_iff.1 h; cases h2
  | cast y b q =>
    rw [convExpr] at h
    obtain ⟨e', h1, h2⟩ := Res.bind_ok_iff.1 h
    obtain ⟨t', h3, h2⟩ := Res.bind_ok_iff.1 h2
    cases h2
    exact ⟨y, b, q, e', t', rfl, h1, h3, rfl, rfl⟩
  | ifThen cs e =>
    rw [convExpr] at h
    obtain ⟨_, _, h2⟩ := Res.bind_ok_iff.1 h
    obtain ⟨_, _, h2⟩ := Res.bind_ok_iff.1 h2
    cases h2
  | call name a u args t =>
    rw [convExpr] at h
    obtain ⟨_, _, h2⟩ := Res.bind_ok_iff.1 h
    obtain ⟨_, _, h2⟩ := Res.bind_ok_iff.1 h2
    obtain ⟨_, _, h2⟩ := Res.bind_ok_iff.1 h2
    obtain ⟨_, _, h2⟩ := Res.bind_ok_iff.1 h2
    obtain ⟨_, _, h2⟩ := Res.bind_ok_iff.1 h2
    cases h2

theorem convExpr_ifThen [FTab] {st : Store} {s : SExpr} {ifs : List Clause} {els : Option Expr}
    (h : convExpr st s = .ok (.ifThen ifs els)) :
    ∃ cs y e', s = .ifThen cs y ∧ convClauses st cs = .ok ifs ∧ convExpr st y = .ok e' ∧ els = some e' := by
  cases s with
  | lit y => rw [convExpr] at h; obtain ⟨_, _, h2⟩ := Res.bind_ok_iff.1 h; cases h2
  | ref i => rw [convExpr] at h; obtain ⟨_, _, h2⟩ := Res.bind_ok_iff.1 h; cases h2
  | cast y b q =>
    rw [convExpr] at h
    obtain ⟨_, _, h2⟩ := Res.bind_ok_iff.1 h
    obtain ⟨_, _, h2⟩ := Res.bind_ok_iff.1 h2
    cases h2
  | ifThen cs y =>
    rw [convExpr] at h
    obtain ⟨_, h1, h2⟩ := Res.bind_ok_iff.1 h
    obtain ⟨e', h3, h2⟩ := Res.bind_ok_iff.1 h2
    cases h2
    exact ⟨cs, y, e', rfl, h1, h3, rfl⟩
  | call name a u args t =>
    rw [convExpr] at h
    obtain ⟨_, _, h2⟩ := Res.bind_ok_iff.1 h
    obtain ⟨_, _, h2⟩ := Res.bind_ok_iff.1 h2
    obtain ⟨_, _, h2⟩ := Res.bind_ok_iff.1 h2
    obtain ⟨_, _, h2⟩ := Res.bind_ok_iff.1 h2
    obtain ⟨_, _, h2⟩ := Res.bind_ok_iff.1 h2
    cases h2

theorem ofLookup_ok {α : Type} {x : Except Store.MissingReference α} {a : α} (h : ofLookup x = .ok a) : x = .ok a := by
  cases x with
  | error e => simp [ofLookup] at h
  | ok b => simp [ofLookup] at h; rw [h]

theorem convExpr_call [FTab] {st : Store} {s : SExpr} {f : Nat} {args : List Arg} {opts : List FOption} {out : Option Ty}
    (h : convExpr st s = .ok (.call f args opts out)) :
    ∃ name a u ss q a' t', s = .call name a u ss q ∧ unwrapU32 a = .ok a' ∧ convArgs st ss = .ok args ∧ convTy st q = .ok t' ∧
      st.getAndValidateAnchor .function a' name = .ok f ∧ opts = [] ∧ out = some t' := by
  cases s with
  | lit y => rw [convExpr] at h; obtain ⟨_, _, h2⟩ := Res.bind_ok_iff.1 h; cases h2
  | ref i => rw [convExpr] at h; obtain ⟨_, _, h2⟩ := Res.bind_ok_iff.1 h; cases h2
  | cast y b q =>
    rw [convExpr] at h
    obtain ⟨_, _, h2⟩ := Res.bind_ok_iff.1 h
    obtain ⟨_, _, h2⟩ := Res.bind_ok_iff.1 h2
    cases h2
  | ifThen cs y =>
    rw [convExpr] at h
    obtain ⟨_, h1, h2⟩ := Res.bind_ok_iff.1 h
    obtain ⟨e', h3, h2⟩ := Res.bind_ok_iff.1 h2
    cases h2
  | call name a u ss q =>
    rw [convExpr] at h
    obtain ⟨a', h1, h2⟩ := Res.bind_ok_iff.1 h
    obtain ⟨_, _, h2⟩ := Res.bind_ok_iff.1 h2
    obtain ⟨_, h3, h2⟩ := Res.bind_ok_iff.1 h2
    obtain ⟨t', h4, h2⟩ := Res.bind_ok_iff.1 h2
    obtain ⟨_, h5, h2⟩ := Res.bind_ok_iff.1 h2
    cases h2
    exact ⟨name, a, u, ss, q, a', t', rfl, h1, h3, h4, ofLookup_ok h5, rfl, rfl⟩

theorem convArgs_cons [FTab] {st : Store} {s : SExpr} {ss : List SExpr} {l : List Arg} (h : convArgs st (s :: ss) = .ok l) :
    ∃ e l', l = .value e :: l' ∧ convExpr st s = .ok e ∧ convArgs st ss = .ok l' := by
  rw [convArgs] at h
  obtain ⟨e, h1, h2⟩ := Res.bind_ok_iff.1 h
  obtain ⟨l', h3, h2⟩ := Res.bind_ok_iff.1 h2
  cases h2
  exact ⟨e, l', rfl, h1, h3⟩

theorem convClauses_cons [FTab] {st : Store} {y : SExpr × SExpr} {ys : List (SExpr × SExpr)} {l : List Clause}
    (h : convClauses st (y :: ys) = .ok l) :
    ∃ c r l', l = .mk (some c) (some r) :: l' ∧ convExpr st y.1 = .ok c ∧ convExpr st y.2 = .ok r ∧ convClauses st ys = .ok l' := by
  obtain ⟨y1, y2⟩ := y
  rw [convClauses] at h
  cases h1 : convExpr st y1 with
  | err e => rw [h1] at h; cases h
  | panic => rw [h1] at h; cases h
  | ok c =>
    rw [h1] at h
    cases h2 : convExpr st y2 with
    | err e => rw [h2] at h; cases h
    | panic => rw [h2] at h; cases h
    | ok r =>
      rw [h2] at h
      obtain ⟨l', h3, h4⟩ := Res.bind_ok_iff.1 h
      cases h4
      exact ⟨c, r, l', rfl, rfl, rfl, h3⟩

/-! ## How the texts start -/

theorem floatShown_starts {x : Str} (h : FloatShown x) : Starts x := by
  rcases h with h | ⟨neg, ds, h1, h2, rfl⟩ | ⟨neg, ds, fs, h1, -, h2, -, rfl⟩
  · simp only [List.mem_cons, List.not_mem_nil, or_false] at h
    rcases h with rfl | rfl | rfl <;> exact ⟨_, _, rfl, by decide⟩
  · cases neg with
    | true => exact ⟨'-', _, rfl, by decide⟩
    | false =>
      cases ds with
      | nil => exact absurd rfl h1
      | cons c ds => exact ⟨c, ds, rfl, by rintro rfl; exact absurd (h2 ' ' (by simp)) (by decide)⟩
  · cases neg with
    | true => exact ⟨'-', _, rfl, by decide⟩
    | false =>
      cases ds with
      | nil => exact absurd rfl h1
      | cons c ds => exact ⟨c, _, rfl, by rintro rfl; exact absurd (h2 ' ' (by simp)) (by decide)⟩

theorem starts_append {x : Str} (h : Starts x) (y : Str) : Starts (x ++ y) := by
  obtain ⟨c, t, rfl, hc⟩ := h
  exact ⟨c, t ++ y, rfl, hc⟩

theorem lit_starts [UTab] [FTab] (hF : FloatsShown) {st : Store} (st' : Store) (o : Opts) (l : Literal) (h : LitImage st l) :
    Starts (textLit st' o l).text := by
  obtain ⟨value, nullable, tvar⟩ := l
  obtain ⟨-, v, h1, hi⟩ := h
  simp only at h1 hi
  subst h1
  by_cases hn : ∃ t, v = .null t
  · obtain ⟨t, rfl⟩ := hn
    exact ⟨'n', _, by simp [textLit, textValue]; rfl, by decide⟩
  · have hn : ∀ t, v ≠ .null t := fun t e => hn ⟨t, e⟩
    have ht : textLit st' o ⟨some v, nullable, tvar⟩ =
        textValue o v ++ (if showSuffix o nullable v then textSuffix v nullable else .s []) := by
      cases v with
      | null t => exact absurd rfl (hn t)
      | _ => rfl
    rw [ht, Out.text_append]
    apply starts_append
    have hprec : ∀ (p : Int) (x : Option Str), Starts (textPrecLit p x).text := by
      intro p x
      cases x with
      | none => exact ⟨'!', _, rfl, by decide⟩
      | some x => exact ⟨'\'', _, rfl, by decide⟩
    cases v with
    | null t => exact absurd rfl (hn t)
    | binary _ => exact hi.elim
    | other _ => exact hi.elim
    | bool b => cases b <;> exact ⟨_, _, rfl, by decide⟩
    | int w i =>
      have := pValue_int i [] (NextNot.nil _)
      rcases pValue_head this with ⟨c, t, h, hc⟩ | h | h | h
      · rw [List.append_nil] at h
        exact ⟨c, t, h, (valueHead_not_alpha hc).2.2.2.2⟩
      all_goals
        rw [List.append_nil] at h
        refine ⟨_, _, h, by decide⟩
    | fp32 f => exact floatShown_starts (hF f).1
    | fp64 f => exact floatShown_starts (hF f).2
    | string s => exact ⟨'\'', _, rfl, by decide⟩
    | date d =>
      have : dateText d = some (showDate (Date.ofDays d)) := by unfold dateText; rw [if_pos hi]
      simp only [textValue, this]
      exact ⟨'\'', _, rfl, by decide⟩
    | time us => exact hprec _ _
    | timestamp us => exact hprec _ _
    | prec k p v => cases k <;> exact hprec _ _
    | interval i =>
      simp only [textValue, textInterval]
      split
      · exact ⟨'!', _, rfl, by decide⟩
      · split
        · split
          · rw [Out.text_append]; exact ⟨'!', _, rfl, by decide⟩
          · rw [Out.text_append, Out.text_append]; exact ⟨'\'', _, rfl, by decide⟩
        · rw [Out.text_append]; exact ⟨'\'', _, rfl, by decide⟩

/-- A function reference that is read back as the function it was written for. -/
theorem call_name {h : List Op} (o : Opts) {f : Nat} {name x s1 : Str} {a' : Option Nat} (hp : pFunSig x = some (name, s1))
    (hg : (run h).getAndValidateAnchor .function a' name = .ok f) :
    ∃ nm a, ShownFn (run h) o.anchors f nm a ∧ FunctionName name ∧ (nm = name ∨ (nm = baseName name) ∨ (':' ∉ name ∧ ∃ sig, nm = name ++ ':' :: sig)) := by
  obtain ⟨y, -, rfl, hy⟩ := reads_funSig _ _ _ hp
  rw [Store.getAndValidate_function (Store.ordered_run h)] at hg
  obtain ⟨⟨n, hd, hsp⟩, -⟩ := hg
  obtain ⟨nm, a, hs⟩ := shownFn_exists (run h) o.anchors hd
  obtain ⟨-, n', b, hd', hb, hn⟩ := shownFn_parts hs
  have : n' = n := by
    obtain ⟨u, hu⟩ := hd
    obtain ⟨u', hu'⟩ := hd'
    rw [hu] at hu'
    cases hu'
    rfl
  subst this
  have hbb := (bareName_iff _ _).1 hb
  refine ⟨nm, a, hs, funSig_name hy, ?_⟩
  rcases hsp with rfl | ⟨hc, sig, rfl⟩
  · rcases hn with rfl | rfl
    · exact .inl rfl
    · exact .inr (.inl hbb.symm)
  · rcases hn with rfl | rfl
    · exact .inr (.inr ⟨hc, sig, rfl⟩)
    · left
      rw [← hbb, baseName_append hc]

theorem name_starts {name nm : Str} (hn : FunctionName name)
    (h : nm = name ∨ nm = baseName name ∨ (':' ∉ name ∧ ∃ sig, nm = name ++ ':' :: sig)) : Starts nm := by
  rcases h with rfl | rfl | ⟨-, sig, rfl⟩
  · obtain ⟨c, t, rfl, hc⟩ := hn.head; exact ⟨c, t, rfl, alpha_ne_space hc⟩
  · obtain ⟨c, t, h, hc⟩ := hn.base.head; exact ⟨c, t, h, alpha_ne_space hc⟩
  · obtain ⟨c, t, rfl, hc⟩ := hn.head; exact ⟨c, _, rfl, alpha_ne_space hc⟩

/-- The text of an expression that was read starts with no space. -/
theorem starts_of_read [UTab] [FTab] (hF : FloatsShown) {h : List Op} (o : Opts) {fuel : Nat} {x r : Str} {s : SExpr} {e : Expr}
    (hp : pExprN fuel x = some (s, r)) (hc : convExpr (run h) s = .ok e) : Starts (textExpr (run h) o e).text := by
  have hi := convExpr_image (Store.ordered_run h) s e hc
  cases fuel with
  | zero => cases hp
  | succ fuel =>
  have hk := exprN_parts hp
  cases e with
  | missing => simp [ExprImage] at hi
  | other => simp [ExprImage] at hi
  | literal l =>
    rw [ExprImage] at hi
    rw [textExpr]
    exact lit_starts hF _ o l hi
  | selection f =>
    cases f with
    | field i child => exact ⟨'$', decInt i, by simp [textExpr, textFieldRef, textRef], by decide⟩
    | badReference => simp [ExprImage] at hi
    | badSegment => simp [ExprImage] at hi
  | cast e t fb => exact ⟨'(', _, by simp [textExpr]; rfl, by decide⟩
  | ifThen ifs els => exact ⟨'i', _, by simp [textExpr]; rfl, by decide⟩
  | call f args opts out =>
    obtain ⟨name, a, u, ss, q, a', t', rfl, h1, h2, h3, h4, rfl, rfl⟩ := convExpr_call hc
    obtain ⟨name', s1, args', s4, s5, t, hf, -, -, -, he⟩ := call_parts hk
    cases he
    obtain ⟨nm, b, hs, hn, hnm⟩ := call_name o hf h4
    rw [call_text o (textAnchor_fn hs)]
    exact starts_append (name_starts hn hnm) _

/-! ## The theorem -/

theorem spCommaSp_starts {x : Str} (h : Starts x) (y : Str) : spCommaSp (cs!", " ++ (x ++ y)) = some (x ++ y) := by
  have h1 : skipSp (cs!", " ++ (x ++ y)) = cs!", " ++ (x ++ y) := skipSp_cons _ _ (by decide)
  unfold spCommaSp
  rw [h1]
  simp only [List.cons_append, List.nil_append, lit_cons, lit_nil, if_true, Option.map_some]
  rw [skipSp_space, h.skip]

theorem spCommaSp_skip (x : Str) : spCommaSp (cs!", " ++ x) = some (skipSp x) := by
  have h1 : skipSp (cs!", " ++ x) = cs!", " ++ x := skipSp_cons _ _ (by decide)
  unfold spCommaSp
  rw [h1]
  simp only [List.cons_append, List.nil_append, lit_cons, lit_nil, if_true, Option.map_some]
  rw [skipSp_space]

theorem flat_exprFollow (l : List Str) (rest : Str) : ExprFollow (l.flatMap (cs!", " ++ ·) ++ ')' :: rest) := by
  cases l with
  | nil => exact exprFollow_close _
  | cons a l => exact exprFollow_comma _

/-- The arguments of a call, each behind a comma. -/
theorem args_star [UTab] [FTab] (hF : FloatsShown) {h : List Op} (o : Opts) {args : List Arg} {fuel : Nat} {rest r : Str} {ss : List SExpr}
    (hp : pArgsWith (pExprN fuel) ('(' :: (joinS cs!", " ((textArgs (run h) o args).map Out.text) ++ ')' :: rest)) = some (ss, r))
    (hc : convArgs (run h) ss = .ok args) :
    ∃ n r', pStarN spCommaSp (pExprN fuel) n (((textArgs (run h) o args).map Out.text).flatMap (cs!", " ++ ·) ++ ')' :: rest) = (ss, r') ∧
      lit cs!")" r' = some r := by
  unfold pArgsWith at hp
  simp only [lit_cons, lit_nil, if_true, Option.bind_eq_bind, Option.bind_some, Option.bind_eq_some_iff] at hp
  obtain ⟨q, h1, h2⟩ := hp
  cases h2
  generalize hsep : pSep spCommaSp (pExprN fuel) (joinS cs!", " ((textArgs (run h) o args).map Out.text) ++ ')' :: rest) = w at h1 hc
  obtain ⟨ss, r'⟩ := w
  simp only at h1 hc ⊢
  unfold pSep at hsep
  cases hs1 : pSep1 spCommaSp (pExprN fuel) (joinS cs!", " ((textArgs (run h) o args).map Out.text) ++ ')' :: rest) with
  | none =>
    rw [hs1] at hsep
    cases hsep
    cases hc
    exact ⟨0, _, rfl, h1⟩
  | some w =>
    rw [hs1] at hsep
    simp only at hsep
    subst hsep
    unfold pSep1 at hs1
    split at hs1
    · cases hs1
    · next a s1 he =>
      cases hs1
      obtain ⟨e, l', rfl, h3, h4⟩ := convArgs_cons hc
      have hst := starts_of_read hF o he h3
      have hx : ((textArgs (run h) o (.value e :: l')).map Out.text).flatMap (cs!", " ++ ·) ++ ')' :: rest =
          cs!", " ++ ((textExpr (run h) o e).text ++ (((textArgs (run h) o l').map Out.text).flatMap (cs!", " ++ ·) ++ ')' :: rest)) := by
        simp [textArgs, textArg]
      have hy : joinS cs!", " ((textArgs (run h) o (.value e :: l')).map Out.text) ++ ')' :: rest =
          (textExpr (run h) o e).text ++ (((textArgs (run h) o l').map Out.text).flatMap (cs!", " ++ ·) ++ ')' :: rest) := by
        simp [textArgs, textArg, joinS_cons]
      refine ⟨s1.length + 1, _, ?_, h1⟩
      rw [hx, pStarN, spCommaSp_starts hst]
      rw [hy] at he
      simp only [he]

mutual
theorem survives_expr_of_read [UTab] [FTab] (hA : AsciiPrintable) (hF : FloatsShown) {h : List Op} (o : Opts) :
    (e : Expr) → ∀ (fuel : Nat) (rest r : Str) (s : SExpr), (textExpr (run h) o e).text.length < fuel → ExprFollow rest →
      pExprN fuel ((textExpr (run h) o e).text ++ rest) = some (s, r) → convExpr (run h) s = .ok e → SurvivesExpr (run h) o e
  | .literal l => by
    intro fuel rest r s hf hr hp hc
    obtain ⟨fuel, rfl⟩ : ∃ f, fuel = f + 1 := ⟨fuel - 1, by omega⟩
    obtain ⟨y, rfl, hl⟩ := convExpr_literal hc
    have hk := exprN_parts hp
    simp only [textExpr] at hk
    rw [SurvivesExpr]
    exact survives_of_read_lit o l ⟨fun f _ => (hF f).1, fun f _ => (hF f).2⟩ hr.1 hk hl
  | .selection (.field i none) => by
    intro fuel rest r s hf hr hp hc
    have hi := convExpr_image (Store.ordered_run h) s _ hc
    rw [ExprImage] at hi
    rw [SurvivesExpr]
    exact hi
  | .call f args opts (some t) => by
    intro fuel rest r s hf hr hp hc
    obtain ⟨fuel, rfl⟩ : ∃ f, fuel = f + 1 := ⟨fuel - 1, by omega⟩
    have hk := exprN_parts hp
    obtain ⟨name, a, u, ss, q, a', t', rfl, h1, h2, h3, h4, rfl, e⟩ := convExpr_call hc
    cases e
    obtain ⟨name', s1, args', s4, s5, t', hfs, hargs, h5, h6, he⟩ := call_parts hk
    cases he
    obtain ⟨nm, b, hs, hn, hnm⟩ := call_name o hfs h4
    have htext := call_text o (args := args) (t := t) (textAnchor_fn hs)
    have hnext : NextNot sigContinues (showAnchor b ++ '(' :: (joinS cs!", " ((textArgs (run h) o args).map Out.text) ++
        ')' :: ':' :: ((textTy (run h) o t).text ++ rest))) := by
      cases b with
      | none => exact (nextNot_cons _ _ _).2 (by decide)
      | some a => exact (nextNot_cons _ _ _).2 (by decide)
    have hx : (textExpr (run h) o (.call f args [] (some t))).text ++ rest = nm ++ (showAnchor b ++ '(' ::
        (joinS cs!", " ((textArgs (run h) o args).map Out.text) ++ ')' :: ':' :: ((textTy (run h) o t).text ++ rest))) := by
      rw [htext]; simp
    rw [hx] at hfs
    -- the name shown is a function name, for otherwise another one would have been read
    have hnm2 : FunctionName nm := by
      rcases hnm with rfl | rfl | ⟨hcol, sig, rfl⟩
      · exact hn
      · exact hn.base
      · exfalso
        obtain ⟨c, hc1, hc2⟩ := hn
        have hid : isIdentifier name = true := by
          rcases hc2 with rfl | rfl | ⟨r, -, rfl⟩
          · exact hc1
          · exact absurd (by simp) hcol
          · exact absurd (by simp) hcol
        have hpi := pIdent_name (x := ':' :: (sig ++ (showAnchor b ++ '(' ::
          (joinS cs!", " ((textArgs (run h) o args).map Out.text) ++ ')' :: ':' :: ((textTy (run h) o t).text ++ rest))))) hid
          ((nextNot_cons _ _ _).2 (by decide))
        unfold pFunSig at hfs
        simp only [List.append_assoc, List.cons_append] at hfs
        rw [hpi] at hfs
        simp only [lit_cons, lit_nil, if_true] at hfs
        split at hfs
        · injection hfs with hfs
          injection hfs with e1 _
          exact hcol (e1 ▸ by simp)
        · injection hfs with hfs
          injection hfs with e1 _
          exact hcol (e1 ▸ by simp)
    rw [pFunSig_text hnm2 hnext] at hfs
    injection hfs with hfs
    injection hfs with e1 e2
    subst e1 e2
    have hsk : skipSp (showAnchor b ++ '(' :: (joinS cs!", " ((textArgs (run h) o args).map Out.text) ++
        ')' :: ':' :: ((textTy (run h) o t).text ++ rest))) = showAnchor b ++ '(' ::
        (joinS cs!", " ((textArgs (run h) o args).map Out.text) ++ ')' :: ':' :: ((textTy (run h) o t).text ++ rest)) := by
      cases b with
      | none => exact skipSp_cons _ _ (by decide)
      | some a => exact skipSp_cons _ _ (by decide)
    have hsk2 : ∀ s, skipSp ('(' :: s) = '(' :: s := fun s => skipSp_cons _ _ (by decide)
    have h7 := pAnchor_text b ('(' :: (joinS cs!", " ((textArgs (run h) o args).map Out.text) ++
        ')' :: ':' :: ((textTy (run h) o t).text ++ rest))) ((nextNot_cons _ _ _).2 (by decide)) ((nextNot_cons _ _ _).2 (by decide))
    have h8 := pUrn_none ('(' :: (joinS cs!", " ((textArgs (run h) o args).map Out.text) ++
        ')' :: ':' :: ((textTy (run h) o t).text ++ rest))) ((nextNot_cons _ _ _).2 (by decide))
    rw [hsk, h7] at hargs h1
    simp only [hsk2, h8] at hargs h1
    have hlen : ∀ x ∈ (textArgs (run h) o args).map Out.text, x.length < fuel := by
      apply args_length
      rw [htext] at hf
      simp only [List.length_append, List.length_cons] at hf
      omega
    obtain ⟨n, r', h9, h10⟩ := args_star hF o hargs h2
    obtain ⟨h11, rfl⟩ := survives_args_of_read hA hF o args _ _ _ _ _ hlen h9 h2
    simp only [lit_cons, lit_nil, if_true, Option.some.injEq] at h10
    subst h10
    simp only [lit_cons, lit_nil, if_true, Option.some.injEq] at h5
    subst h5
    obtain ⟨c, tl, hh, hal⟩ := read_head o h6 h3
    have hskt : skipSp ((textTy (run h) o t).text ++ rest) = (textTy (run h) o t).text ++ rest := by
      rw [hh]; exact skipSp_cons _ _ (alpha_ne_space hal)
    rw [hskt] at h6
    rw [SurvivesExpr]
    refine ⟨rfl, ⟨nm, b, hs, ?_⟩, h11, survives_of_read o t _ _ _ _ (by simp only [List.length_append]; omega) (LitFollow.ty hr.1) h6 h3⟩
    rcases (shownFn_parts hs).1 with rfl | rfl
    · cases h1
      rw [Store.getAndValidate_function (Store.ordered_run h)] at h4
      exact ⟨hnm2, h4.2⟩
    · refine ⟨hnm2, ?_⟩
      simp only [Option.map_some, unwrapU32, IntTok.toU32, Bool.false_eq_true, if_false] at h1
      by_cases hlt : f < 2 ^ 32
      · exact hlt
      · rw [if_neg hlt] at h1; cases h1
  | .cast (some e) (some t) fb => by
    intro fuel rest r s hf hr hp hc
    obtain ⟨fuel, rfl⟩ : ∃ f, fuel = f + 1 := ⟨fuel - 1, by omega⟩
    have hi := convExpr_image (Store.ordered_run h) s _ hc
    rw [ExprImage] at hi
    obtain ⟨y, b, q, e', t', rfl, h1, h2, h3, h4⟩ := convExpr_cast hc
    cases h3
    cases h4
    have hk : pCastWith (pExprN fuel) _ = _ := exprN_parts hp
    have htext : (textExpr (run h) o (.cast (some e) (some t) fb)).text =
        '(' :: ((textExpr (run h) o e).text ++ (cs!")::" ++ ((textBehavior fb).text ++ (textTy (run h) o t).text))) := by
      simp [textExpr, textExprReq, textTyReq]
    have hlen : (textExpr (run h) o e).text.length < fuel := by
      rw [htext] at hf
      simp only [List.length_append, List.length_cons] at hf
      omega
    rw [htext] at hk
    obtain ⟨s1, y', s2, s3, s4, q', h5, h6, h7, h8, h9, h10⟩ := cast_parts hk
    cases h10
    simp only [List.cons_append, lit_cons, lit_nil, if_true, Option.some.injEq] at h5
    subst h5
    have hst := starts_of_read hF o h6 h1
    simp only [List.append_assoc, List.cons_append, List.nil_append] at h6
    rw [hst.skip] at h6
    have hse := survives_expr_of_read hA hF o e _ _ _ _ hlen (exprFollow_close _) h6 h1
    obtain ⟨s', -, hread⟩ := read_expr hA o e hse
    rw [hread fuel _ hlen (exprFollow_close _)] at h6
    injection h6 with h6
    injection h6 with _ e2
    subst e2
    simp only [skipSp_cons, lit_cons, lit_nil, if_true, Option.some.injEq, ne_eq, not_false_eq_true,
      (by decide : ¬ (')' = ' '))] at h7
    subst h7
    simp only [skipSp_cons, lit_cons, lit_nil, if_true, Option.some.injEq, ne_eq, not_false_eq_true,
      (by decide : ¬ (':' = ' '))] at h8
    subst h8
    have hhd := read_head o h9 h2
    have hb := (pBehavior_text hi.1 hhd rest).2
    rw [hb] at h9
    obtain ⟨c, tl, hh, hal⟩ := hhd
    have hskt : skipSp ((textTy (run h) o t).text ++ rest) = (textTy (run h) o t).text ++ rest := by
      rw [hh]; exact skipSp_cons _ _ (alpha_ne_space hal)
    simp only [hskt] at h9
    rw [SurvivesExpr]
    exact ⟨hi.1, hse, survives_of_read o t _ _ _ _ (by simp only [List.length_append]; omega) (LitFollow.ty hr.1) h9 h2⟩
  | .ifThen ifs (some e) => by
    intro fuel rest r s hf hr hp hc
    obtain ⟨fuel, rfl⟩ : ∃ f, fuel = f + 1 := ⟨fuel - 1, by omega⟩
    obtain ⟨cs, y, e', rfl, h1, h2, h3⟩ := convExpr_ifThen hc
    cases h3
    have hk : pIfThenWith (pExprN fuel) _ = _ := exprN_parts hp
    have htext : (textExpr (run h) o (.ifThen ifs (some e))).text =
        cs!"if_then(" ++ ((textClauses (run h) o ifs).text ++ (cs!"_ -> " ++ ((textExpr (run h) o e).text ++ [')']))) := by
      simp [textExpr, textExprReq]
    rw [htext] at hf hk
    simp only [List.length_append, List.length_cons] at hf
    obtain ⟨s1, x, s2, xs, s3, s4, s5, z, s6, h4, h5, h6, h7, h8, h9, h10⟩ := ifThen_parts hk
    cases h10
    rw [List.append_assoc, lit_append] at h4
    injection h4 with h4
    subst h4
    obtain ⟨c, d, l', rfl, h11, h12, h13⟩ := convClauses_cons h1
    have hmany : pManyN (pClauseComma (pExprN fuel)) (s2.length + 1) (skipSp ((textClauses (run h) o (.mk (some c) (some d) :: l')).text ++
        (cs!"_ -> " ++ ((textExpr (run h) o e).text ++ [')'])) ++ rest)) = (x :: xs, s3) := by
      rw [pManyN, h5]
      simp [h6]
    obtain ⟨_, _, _, _, h14, -⟩ := clause_parts h5
    have hst := starts_of_read hF o h14 h11
    have hct : (textClauses (run h) o (.mk (some c) (some d) :: l')).text = (textExpr (run h) o c).text ++ (cs!" -> " ++
        ((textExpr (run h) o d).text ++ (cs!", " ++ (textClauses (run h) o l').text))) := by
      simp [textClauses, textExprReq]
    have hskip : ∀ z, skipSp ((textClauses (run h) o (.mk (some c) (some d) :: l')).text ++ z) =
        (textClauses (run h) o (.mk (some c) (some d) :: l')).text ++ z := by
      intro z
      rw [hct, List.append_assoc]
      exact hst.skip _
    rw [List.append_assoc, hskip] at hmany
    simp only [List.cons_append, List.nil_append, List.append_assoc] at hmany
    obtain ⟨h15, rfl⟩ := survives_clauses_of_read hA hF o (.mk (some c) (some d) :: l') fuel _ _ _ _ (by omega)
      ((nextNot_cons _ _ _).2 (by decide)) hmany h1
    simp only [skipSp_cons, lit_cons, lit_nil, if_true, Option.some.injEq, ne_eq, not_false_eq_true,
      (by decide : ¬ ('_' = ' '))] at h7
    subst h7
    simp only [skipSp_space, skipSp_cons, lit_cons, lit_nil, if_true, Option.some.injEq, ne_eq, not_false_eq_true,
      (by decide : ¬ ('-' = ' '))] at h8
    subst h8
    have hst2 := starts_of_read hF o h9 h2
    rw [skipSp_space, hst2.skip] at h9
    rw [SurvivesExpr]
    exact ⟨(by simp), h15, survives_expr_of_read hA hF o e _ _ _ _ (by omega) (exprFollow_close _) h9 h2⟩
  | .missing | .other | .selection (.field _ (some _)) | .selection .badReference | .selection .badSegment | .call _ _ _ none
  | .cast none _ _ | .cast (some _) none _ | .ifThen _ none => by
    intro fuel rest r s hf hr hp hc
    have hi := convExpr_image (Store.ordered_run h) s _ hc
    simp [ExprImage] at hi
theorem survives_args_of_read [UTab] [FTab] (hA : AsciiPrintable) (hF : FloatsShown) {h : List Op} (o : Opts) :
    (l : List Arg) → ∀ (fuel n : Nat) (rest r : Str) (ss : List SExpr),
      (∀ x ∈ (textArgs (run h) o l).map Out.text, x.length < fuel) →
      pStarN spCommaSp (pExprN fuel) n (((textArgs (run h) o l).map Out.text).flatMap (cs!", " ++ ·) ++ ')' :: rest) = (ss, r) →
      convArgs (run h) ss = .ok l → SurvivesArgs (run h) o l ∧ r = ')' :: rest
  | [] => by
    intro fuel n rest r ss hlen hp hc
    rw [SurvivesArgs]
    cases ss with
    | cons s ss => obtain ⟨_, _, e, -⟩ := convArgs_cons hc; cases e
    | nil =>
      cases n with
      | zero => cases hp; exact ⟨trivial, rfl⟩
      | succ n =>
        have : spCommaSp (')' :: rest) = none := by simp [spCommaSp, skipSp_cons]
        simp only [textArgs, List.map_nil, List.flatMap_nil, List.nil_append, pStarN, this] at hp
        cases hp
        exact ⟨trivial, rfl⟩
  | a :: l => by
    intro fuel n rest r ss hlen hp hc
    cases ss with
    | nil => cases hc
    | cons s ss =>
      obtain ⟨e, l', he, h1, h2⟩ := convArgs_cons hc
      injection he with he1 he2
      subst he1 he2
      cases n with
      | zero => simp [pStarN] at hp
      | succ n =>
        have hx : ((textArgs (run h) o (.value e :: l)).map Out.text).flatMap (cs!", " ++ ·) ++ ')' :: rest =
            cs!", " ++ ((textExpr (run h) o e).text ++ (((textArgs (run h) o l).map Out.text).flatMap (cs!", " ++ ·) ++ ')' :: rest)) := by
          simp [textArgs, textArg]
        rw [hx, pStarN, spCommaSp_skip] at hp
        simp only at hp
        cases hpp : pExprN fuel (skipSp ((textExpr (run h) o e).text ++ (((textArgs (run h) o l).map Out.text).flatMap (cs!", " ++ ·) ++ ')' :: rest))) with
        | none => rw [hpp] at hp; cases hp
        | some w =>
          obtain ⟨s', s2⟩ := w
          rw [hpp] at hp
          simp only [Prod.mk.injEq, List.cons.injEq] at hp
          obtain ⟨⟨rfl, hss⟩, hr⟩ := hp
          rw [(starts_of_read hF o hpp h1).skip] at hpp
          have hl : (textExpr (run h) o e).text.length < fuel := hlen _ (by simp [textArgs, textArg])
          have hs := survives_expr_of_read hA hF o e _ _ _ _ hl (flat_exprFollow _ rest) hpp h1
          obtain ⟨s'', -, h5⟩ := read_expr hA o e hs
          rw [h5 fuel _ hl (flat_exprFollow _ rest)] at hpp
          cases hpp
          rw [SurvivesArgs]
          have := survives_args_of_read hA hF o l _ _ rest _ _
            (fun x hx => hlen x (by simp only [textArgs, List.map_cons]; exact List.mem_cons_of_mem _ hx)) (Prod.ext hss hr) h2
          exact ⟨⟨hs, this.1⟩, this.2⟩
theorem survives_clauses_of_read [UTab] [FTab] (hA : AsciiPrintable) (hF : FloatsShown) {h : List Op} (o : Opts) :
    (l : List Clause) → ∀ (fuel n : Nat) (tail r : Str) (xs : List (SExpr × SExpr)),
      (textClauses (run h) o l).text.length < fuel → NextNot (· == ' ') tail →
      pManyN (pClauseComma (pExprN fuel)) n ((textClauses (run h) o l).text ++ tail) = (xs, r) →
      convClauses (run h) xs = .ok l → SurvivesClauses (run h) o l ∧ r = tail
  | [] => by
    intro fuel n tail r xs hlen ht hp hc
    rw [SurvivesClauses]
    cases xs with
    | cons x xs => obtain ⟨_, _, _, e, -⟩ := convClauses_cons hc; cases e
    | nil =>
      cases n with
      | zero => cases hp; exact ⟨trivial, rfl⟩
      | succ n =>
        simp only [textClauses, Out.text_s, List.nil_append, pManyN] at hp
        split at hp
        · cases hp; exact ⟨trivial, rfl⟩
        · simp at hp
  | x :: l => by
    intro fuel n tail r xs hlen ht hp hc
    cases xs with
    | nil => cases hc
    | cons y ys =>
      obtain ⟨c, d, l', he, h1, h2, h3⟩ := convClauses_cons hc
      injection he with he1 he2
      subst he1 he2
      cases n with
      | zero => simp [pManyN] at hp
      | succ n =>
        have hct : (textClauses (run h) o (.mk (some c) (some d) :: l)).text ++ tail = (textExpr (run h) o c).text ++ (cs!" -> " ++
            ((textExpr (run h) o d).text ++ (cs!", " ++ ((textClauses (run h) o l).text ++ tail)))) := by
          simp [textClauses, textExprReq]
        have hlen' : (textExpr (run h) o c).text.length < fuel ∧ (textExpr (run h) o d).text.length < fuel ∧
            (textClauses (run h) o l).text.length < fuel := by
          simp only [textClauses, textExprReq, Out.text_append, List.length_append] at hlen
          omega
        rw [hct, pManyN] at hp
        split at hp
        · simp at hp
        · next z s1 hz =>
          simp only [Prod.mk.injEq, List.cons.injEq] at hp
          obtain ⟨⟨rfl, hys⟩, hr⟩ := hp
          obtain ⟨t1, t2, t3, t4, g1, g2, g3, g4, rfl⟩ := clause_parts hz
          have hc' := survives_expr_of_read hA hF o c _ _ _ _ hlen'.1 (exprFollow_arrow _) g1 h1
          obtain ⟨_, -, gr⟩ := read_expr hA o c hc'
          rw [gr fuel _ hlen'.1 (exprFollow_arrow _)] at g1
          injection g1 with g1
          injection g1 with _ e2
          subst e2
          simp only [skipSp_space, skipSp_cons, List.cons_append, List.nil_append, lit_cons, lit_nil, if_true, Option.some.injEq, ne_eq,
            not_false_eq_true, (by decide : ¬ ('-' = ' '))] at g2
          subst g2
          have hst2 := starts_of_read hF o g3 h2
          rw [skipSp_space, hst2.skip] at g3
          have hd' := survives_expr_of_read hA hF o d _ _ _ _ hlen'.2.1 (exprFollow_comma _) g3 h2
          obtain ⟨_, -, gr⟩ := read_expr hA o d hd'
          rw [gr fuel _ hlen'.2.1 (exprFollow_comma _)] at g3
          injection g3 with g3
          injection g3 with _ e2
          subst e2
          simp only [skipSp_cons, lit_cons, lit_nil, if_true, Option.some.injEq, ne_eq,
            not_false_eq_true, (by decide : ¬ (',' = ' '))] at g4
          subst g4
          have hsk : skipSp (' ' :: ((textClauses (run h) o l).text ++ tail)) = (textClauses (run h) o l).text ++ tail := by
            rw [skipSp_space]
            cases l with
            | nil => simpa [textClauses] using skipSp_of_not tail ht
            | cons x l =>
              cases ys with
              | nil => cases h3
              | cons y' ys =>
                obtain ⟨c', d', l', he, k1, k2, k3⟩ := convClauses_cons h3
                injection he with he1 he2
                subst he1 he2
                have : Starts (textExpr (run h) o c').text := by
                  cases n with
                  | zero => simp [pManyN] at hys
                  | succ n =>
                    rw [pManyN] at hys
                    split at hys
                    · simp at hys
                    · next z' s' hz' =>
                      simp only [List.cons.injEq] at hys
                      obtain ⟨_, _, _, _, g1', -⟩ := clause_parts hz'
                      rw [hys.1] at g1'
                      exact starts_of_read hF o g1' k1
                have hct' : (textClauses (run h) o (.mk (some c') (some d') :: l)).text ++ tail = (textExpr (run h) o c').text ++ (cs!" -> " ++
                    ((textExpr (run h) o d').text ++ (cs!", " ++ ((textClauses (run h) o l).text ++ tail)))) := by
                  simp [textClauses, textExprReq]
                rw [hct']
                exact this.skip _
          rw [hsk] at hys hr
          have := survives_clauses_of_read hA hF o l fuel n tail _ _ hlen'.2.2 ht (Prod.ext hys hr) h3
          rw [SurvivesClauses]
          exact ⟨⟨hc', hd', this.1⟩, this.2⟩
end

end Verif
