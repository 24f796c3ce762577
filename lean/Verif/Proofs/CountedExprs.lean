import Verif.Proofs.CountedArgs
import Verif.Proofs.Exprs
/-!
# How many attempts an expression takes
-/

set_option autoImplicit false

namespace Verif
namespace Counted
open Grammar StoreSpec TextSpec

/-! ## Repetition without separators -/

section many
variable {α : Type} {p : Str → Counted (α × Str)} {A : Str → Prop} {K : Nat}

theorem manyN_step {n : Nat} {s s2 : Str} {a : α} (h2 : (p s).val = some (a, s2)) :
    (manyN p (n + 1) s).tries = (p s).tries + (manyN p n s2).tries ∧
    (manyN p (n + 1) s).val = (manyN p n s2).val.bind fun x => some (a :: x.1, x.2) := by
  constructor
  · rw [manyN]
    simp only [h2]
    rw [tries_bind]
    cases (manyN p n s2).val <;> simp
  · rw [manyN]
    simp only [h2, val_bind, val_pure]

theorem manyN_fail {n : Nat} {s : Str} (h2 : (p s).val = none) :
    (manyN p (n + 1) s).tries = (p s).tries ∧ (manyN p (n + 1) s).val = some ([], s) := by
  rw [manyN]
  simp only [h2, and_self]

theorem manyN_le (hA : ∀ r s, r <:+ s → A s → A r) (hc : Cuts p)
    (hall : ∀ s, A s → (p s).tries ≤ K * (s.length + 1))
    (hsome : ∀ s a r, A s → (p s).val = some (a, r) → (p s).tries + K * r.length ≤ K * s.length) :
    ∀ (n : Nat) (s : Str), A s → (manyN p n s).tries ≤ K * (s.length + 1)
  | 0, s, _ => Nat.zero_le _
  | n + 1, s, h => by
    cases h2 : (p s).val with
    | none => rw [(manyN_fail h2).1]; exact hall s h
    | some x =>
      obtain ⟨a, s2⟩ := x
      rw [(manyN_step h2).1]
      have := hsome _ _ _ h h2
      have := manyN_le hA hc hall hsome n s2 (hA _ _ (hc _ _ _ h2).1 h)
      rw [pay1] at *
      omega

theorem manyN_paid {Q : Str → Prop} (hA : ∀ r s, r <:+ s → A s → A r) (hc : Cuts p)
    (hquick : ∀ s, A s → Q s → (p s).val = none → (p s).tries ≤ K)
    (hsome : ∀ s a r, A s → (p s).val = some (a, r) → (p s).tries + K * r.length ≤ K * s.length) :
    ∀ (n : Nat) (s r : Str) (l : List α), A s → (manyN p n s).val = some (l, r) → Q r →
      (manyN p n s).tries + K * r.length ≤ K * s.length + K ∧ r <:+ s
  | 0, s, r, l, _, h, _ => by
    cases h
    refine ⟨?_, List.suffix_refl _⟩
    show 0 + K * _ ≤ _
    omega
  | n + 1, s, r, l, h, hv, hq => by
    cases h2 : (p s).val with
    | none =>
      rw [(manyN_fail h2).2] at hv
      cases hv
      rw [(manyN_fail h2).1]
      have := hquick _ h hq h2
      exact ⟨by omega, List.suffix_refl _⟩
    | some x =>
      obtain ⟨a, s2⟩ := x
      rw [(manyN_step h2).2] at hv
      obtain ⟨⟨l', r'⟩, hv1, hv2⟩ := Option.bind_eq_some_iff.1 hv
      cases hv2
      rw [(manyN_step h2).1]
      have := hsome _ _ _ h h2
      have ih := manyN_paid hA hc hquick hsome n s2 r' l' (hA _ _ (hc _ _ _ h2).1 h) hv1 hq
      refine ⟨?_, ih.2.trans (hc _ _ _ h2).1⟩
      have := ih.1
      dsimp only
      omega

end many

/-! ## What may follow -/

/-- The characters by which an expression is told to be over. -/
theorem noCall_of_skip {r u : Str} {c : Char} (h : skipSp r = c :: u) (hc : callChar c = false) (hp : c ≠ '(') : NoCall r := by
  obtain ⟨w, t, hw, e1, e2⟩ := skipSp_cut r
  rw [h] at e1
  subst e1
  have hcw : ∀ d ∈ w, callChar d = true := fun d hd => by rw [hw d hd]; decide
  have := takeWhile_append_of_all hcw (s := c :: u) ((nextNot_cons _ _ _).2 hc)
  unfold NoCall
  rw [e2, this.2]
  exact (nextNot_cons _ _ _).2 (by simp [hp])

theorem noCall_paren {r u : Str} (h : r = ')' :: u) : NoCall r := by
  subst h
  exact noCall_of_skip (skipSp_cons _ _ (by decide)) (by decide) (by decide)

theorem noCall_lit {c : Char} {k r u : Str} (h : lit (c :: k) (skipSp r) = some u) (hc : callChar c = false) (hp : c ≠ '(') :
    NoCall r := noCall_of_skip (u := k ++ u) (by rw [lit_some h]; rfl) hc hp

theorem noCall_arrow {r u : Str} (h : lit cs!"->" (skipSp r) = some u) : NoCall r := by
  obtain ⟨w, t, hw, e1, e2⟩ := skipSp_cut r
  rw [lit_some h] at e1
  subst e1
  have hcw : ∀ d ∈ w ++ ['-'], callChar d = true := fun d hd => by
    rcases List.mem_append.1 hd with hd | hd
    · rw [hw d hd]; decide
    · rw [List.mem_singleton.1 hd]; decide
  have := takeWhile_append_of_all hcw (s := '>' :: u) ((nextNot_cons _ _ _).2 (by decide))
  unfold NoCall
  have e3 : r = (w ++ ['-']) ++ ('>' :: u) := by rw [e2]; simp
  rw [e3, this.2]
  exact (nextNot_cons _ _ _).2 (by decide)

theorem comma_noCall (r : Str) (h : ¬ NoCall r) : spCommaSp r = none := by
  unfold spCommaSp
  cases hl : lit cs!"," (skipSp r) with
  | none => rfl
  | some u => exact absurd (noCall_lit hl (by decide) (by decide)) h

/-! ## The alternatives -/

/-- Attempts cost at most `K` for each character there is, and successful ones that cannot go on as a
call `K` for each character they take; attempts at the characters that end a list cost at most `K`. -/
structure ExprFair (e : Str → Counted (SExpr × Str)) (A : Str → Prop) (K : Nat) : Prop where
  cut : Cuts e
  all : ∀ s, A s → (e s).tries ≤ K * (s.length + 1)
  quick : ∀ s c t, A s → s = c :: t → c = ')' ∨ c = '_' ∨ c = ' ' → (e s).val = none ∧ (e s).tries ≤ K
  some : ∀ s a r, A s → (e s).val = some (a, r) → NoCall r → (e s).tries + K * r.length ≤ K * s.length

section alternatives
variable {e : Str → Counted (SExpr × Str)} {A A' : Str → Prop} {K : Nat}

theorem clause_tries (s : Str) : (clauseComma e s).tries = (e s).tries +
    (match (e s).val with
    | none => 0
    | some x => match lit cs!"->" (skipSp x.2) with
      | none => 0
      | some u => (e (skipSp u)).tries) := by
  have h1 : (clauseComma e s).tries = (clause e s).tries := by
    unfold clauseComma
    rw [tries_bind]
    cases (clause e s).val with
    | none => rfl
    | some x =>
      dsimp only
      rw [tries_bind]
      cases (free (lit [','] (skipSp x.2))).val <;> simp
  rw [h1]
  unfold clause
  rw [tries_bind]
  cases (e s).val with
  | none => rfl
  | some x =>
    dsimp only
    cases hl : lit cs!"->" (skipSp x.2) with
    | none => rw [(free_none_bind _ rfl).2]
    | some u =>
      rw [free_some_bind _ rfl]
      dsimp only
      rw [tries_bind]
      cases (e (skipSp u)).val <;> simp

theorem clauseComma_val {s r : Str} {x : SExpr × SExpr} (h : (clauseComma e s).val = some (x, r)) :
    ∃ a r1 u b r2 v, (e s).val = some (a, r1) ∧ lit cs!"->" (skipSp r1) = some u ∧
      (e (skipSp u)).val = some (b, r2) ∧ lit cs!"," (skipSp r2) = some v ∧ x = (a, b) ∧ r = skipSp v := by
  unfold clauseComma clause at h
  simp only [val_bind, val_free, val_pure, Option.bind_eq_some_iff] at h
  obtain ⟨x, ⟨⟨a, r1⟩, h1, u, h2, ⟨b, r2⟩, h3, h4⟩, v, h5, h6⟩ := h
  cases h4
  cases h6
  exact ⟨a, r1, u, b, r2, v, h1, h2, h3, h5, rfl, rfl⟩

section inside
variable (hA : ∀ r s, r <:+ s → A s → A r)
include hA

theorem clause_le (hf : ExprFair e A K) (s : Str) (h : A s) : (clauseComma e s).tries ≤ K * (s.length + 1) := by
  have ha := hf.all s h
  rw [clause_tries]
  cases h1 : (e s).val with
  | none => exact ha
  | some x =>
    dsimp only
    cases hl : lit cs!"->" (skipSp x.2) with
    | none => exact ha
    | some u =>
      dsimp only
      have p1 := hf.some s x.1 x.2 h h1 (noCall_arrow hl)
      have c1 := lit_cut hl
      have hsuf : skipSp u <:+ s :=
        (((skipSp_suffix u).trans c1.1).trans (skipSp_suffix x.2)).trans (hf.cut s x.1 x.2 h1).1
      have p2 := hf.all _ (hA _ _ hsuf h)
      have q1 := skipSp_le u
      have q2 := skipSp_le x.2
      have q3 := c1.2
      have := pay' K (show (skipSp u).length + 1 ≤ x.2.length by simp at q3; omega)
      rw [pay1 K s.length]
      omega

theorem clause_paid (hf : ExprFair e A K) (s : Str) (x : SExpr × SExpr) (r : Str) (h : A s)
    (hv : (clauseComma e s).val = some (x, r)) :
    (clauseComma e s).tries + K * r.length ≤ K * s.length ∧ r <:+ s ∧ r.length < s.length := by
  obtain ⟨a, r1, u, b, r2, v, h1, h2, h3, h4, -, rfl⟩ := clauseComma_val hv
  rw [clause_tries, h1]
  dsimp only
  rw [h2]
  dsimp only
  have p1 := hf.some s a r1 h h1 (noCall_arrow h2)
  have c2 := lit_cut h2
  have c4 := lit_cut h4
  have c1 := hf.cut _ _ _ h1
  have c3 := hf.cut _ _ _ h3
  have hsuf : skipSp u <:+ s := (((skipSp_suffix u).trans c2.1).trans (skipSp_suffix r1)).trans c1.1
  have p2 := hf.some _ b r2 (hA _ _ hsuf h) h3 (noCall_lit h4 (by decide) (by decide))
  have q1 := skipSp_le u
  have q2 := skipSp_le r1
  have q3 := skipSp_le r2
  have q4 := skipSp_le v
  have q5 := c2.2
  have q6 := c4.2
  have hlen : (skipSp v).length ≤ r2.length := by omega
  have hlen2 : (skipSp u).length ≤ r1.length := by omega
  have := pay' K hlen
  have := pay' K hlen2
  refine ⟨by omega, ?_, by omega⟩
  exact ((((skipSp_suffix v).trans c4.1).trans (skipSp_suffix r2)).trans c3.1).trans hsuf

end inside

theorem ifThen_none {s : Str} (h : lit cs!"if_then(" s = none) : (ifThen e s).val = none ∧ (ifThen e s).tries = 0 :=
  free_none_bind _ h

/-- The part of `if_then` after the first clause. -/
def ifRest (e : Str → Counted (SExpr × Str)) (x : SExpr × SExpr) (s : Str) : Counted (SExpr × Str) := do
  let (xs, s) ← manyN (clauseComma e) s.length s
  let s ← free (lit cs!"_" (skipSp s))
  let s ← free (lit cs!"->" (skipSp s))
  let (y, s) ← e (skipSp s)
  let s ← free (lit cs!")" s)
  pure (.ifThen (x :: xs) y, s)

theorem ifThen_some {s t : Str} (h : lit cs!"if_then(" s = some t) :
    ifThen e s = (do let (x, s) ← clauseComma e (skipSp t); ifRest e x s) := by
  unfold ifThen
  rw [free_some_bind _ h]
  rfl

theorem ifRest_tries (x : SExpr × SExpr) (s : Str) :
    (ifRest e x s).tries ≤ (manyN (clauseComma e) s.length s).tries ∨
    ∃ xs r u v, (manyN (clauseComma e) s.length s).val = some (xs, r) ∧ lit cs!"_" (skipSp r) = some u ∧
      lit cs!"->" (skipSp u) = some v ∧
      (ifRest e x s).tries = (manyN (clauseComma e) s.length s).tries + (e (skipSp v)).tries := by
  unfold ifRest
  cases h1 : (manyN (clauseComma e) s.length s).val with
  | none => rw [tries_bind_none _ h1]; exact .inl (Nat.le_refl _)
  | some y =>
    obtain ⟨xs, r⟩ := y
    rw [tries_bind_some _ h1]
    dsimp only
    cases h2 : lit cs!"_" (skipSp r) with
    | none => rw [(free_none_bind _ rfl).2]; exact .inl (Nat.le_refl _)
    | some u =>
      rw [free_some_bind _ rfl]
      cases h3 : lit cs!"->" (skipSp u) with
      | none => rw [(free_none_bind _ rfl).2]; exact .inl (Nat.le_refl _)
      | some v =>
        rw [free_some_bind _ rfl]
        right
        refine ⟨xs, r, u, v, rfl, h2, h3, ?_⟩
        congr 1
        rw [tries_bind]
        cases (e (skipSp v)).val with
        | none => rfl
        | some z =>
          dsimp only
          rw [tries_bind]
          cases (free (lit [')'] z.2)).val <;> simp

theorem pBehavior_le (v : Str) : (pBehavior v).2.length ≤ v.length := by
  unfold pBehavior
  split <;> simp

theorem cast_none {s : Str} (h : lit cs!"(" s = none) : (cast e s).val = none ∧ (cast e s).tries = 0 := free_none_bind _ h

theorem cast_tries {s t : Str} (h : lit cs!"(" s = some t) : (cast e s).tries = (e (skipSp t)).tries := by
  unfold cast
  rw [free_some_bind _ h, tries_bind]
  cases (e (skipSp t)).val with
  | none => rfl
  | some x =>
    dsimp only
    cases h1 : lit cs!")" (skipSp x.2) with
    | none => rw [(free_none_bind _ rfl).2]; rfl
    | some u =>
      rw [free_some_bind _ rfl]
      cases h2 : lit cs!"::" (skipSp u) with
      | none => rw [(free_none_bind _ rfl).2]; rfl
      | some v =>
        rw [free_some_bind _ rfl]
        rw [tries_bind]
        cases (free (pType (skipSp (pBehavior (skipSp v)).2))).val <;> simp

/-- Where the arguments of a call begin. -/
def callRest (s : Str) : Str := skipSp (pOpt pUrnAnchor (skipSp (pOpt pAnchor (skipSp s)).2)).2

theorem callRest_suffix (s : Str) : callRest s <:+ s := by
  unfold callRest
  obtain ⟨x, e1, -⟩ := Reads.opt reads_anchor (s := skipSp s) (a := (pOpt pAnchor (skipSp s)).1) (r := (pOpt pAnchor (skipSp s)).2) rfl
  obtain ⟨y, e2, -⟩ := Reads.opt reads_urnAnchor (s := skipSp (pOpt pAnchor (skipSp s)).2)
    (a := (pOpt pUrnAnchor (skipSp (pOpt pAnchor (skipSp s)).2)).1) (r := (pOpt pUrnAnchor (skipSp (pOpt pAnchor (skipSp s)).2)).2) rfl
  have h1 : (pOpt pAnchor (skipSp s)).2 <:+ skipSp s := ⟨x, e1.symm⟩
  have h2 : (pOpt pUrnAnchor (skipSp (pOpt pAnchor (skipSp s)).2)).2 <:+ skipSp (pOpt pAnchor (skipSp s)).2 := ⟨y, e2.symm⟩
  exact (((skipSp_suffix _).trans h2).trans (skipSp_suffix _)).trans (h1.trans (skipSp_suffix _))

theorem call_none {s : Str} (h : pFunSig s = none) : (call e s).val = none ∧ (call e s).tries = 0 := free_none_bind _ h

theorem call_tries {s name s1 : Str} (h : pFunSig s = some (name, s1)) :
    (call e s).tries = (args e (callRest s1)).tries := by
  unfold call
  rw [free_some_bind _ h]
  dsimp only
  rw [tries_bind]
  rw [show skipSp (pOpt pUrnAnchor (skipSp (pOpt pAnchor (skipSp s1)).2)).2 = callRest s1 from rfl]
  cases (args e (callRest s1)).val with
  | none => rfl
  | some x =>
    dsimp only
    cases h1 : lit cs!":" x.2 with
    | none => rw [(free_none_bind _ rfl).2]; rfl
    | some u =>
      rw [free_some_bind _ rfl, tries_bind]
      cases (free (pType (skipSp u))).val <;> simp

theorem call_val {s name s1 r : Str} {a : SExpr} (h : pFunSig s = some (name, s1)) (hv : (call e s).val = some (a, r)) :
    ∃ l r1, (args e (callRest s1)).val = some (l, r1) ∧ r.length ≤ r1.length := by
  unfold call at hv
  rw [free_some_bind _ h] at hv
  simp only [val_bind, val_free, val_pure, Option.bind_eq_some_iff] at hv
  obtain ⟨⟨l, r1⟩, h1, u, h2, ⟨t, r2⟩, h3, h4⟩ := hv
  cases h4
  refine ⟨l, r1, h1, ?_⟩
  have c3 := (cuts_of reads_ty (fun _ _ => tyText_ne) h3).2
  have q1 := (lit_cut h2).1.length_le
  have q2 := skipSp_le u
  dsimp only at q1 ⊢
  omega

theorem funSig_cut {s name s1 : Str} (h : pFunSig s = some (name, s1)) : s1 <:+ s ∧ s1.length < s.length :=
  cuts_of reads_funSig (fun a y hy => by
    cases hy.2 with
    | plain h => exact ident_ne h
    | colon h => simp
    | sig h => simp) h

theorem args_shut {s : Str} (h : s.head? ≠ some '(') : (args e s).val = none ∧ (args e s).tries = 0 := by
  have : lit cs!"(" s = none := by
    cases s with
    | nil => rfl
    | cons c s =>
      have : '(' ≠ c := fun e => h (by rw [← e]; rfl)
      simp [lit, this]
  exact free_none_bind _ this

theorem args_tries (t : Str) : (args e ('(' :: t)).tries = (sep1 spCommaSp e t).tries := by
  unfold args
  rw [free_some_bind (a := t) _ (by simp [lit]), tries_bind, sep0_tries]
  cases (sep0 spCommaSp e t).val with
  | none => rfl
  | some x =>
    dsimp only
    rw [tries_bind]
    cases (free (lit [')'] x.2)).val <;> simp

/-! ### Two alternatives for the same text -/

theorem funSig_if (t : Str) : pFunSig (cs!"if_then(" ++ t) = some (cs!"if_then", '(' :: t) := by
  have : pIdent (cs!"if_then(" ++ t) = some (cs!"if_then", '(' :: t) :=
    pIdent_append cs!"f_then" ('(' :: t) 'i' (by decide) (by decide) ((nextNot_cons _ _ _).2 (by decide))
  unfold pFunSig
  rw [this]
  simp [lit]

theorem callRest_paren (t : Str) : callRest ('(' :: t) = '(' :: t := by
  have h : skipSp ('(' :: t) = '(' :: t := skipSp_cons _ _ (by decide)
  have h1 : pOpt pAnchor ('(' :: t) = (none, '(' :: t) := by simp [pOpt, pAnchor, lit]
  have h2 : pOpt pUrnAnchor ('(' :: t) = (none, '(' :: t) := by simp [pOpt, pUrnAnchor, lit]
  simp [callRest, h, h1, h2]

/-- **Attempts made by `if_then` before a call of a function of that name are made again by the call.** -/
theorem ifThen_le_call (hsp : ∀ t, (e (' ' :: t)).val = none) {s : Str} {y : SExpr × Str}
    (hv : (call e s).val = some y) : (ifThen e s).tries ≤ (call e s).tries := by
  cases h : lit cs!"if_then(" s with
  | none => rw [(ifThen_none h).2]; exact Nat.zero_le _
  | some t =>
    have es := lit_some h
    subst es
    obtain ⟨a, r⟩ := y
    obtain ⟨l, r1, h1, -⟩ := call_val (funSig_if t) hv
    rw [call_tries (funSig_if t), ifThen_some h, callRest_paren, args_tries]
    rw [callRest_paren] at h1
    unfold args at h1
    rw [free_some_bind (a := t) _ (by simp [lit])] at h1
    simp only [val_bind, val_free, val_pure, Option.bind_eq_some_iff] at h1
    obtain ⟨⟨l', r2⟩, h2, r3, h3, -⟩ := h1
    dsimp only at h3
    have hr2 := lit_some h3
    have hsk : skipSp t = t := by
      cases t with
      | nil => rfl
      | cons c t =>
        refine skipSp_cons _ _ ?_
        rintro rfl
        have : (sep0 spCommaSp e (' ' :: t)).val = some ([], ' ' :: t) := by
          unfold sep0
          rw [val_or, (sep1_none (hsp t)).2]
          rfl
        rw [this] at h2
        cases h2
        simp at hr2
    rw [hsk]
    have hfirst : (e t).tries ≤ (sep1 spCommaSp e t).tries := by
      cases hv : (e t).val with
      | none => rw [(sep1_none hv).1]; exact Nat.le_refl _
      | some x => rw [(sep1_some (sep := spCommaSp) (a := x.1) (s2 := x.2) hv).1]; exact Nat.le_add_right _ _
    have hcl : (clauseComma e t).val = none ∧ (clauseComma e t).tries = (e t).tries := by
      rw [clause_tries]
      cases hv : (e t).val with
      | none =>
        refine ⟨?_, rfl⟩
        unfold clauseComma clause
        simp only [val_bind, hv, Option.bind_none]
      | some x =>
        obtain ⟨x, rx⟩ := x
        dsimp only
        have hna : lit cs!"->" (skipSp rx) = none := by
          cases hl : lit cs!"->" (skipSp rx) with
          | none => rfl
          | some u =>
            exfalso
            have e1 := lit_some hl
            have hsep : spCommaSp rx = none := by
              unfold spCommaSp
              rw [e1]; rfl
            have : (sep0 spCommaSp e t).val = some ([x], rx) := by
              unfold sep0
              rw [val_or, (sep1_some (sep := spCommaSp) hv).2, (starN_stop e _ hsep).2]
              rfl
            rw [this] at h2
            cases h2
            rw [hr2, show [')'] ++ r3 = ')' :: r3 from rfl, skipSp_cons _ _ (by decide)] at e1
            simp at e1
        rw [hna]
        refine ⟨?_, rfl⟩
        unfold clauseComma clause
        simp only [val_bind, hv, Option.bind_some, val_free, hna, Option.bind_none]
    rw [tries_bind_none _ hcl.1, hcl.2]
    exact hfirst

/-! ### Literals are not calls -/

/-- Every opening parenthesis comes after a character that cannot be in the beginning of a call. -/
def Shut (x : Str) : Prop := ∀ p w, x = p ++ '(' :: w → ∃ c ∈ p, callChar c = false

theorem Shut.of_not_mem {x : Str} (h : '(' ∉ x) : Shut x := by
  rintro p w rfl
  simp at h

theorem Shut.cons {c : Char} {x : Str} (h : callChar c = false) (hc : c ≠ '(') : Shut (c :: x) := by
  intro p w e
  cases p with
  | nil => simp at e; exact absurd e.1 hc
  | cons d p =>
    simp at e
    exact ⟨d, List.mem_cons_self, by rw [← e.1]; exact h⟩

theorem Shut.append {a x : Str} (ha : '(' ∉ a) (h : Shut x) : Shut (a ++ x) := by
  intro p w e
  rcases List.append_eq_append_iff.1 e with ⟨m, e1, e2⟩ | ⟨m, e1, e2⟩
  · obtain ⟨c, hc, hcc⟩ := h m w e2
    exact ⟨c, by rw [e1]; exact List.mem_append_right _ hc, hcc⟩
  · cases m with
    | nil =>
      obtain ⟨c, hc, hcc⟩ := h [] w (by simpa using e2.symm)
      cases hc
    | cons d m =>
      simp at e2
      exact absurd (by rw [e1, ← e2.1]; simp) ha

theorem kw_no_paren {kw k : Str} (h : KwI kw k) (hk : '(' ∉ kw) : '(' ∉ k := fun hm =>
  hk (by rw [← h]; exact List.mem_map.2 ⟨_, hm, by decide⟩)

theorem nul_no_paren {n : Nul} {z : Str} (h : NulText n z) : '(' ∉ z := by cases h <;> decide

theorem identText_no_paren {x : Str} (h : Ident x) : '(' ∉ x := by
  obtain ⟨c, cs, rfl, hc, hs⟩ := h
  intro hm
  rcases List.mem_cons.1 hm with rfl | hm
  · revert hc; decide
  · have := hs _ hm
    revert this
    decide

theorem digits_no_paren {n : Nat} {x : Str} (h : Digits n x) : '(' ∉ x := fun hm => by
  have := h.2.1 _ hm
  revert this
  unfold Digit
  decide

theorem int_no_paren {i : IntTok} {x : Str} (h : Grammar.IntText i x) : '(' ∉ x := by
  cases h with
  | pos h => exact digits_no_paren h
  | neg h => simp [digits_no_paren h]

theorem sp_no_paren {w : Str} (h : Sp w) : '(' ∉ w := fun hm => by
  have := h _ hm
  revert this
  decide

theorem tyText_shut {t : STy} {x : Str} (h : TyText t x) : Shut x := by
  cases h with
  | simple h hz =>
    refine .of_not_mem ?_
    rw [List.mem_append]
    rintro (h' | h')
    · have : ∀ y ∈ [cs!"boolean", cs!"i8", cs!"i16", cs!"i32", cs!"i64", cs!"u8", cs!"u16", cs!"u32", cs!"u64",
        cs!"fp32", cs!"fp64", cs!"string", cs!"binary", cs!"timestamp_tz", cs!"timestamp", cs!"date",
        cs!"time", cs!"interval_year", cs!"uuid"], '(' ∉ y := by decide
      exact this _ h h'
    · exact nul_no_paren hz h'
  | list hk hz _ => exact .append (kw_no_paren hk (by decide)) (.append (nul_no_paren hz) (.cons (by decide) (by decide)))
  | map hk hz _ _ _ => exact .append (kw_no_paren hk (by decide)) (.append (nul_no_paren hz) (.cons (by decide) (by decide)))
  | struct hk hz _ => exact .append (kw_no_paren hk (by decide)) (.append (nul_no_paren hz) (.cons (by decide) (by decide)))
  | @prec p _ _ _ _ _ hk hz _ =>
    exact .append (kw_no_paren hk (by cases p <;> decide)) (.append (nul_no_paren hz) (.cons (by decide) (by decide)))
  | intervalDay hk hz _ => exact .append (kw_no_paren hk (by decide)) (.append (nul_no_paren hz) (.cons (by decide) (by decide)))
  | user hu hn ha hb hz hp =>
    refine .append (by rcases hu with rfl | rfl <;> decide) (.append (identText_no_paren hn) (.append ?_ (.append ?_
      (.append (nul_no_paren hz) ?_))))
    · cases ha with
      | none => decide
      | some h =>
        obtain ⟨w, y, hw, hy, rfl⟩ := h
        simp [sp_no_paren hw, int_no_paren hy]
    · cases hb with
      | none => decide
      | some h =>
        obtain ⟨w, y, hw, hy, rfl⟩ := h
        simp [sp_no_paren hw, int_no_paren hy]
    · cases hp with
      | none => exact .of_not_mem (by decide)
      | some h =>
        cases h with
        | mk h => exact .cons (by decide) (by decide)

theorem litText_shut {l : SLit} {x : Str} (h : LitText l x) : Shut x := by
  obtain ⟨v, o⟩ := l
  obtain ⟨y, z, hy, hz, rfl⟩ := h
  dsimp only at hy hz
  have hzs : Shut z := by
    cases hz with
    | none => exact .of_not_mem (by decide)
    | some h =>
      obtain ⟨w, t, hw, ht, rfl⟩ := h
      exact .append (by simp [sp_no_paren hw]) (tyText_shut ht)
  cases hy with
  | str h =>
    obtain ⟨b, -, rfl⟩ := h
    exact .cons (by decide) (by decide)
  | float h =>
    obtain ⟨m, n, sg, ds, fs, hs, h1, h2, rfl⟩ := h
    refine .append ?_ hzs
    rcases hs with rfl | rfl <;> simp [digits_no_paren h1, digits_no_paren h2]
  | int h => exact .append (int_no_paren h) hzs
  | _ => exact .append (by decide) hzs

/-- Where a literal ends and no call can go on, no call has begun. -/
theorem lit_no_call {l : SLit} {s r : Str} (h : pLiteral s = some (l, r)) (hr : NoCall r) (w : Str) :
    ¬ Eats callChar s ('(' :: w) := by
  rintro ⟨p, e, hp⟩
  obtain ⟨x, e1, hx⟩ := reads_lit _ _ _ h
  have bad : ∀ m : Str, (∀ c ∈ m, callChar c = true) → r ≠ m ++ '(' :: w := by
    rintro m hm rfl
    have := takeWhile_append_of_all hm (s := '(' :: w) ((nextNot_cons _ _ _).2 (by decide))
    unfold NoCall at hr
    rw [this.2] at hr
    exact absurd ((nextNot_cons _ _ _).1 hr) (by decide)
  rw [e1] at e
  rcases List.append_eq_append_iff.1 e with ⟨m, e2, e3⟩ | ⟨m, e2, e3⟩
  · exact bad m (fun c hc => hp c (by rw [e2]; exact List.mem_append_right _ hc)) e3
  · cases m with
    | nil => exact bad [] (fun _ h => by cases h) (by simpa using e3.symm)
    | cons d m =>
      simp at e3
      obtain ⟨c, hc, hcc⟩ := litText_shut hx p m (by rw [e2, ← e3.1])
      rw [hp c hc] at hcc
      cases hcc

theorem call_idle {s : Str} (h : ∀ w, ¬ Eats callChar s ('(' :: w)) : (call e s).tries = 0 ∧ (ifThen e s).tries = 0 := by
  constructor
  · cases h1 : pFunSig s with
    | none => exact (call_none h1).2
    | some y =>
      obtain ⟨name, s1⟩ := y
      rw [call_tries h1]
      cases hr : callRest s1 with
      | nil => exact (args_shut (s := []) (by decide)).2
      | cons c t =>
        by_cases hc : c = '('
        · subst hc
          refine absurd ?_ (h t)
          rw [← hr]
          refine (eats_pFunSig h1).trans ((eats_skipSp _).trans ((eats_pOpt _ ?_).trans ((eats_skipSp _).trans
            ((eats_pOpt _ ?_).trans (eats_skipSp _)))))
          · intro a r h; exact eats_anchor (by decide) h
          · intro a r h; exact eats_anchor (by decide) h
        · exact (args_shut (s := c :: t) (by simpa using hc)).2
  · cases h1 : lit cs!"if_then(" s with
    | none => exact (ifThen_none h1).2
    | some t => exact absurd ⟨cs!"if_then", by rw [lit_some h1]; rfl, by decide⟩ (h t)

section level
variable (hA : ∀ r s, r <:+ s → A s → A r) (hAA : ∀ s t, A' s → ('(' :: t) <:+ s → A t)
include hA

omit hA in
theorem clause_cuts (hf : ExprFair e A K) : Cuts (clauseComma e) := by
  intro s x r hv
  obtain ⟨a, r1, u, b, r2, v, h1, h2, h3, h4, -, rfl⟩ := clauseComma_val hv
  have c2 := lit_cut h2
  have c4 := lit_cut h4
  have c1 := hf.cut _ _ _ h1
  have c3 := hf.cut _ _ _ h3
  have hsuf : skipSp u <:+ s := (((skipSp_suffix u).trans c2.1).trans (skipSp_suffix r1)).trans c1.1
  have hsuf2 := ((((skipSp_suffix v).trans c4.1).trans (skipSp_suffix r2)).trans c3.1).trans hsuf
  refine ⟨hsuf2, ?_⟩
  have := c3.2
  have := hsuf.length_le
  have := (((skipSp_suffix v).trans c4.1).trans (skipSp_suffix r2)).length_le
  omega

omit hA in
/-- The last clause tried, at the underscore, costs little. -/
theorem clause_quick (hf : ExprFair e A K) (s u : Str) (h : A s) (hu : lit cs!"_" (skipSp s) = some u) :
    (clauseComma e s).tries ≤ K := by
  have : ∃ c t, s = c :: t ∧ (c = ')' ∨ c = '_' ∨ c = ' ') := by
    cases s with
    | nil => cases hu
    | cons c t =>
      refine ⟨c, t, rfl, ?_⟩
      by_cases hc : c = ' '
      · exact .inr (.inr hc)
      · rw [skipSp_cons _ _ hc] at hu
        have := lit_some hu
        simp at this
        exact .inr (.inl this.1)
  obtain ⟨c, t, e1, hc⟩ := this
  have h1 := hf.quick s c t h e1 hc
  rw [clause_tries, h1.1]
  exact h1.2

theorem ifRest_le (hf : ExprFair e A K) (x : SExpr × SExpr) (s : Str) (h : A s) :
    (ifRest e x s).tries ≤ K * (s.length + 1) := by
  have hm := manyN_le hA (clause_cuts hf) (clause_le hA hf) (fun s a r h hv => (clause_paid hA hf s a r h hv).1)
    s.length s h
  rcases ifRest_tries (e := e) x s with h1 | ⟨xs, r, u, v, h1, h2, h3, h4⟩
  · exact Nat.le_trans h1 hm
  · have hp := manyN_paid (Q := fun r => ∃ u, lit cs!"_" (skipSp r) = some u) hA (clause_cuts hf)
      (fun s h ⟨u, hu⟩ _ => clause_quick hf s u h hu)
      (fun s a r h hv => (clause_paid hA hf s a r h hv).1) s.length s r xs h h1 ⟨u, h2⟩
    rw [h4]
    have c2 := lit_cut h2
    have c3 := lit_cut h3
    have hsuf : skipSp v <:+ r :=
      (((skipSp_suffix v).trans c3.1).trans (skipSp_suffix u)).trans (c2.1.trans (skipSp_suffix r))
    have ha := hf.all _ (hA _ _ (hsuf.trans hp.2) h)
    have q1 := skipSp_le v
    have q2 := skipSp_le u
    have q3 := skipSp_le r
    have q4 := c2.2
    have q5 := c3.2
    have := pay' K (show (skipSp v).length + 1 ≤ r.length by simp at q4 q5; omega)
    have := hp.1
    rw [pay1 K s.length]
    omega

theorem ifRest_paid (hf : ExprFair e A K) {x : SExpr × SExpr} {s r : Str} {a : SExpr} (h : A s)
    (hv : (ifRest e x s).val = some (a, r)) : (ifRest e x s).tries + K * r.length ≤ K * s.length := by
  have hv0 := hv
  unfold ifRest at hv
  simp only [val_bind, val_free, val_pure, Option.bind_eq_some_iff] at hv
  obtain ⟨⟨xs, r1⟩, h1, u, h2, v, h3, ⟨y, r2⟩, h4, w, h5, h6⟩ := hv
  cases h6
  dsimp only at h2 h5
  have hp := manyN_paid (Q := fun r => ∃ u, lit cs!"_" (skipSp r) = some u) hA (clause_cuts hf)
      (fun s h ⟨u, hu⟩ _ => clause_quick hf s u h hu)
      (fun s a r h hv => (clause_paid hA hf s a r h hv).1) s.length s r1 xs h h1 ⟨u, h2⟩
  have c2 := lit_cut h2
  have c3 := lit_cut h3
  have c5 := lit_cut h5
  have hsuf : skipSp v <:+ r1 :=
    (((skipSp_suffix v).trans c3.1).trans (skipSp_suffix u)).trans (c2.1.trans (skipSp_suffix r1))
  have p4 := hf.some _ _ _ (hA _ _ (hsuf.trans hp.2) h) h4 (noCall_paren (u := r) (lit_some h5))
  have q1 := skipSp_le v
  have q2 := skipSp_le u
  have q3 := skipSp_le r1
  have q4 := c2.2
  have q5 := c3.2
  have q6 := c5.2
  have b1 := pay K (show (skipSp v).length < r1.length by simp at q4 q5; omega)
  have b2 := pay' K (show r.length ≤ r2.length by omega)
  have := hp.1
  have ht : (ifRest e x s).tries ≤ (manyN (clauseComma e) s.length s).tries + (e (skipSp v)).tries := by
    rcases ifRest_tries (e := e) x s with h7 | ⟨xs', r', u', v', k1, k2, k3, k4⟩
    · omega
    · rw [h1] at k1
      cases k1
      rw [h2] at k2
      cases k2
      rw [h3] at k3
      cases k3
      omega
  omega

include hAA

theorem if_inside {s t : Str} (hs : A' s) (h : lit cs!"if_then(" s = some t) :
    A (skipSp t) ∧ (skipSp t).length < s.length := by
  have e := lit_some h
  refine ⟨hA _ _ (skipSp_suffix t) (hAA s t hs ⟨cs!"if_then", by rw [e]; rfl⟩), ?_⟩
  have := skipSp_le t
  rw [e]
  simp
  omega

theorem ifThen_le (hf : ExprFair e A K) {s : Str} (hs : A' s) : (ifThen e s).tries ≤ K * s.length := by
  cases h : lit cs!"if_then(" s with
  | none => rw [(ifThen_none h).2]; exact Nat.zero_le _
  | some t =>
    obtain ⟨hat, hlt⟩ := if_inside hA hAA hs h
    rw [ifThen_some h]
    have hp := pay' K hlt
    have hc := clause_le hA hf _ hat
    cases h1 : (clauseComma e (skipSp t)).val with
    | none => rw [tries_bind_none _ h1]; exact Nat.le_trans hc hp
    | some y =>
      obtain ⟨x, s1⟩ := y
      rw [tries_bind_some _ h1]
      have hc := clause_paid hA hf _ _ _ hat h1
      have h2 := ifRest_le hA hf x s1 (hA _ _ hc.2.1 hat)
      have h3 := hc.1
      rw [pay1] at h2
      rw [Nat.succ_eq_add_one, pay1] at hp
      dsimp only
      omega

theorem ifThen_paid (hf : ExprFair e A K) {s r : Str} {a : SExpr} (hs : A' s) (hv : (ifThen e s).val = some (a, r)) :
    (ifThen e s).tries + K * r.length ≤ K * s.length := by
  cases h : lit cs!"if_then(" s with
  | none => rw [(ifThen_none h).1] at hv; cases hv
  | some t =>
    obtain ⟨hat, hlt⟩ := if_inside hA hAA hs h
    have hp := pay' K (Nat.le_of_lt hlt)
    rw [ifThen_some h] at hv ⊢
    cases h1 : (clauseComma e (skipSp t)).val with
    | none => rw [val_bind, h1] at hv; cases hv
    | some y =>
      obtain ⟨x, s1⟩ := y
      rw [val_bind, h1] at hv
      rw [tries_bind_some _ h1]
      have hc := clause_paid hA hf _ _ _ hat h1
      have := ifRest_paid hA hf (hA _ _ hc.2.1 hat) hv
      have := hc.1
      dsimp only
      omega

theorem cast_le (hf : ExprFair e A K) {s : Str} (hs : A' s) : (cast e s).tries ≤ K * s.length := by
  cases h : lit cs!"(" s with
  | none => rw [(cast_none h).2]; exact Nat.zero_le _
  | some t =>
    obtain ⟨hat, hlt⟩ := paren_inside hA hAA hs h
    rw [cast_tries h]
    exact Nat.le_trans (hf.all _ hat) (pay' K hlt)

theorem cast_paid (hf : ExprFair e A K) {s r : Str} {a : SExpr} (hs : A' s) (hv : (cast e s).val = some (a, r)) :
    (cast e s).tries + K * r.length ≤ K * s.length := by
  cases h : lit cs!"(" s with
  | none => rw [(cast_none h).1] at hv; cases hv
  | some t =>
    obtain ⟨hat, hlt⟩ := paren_inside hA hAA hs h
    have hp := pay' K (Nat.le_of_lt hlt)
    rw [cast_tries h]
    unfold cast at hv
    rw [free_some_bind _ h] at hv
    simp only [val_bind, val_free, val_pure, Option.bind_eq_some_iff] at hv
    obtain ⟨⟨x, r1⟩, h1, u, h2, v, h3, ⟨ty, r2⟩, h4, h5⟩ := hv
    cases h5
    dsimp only at h2
    have p1 := hf.some _ _ _ hat h1 (noCall_lit h2 (by decide) (by decide))
    have c4 := (cuts_of reads_ty (fun _ _ => tyText_ne) h4).2
    have q1 := skipSp_le r1
    have q2 := (lit_cut h2).1.length_le
    have q3 := skipSp_le u
    have q4 := (lit_cut h3).1.length_le
    have q5 := skipSp_le v
    have q6 := pBehavior_le (skipSp v)
    have q7 := skipSp_le (pBehavior (skipSp v)).2
    have := pay' K (show r2.length ≤ r1.length by omega)
    dsimp only
    omega

theorem call_le (hf : ExprFair e A K) {s : Str} (hs : A' s) : (call e s).tries ≤ K * s.length := by
  cases h : pFunSig s with
  | none => rw [(call_none h).2]; exact Nat.zero_le _
  | some y =>
    obtain ⟨name, s1⟩ := y
    rw [call_tries h]
    have hsuf : callRest s1 <:+ s := (callRest_suffix s1).trans (funSig_cut h).1
    cases hr : callRest s1 with
    | nil => rw [(args_shut (s := []) (by decide)).2]; exact Nat.zero_le _
    | cons c t =>
      by_cases hc : c = '('
      · subst hc
        rw [hr] at hsuf
        rw [args_tries]
        refine Nat.le_trans (sep1_le (ok := NoCall) hA hf.cut spCommaSp_cuts comma_noCall hf.all hf.some _
          (hAA s t hs hsuf)) (pay' K hsuf.length_le)
      · rw [(args_shut (s := c :: t) (by simpa using hc)).2]; exact Nat.zero_le _

theorem call_paid (hf : ExprFair e A K) {s r : Str} {a : SExpr} (hs : A' s) (hv : (call e s).val = some (a, r)) :
    (call e s).tries + K * r.length ≤ K * s.length := by
  cases h : pFunSig s with
  | none => rw [(call_none h).1] at hv; cases hv
  | some y =>
    obtain ⟨name, s1⟩ := y
    rw [call_tries h]
    have hsuf : callRest s1 <:+ s := (callRest_suffix s1).trans (funSig_cut h).1
    obtain ⟨l, r1, h1, hr1⟩ := call_val h hv
    cases hr : callRest s1 with
    | nil => rw [hr, (args_shut (s := []) (by decide)).1] at h1; cases h1
    | cons c t =>
      by_cases hc : c = '('
      · subst hc
        rw [hr] at hsuf h1
        rw [args_tries, ← sep0_tries]
        unfold args at h1
        rw [free_some_bind (a := t) _ (by simp [lit])] at h1
        simp only [val_bind, val_free, val_pure, Option.bind_eq_some_iff] at h1
        obtain ⟨⟨l', r2⟩, h2, r3, h3, h4⟩ := h1
        cases h4
        dsimp only at h3
        have hstop : ∀ s : Str, (∃ u, s = ')' :: u) → spCommaSp s = none := by
          rintro s ⟨u, rfl⟩
          unfold spCommaSp
          rw [skipSp_cons _ _ (by decide)]
          rfl
        have := sep0_paid (G := fun _ => True) (ok := NoCall) (Q := fun r => ∃ u, r = ')' :: u) hA hf.cut spCommaSp_cuts
          comma_noCall (fun r ⟨u, hu⟩ => noCall_paren hu)
          (fun s s1 _ hq h5 _ => by rw [hstop s hq] at h5; cases h5)
          (fun s h5 ⟨u, hu⟩ _ => (hf.quick s _ u h5 hu (.inl rfl)).2)
          (fun s a r h1 h2 _ h3 => hf.some s a r h1 h2 h3) (hAA s t hs hsuf) h2 (fun _ _ => trivial)
          ⟨r1, by rw [lit_some h3]; rfl⟩
        have q1 := (lit_cut h3).2
        have b1 := pay K (show r.length < r2.length by simp at q1; omega)
        have b2 := pay K (show t.length < s.length by have := hsuf.length_le; simp at this; omega)
        omega
      · rw [hr, (args_shut (s := c :: t) (by simpa using hc)).1] at h1; cases h1

/-- One level of `expression`. -/
def exprStep (e : Str → Counted (SExpr × Str)) (s : Str) : Counted (SExpr × Str) :=
  tick (((((ifThen e s).or (cast e s)).or (call e s)).or
      (free (Verif.mapFst .ref (pRef s)))).or (free (Verif.mapFst .lit (pLiteral s))))

omit hA hAA in
theorem exprStep_tries (s : Str) :
    (exprStep e s).tries = (((ifThen e s).or (cast e s)).or (call e s)).tries + 1 := by
  unfold exprStep
  rw [tries_tick]
  congr 1
  cases h : (((ifThen e s).or (cast e s)).or (call e s)).val with
  | some x =>
    rw [tries_or_some (a := x) _ (by rw [val_or, h]; rfl), tries_or_some _ h]
  | none =>
    cases h2 : pRef s with
    | some y =>
      rw [tries_or_some (a := (.ref y.1, y.2)) _ (by rw [val_or, h]; rfl), tries_or_none _ h]
      rfl
    | none =>
      rw [tries_or_none _ (by rw [val_or, h]; rfl), tries_or_none _ h]
      rfl

omit hA hAA in
/-- A text is tried either as a cast or as a call. -/
theorem cast_or_call (s : Str) : (cast e s).tries = 0 ∧ (cast e s).val = none ∨
    ((call e s).tries = 0 ∧ (call e s).val = none) ∧ (ifThen e s).tries = 0 ∧ (ifThen e s).val = none := by
  cases h : lit cs!"(" s with
  | none => exact .inl ⟨(cast_none h).2, (cast_none h).1⟩
  | some t =>
    right
    have es := lit_some h
    subst es
    have h1 : pFunSig (cs!"(" ++ t) = none := by
      have : pIdent (cs!"(" ++ t) = none := by
        simp [pIdent, isAlpha, isUpper, isLower]
      unfold pFunSig
      rw [this]
    have h2 : lit cs!"if_then(" (cs!"(" ++ t) = none := by simp [lit]
    exact ⟨⟨(call_none h1).2, (call_none h1).1⟩, (ifThen_none h2).2, (ifThen_none h2).1⟩

/-- One more level at most doubles the cost. -/
theorem exprStep_fair (hf : ExprFair e A K) (hsp : ∀ t, (e (' ' :: t)).val = none) (hc : Cuts (exprStep e))
    (hq : ∀ s c t, s = c :: t → c = ')' ∨ c = '_' ∨ c = ' ' → (exprStep e s).val = none) :
    ExprFair (exprStep e) A' (2 * K + 1) where
  cut := hc
  all := fun s hs => by
    have e1 : (2 * K + 1) * (s.length + 1) = 2 * (K * s.length) + 2 * K + s.length + 1 := by
      rw [Nat.add_mul, Nat.mul_assoc, pay1, Nat.one_mul]; omega
    rw [exprStep_tries, e1]
    have h1 := tries_or_le ((ifThen e s).or (cast e s)) (call e s)
    have h2 := tries_or_le (ifThen e s) (cast e s)
    have h3 := ifThen_le hA hAA hf hs
    have h4 := cast_le hA hAA hf hs
    have h5 := call_le hA hAA hf hs
    rcases cast_or_call (e := e) s with h | h <;> omega
  quick := fun s c t hs he hcc => by
    refine ⟨hq s c t he hcc, ?_⟩
    rw [exprStep_tries]
    have h1 := tries_or_le ((ifThen e s).or (cast e s)) (call e s)
    have h2 := tries_or_le (ifThen e s) (cast e s)
    subst he
    have k1 : lit cs!"(" (c :: t) = none := by rcases hcc with rfl | rfl | rfl <;> rfl
    have k2 : lit cs!"if_then(" (c :: t) = none := by rcases hcc with rfl | rfl | rfl <;> rfl
    have k3 : pFunSig (c :: t) = none := by
      have : pIdent (c :: t) = none := by
        rcases hcc with rfl | rfl | rfl <;> simp [pIdent, isAlpha, isUpper, isLower]
      unfold pFunSig
      rw [this]
    have := (cast_none (e := e) k1).2
    have := (ifThen_none (e := e) k2).2
    have := (call_none (e := e) k3).2
    omega
  some := fun s a r hs hv hr => by
    have hlt := (hc _ _ _ hv).2
    have e1 : (2 * K + 1) * r.length = 2 * (K * r.length) + r.length := by rw [Nat.add_mul, Nat.mul_assoc, Nat.one_mul]
    have e2 : (2 * K + 1) * s.length = 2 * (K * s.length) + s.length := by rw [Nat.add_mul, Nat.mul_assoc, Nat.one_mul]
    have p1 := pay' K (Nat.le_of_lt hlt)
    rw [exprStep_tries, e1, e2]
    unfold exprStep at hv
    simp only [val_tick, val_or, val_free] at hv
    cases h1 : (ifThen e s).val with
    | some x =>
      rw [h1] at hv
      cases hv
      rw [tries_or_some (a := (a, r)) _ (by rw [val_or, h1]; rfl), tries_or_some _ h1]
      have := ifThen_paid hA hAA hf hs h1
      omega
    | none =>
      rw [h1] at hv
      cases h2 : (cast e s).val with
      | some x =>
        rw [h2] at hv
        cases hv
        rw [tries_or_some (a := (a, r)) _ (by rw [val_or, h1, h2]; rfl), tries_or_none _ h1]
        have := cast_paid hA hAA hf hs h2
        rcases cast_or_call (e := e) s with h | h
        · rw [h.2] at h2; cases h2
        · omega
      | none =>
        rw [h2] at hv
        have hn : ((ifThen e s).or (cast e s)).val = none := by rw [val_or, h1, h2]; rfl
        rw [tries_or_none _ hn, tries_or_none _ h1]
        cases h3 : (call e s).val with
        | some x =>
          rw [h3] at hv
          cases hv
          have h4 := call_paid hA hAA hf hs h3
          have h5 := ifThen_le_call hsp h3
          rcases cast_or_call (e := e) s with h | h
          · omega
          · rw [h.1.2] at h3; cases h3
        | none =>
          rw [h3] at hv
          have hcast : (cast e s).tries = 0 ∨ (call e s).tries = 0 ∧ (ifThen e s).tries = 0 := by
            rcases cast_or_call (e := e) s with h | h
            · exact .inl h.1
            · exact .inr ⟨h.1.1, h.2.1⟩
          cases h4 : pRef s with
          | some y =>
            unfold pRef at h4
            obtain ⟨t, h5, -⟩ := Option.bind_eq_some_iff.1 h4
            have es := lit_some h5
            subst es
            have k1 : lit cs!"(" (cs!"$" ++ t) = none := by simp [lit]
            have k2 : lit cs!"if_then(" (cs!"$" ++ t) = none := by simp [lit]
            have k3 : pFunSig (cs!"$" ++ t) = none := by
              have : pIdent (cs!"$" ++ t) = none := by simp [pIdent, isAlpha, isUpper, isLower]
              unfold pFunSig
              rw [this]
            have := (cast_none (e := e) k1).2
            have := (ifThen_none (e := e) k2).2
            have := (call_none (e := e) k3).2
            omega
          | none =>
            rw [h4] at hv
            cases h5 : pLiteral s with
            | none => rw [h5] at hv; cases hv
            | some y =>
              obtain ⟨l, r'⟩ := y
              rw [h5] at hv
              cases hv
              have h6 := call_idle (e := e) (lit_no_call h5 hr)
              have h7 : (cast e s).tries = 0 := by
                have : lit cs!"(" s = none := by
                  cases h8 : lit cs!"(" s with
                  | none => rfl
                  | some t => exact absurd ⟨[], by rw [lit_some h8]; rfl, by simp⟩ (lit_no_call h5 hr t)
                exact (cast_none this).2
              omega

end level

end alternatives

theorem exprN_stop (n : Nat) (s : Str) (c : Char) (t : Str) (hs : s = c :: t) (hc : c = ')' ∨ c = '_' ∨ c = ' ') :
    (exprN n s).val = none := by
  rw [val_exprN, hs]
  rcases hc with rfl | rfl | rfl <;> exact pExprN_none (by decide) (by decide) (by decide) (by decide) n

/-- Texts with fewer than `k` opening parentheses cost at most `2 ^ k - 1` attempts for each
character. -/
theorem exprN_fair : ∀ (n k : Nat), ExprFair (exprN n) (fun s => s.count '(' < k) (2 ^ k - 1)
  | n, 0 => {
      cut := exprN_cuts n
      some := fun _ _ _ h => absurd h (Nat.not_lt_zero _)
      all := fun _ h => absurd h (Nat.not_lt_zero _)
      quick := fun _ _ _ h => absurd h (Nat.not_lt_zero _) }
  | 0, k + 1 => by
    have hk : 1 ≤ 2 ^ (k + 1) - 1 := by
      have := Nat.one_le_two_pow (n := k)
      rw [Nat.pow_succ]
      omega
    exact {
      cut := exprN_cuts 0
      some := fun _ _ _ _ h => by cases h
      all := fun s _ => by
        show 1 ≤ _
        rw [pay1]
        omega
      quick := fun _ _ _ _ _ _ => ⟨rfl, hk⟩ }
  | n + 1, k + 1 => by
    have := exprStep_fair (A' := fun s => s.count '(' < k + 1)
      (fun r s h hs => Nat.lt_of_le_of_lt (h.sublist.count_le _) hs)
      (fun s t hs h => by
        have := h.sublist.count_le '('
        rw [List.count_cons_self] at this
        show List.count '(' t < k
        omega) (exprN_fair n k) (fun t => exprN_stop n _ ' ' t rfl (.inr (.inr rfl))) (exprN_cuts (n + 1))
      (exprN_stop (n + 1))
    have e : 2 * (2 ^ k - 1) + 1 = 2 ^ (k + 1) - 1 := by
      have := Nat.one_le_two_pow (n := k)
      rw [Nat.pow_succ]
      omega
    rw [e] at this
    exact this

end Counted
end Verif
