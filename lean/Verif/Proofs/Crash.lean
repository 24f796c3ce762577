import Verif.Spec.Crash
import Verif.Proofs.Accept
import Verif.Proofs.MeaningRels
import Verif.Proofs.HazardsRel
/-!
# Which pieces of syntax make the parser panic
-/

namespace Verif

set_option autoImplicit false

open StoreSpec TemporalSpec Grammar MeaningSpec CrashSpec HazardSpec

theorem first_nil {α : Type} {F C : α → Prop} : ¬ First F C [] := by intro h; cases h

theorem first_cons {α : Type} {F C : α → Prop} {a : α} {l : List α} : First F C (a :: l) ↔ C a ∨ F a ∧ First F C l := by
  constructor
  · intro h
    cases h with
    | here h => exact Or.inl h
    | later h1 h2 => exact Or.inr ⟨h1, h2⟩
  · rintro (h | ⟨h1, h2⟩)
    · exact .here h
    · exact .later h1 h2

/-- A loop that goes from left to right panics at the first item that panics. -/
theorem first_loop {α : Type} {P : List α → Prop} {F C : α → Prop} (h0 : ¬ P [])
    (h1 : ∀ a l, P (a :: l) ↔ C a ∨ F a ∧ P l) (l : List α) : P l ↔ First F C l := by
  induction l with
  | nil => exact ⟨fun h => absurd h h0, fun h => absurd h first_nil⟩
  | cons a l ih => rw [h1, first_cons, ih]

theorem all2_exists {α β : Type} {R : α → β → Prop} {l : List α} : (∃ m, All2 R l m) ↔ ∀ a ∈ l, ∃ b, R a b := by
  induction l with
  | nil => simp [all2_nil_left]
  | cons a l ih =>
    simp only [all2_cons_left, List.mem_cons, forall_eq_or_imp, ← ih]
    constructor
    · rintro ⟨_, b, m, rfl, h1, h2⟩; exact ⟨⟨b, h1⟩, m, h2⟩
    · rintro ⟨⟨b, h1⟩, m, h2⟩; exact ⟨_, b, m, rfl, h1, h2⟩

theorem opt2_exists {α β : Type} {R : α → β → Prop} {o : Option α} : (∃ b, Opt2 R o b) ↔ ∀ a, o = some a → ∃ b, R a b := by
  cases o with
  | none => simp [opt2_none]
  | some a =>
    simp only [opt2_some, Option.some.injEq, forall_eq']
    constructor
    · rintro ⟨_, x, rfl, h⟩; exact ⟨x, h⟩
    · rintro ⟨x, h⟩; exact ⟨_, x, rfl, h⟩

theorem dropPanics_crash {α : Type} {r : Res Err α} : dropPanics r = .panic ↔ ¬ ∃ a, r = .ok a := by
  cases r <;> simp [dropPanics]

theorem res_not_ok {ε α : Type} {r : Res ε α} (h : r = .panic) : ¬ ∃ a, r = .ok a := by
  subst h; simp

/-! ## Numbers -/

theorem not32 {i : IntTok} : Not32 i ↔ ¬ InI32 i.toInt := Iff.rfl

theorem not64 {i : IntTok} : Not64 i ↔ ¬ InI64 i.toInt := Iff.rfl

theorem notAnchor {i : IntTok} : NotAnchor i ↔ ∀ n, ¬ U32 i n := by
  unfold NotAnchor U32
  constructor
  · rintro h n ⟨h1, rfl, h2⟩; exact h ⟨h1, h2⟩
  · rintro h ⟨h1, h2⟩; exact h _ ⟨h1, rfl, h2⟩

theorem unwrapU32_crash {a : Option IntTok} : unwrapU32 a = .panic ↔ BadAnchor a := by
  rw [unwrapU32_panic]
  cases a with
  | none => simp [BadAnchor]
  | some i => simp [BadAnchor, notAnchor]

theorem unwrapU32_fine {a : Option IntTok} (h : ¬ BadAnchor a) : ∃ b, unwrapU32 a = .ok b := by
  rw [← unwrapU32_crash] at h
  cases a with
  | none => exact ⟨none, rfl⟩
  | some i =>
    simp only [unwrapU32] at h ⊢
    cases hi : i.toU32 with
    | none => rw [hi] at h; exact absurd rfl h
    | some n => exact ⟨some n, rfl⟩

/-! ## Types -/

theorem tyFine {st : Store} (hst : st.Ordered) {s : STy} : (∃ t, convTy st s = .ok t) ↔ TyFine st s := by
  simp only [convTy_means hst]; rfl

theorem paramFine {st : Store} (hst : st.Ordered) {p : SParam} : (∃ q, convParam st p = .ok q) ↔ ParamFine st p := by
  cases p with
  | ty s =>
    simp only [convParam_means hst, ParamFine, TyFine, SParam.ty.injEq]
    constructor
    · rintro ⟨q, s, t, rfl, rfl, h⟩; exact ⟨t, h⟩
    · rintro ⟨t, h⟩; exact ⟨_, s, t, rfl, rfl, h⟩
  | int i => simp [convParam, ParamFine]
  | name n => simp [convParam, ParamFine]

/-- Parameters that panic. -/
def ParamsCrash (st : Store) (ps : List SParam) : Prop :=
  ∃ pre p post, ps = pre ++ p :: post ∧ (∀ q ∈ pre, ParamFine st q) ∧
    ((∃ s, p = .ty s ∧ TyCrashes st s) ∨ (∀ s, p ≠ .ty s) ∨ (¬ ParamFine st p ∧ post ≠ []))

theorem paramsCrash_cons {st : Store} {p : SParam} {ps : List SParam} : ParamsCrash st (p :: ps) ↔
    ((∃ s, p = .ty s ∧ TyCrashes st s) ∨ (∀ s, p ≠ .ty s) ∨ (¬ ParamFine st p ∧ ps ≠ [])) ∨
      ParamFine st p ∧ ParamsCrash st ps := by
  constructor
  · rintro ⟨pre, q, post, h1, h2, h3⟩
    cases pre with
    | nil => cases h1; exact Or.inl h3
    | cons a pre =>
      injection h1 with h1 h4
      subst h1
      exact Or.inr ⟨h2 _ (List.mem_cons_self ..), pre, q, post, h4, fun x hx => h2 x (List.mem_cons_of_mem _ hx), h3⟩
  · rintro (h | ⟨h, pre, q, post, rfl, h2, h3⟩)
    · exact ⟨[], p, ps, rfl, by simp, h⟩
    · refine ⟨p :: pre, q, post, rfl, ?_, h3⟩
      intro x hx
      rcases List.mem_cons.1 hx with rfl | hx
      · exact h
      · exact h2 x hx

theorem ite_err {ε α : Type} {c : Prop} [Decidable c] {a : α} {r : Res ε α} {e : ε}
    (h : (if c then .ok a else r) = .err e) : r = .err e := by
  split at h
  · cases h
  · exact h

theorem convSimple_crash {name : Str} {n : Nul} : convSimple name n = .panic ↔ ∀ k, (name, k) ∉ builtIn := by
  constructor
  · intro h k hk
    have := convSimple_means (n := n).2 ⟨k, hk, rfl⟩
    rw [h] at this
    cases this
  · intro h
    cases hc : convSimple name n with
    | ok t =>
      obtain ⟨k, hk, _⟩ := convSimple_means.1 hc
      exact absurd hk (h k)
    | err e =>
      unfold convSimple at hc
      iterate 15 replace hc := ite_err hc
      cases hc
    | panic => rfl

theorem tyCrashes_user {st : Store} {name : Str} {a u : Option IntTok} {n : Nul} {ps : Option (List SParam)} :
    TyCrashes st (.user name a u n ps) ↔ BadAnchor a ∨ BadAnchor u ∨ ∃ l, ps = some l ∧ ParamsCrash st l := by
  constructor
  · intro h
    cases h with
    | anchor h => exact Or.inl h
    | urn h => exact Or.inr (Or.inl h)
    | param h1 h2 h3 => exact Or.inr (Or.inr ⟨_, rfl, _, _, _, h1, h2, Or.inl ⟨_, rfl, h3⟩⟩)
    | notType h1 h2 h3 => exact Or.inr (Or.inr ⟨_, rfl, _, _, _, h1, h2, Or.inr (Or.inl h3)⟩)
    | notLast h1 h2 h3 h4 => exact Or.inr (Or.inr ⟨_, rfl, _, _, _, h1, h2, Or.inr (Or.inr ⟨h3, h4⟩)⟩)
  · rintro (h | h | ⟨l, rfl, pre, p, post, h1, h2, (⟨s, rfl, h3⟩ | h3 | ⟨h3, h4⟩)⟩)
    · exact .anchor h
    · exact .urn h
    · exact .param h1 h2 h3
    · exact .notType h1 h2 h3
    · exact .notLast h1 h2 h3 h4

mutual
theorem convTy_crash {st : Store} (hst : st.Ordered) : (s : STy) → (convTy st s = .panic ↔ TyCrashes st s)
  | .simple name n => by
    rw [convTy, convSimple_crash]
    exact ⟨fun h => .unknown h, fun h => by cases h; assumption⟩
  | .list n t => by
    rw [convTy, Res.bind_panic_iff, convTy_crash hst t]
    constructor
    · rintro (h | ⟨_, _, h⟩)
      · exact .list h
      · cases h
    · intro h; cases h with | list h => exact Or.inl h
  | .map n a b => by rw [convTy]; exact ⟨fun _ => .map, fun _ => rfl⟩
  | .struct n ps => by rw [convTy]; exact ⟨fun _ => .struct, fun _ => rfl⟩
  | .prec k n i => by
    rw [convTy, Res.bind_panic_iff]
    constructor
    · rintro (h | ⟨_, _, h⟩)
      · exact absurd h convPrecision_panic
      · cases h
    · intro h; cases h
  | .intervalDay n i => by
    rw [convTy, Res.bind_panic_iff]
    constructor
    · rintro (h | ⟨_, _, h⟩)
      · exact absurd h convPrecision_panic
      · cases h
    · intro h; cases h
  | .user name a u n none => by
    rw [convTy, tyCrashes_user]
    simp only [Res.bind_panic_iff, unwrapU32_crash, ofLookup_panic, reduceCtorEq, false_and, and_false, exists_false,
      or_false]
    constructor
    · rintro (h | ⟨_, _, h⟩)
      · exact Or.inl h
      · exact Or.inr h
    · rintro (h | h)
      · exact Or.inl h
      · by_cases ha : BadAnchor a
        · exact Or.inl ha
        · obtain ⟨x, hx⟩ := unwrapU32_fine ha
          exact Or.inr ⟨x, hx, h⟩
  | .user name a u n (some ps) => by
    rw [convTy, tyCrashes_user]
    simp only [Res.bind_panic_iff, unwrapU32_crash, ofLookup_panic, reduceCtorEq, and_false, exists_false,
      or_false, convParams_crash hst ps, Option.some.injEq, exists_eq_left']
    constructor
    · rintro (h | ⟨_, _, h | ⟨_, _, h⟩⟩)
      · exact Or.inl h
      · exact Or.inr (Or.inl h)
      · exact Or.inr (Or.inr h)
    · intro h
      by_cases ha : BadAnchor a
      · exact Or.inl ha
      · obtain ⟨x, hx⟩ := unwrapU32_fine ha
        refine Or.inr ⟨x, hx, ?_⟩
        by_cases hu : BadAnchor u
        · exact Or.inl hu
        · obtain ⟨y, hy⟩ := unwrapU32_fine hu
          exact Or.inr ⟨y, hy, (h.resolve_left ha).resolve_left hu⟩
theorem convParam_crash {st : Store} (hst : st.Ordered) : (p : SParam) →
    (convParam st p = .panic ↔ (∃ s, p = .ty s ∧ TyCrashes st s) ∨ ∀ s, p ≠ .ty s)
  | .ty s => by
    rw [convParam, Res.bind_panic_iff, convTy_crash hst s]
    simp
  | .int i => by simp [convParam]
  | .name i => by simp [convParam]
theorem convParams_crash {st : Store} (hst : st.Ordered) : (ps : List SParam) →
    (convParams st ps = .panic ↔ ParamsCrash st ps)
  | [] => by
    rw [convParams]
    constructor
    · intro h; cases h
    · rintro ⟨pre, p, post, h, _⟩; simp at h
  | p :: ps => by
    rw [convParams, paramsCrash_cons, ← convParams_crash hst ps, ← or_assoc, ← convParam_crash hst p, ← paramFine hst]
    unfold convCons
    cases convParam st p with
    | ok q => simp [Res.map_panic_iff]
    | err e => cases ps <;> simp
    | panic => simp
end

/-! ## Literals and expressions -/

theorem exprFine [FTab] {st : Store} (hst : st.Ordered) {s : SExpr} : (∃ t, convExpr st s = .ok t) ↔ ExprFine st s := by
  simp only [convExpr_means hst]; rfl

theorem convValue_crash [FTab] {v : SVal} {t : Option Ty} : convValue v t = .panic ↔ ∃ i, v = .int i ∧ ¬ InI64 i.toInt := by
  constructor
  · exact convValue_panic
  · rintro ⟨i, rfl, h⟩; exact toIntLit_panic.2 h

theorem convLit_crash [FTab] {st : Store} (hst : st.Ordered) (s : SLit) : convLit st s = .panic ↔ LitCrashes st s := by
  obtain ⟨v, ty⟩ := s
  unfold convLit LitCrashes
  simp only [Res.bind_panic_iff, convValue_crash]
  cases ty with
  | none => simp
  | some t =>
    simp only [Res.map_panic_iff, convTy_crash hst, Option.some.injEq, exists_eq_left', forall_eq', ← tyFine hst]
    cases convTy st t <;> simp [Res.map]

mutual
theorem convExpr_crash [FTab] {st : Store} (hst : st.Ordered) : (s : SExpr) → (convExpr st s = .panic ↔ ExprCrashes st s)
  | .lit l => by
    rw [convExpr, Res.bind_panic_iff, convLit_crash hst]
    constructor
    · rintro (h | ⟨_, _, h⟩)
      · exact .lit h
      · cases h
    · intro h; cases h with | lit h => exact Or.inl h
  | .ref i => by
    rw [convExpr, Res.bind_panic_iff, convIndex_panic]
    constructor
    · rintro (h | ⟨_, _, h⟩)
      · exact .ref h
      · cases h
    · intro h; cases h with | ref h => exact Or.inl h
  | .call name a u ss t => by
    rw [convExpr]
    simp only [Res.bind_panic_iff, unwrapU32_crash, ofLookup_panic, reduceCtorEq, and_false, exists_false,
      or_false, convArgs_crash hst ss, convTy_crash hst t]
    constructor
    · rintro (h | ⟨_, _, h | ⟨_, _, h | ⟨_, h1, h⟩⟩⟩)
      · exact .anchor h
      · exact .urn h
      · exact .arg h
      · obtain ⟨es, _, h1⟩ := (convArgs_means hst _ _).1 h1
        exact .result (all2_exists.1 ⟨es, h1⟩) h
    · intro h
      by_cases ha : BadAnchor a
      · exact Or.inl ha
      · obtain ⟨x, hx⟩ := unwrapU32_fine ha
        refine Or.inr ⟨x, hx, ?_⟩
        by_cases hu : BadAnchor u
        · exact Or.inl hu
        · obtain ⟨y, hy⟩ := unwrapU32_fine hu
          refine Or.inr ⟨y, hy, ?_⟩
          cases h with
          | anchor h => exact absurd h ha
          | urn h => exact absurd h hu
          | arg h => exact Or.inl h
          | result h1 h2 =>
            obtain ⟨es, he⟩ := all2_exists.2 h1
            exact Or.inr ⟨_, (convArgs_means hst _ _).2 ⟨es, rfl, he⟩, h2⟩
  | .cast s fb t => by
    rw [convExpr]
    simp only [Res.bind_panic_iff, convExpr_crash hst s, convTy_crash hst t, reduceCtorEq, and_false, exists_false,
      or_false]
    constructor
    · rintro (h | ⟨e, h1, h⟩)
      · exact .castOf h
      · exact .castTo ((exprFine hst).1 ⟨e, h1⟩) h
    · intro h
      cases h with
      | castOf h => exact Or.inl h
      | castTo h1 h2 =>
        obtain ⟨e, he⟩ := (exprFine hst).2 h1
        exact Or.inr ⟨e, he, h2⟩
  | .ifThen l y => by
    rw [convExpr]
    simp only [Res.bind_panic_iff, convExpr_crash hst y, reduceCtorEq, and_false, exists_false, or_false]
    have hl := convClauses_crash hst l
    constructor
    · rintro (h | ⟨_, _, h⟩)
      · obtain ⟨p, hp, h⟩ := hl.1 h
        exact .clause hp h
      · exact .otherwise h
    · intro h
      by_cases hc : ∃ p ∈ l, ¬ (ExprFine st p.1 ∧ ExprFine st p.2)
      · exact Or.inl (hl.2 hc)
      · cases h with
        | clause h1 h2 => exact absurd ⟨_, h1, h2⟩ hc
        | otherwise h =>
          have hf : ∀ p ∈ l, ExprFine st p.1 ∧ ExprFine st p.2 := fun p hp =>
            Classical.byContradiction fun hn => hc ⟨p, hp, hn⟩
          obtain ⟨as, ha⟩ := all2_exists (R := ExprMeans st) (l := l.map (·.1)).2 (by
            intro a ha; obtain ⟨p, hp, rfl⟩ := List.mem_map.1 ha; exact (hf p hp).1)
          obtain ⟨bs, hb⟩ := all2_exists (R := ExprMeans st) (l := l.map (·.2)).2 (by
            intro a ha; obtain ⟨p, hp, rfl⟩ := List.mem_map.1 ha; exact (hf p hp).2)
          exact Or.inr ⟨_, (convClauses_means hst _ _).2 ⟨as, bs, rfl, ha, hb⟩, h⟩
theorem convArgs_crash [FTab] {st : Store} (hst : st.Ordered) : (l : List SExpr) →
    (convArgs st l = .panic ↔ First (ExprFine st) (ExprCrashes st) l)
  | [] => by
    rw [convArgs]
    exact ⟨fun h => (by cases h), fun h => absurd h first_nil⟩
  | s :: l => by
    rw [convArgs, first_cons, ← convArgs_crash hst l, ← convExpr_crash hst s, ← exprFine hst]
    simp only [Res.bind_panic_iff, reduceCtorEq, and_false, exists_false, or_false, exists_and_right]
theorem convClauses_crash [FTab] {st : Store} (hst : st.Ordered) : (l : List (SExpr × SExpr)) →
    (convClauses st l = .panic ↔ ∃ p ∈ l, ¬ (ExprFine st p.1 ∧ ExprFine st p.2))
  | [] => by simp [convClauses]
  | (c, r) :: l => by
    have ih := convClauses_crash hst l
    simp only [List.mem_cons, exists_eq_or_imp, ← ih]
    rw [← exprFine hst, ← exprFine hst, convClauses]
    cases convExpr st c with
    | ok x =>
      cases convExpr st r with
      | ok y => simp [Res.bind_panic_iff]
      | err e => simp
      | panic => simp
    | err e => simp
    | panic => simp
end

/-! ## Arguments of extensions -/

theorem argFine [FTab] {st : Store} (hst : st.Ordered) {s : SArg} : (∃ t, convArg st s = .ok t) ↔ ArgFine st s := by
  simp only [convArg_means hst]; rfl

theorem convParamLit_crash [FTab] {st : Store} (v : SVal) : convParamLit v = .panic ↔ ArgCrashes st (.lit v) := by
  cases v with
  | int i =>
    simp only [convParamLit]
    constructor
    · intro h
      split at h
      · cases h
      · next hn => exact .int (toI64_none.1 hn)
    · intro h
      cases h with | int h => rw [toI64_none.2 h]
  | float => exact ⟨fun h => by simp [convParamLit] at h, fun h => by cases h⟩
  | bool => exact ⟨fun h => by simp [convParamLit] at h, fun h => by cases h⟩
  | str => exact ⟨fun h => by simp [convParamLit] at h, fun h => by cases h⟩
  | null => exact ⟨fun h => by simp [convParamLit] at h, fun h => by cases h⟩

mutual
theorem convArg_crash [FTab] {st : Store} (hst : st.Ordered) : (s : SArg) → (convArg st s = .panic ↔ ArgCrashes st s)
  | .enum s => by
    rw [convArg]
    exact ⟨fun h => (by cases h), fun h => by cases h⟩
  | .lit v => by rw [convArg]; exact convParamLit_crash v
  | .ref i => by
    rw [convArg, Res.bind_panic_iff, convIndex_panic]
    constructor
    · rintro (h | ⟨_, _, h⟩)
      · exact .ref h
      · cases h
    · intro h; cases h with | ref h => exact Or.inl h
  | .expr e => by
    rw [convArg, Res.bind_panic_iff, convExpr_crash hst]
    constructor
    · rintro (h | ⟨_, _, h⟩)
      · exact .expr h
      · cases h
    · intro h; cases h with | expr h => exact Or.inl h
  | .tuple l => by
    rw [convArg, Res.bind_panic_iff, convArgList_crash hst l]
    constructor
    · rintro (h | ⟨_, _, h⟩)
      · exact .tuple h
      · cases h
    · intro h; cases h with | tuple h => exact Or.inl h
theorem convArgList_crash [FTab] {st : Store} (hst : st.Ordered) : (l : List SArg) →
    (convArgList st l = .panic ↔ First (ArgFine st) (ArgCrashes st) l)
  | [] => by
    rw [convArgList]
    exact ⟨fun h => (by cases h), fun h => absurd h first_nil⟩
  | s :: l => by
    rw [convArgList, first_cons, ← convArgList_crash hst l, ← convArg_crash hst s, ← argFine hst]
    simp only [Res.bind_panic_iff, reduceCtorEq, and_false, exists_false, or_false, exists_and_right]
end

theorem convNamed_crash [FTab] {st : Store} (hst : st.Ordered) (acc : List (Str × ExtValue)) (l : List (Str × SArg)) :
    convNamed st acc l = .panic ↔ First (fun x => ArgFine st x.2) (fun x => ArgCrashes st x.2) l := by
  induction l generalizing acc with
  | nil => rw [convNamed]; exact ⟨fun h => (by cases h), fun h => absurd h first_nil⟩
  | cons p l ih =>
    obtain ⟨k, a⟩ := p
    rw [convNamed, first_cons, ← convArg_crash hst, ← argFine hst]
    simp only [Res.bind_panic_iff, ih, exists_and_right]

theorem convExtColumn_crash [FTab] {st : Store} (hst : st.Ordered) (c : SCol) :
    convExtColumn st c = .panic ↔ ColCrashes st c := by
  cases c with
  | named n t =>
    rw [convExtColumn, Res.bind_panic_iff, convTy_crash hst]
    constructor
    · rintro (h | ⟨_, _, h⟩)
      · exact .named h
      · cases h
    · intro h; cases h with | named h => exact Or.inl h
  | ref i =>
    rw [convExtColumn, Res.bind_panic_iff, convIndex_panic]
    constructor
    · rintro (h | ⟨_, _, h⟩)
      · exact .ref h
      · cases h
    · intro h; cases h with | ref h => exact Or.inl h
  | expr e =>
    rw [convExtColumn, Res.bind_panic_iff, convExpr_crash hst]
    constructor
    · rintro (h | ⟨_, _, h⟩)
      · exact .expr h
      · cases h
    · intro h; cases h with | expr h => exact Or.inl h

theorem convExtColumns_crash [FTab] {st : Store} (hst : st.Ordered) (l : List SCol) :
    convExtColumns st l = .panic ↔ First (fun c => ∃ v, ColMeans st c v) (ColCrashes st) l := by
  refine first_loop (P := fun l => convExtColumns st l = .panic) (by simp [convExtColumns]) ?_ l
  intro c l
  simp only [convExtColumns, Res.bind_panic_iff, reduceCtorEq, and_false, exists_false, or_false, exists_and_right,
    convExtColumn_crash hst, convExtColumn_means hst]

theorem convExtArgs_crash [FTab] {st : Store} (hst : st.Ordered) (s : SArgs) (cols : List SCol) :
    convExtArgs st s cols = .panic ↔ ArgsCrash st s cols := by
  have hn : (∃ r, convNamed st [] s.named = .ok r) ↔ ∀ x ∈ s.named, ArgFine st x.2 := by
    rw [convNamed_total, all2_exists]
    constructor
    · intro h x hx
      obtain ⟨y, _, hy⟩ := h x hx
      exact (argFine hst).1 ⟨_, hy⟩
    · intro h x hx
      obtain ⟨y, hy⟩ := (argFine hst).2 (h x hx)
      exact ⟨(x.1, y), rfl, hy⟩
  unfold convExtArgs ArgsCrash
  simp only [Res.bind_panic_iff, reduceCtorEq, and_false, exists_false, or_false, exists_and_right, convArgList_crash hst,
    convNamed_crash hst, convExtColumns_crash hst, convArgList_means hst, hn, all2_exists]
  rfl

end Verif
