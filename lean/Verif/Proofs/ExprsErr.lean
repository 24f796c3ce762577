import Verif.Proofs.ExprsRT
import Verif.Proofs.LiteralsImage
/-!
# Expressions: reported errors and what the parser builds
-/

namespace Verif
open StoreSpec TextSpec

set_option autoImplicit false

theorem textBehavior_errs (fb : Int) : (textBehavior fb).errs = [] ↔ fb = 0 ∨ fb = 1 ∨ fb = 2 := by
  unfold textBehavior
  by_cases h0 : fb = 0
  · simp [h0]
  · by_cases h1 : fb = 1
    · simp [h1]
    · by_cases h2 : fb = 2
      · simp [h2]
      · simp [h0, h1, h2]

theorem textOption_errs (l : List FOption) : ((l.map textOption).flatMap Out.errs) = [] := by
  simp [List.flatMap_map, textOption]

mutual
/-- Nothing is reported exactly for complete expressions. -/
theorem textExpr_errs [UTab] [FTab] {st : Store} (hst : st.Ordered) (o : Opts) :
    (e : Expr) → ((textExpr st o e).errs = [] ↔ CompleteExpr st e)
  | .missing => by simp [textExpr, CompleteExpr]
  | .other => by simp [textExpr, CompleteExpr]
  | .literal l => by rw [textExpr, textLit_errs hst o l, CompleteExpr]
  | .selection f => by cases f <;> simp [textExpr, CompleteExpr, textFieldRef, textRef]
  | .call f args opts t => by
    have h1 := textArgs_errs hst o args
    rw [textExpr, CompleteExpr]
    have h2 : (textOutType st o t).errs = [] ↔ CompleteTyOpt st t := by
      cases t with
      | none => simp [textOutType, CompleteTyOpt]
      | some t => simp [textOutType, CompleteTyOpt, textTy_errs hst o t]
    simp only [textInvocation, Out.errs_append, Out.errs_sep, textOption_errs, List.append_eq_nil_iff, Out.errs_s,
      textAnchor_errs hst, h1, h2]
    simp [and_assoc]
  | .cast e t fb => by
    have h1 := textExprReq_errs hst o e
    rw [textExpr, CompleteExpr]
    have h2 : (textTyReq st o t).errs = [] ↔ CompleteTyOpt st t := by
      cases t with
      | none => simp [textTyReq, CompleteTyOpt]
      | some t => simp [textTyReq, CompleteTyOpt, textTy_errs hst o t]
    simp only [Out.errs_append, List.append_eq_nil_iff, Out.errs_s, h1, h2, textBehavior_errs]
    constructor
    · rintro ⟨⟨⟨⟨_, a⟩, _⟩, b⟩, c⟩; exact ⟨b, a, c⟩
    · rintro ⟨b, a, c⟩; exact ⟨⟨⟨⟨trivial, a⟩, trivial⟩, b⟩, c⟩
  | .ifThen ifs e => by
    have h1 := textExprReq_errs hst o e
    have h2 := textClauses_errs hst o ifs
    rw [textExpr, CompleteExpr]
    simp [h1, h2]
theorem textExprReq_errs [UTab] [FTab] {st : Store} (hst : st.Ordered) (o : Opts) :
    (e : Option Expr) → ((textExprReq st o e).errs = [] ↔ CompleteExprOpt st e)
  | none => by simp [textExprReq, CompleteExprOpt]
  | some e => by rw [textExprReq, CompleteExprOpt]; exact textExpr_errs hst o e
theorem textArg_errs [UTab] [FTab] {st : Store} (hst : st.Ordered) (o : Opts) :
    (a : Arg) → ((textArg st o a).errs = [] ↔ CompleteArg st a)
  | .missing => by simp [textArg, CompleteArg]
  | .ty t => by rw [textArg, CompleteArg]; exact textTy_errs hst o t
  | .value e => by rw [textArg, CompleteArg]; exact textExpr_errs hst o e
  | .enum s => by simp [textArg, CompleteArg, textEnum]
theorem textArgs_errs [UTab] [FTab] {st : Store} (hst : st.Ordered) (o : Opts) :
    (l : List Arg) → ((textArgs st o l).flatMap Out.errs = [] ↔ CompleteArgs st l)
  | [] => by simp [textArgs, CompleteArgs]
  | a :: l => by
    have h1 := textArg_errs hst o a
    have h2 := textArgs_errs hst o l
    rw [textArgs, CompleteArgs, List.flatMap_cons, List.append_eq_nil_iff, h1, h2]
theorem textClauses_errs [UTab] [FTab] {st : Store} (hst : st.Ordered) (o : Opts) :
    (l : List Clause) → ((textClauses st o l).errs = [] ↔ CompleteClauses st l)
  | [] => by simp [textClauses, CompleteClauses]
  | .mk c t :: l => by
    have h1 := textExprReq_errs hst o c
    have h2 := textExprReq_errs hst o t
    have h3 := textClauses_errs hst o l
    rw [textClauses, CompleteClauses]
    simp [h1, h2, h3, and_assoc]
end

theorem convIndex_ok {i : IntTok} {x : Int} (h : convIndex i = .ok x) : InI32 x := by
  unfold convIndex at h
  split at h
  · rename_i y hy
    cases h
    unfold IntTok.toI32 at hy
    split at hy
    · rename_i hh
      simp only [Option.some.injEq] at hy
      subst hy
      exact hh
    · cases hy
  · cases h

theorem getAndValidate_declared_function {st : Store} (hst : st.Ordered) {a : Option Nat} {name : Str} {r : Nat}
    (h : st.getAndValidateAnchor .function a name = .ok r) : ∃ n, Declared st .function r n := by
  rw [Store.getAndValidate_function hst] at h
  obtain ⟨⟨n, hd, _⟩, _⟩ := h
  exact ⟨n, hd⟩

mutual
/-- Whatever the parser builds is of the described form. -/
theorem convExpr_image [FTab] {st : Store} (hst : st.Ordered) :
    (s : SExpr) → (e : Expr) → convExpr st s = .ok e → ExprImage st e
  | .lit l, e, h => by
    rw [convExpr, Res.bind_ok_iff] at h
    obtain ⟨x, h1, h2⟩ := h
    cases h2
    rw [ExprImage]
    exact convLit_image hst l x h1
  | .ref i, e, h => by
    rw [convExpr, Res.bind_ok_iff] at h
    obtain ⟨x, h1, h2⟩ := h
    cases h2
    rw [ExprImage]
    exact convIndex_ok h1
  | .call name a u args t, e, h => by
    rw [convExpr] at h
    obtain ⟨a', ha, h⟩ := Res.bind_ok_iff.1 h
    obtain ⟨u', hu, h⟩ := Res.bind_ok_iff.1 h
    obtain ⟨args', hargs, h⟩ := Res.bind_ok_iff.1 h
    obtain ⟨t', ht, h⟩ := Res.bind_ok_iff.1 h
    obtain ⟨f, hf, h⟩ := Res.bind_ok_iff.1 h
    cases h
    rw [ExprImage]
    refine ⟨?_, rfl, convArgs_image hst args args' hargs, convTy_image hst t t' ht⟩
    unfold ofLookup at hf
    split at hf
    · cases hf
      rename_i h
      exact getAndValidate_declared_function hst h
    · cases hf
  | .cast s fb t, e, h => by
    rw [convExpr] at h
    obtain ⟨e', he, h⟩ := Res.bind_ok_iff.1 h
    obtain ⟨t', ht, h⟩ := Res.bind_ok_iff.1 h
    cases h
    rw [ExprImage]
    exact ⟨by cases fb <;> simp [SBehavior.num], convExpr_image hst s e' he, convTy_image hst t t' ht⟩
  | .ifThen cs s, e, h => by
    rw [convExpr] at h
    obtain ⟨cs', hcs, h⟩ := Res.bind_ok_iff.1 h
    obtain ⟨e', he, h⟩ := Res.bind_ok_iff.1 h
    cases h
    rw [ExprImage]
    exact ⟨convClauses_image hst cs cs' hcs, convExpr_image hst s e' he⟩
theorem convArgs_image [FTab] {st : Store} (hst : st.Ordered) :
    (l : List SExpr) → (as : List Arg) → convArgs st l = .ok as → ImageArgs st as
  | [], as, h => by rw [convArgs] at h; cases h; simp [ImageArgs]
  | s :: l, as, h => by
    rw [convArgs] at h
    obtain ⟨e', he, h⟩ := Res.bind_ok_iff.1 h
    obtain ⟨l', hl, h⟩ := Res.bind_ok_iff.1 h
    cases h
    rw [ImageArgs]
    exact ⟨convExpr_image hst s e' he, convArgs_image hst l l' hl⟩
theorem convClauses_image [FTab] {st : Store} (hst : st.Ordered) :
    (l : List (SExpr × SExpr)) → (cs : List Clause) → convClauses st l = .ok cs → ImageClauses st cs
  | [], cs, h => by rw [convClauses] at h; cases h; simp [ImageClauses]
  | (c, r) :: l, cs, h => by
    rw [convClauses] at h
    cases hc : convExpr st c with
    | ok c' =>
      cases hr : convExpr st r with
      | ok r' =>
        rw [hc, hr] at h
        simp only at h
        obtain ⟨l', hl, h⟩ := Res.bind_ok_iff.1 h
        cases h
        rw [ImageClauses]
        exact ⟨convExpr_image hst c c' hc, convExpr_image hst r r' hr, convClauses_image hst l l' hl⟩
      | err x => rw [hc, hr] at h; cases h
      | panic => rw [hc, hr] at h; cases h
    | err x => rw [hc] at h; cases h
    | panic => rw [hc] at h; cases h
end

end Verif
