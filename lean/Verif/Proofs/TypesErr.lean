import Verif.Proofs.Types
/-!
# Errors and image of the type functions
-/

namespace Verif
open StoreSpec

set_option autoImplicit false

theorem lookup_none_iff {st : Store} (hst : st.Ordered) (k : Kind) (a : Nat) :
    NamedAnchor.lookup st k a = none ↔ ¬ ∃ n, Declared st k a n := by
  cases h : st.findByAnchor k a with
  | ok p =>
    obtain ⟨u, n⟩ := p
    have hd : ∃ n, Declared st k a n := ⟨n, u, h⟩
    constructor
    · intro hl
      unfold NamedAnchor.lookup at hl
      split at hl
      · next hk => subst hk; rw [Store.lookupFunction_ok hst h] at hl; cases hl
      · rw [h] at hl
        dsimp only at hl
        split at hl <;> cases hl
    · intro hn; exact absurd hd hn
  | error e =>
    constructor
    · rintro - ⟨n, u, hu⟩; rw [h] at hu; cases hu
    · intro _
      unfold NamedAnchor.lookup
      split
      · next hk => subst hk; simp [Store.lookupFunction, h, bind, Except.bind]
      · rw [h]

theorem textAnchor_errs {st : Store} (hst : st.Ordered) (o : Opts) (k : Kind) (a : Nat) :
    (textAnchor st o k a).errs = [] ↔ ∃ n, Declared st k a n := by
  unfold textAnchor
  cases h : NamedAnchor.lookup st k a with
  | none => simpa using (lookup_none_iff hst k a).1 h
  | some na =>
    have : ¬ ¬ ∃ n, Declared st k a n := fun hn => by
      rw [(lookup_none_iff hst k a).2 hn] at h; cases h
    simpa using this

theorem textNul_errs (n : Nul) : (textNul n).errs = [] ↔ NulSet n := by
  cases n <;> simp [textNul, NulSet]

theorem textVariation_errs {st : Store} (hst : st.Ordered) (o : Opts) (v : Nat) :
    (textVariation st o v).errs = [] ↔ VariationOk st v := by
  unfold textVariation VariationOk
  by_cases h : v = 0
  · simp [h]
  · simp [h, textAnchor_errs hst]

theorem textParamList_errs (l : List Out) : (textParamList l).errs = [] ↔ ∀ p ∈ l, p.errs = [] := by
  cases l with
  | nil => simp [textParamList]
  | cons p ps => simp [textParamList, Out.errs_sep]

theorem textifyType_errs {st : Store} (hst : st.Ordered) (o : Opts) (name : Out) (n : Nul) (v : Nat)
    (ps : List Out) : (textifyType st o name n v ps).errs = [] ↔
      name.errs = [] ∧ NulSet n ∧ VariationOk st v ∧ ∀ p ∈ ps, p.errs = [] := by
  simp [textifyType, textNul_errs, textVariation_errs hst, textParamList_errs, and_assoc]

mutual
theorem textTy_errs {st : Store} (hst : st.Ordered) (o : Opts) :
    (t : Ty) → ((textTy st o t).errs = [] ↔ CompleteTy st t)
  | .missing => by simp [textTy, CompleteTy]
  | .simple k n v => by simp [textTy, CompleteTy, textifyType_errs hst]
  | .intervalDay p n v => by simp [textTy, CompleteTy, textifyType_errs hst, textIntParam]
  | .intervalCompound p n v => by simp [textTy, CompleteTy, textifyType_errs hst, textIntParam]
  | .len k l n v => by simp [textTy, CompleteTy, textifyType_errs hst, textIntParam]
  | .decimal p s n v => by simp [textTy, CompleteTy, textifyType_errs hst, textIntParam]
  | .prec k p n v => by simp [textTy, CompleteTy, textifyType_errs hst, textIntParam]
  | .struct ts n v => by
    simp [textTy, CompleteTy, textifyType_errs hst, textTys_errs hst o ts]
  | .list t n v => by
    simp [textTy, CompleteTy, textifyType_errs hst, textTyOpt_errs hst o t]
  | .map a b n v => by
    simp [textTy, CompleteTy, textifyType_errs hst, textTyOpt_errs hst o a, textTyOpt_errs hst o b]
  | .user ref ps n v => by
    simp [textTy, textUser, CompleteTy, textifyType_errs hst, textAnchor_errs hst, textParams_errs hst o ps]
  | .userRef ref => by
    simp [textTy, textUser, CompleteTy, textifyType_errs hst, textAnchor_errs hst, NulSet, VariationOk]
  | .func => by simp [textTy, CompleteTy]
  | .alias => by simp [textTy, CompleteTy]
theorem textTyOpt_errs {st : Store} (hst : st.Ordered) (o : Opts) :
    (t : Option Ty) → ((textTyOpt st o t).errs = [] ↔ CompleteTyOpt st t)
  | none => by simp [textTyOpt, CompleteTyOpt]
  | some t => by simp [textTyOpt, CompleteTyOpt, textTy_errs hst o t]
theorem textTys_errs {st : Store} (hst : st.Ordered) (o : Opts) :
    (ts : List Ty) → ((∀ p ∈ textTys st o ts, p.errs = []) ↔ CompleteTys st ts)
  | [] => by simp [textTys, CompleteTys]
  | t :: ts => by simp [textTys, CompleteTys, textTy_errs hst o t, textTys_errs hst o ts]
theorem textParam_errs {st : Store} (hst : st.Ordered) (o : Opts) :
    (p : Param) → ((textParam st o p).errs = [] ↔ CompleteParam st p)
  | .missing => by simp [textParam, CompleteParam]
  | .null => by simp [textParam, CompleteParam]
  | .bool true => by simp [textParam, CompleteParam]
  | .bool false => by simp [textParam, CompleteParam]
  | .int i => by simp [textParam, CompleteParam, textIntParam]
  | .enum s => by simp [textParam, CompleteParam]
  | .str s => by simp [textParam, CompleteParam]
  | .ty t => by simp [textParam, CompleteParam, textTy_errs hst o t]
theorem textParams_errs {st : Store} (hst : st.Ordered) (o : Opts) :
    (ps : List Param) → ((∀ p ∈ textParams st o ps, p.errs = []) ↔ CompleteParams st ps)
  | [] => by simp [textParams, CompleteParams]
  | p :: ps => by simp [textParams, CompleteParams, textParam_errs hst o p, textParams_errs hst o ps]
end

theorem Res.bind_ok_iff {ε α β : Type} {r : Res ε α} {f : α → Res ε β} {b : β} :
    r.bind f = .ok b ↔ ∃ a, r = .ok a ∧ f a = .ok b := by
  cases r <;> simp [Res.bind]

theorem ite_elim {α : Type} {c : Prop} [Decidable c] {a b x : α} {P : Prop} (h : (if c then a else b) = x)
    (ha : a = x → P) (hb : b = x → P) : P := by
  by_cases hc : c
  · rw [if_pos hc] at h; exact ha h
  · rw [if_neg hc] at h; exact hb h

theorem convSimple_ok {name : Str} {n : Nul} {t : Ty} (h : convSimple name n = .ok t) :
    ∃ k, t = .simple k n 0 := by
  unfold convSimple at h
  iterate 15 refine ite_elim h (fun h => by cases h; exact ⟨_, rfl⟩) (fun h => ?_)
  cases h

theorem convPrecision_ok {i : IntTok} {w : Str} {p : Int} (h : convPrecision i w = .ok p) : 0 ≤ p ∧ p ≤ 12 := by
  unfold convPrecision at h
  split at h
  · split at h
    · cases h; assumption
    · cases h
  · cases h

theorem convCons_ok {ε α : Type} {a : Res ε α} {b : Bool} {l : Res ε (List α)} {r : List α}
    (h : convCons a b l = .ok r) : ∃ x xs, a = .ok x ∧ l = .ok xs ∧ r = x :: xs := by
  unfold convCons at h
  cases a with
  | ok x =>
    cases l with
    | ok xs => simp [Res.map] at h; exact ⟨x, xs, rfl, rfl, h.symm⟩
    | err e => cases h
    | panic => cases h
  | err e => dsimp only at h; split at h <;> cases h
  | panic => cases h

theorem getAndValidate_declared {st : Store} (hst : st.Ordered) {a : Option Nat} {name : Str} {r : Nat}
    (h : st.getAndValidateAnchor .type a name = .ok r) : ∃ n, Declared st .type r n := by
  unfold Store.getAndValidateAnchor at h
  rw [if_neg (by decide)] at h
  cases a with
  | none =>
    dsimp only at h
    rw [Store.findByName_ok hst] at h
    exact ⟨name, h.1⟩
  | some a =>
    dsimp only at h
    split at h
    · cases h
    · next u n hx =>
      split at h
      · cases h; exact ⟨n, u, hx⟩
      · cases h

mutual
theorem convTy_image {st : Store} (hst : st.Ordered) : (s : STy) → (t : Ty) → convTy st s = .ok t → Producible st t
  | .simple name n, t, h => by
    rw [convTy] at h
    obtain ⟨k, rfl⟩ := convSimple_ok h
    simp [Producible]
  | .list n s, t, h => by
    rw [convTy, Res.bind_ok_iff] at h
    obtain ⟨t', h1, h2⟩ := h
    cases h2
    simpa [Producible] using convTy_image hst s t' h1
  | .map _ _ _, t, h => by rw [convTy] at h; cases h
  | .struct _ _, t, h => by rw [convTy] at h; cases h
  | .prec k n i, t, h => by
    rw [convTy, Res.bind_ok_iff] at h
    obtain ⟨p, h1, h2⟩ := h
    cases h2
    simpa [Producible] using convPrecision_ok h1
  | .intervalDay n i, t, h => by
    rw [convTy, Res.bind_ok_iff] at h
    obtain ⟨p, h1, h2⟩ := h
    cases h2
    simpa [Producible] using convPrecision_ok h1
  | .user name a u n none, t, h => by
    simp only [convTy, Res.bind_ok_iff] at h
    obtain ⟨a', -, u', -, ps', hps, r, hr, h⟩ := h
    cases h; cases hps
    have : st.getAndValidateAnchor .type a' name = .ok r := by
      unfold ofLookup at hr; split at hr <;> cases hr; assumption
    simpa [Producible, ProducibleParams] using getAndValidate_declared hst this
  | .user name a u n (some ps), t, h => by
    simp only [convTy, Res.bind_ok_iff] at h
    obtain ⟨a', -, u', -, ps', hps, r, hr, h⟩ := h
    cases h
    have : st.getAndValidateAnchor .type a' name = .ok r := by
      unfold ofLookup at hr; split at hr <;> cases hr; assumption
    have h2 := convParams_image hst ps ps' hps
    simpa [Producible, h2] using getAndValidate_declared hst this
theorem convParams_image {st : Store} (hst : st.Ordered) : (s : List SParam) → (t : List Param) →
    convParams st s = .ok t → ProducibleParams st t
  | [], t, h => by rw [convParams] at h; cases h; simp [ProducibleParams]
  | .ty s :: ss, t, h => by
    rw [convParams] at h
    obtain ⟨x, xs, h1, h2, rfl⟩ := convCons_ok h
    rw [convParam, Res.bind_ok_iff] at h1
    obtain ⟨t', h3, h4⟩ := h1
    cases h4
    simp [ProducibleParams, convTy_image hst s t' h3, convParams_image hst ss xs h2]
  | .int i :: ss, t, h => by
    rw [convParams] at h
    obtain ⟨x, xs, h1, h2, rfl⟩ := convCons_ok h
    rw [convParam] at h1; cases h1
  | .name i :: ss, t, h => by
    rw [convParams] at h
    obtain ⟨x, xs, h1, h2, rfl⟩ := convCons_ok h
    rw [convParam] at h1; cases h1
end

end Verif
