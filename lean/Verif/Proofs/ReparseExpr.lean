import Verif.Spec.Reparse
import Verif.Proofs.ExprsErr
import Verif.Proofs.Hazards
import Verif.Proofs.LiteralsImage
import Verif.Proofs.PlanText
/-!
# Types, literals and expressions that were read can be written
-/

namespace Verif

set_option autoImplicit false

open StoreSpec TextSpec RelSpec PlanSpec Grammar

/-- What is known of a declaration. -/
theorem Sound.declared' {st : Store} (hst : st.Ordered) (hs : Sound st) {k : Kind} {a : Nat} {n : Str}
    (h : Declared st k a n) : a < 2 ^ 32 ∧ DeclName k n := by
  obtain ⟨u, hu⟩ := (Store.declared_iff hst).1 h
  exact hs.decls _ hu

mutual
theorem writable_of_producible {st : Store} (hst : st.Ordered) (hs : Sound st) :
    (t : Ty) → Producible st t → PlainTy st t → Writable st t
  | .simple _ _ _, h, _ => by rw [Producible] at h; rw [Writable]; exact h
  | .intervalDay (some _) _ _, h, _ => by rw [Producible] at h; rw [Writable]; exact h
  | .prec _ _ _ _, h, _ => by rw [Producible] at h; rw [Writable]; exact h
  | .list (some t) _ _, h, hp => by
    rw [Producible] at h
    rw [PlainTy] at hp
    rw [Writable]
    exact ⟨h.1, writable_of_producible hst hs t h.2 hp⟩
  | .user ref ps _ _, h, hp => by
    rw [Producible] at h
    rw [PlainTy] at hp
    rw [Writable]
    obtain ⟨hv, ⟨n, hn⟩, hps⟩ := h
    obtain ⟨hlt, hid⟩ := Sound.declared' hst hs hn
    exact ⟨hv, hlt, ⟨n, hn, hid, (hp.1 n hn).1, (hp.1 n hn).2⟩, writableParams_of_producible hst hs ps hps hp.2⟩
  | .missing, h, _ => by simp [Producible] at h
  | .intervalDay none _ _, h, _ => by simp [Producible] at h
  | .intervalCompound _ _ _, h, _ => by simp [Producible] at h
  | .len _ _ _ _, h, _ => by simp [Producible] at h
  | .decimal _ _ _ _, h, _ => by simp [Producible] at h
  | .struct _ _ _, h, _ => by simp [Producible] at h
  | .list none _ _, h, _ => by simp [Producible] at h
  | .map _ _ _ _, h, _ => by simp [Producible] at h
  | .userRef _, h, _ => by simp [Producible] at h
  | .func, h, _ => by simp [Producible] at h
  | .alias, h, _ => by simp [Producible] at h
theorem writableParams_of_producible {st : Store} (hst : st.Ordered) (hs : Sound st) :
    (ps : List Param) → ProducibleParams st ps → PlainParams st ps → WritableParams st ps
  | [], _, _ => by rw [WritableParams]; trivial
  | .ty t :: ps, h, hp => by
    rw [ProducibleParams] at h
    rw [PlainParams] at hp
    rw [WritableParams]
    exact ⟨writable_of_producible hst hs t h.1 hp.1, writableParams_of_producible hst hs ps h.2 hp.2⟩
  | .missing :: _, h, _ => by simp [ProducibleParams] at h
  | .null :: _, h, _ => by simp [ProducibleParams] at h
  | .bool _ :: _, h, _ => by simp [ProducibleParams] at h
  | .int _ :: _, h, _ => by simp [ProducibleParams] at h
  | .enum _ :: _, h, _ => by simp [ProducibleParams] at h
  | .str _ :: _, h, _ => by simp [ProducibleParams] at h
end

theorem inI64_of_calendar {v p : Int} (hp : p = 0 ∨ p = 3) (h : InCalendar v p) : InI64 v := by
  have hmin : minDays = -96465292 := by decide +kernel
  have hmax : maxDays = 95026236 := by decide +kernel
  unfold InCalendar at h
  rw [hmin, hmax] at h
  rcases hp with rfl | rfl
  · simp only [perSecond] at h
    unfold InI64
    simp at h
    omega
  · simp only [perSecond] at h
    unfold InI64
    simp at h
    omega

variable [UTab] [FTab]

theorem survives_of_image {st : Store} (hst : st.Ordered) (hs : Sound st) {l : Literal} (h : LitImage st l)
    (hp : ∀ v, l.value = some v → PlainLit st v) : Survives st l := by
  obtain ⟨htv, v, hv, h⟩ := h
  have hp := hp v hv
  refine ⟨htv, v, hv, ?_⟩
  cases v with
  | int k i => cases k <;> exact h
  | prec k p x =>
    cases k with
    | time => exact ⟨h.1, h.2.1, hp⟩
    | timestamp =>
      obtain ⟨hm, hi⟩ := h
      refine ⟨hm, ?_, hp⟩
      simp only [List.mem_cons, List.not_mem_nil, or_false] at hm
      rcases hm with hm | hm | hm | hm
      · exact inI64_of_calendar (.inl hm) hp
      · exact inI64_of_calendar (.inr hm) hp
      · exact hi (.inl hm)
      · exact hi (.inr hm)
    | timestampTz =>
      obtain ⟨hm, hi⟩ := h
      refine ⟨hm, ?_, hp⟩
      simp only [List.mem_cons, List.not_mem_nil, or_false] at hm
      rcases hm with hm | hm | hm | hm
      · exact inI64_of_calendar (.inl hm) hp
      · exact inI64_of_calendar (.inr hm) hp
      · exact hi (.inl hm)
      · exact hi (.inr hm)
  | bool b => trivial
  | fp32 f => exact hp
  | fp64 f => exact hp
  | string s => exact ⟨hp, h⟩
  | binary b => exact h
  | date d => exact h
  | time us => exact ⟨h.1, hp⟩
  | timestamp us => exact ⟨h, hp⟩
  | interval i =>
    obtain ⟨⟨p, hm, h1, h2⟩, h3⟩ := h
    exact ⟨p, h1, hm, h2, h3⟩
  | null t => exact ⟨writable_of_producible hst hs t h.1 hp, h.2⟩
  | other n => exact h

theorem convArgs_faithful {st : Store} {l : List SExpr}
    (ih : ∀ s ∈ l, ∀ e, convExpr st s = .ok e → PlainExpr st e → Faithful st e) : ∀ {r : List Arg},
    convArgs st l = .ok r → PlainArgs st r → FaithfulArgs st r := by
  induction l with
  | nil => intro r h _; cases h; rw [FaithfulArgs]; trivial
  | cons s l ihl =>
    intro r h hp
    unfold convArgs at h
    obtain ⟨e, he, h⟩ := Res.bind_ok_iff.1 h
    obtain ⟨r', hr, h⟩ := Res.bind_ok_iff.1 h
    cases h
    rw [PlainArgs] at hp
    rw [FaithfulArgs]
    exact ⟨ih s (by simp) e he hp.1, ihl (fun s hs => ih s (by simp [hs])) hr hp.2⟩

theorem convClauses_faithful {st : Store} {l : List (SExpr × SExpr)}
    (ih : ∀ p ∈ l, ∀ s, (s = p.1 ∨ s = p.2) → ∀ e, convExpr st s = .ok e → PlainExpr st e → Faithful st e) :
    ∀ {r : List Clause}, convClauses st l = .ok r → PlainClauses st r →
    FaithfulClauses st r ∧ r.length = l.length := by
  induction l with
  | nil => intro r h _; cases h; rw [FaithfulClauses]; exact ⟨trivial, rfl⟩
  | cons p l ihl =>
    obtain ⟨c, s⟩ := p
    intro r h hp
    unfold convClauses at h
    split at h
    · next c' hc =>
      split at h
      · next s' hs =>
        obtain ⟨r', hr, h⟩ := Res.bind_ok_iff.1 h
        cases h
        rw [PlainClauses, PlainExprOpt, PlainExprOpt] at hp
        rw [FaithfulClauses]
        obtain ⟨h1, h2⟩ := ihl (fun p hp => ih p (by simp [hp])) hr hp.2.2
        exact ⟨⟨ih (c, s) (by simp) c (.inl rfl) c' hc hp.1, ih (c, s) (by simp) s (.inr rfl) s' hs hp.2.1, h1⟩,
          by simp [h2]⟩
      · cases h
    · cases h

theorem convExpr_faithful_aux {st : Store} (hst : st.Ordered) (hs : Sound st) (m : Nat) : ∀ (s : SExpr) {x : Str} (e : Expr),
    sizeOf s < m → ExprText s x → convExpr st s = .ok e → PlainExpr st e → Faithful st e := by
  induction m with
  | zero => intro s x e hs; exact absurd hs (by omega)
  | succ m ih =>
  intro s x e hsz hx h hp
  cases s with
  | lit l =>
    have him := convExpr_image hst _ _ h
    unfold convExpr at h
    obtain ⟨y, -, h⟩ := Res.bind_ok_iff.1 h
    cases h
    rw [ExprImage] at him
    rw [PlainExpr] at hp
    rw [Faithful]
    exact survives_of_image hst hs him hp
  | ref i =>
    have him := convExpr_image hst _ _ h
    unfold convExpr at h
    obtain ⟨y, -, h⟩ := Res.bind_ok_iff.1 h
    cases h
    rw [ExprImage] at him
    rw [Faithful]
    exact him
  | call name a u args t =>
    have him := convExpr_image hst _ _ h
    cases hx with
    | call _ _ _ _ _ _ hargs _ ht =>
      rw [convExpr] at h
      obtain ⟨a', ha, h⟩ := Res.bind_ok_iff.1 h
      obtain ⟨u', hu, h⟩ := Res.bind_ok_iff.1 h
      obtain ⟨args', hargs', h⟩ := Res.bind_ok_iff.1 h
      obtain ⟨t', ht, h⟩ := Res.bind_ok_iff.1 h
      obtain ⟨f, hf, h⟩ := Res.bind_ok_iff.1 h
      cases h
      rw [ExprImage] at him
      rw [PlainExpr] at hp
      rw [Faithful]
      obtain ⟨⟨n, hn⟩, ho, -, hty⟩ := him
      obtain ⟨hlt, hname⟩ := Sound.declared' hst hs hn
      refine ⟨hlt, ho, ⟨n, hn, hname⟩, convArgs_faithful ?_ hargs' hp.1,
        writable_of_producible hst hs _ hty (hp.2 _ rfl)⟩
      intro s hm e he hpe
      obtain ⟨y, hy⟩ := sep0_mem hargs s hm
      have hlt := List.sizeOf_lt_of_mem hm
      exact ih s e (by simp at hsz; omega) hy he hpe
  | cast s fb t =>
    have him := convExpr_image hst _ _ h
    cases hx with
    | cast _ he _ _ _ _ _ ht =>
      rw [convExpr] at h
      obtain ⟨e', he', h⟩ := Res.bind_ok_iff.1 h
      obtain ⟨t', ht, h⟩ := Res.bind_ok_iff.1 h
      cases h
      rw [ExprImage] at him
      rw [PlainExpr, PlainExprOpt] at hp
      rw [Faithful]
      exact ⟨him.1, ih s e' (by simp at hsz; omega) he he' hp.1, writable_of_producible hst hs _ him.2.2 (hp.2 _ rfl)⟩
  | ifThen l y =>
    cases hx with
    | ifThen hne _ hl _ _ _ hy =>
      rw [convExpr] at h
      obtain ⟨cs', hcs, h⟩ := Res.bind_ok_iff.1 h
      obtain ⟨e', he, h⟩ := Res.bind_ok_iff.1 h
      cases h
      rw [PlainExpr, PlainExprOpt] at hp
      rw [Faithful]
      obtain ⟨h1, h2⟩ := convClauses_faithful (by
        intro p hpm s hsp e he hpe
        have hlt := List.sizeOf_lt_of_mem hpm
        have hlt' : sizeOf s < sizeOf p := by
          obtain ⟨c, r⟩ := p
          rcases hsp with rfl | rfl <;> simp <;> omega
        obtain ⟨z, hz⟩ : ∃ z, ExprText s z := by
          rcases hsp with rfl | rfl
          · exact (clausesText_mem hl p hpm).1
          · exact (clausesText_mem hl p hpm).2
        exact ih s e (by simp at hsz; omega) hz he hpe) hcs hp.1
      refine ⟨?_, h1, ih y e' (by simp at hsz; omega) hy he hp.2⟩
      intro h0
      rw [h0] at h2
      exact hne (List.eq_nil_of_length_eq_zero h2.symm)

/-- An expression that was read has a faithful text if its values and type names have one. -/
theorem convExpr_faithful {st : Store} (hst : st.Ordered) (hs : Sound st) {s : SExpr} {x : Str} {e : Expr}
    (hx : ExprText s x) (h : convExpr st s = .ok e) (hp : PlainExpr st e) : Faithful st e :=
  convExpr_faithful_aux hst hs (sizeOf s + 1) s e (by omega) hx h hp

end Verif
