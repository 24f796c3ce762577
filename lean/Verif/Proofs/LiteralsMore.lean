import Verif.Proofs.Literals
import Verif.Proofs.TypesErr
/-! # Interval texts, the image of the literal parser, reported literals -/

namespace Verif
open TextSpec

set_option autoImplicit false

/-! ## Interval texts -/

theorem pDigits_some {s ds r : Str} (h : pDigits s = some (ds, r)) :
    s = ds ++ r ∧ ds ≠ [] ∧ (∀ c ∈ ds, isDigit c = true) := by
  unfold pDigits at h
  simp only at h
  split at h
  · cases h
  · rename_i hne
    simp only [Option.some.injEq, Prod.mk.injEq] at h
    obtain ⟨rfl, rfl⟩ := h
    refine ⟨(List.takeWhile_append_dropWhile).symm, by simpa using hne, ?_⟩
    intro c hc
    have := List.all_takeWhile (p := isDigit) (l := s)
    exact List.all_eq_true.1 this c hc

theorem pMinus_spec (s : Str) : s = (if (pMinus s).1 then ['-'] else []) ++ (pMinus s).2 := by
  unfold pMinus
  split <;> simp

theorem pInteger_some {s r : Str} {t : IntTok} (h : pInteger s = some (t, r)) :
    ∃ x, s = x ++ r ∧ IntText x t.toInt := by
  unfold pInteger at h
  simp only at h
  split at h
  · cases h
  · rename_i ds r' hd
    simp only [Option.some.injEq, Prod.mk.injEq] at h
    obtain ⟨rfl, rfl⟩ := h
    obtain ⟨h1, h2, h3⟩ := pDigits_some hd
    refine ⟨(if (pMinus s).1 then ['-'] else []) ++ ds, ?_, (pMinus s).1, ds, h2, h3, rfl, rfl⟩
    rw [List.append_assoc, ← h1]
    exact pMinus_spec s

theorem pInteger_text {x : Str} {i : Int} (hx : IntText x i) :
    ∃ t : IntTok, t.toInt = i ∧ ∀ r, NextNot isDigit r → pInteger (x ++ r) = some (t, r) := by
  obtain ⟨neg, ds, h1, h2, rfl, rfl⟩ := hx
  refine ⟨⟨neg, decVal ds⟩, rfl, fun r hr => ?_⟩
  have hp := pDigits_append ds r h1 h2 hr
  have hm : pMinus (ds ++ r) = (false, ds ++ r) := by
    cases ds with
    | nil => exact absurd rfl h1
    | cons c ds => exact pMinus_of_digit (h2 c (by simp))
  unfold pInteger
  cases neg with
  | true => simp [pMinus, hp]
  | false => simp [hm, hp]

theorem pTerm_some {u s r : Str} {t : IntTok} (h : pTerm u s = some (t, r)) :
    ∃ x, s = x ++ u ++ r ∧ IntText x t.toInt := by
  unfold pTerm at h
  simp only [Option.bind_eq_bind, Option.bind_eq_some_iff, Option.some.injEq, Prod.mk.injEq] at h
  obtain ⟨⟨t', s'⟩, h1, s'', h2, rfl, rfl⟩ := h
  obtain ⟨x, h3, h4⟩ := pInteger_some h1
  have h2 := lit_some h2
  simp only at h2
  exact ⟨x, by rw [h3, h2, List.append_assoc], h4⟩

theorem pFirst_some {ks : List Str} {s k r : Str} (h : pFirst ks s = some (k, r)) : k ∈ ks ∧ s = k ++ r := by
  induction ks with
  | nil => cases h
  | cons a ks ih =>
    unfold pFirst at h
    split at h
    · rename_i r' hl
      simp only [Option.some.injEq, Prod.mk.injEq] at h
      obtain ⟨rfl, rfl⟩ := h
      exact ⟨by simp, lit_some hl⟩
    · obtain ⟨h1, h2⟩ := ih h
      exact ⟨List.mem_cons_of_mem _ h1, h2⟩

theorem pSub_some {s r u : Str} {t : IntTok} (h : pSub s = some ((t, u), r)) :
    ∃ x, s = x ++ u ++ r ∧ IntText x t.toInt ∧ u ∈ [cs!"ms", cs!"us", cs!"ns", cs!"ps"] := by
  unfold pSub at h
  simp only [Option.bind_eq_bind, Option.bind_eq_some_iff, Option.some.injEq, Prod.mk.injEq] at h
  obtain ⟨⟨t', s'⟩, h1, ⟨u', s''⟩, h2, ⟨rfl, rfl⟩, rfl⟩ := h
  obtain ⟨x, h3, h4⟩ := pInteger_some h1
  obtain ⟨h5, h6⟩ := pFirst_some h2
  simp only at h6
  exact ⟨x, by rw [h3, h6, List.append_assoc], h4, h5⟩

theorem spThen_some {α : Type} {p : Str → Option (α × Str)} {s : Str} {a : α × Str}
    (h : spThen p s = some a) : ∃ s', s = ' ' :: s' ∧ p s' = some a := by
  unfold spThen at h
  simp only [Option.bind_eq_bind, Option.bind_eq_some_iff] at h
  obtain ⟨s', h1, h2⟩ := h
  exact ⟨s', lit_some h1, h2⟩

theorem pOpt_cases {α : Type} (p : Str → Option (α × Str)) (s : Str) :
    (∃ a r, p s = some (a, r) ∧ pOpt p s = (some a, r)) ∨ (p s = none ∧ pOpt p s = (none, s)) := by
  unfold pOpt
  cases h : p s with
  | none => exact .inr ⟨rfl, rfl⟩
  | some x => exact .inl ⟨x.1, x.2, rfl, rfl⟩

theorem complete_some {α : Type} {x : Option (α × Str)} {a : α} (h : complete x = some a) :
    x = some (a, []) := by
  unfold complete at h
  split at h
  · cases h; rfl
  · cases h

/-- The value of an optional token. -/
def tokVal (t : Option IntTok) : Int := (t.map IntTok.toInt).getD 0

/-- A matched duration is its terms. -/
theorem pDuration_some {s : Str} {t : SDur} (h : pDuration s = some t) :
    ∃ a b c : Option Str, ¬ (a = none ∧ b = none ∧ c = none) ∧
      s = spaced (a.toList ++ b.toList ++ c.toList) ∧
      TermText cs!"d" a (tokVal t.days) ∧ TermText cs!"s" b (tokVal t.secs) ∧
      (match t.sub with
        | none => c = none
        | some (n, u) => ∃ x, c = some (x ++ u) ∧ IntText x n.toInt) := by
  replace h := complete_some h
  unfold pDurBody at h
  split at h
  · rename_i d s1 hd
    obtain ⟨x, rfl, hx⟩ := pTerm_some hd
    rcases pOpt_cases (spThen (pTerm cs!"s")) s1 with ⟨n, r, h1, h2⟩ | ⟨h1, h2⟩ <;>
      rw [h2] at h <;> simp only at h
    · obtain ⟨s2, rfl, h3⟩ := spThen_some h1
      obtain ⟨y, rfl, hy⟩ := pTerm_some h3
      rcases pOpt_cases (spThen pSub) r with ⟨m, r2, h4, h5⟩ | ⟨h4, h5⟩ <;>
        rw [h5] at h <;> simp only [Option.some.injEq, Prod.mk.injEq] at h <;> obtain ⟨rfl, rfl⟩ := h
      · obtain ⟨s3, rfl, h6⟩ := spThen_some h4
        obtain ⟨z, rfl, hz, _⟩ := pSub_some (t := m.1) (u := m.2) h6
        exact ⟨some (x ++ cs!"d"), some (y ++ cs!"s"), some (z ++ m.2), by simp, by simp [spaced],
          ⟨x, rfl, hx⟩, ⟨y, rfl, hy⟩, ⟨z, rfl, hz⟩⟩
      · exact ⟨some (x ++ cs!"d"), some (y ++ cs!"s"), none, by simp, by simp [spaced],
          ⟨x, rfl, hx⟩, ⟨y, rfl, hy⟩, rfl⟩
    · rcases pOpt_cases (spThen pSub) s1 with ⟨m, r2, h4, h5⟩ | ⟨h4, h5⟩ <;>
        rw [h5] at h <;> simp only [Option.some.injEq, Prod.mk.injEq] at h <;> obtain ⟨rfl, rfl⟩ := h
      · obtain ⟨s3, rfl, h6⟩ := spThen_some h4
        obtain ⟨z, rfl, hz, _⟩ := pSub_some (t := m.1) (u := m.2) h6
        exact ⟨some (x ++ cs!"d"), none, some (z ++ m.2), by simp, by simp [spaced],
          ⟨x, rfl, hx⟩, rfl, ⟨z, rfl, hz⟩⟩
      · exact ⟨some (x ++ cs!"d"), none, none, by simp, by simp [spaced], ⟨x, rfl, hx⟩, rfl, rfl⟩
  · split at h
    · rename_i n s1 hd
      obtain ⟨y, rfl, hy⟩ := pTerm_some hd
      rcases pOpt_cases (spThen pSub) s1 with ⟨m, r2, h4, h5⟩ | ⟨h4, h5⟩ <;>
        rw [h5] at h <;> simp only [Option.some.injEq, Prod.mk.injEq] at h <;> obtain ⟨rfl, rfl⟩ := h
      · obtain ⟨s3, rfl, h6⟩ := spThen_some h4
        obtain ⟨z, rfl, hz, _⟩ := pSub_some (t := m.1) (u := m.2) h6
        exact ⟨none, some (y ++ cs!"s"), some (z ++ m.2), by simp, by simp [spaced],
          rfl, ⟨y, rfl, hy⟩, ⟨z, rfl, hz⟩⟩
      · exact ⟨none, some (y ++ cs!"s"), none, by simp, by simp [spaced], rfl, ⟨y, rfl, hy⟩, rfl⟩
    · cases hs : pSub s with
      | none => rw [hs] at h; cases h
      | some m =>
        obtain ⟨⟨n, u⟩, r⟩ := m
        rw [hs] at h
        simp only [mapFst, Option.some.injEq, Prod.mk.injEq] at h
        obtain ⟨rfl, rfl⟩ := h
        obtain ⟨z, rfl, hz, _⟩ := pSub_some hs
        exact ⟨none, none, some (z ++ u), by simp, by simp [spaced], rfl, rfl, ⟨z, rfl, hz⟩⟩

theorem fitOr_i32 {t : Option IntTok} {i : Int} (h : fitOr IntTok.toI32 t = .ok i) :
    i = tokVal t ∧ InI32 i := by
  cases t with
  | none => cases h; exact ⟨rfl, by unfold InI32; decide⟩
  | some t =>
    simp only [fitOr, IntTok.toI32] at h
    split at h
    · rename_i j hj
      split at hj
      · rename_i hr; cases hj; cases h; exact ⟨rfl, hr⟩
      · cases hj
    · cases h

theorem fitOr_i64 {t : Option IntTok} {i : Int} (h : fitOr IntTok.toI64 t = .ok i) :
    i = tokVal t ∧ InI64 i := by
  cases t with
  | none => cases h; exact ⟨rfl, by unfold InI64; decide⟩
  | some t =>
    simp only [fitOr, IntTok.toI64] at h
    split at h
    · rename_i j hj
      split at hj
      · rename_i hr; cases hj; cases h; exact ⟨rfl, hr⟩
      · cases hj
    · cases h

theorem fitOr_i32_of {t : Option IntTok} {i : Int} (h : i = tokVal t) (hi : InI32 i) :
    fitOr IntTok.toI32 t = .ok i := by
  subst h
  cases t with
  | none => rfl
  | some t =>
    have : t.toI32 = some t.toInt := by unfold IntTok.toI32; rw [if_pos ⟨hi.1, hi.2⟩]
    simp [fitOr, this, tokVal]

theorem unit_of_fromSub {u : Str} {p : Precision} (h : Precision.fromSubsecondUnit u = some p) :
    p.subsecondUnit = some u := by
  unfold Precision.fromSubsecondUnit at h
  repeat' split at h
  all_goals first | (cases h; done) | (cases h; rename_i hu; subst hu; rfl)

/-- An accepted interval string writes the interval. -/
theorem readInterval_sound {s : Str} {p : Precision} {i : Interval} (h : readInterval s p = .ok i) :
    WritesInterval s p i := by
  unfold readInterval at h
  split at h
  · cases h
  · rename_i t ht
    obtain ⟨days, h1, h⟩ := Res.bind_ok_iff.1 h
    obtain ⟨secs, h2, h⟩ := Res.bind_ok_iff.1 h
    obtain ⟨sub, h3, h⟩ := Res.bind_ok_iff.1 h
    cases h
    obtain ⟨e1, r1⟩ := fitOr_i32 h1
    obtain ⟨e2, r2⟩ := fitOr_i32 h2
    obtain ⟨a, b, c, h4, h5, h6, h7, h8⟩ := pDuration_some ht
    have key : InI64 sub ∧ (if c = none then sub = 0 else ∃ u, p.subsecondUnit = some u ∧ TermText u c sub) := by
      cases hs : t.sub with
      | none =>
        rw [hs] at h3 h8
        cases h3
        simp only at h8
        rw [if_pos h8]
        exact ⟨by unfold InI64; decide, rfl⟩
      | some m =>
        obtain ⟨n, u⟩ := m
        rw [hs] at h3 h8
        simp only at h8
        obtain ⟨x, rfl, hx⟩ := h8
        simp only [convSub] at h3
        split at h3
        · cases h3
        · rename_i hu
          obtain ⟨e3, r3⟩ := fitOr_i64 h3
          refine ⟨r3, ?_⟩
          rw [if_neg (by simp)]
          refine ⟨u, unit_of_fromSub (by simpa using hu), x, rfl, ?_⟩
          rw [e3]; exact hx
    exact ⟨rfl, r1, r2, key.1, a, b, c, h4, h5, by simpa [e1] using h6, by simpa [e2] using h7, key.2⟩

/-- A string that writes an interval is accepted as that interval. -/
theorem readInterval_complete {s : Str} {p : Precision} {i : Interval} (h : WritesInterval s p i) :
    readInterval s p = .ok i := by
  obtain ⟨days, secs, sub, mode⟩ := i
  obtain ⟨hm, hd, hs, hb, a, b, c, hne, rfl, h1, h2, h3⟩ := h
  simp only at hm hd hs hb h1 h2 h3
  subst hm
  have hn : ∀ (c : Char) (r : Str), isDigit c = false → NextNot isDigit (c :: r) :=
    fun c r h => (nextNot_cons _ _ _).2 h
  -- terms
  have ha : (a = none ∧ days = 0) ∨ ∃ x t, a = some (x ++ cs!"d") ∧ t.toInt = days ∧
      ∀ r, NextNot isDigit r → pInteger (x ++ r) = some (t, r) := by
    cases a with
    | none => exact .inl ⟨rfl, h1⟩
    | some y =>
      obtain ⟨x, rfl, hx⟩ := h1
      obtain ⟨t, ht, hp⟩ := pInteger_text hx
      exact .inr ⟨x, t, rfl, ht, hp⟩
  have hb' : (b = none ∧ secs = 0) ∨ ∃ x t, b = some (x ++ cs!"s") ∧ t.toInt = secs ∧
      ∀ r, NextNot isDigit r → pInteger (x ++ r) = some (t, r) := by
    cases b with
    | none => exact .inl ⟨rfl, h2⟩
    | some y =>
      obtain ⟨x, rfl, hx⟩ := h2
      obtain ⟨t, ht, hp⟩ := pInteger_text hx
      exact .inr ⟨x, t, rfl, ht, hp⟩
  have hc : (c = none ∧ sub = 0) ∨ ∃ x t u, c = some (x ++ u) ∧ t.toInt = sub ∧ p.subsecondUnit = some u ∧
      ∀ r, NextNot isDigit r → pInteger (x ++ r) = some (t, r) := by
    cases c with
    | none => exact .inl ⟨rfl, by simpa using h3⟩
    | some y =>
      rw [if_neg (by simp)] at h3
      obtain ⟨u, hu, x, rfl, hx⟩ := h3
      obtain ⟨t, ht, hp⟩ := pInteger_text hx
      exact .inr ⟨x, t, u, rfl, ht, hu, hp⟩
  have fin : ∀ t : SDur, pDuration (spaced (a.toList ++ b.toList ++ c.toList)) = some t →
      days = tokVal t.days → secs = tokVal t.secs → convSub p t.sub = .ok sub →
      readInterval (spaced (a.toList ++ b.toList ++ c.toList)) p = .ok ⟨days, secs, sub, .precision p.units⟩ := by
    intro t e1 e2 e3 e4
    unfold readInterval
    rw [e1]
    simp only
    rw [fitOr_i32_of e2 hd, Res.dbind_ok, fitOr_i32_of e3 hs, Res.dbind_ok, e4, Res.dbind_ok]
  have sub_ok : ∀ (t : IntTok) (u : Str), t.toInt = sub → p.subsecondUnit = some u →
      convSub p (some (t, u)) = .ok sub := by
    intro t u e1 e2
    have : t.toI64 = some sub := by unfold IntTok.toI64; rw [e1, if_pos ⟨hb.1, hb.2⟩]
    simp [convSub, p.fromSub_unit u e2, fitOr, this]
  rcases ha with ⟨rfl, rfl⟩ | ⟨x, t, rfl, ht, hx⟩ <;> rcases hb' with ⟨rfl, rfl⟩ | ⟨y, t', rfl, ht', hy⟩ <;>
    rcases hc with ⟨rfl, rfl⟩ | ⟨z, t'', u, rfl, ht'', hu, hz⟩
  · exact absurd ⟨rfl, rfl, rfl⟩ hne
  · refine fin ⟨none, none, some (t'', u)⟩ ?_ rfl rfl (sub_ok _ _ ht'' hu)
    rcases p.unit_cases u hu with rfl | rfl | rfl | rfl <;>
      simp [spaced, pDuration, pDurBody, pTerm, pSub, hz, hn, isDigit, pFirst, mapFst, complete]
  · refine fin ⟨none, some t', none⟩ ?_ rfl ht'.symm rfl
    simp [spaced, pDuration, pDurBody, pTerm, hy, hn, isDigit, pOpt, spThen, complete]
  · refine fin ⟨none, some t', some (t'', u)⟩ ?_ rfl ht'.symm (sub_ok _ _ ht'' hu)
    rcases p.unit_cases u hu with rfl | rfl | rfl | rfl <;>
      simp [spaced, pDuration, pDurBody, pTerm, pSub, hy, hz, hn, isDigit, pFirst, mapFst, complete, pOpt, spThen]
  · refine fin ⟨some t, none, none⟩ ?_ ht.symm rfl rfl
    simp [spaced, pDuration, pDurBody, pTerm, hx, hn, isDigit, pOpt, spThen, complete]
  · refine fin ⟨some t, none, some (t'', u)⟩ ?_ ht.symm rfl (sub_ok _ _ ht'' hu)
    rcases p.unit_cases u hu with rfl | rfl | rfl | rfl <;>
      simp [spaced, pDuration, pDurBody, pTerm, pSub, hx, hz, hn, isDigit, pFirst, mapFst, complete, pOpt, spThen]
  · refine fin ⟨some t, some t', none⟩ ?_ ht.symm ht'.symm rfl
    simp [spaced, pDuration, pDurBody, pTerm, hx, hy, hn, isDigit, pOpt, spThen, complete]
  · refine fin ⟨some t, some t', some (t'', u)⟩ ?_ ht.symm ht'.symm (sub_ok _ _ ht'' hu)
    rcases p.unit_cases u hu with rfl | rfl | rfl | rfl <;>
      simp [spaced, pDuration, pDurBody, pTerm, pSub, hx, hy, hz, hn, isDigit, pFirst, mapFst, complete, pOpt, spThen]

end Verif
