import Verif.Proofs.Counted
/-!
# How many attempts lists of matches take

`K` is what one character may cost.  Two kinds of bound are kept: what a match costs at most, whatever
becomes of it, and what it costs when it succeeds, to be paid by the characters it took.
-/

set_option autoImplicit false

namespace Verif
namespace Counted
variable {α : Type}

/-- A longer text pays for one more character. -/
theorem pay {a b : Nat} (K : Nat) (h : a < b) : K * a + K ≤ K * b := by
  have := Nat.mul_le_mul_left K h
  rwa [Nat.succ_eq_add_one, Nat.mul_add, Nat.mul_one] at this

theorem pay' {a b : Nat} (K : Nat) (h : a ≤ b) : K * a ≤ K * b := Nat.mul_le_mul_left K h

theorem pay1 (K a : Nat) : K * (a + 1) = K * a + K := by rw [Nat.mul_add, Nat.mul_one]

/-- The rest of a match is a proper end of the text. -/
def Cuts (p : Str → Counted (α × Str)) : Prop := ∀ s a r, (p s).val = some (a, r) → r <:+ s ∧ r.length < s.length

/-- The same for separators. -/
def SepCuts (sep : Str → Option Str) : Prop := ∀ s r, sep s = some r → r <:+ s ∧ r.length < s.length

theorem starN_step {sep : Str → Option Str} {p : Str → Counted (α × Str)} {n : Nat} {s s1 s2 : Str} {a : α}
    (h1 : sep s = some s1) (h2 : (p s1).val = some (a, s2)) :
    (starN sep p (n + 1) s).tries = (p s1).tries + (starN sep p n s2).tries ∧
    (starN sep p (n + 1) s).val = (starN sep p n s2).val.bind fun x => some (a :: x.1, x.2) := by
  constructor
  · rw [starN]
    simp only [h1, h2]
    rw [tries_bind]
    cases (starN sep p n s2).val <;> simp
  · rw [starN]
    simp only [h1, h2, val_bind, val_pure]

theorem starN_fail {sep : Str → Option Str} {p : Str → Counted (α × Str)} {n : Nat} {s s1 : Str}
    (h1 : sep s = some s1) (h2 : (p s1).val = none) :
    (starN sep p (n + 1) s).tries = (p s1).tries ∧ (starN sep p (n + 1) s).val = some ([], s) := by
  rw [starN]
  simp only [h1, h2, and_self]

theorem starN_stop {sep : Str → Option Str} (p : Str → Counted (α × Str)) (n : Nat) {s : Str}
    (h1 : sep s = none) : (starN sep p n s).tries = 0 ∧ (starN sep p n s).val = some ([], s) := by
  cases n with
  | zero => exact ⟨rfl, rfl⟩
  | succ n =>
    rw [starN]
    simp only [h1]
    exact ⟨rfl, rfl⟩

section bounds
variable {sep : Str → Option Str} {p : Str → Counted (α × Str)} {A ok : Str → Prop} {K : Nat}

/-- What the repetitions cost at most. -/
theorem starN_le (hA : ∀ r s, r <:+ s → A s → A r) (hc : Cuts p) (hs : SepCuts sep)
    (hok : ∀ r, ¬ ok r → sep r = none)
    (hall : ∀ s, A s → (p s).tries ≤ K * (s.length + 1))
    (hsome : ∀ s a r, A s → (p s).val = some (a, r) → ok r → (p s).tries + K * r.length ≤ K * s.length) :
    ∀ (n : Nat) (s : Str), A s → (starN sep p n s).tries ≤ K * s.length
  | 0, s, _ => Nat.zero_le _
  | n + 1, s, h => by
    cases h1 : sep s with
    | none => rw [(starN_stop p _ h1).1]; exact Nat.zero_le _
    | some s1 =>
      obtain ⟨hs1, hl1⟩ := hs _ _ h1
      have hp := pay K hl1
      have ha := hall s1 (hA _ _ hs1 h)
      rw [pay1] at ha
      cases h2 : (p s1).val with
      | none => rw [(starN_fail h1 h2).1]; omega
      | some x =>
        obtain ⟨a, s2⟩ := x
        rw [(starN_step h1 h2).1]
        by_cases ho : ok s2
        · have := hsome _ _ _ (hA _ _ hs1 h) h2 ho
          have := starN_le hA hc hs hok hall hsome n s2 (hA _ _ (hc _ _ _ h2).1 (hA _ _ hs1 h))
          omega
        · rw [(starN_stop p n (hok _ ho)).1]; omega

/-- What the repetitions cost when the text goes on in a way that allows success. -/
theorem starN_paid {G : α → Prop} {Q : Str → Prop} (hA : ∀ r s, r <:+ s → A s → A r) (hc : Cuts p)
    (hs : SepCuts sep) (hok : ∀ r, ¬ ok r → sep r = none) (hQ : ∀ r, Q r → ok r)
    (hquick : ∀ s s1, A s → Q s → sep s = some s1 → (p s1).val = none → (p s1).tries ≤ K)
    (hsome : ∀ s a r, A s → (p s).val = some (a, r) → G a → ok r → (p s).tries + K * r.length ≤ K * s.length) :
    ∀ (n : Nat) (s r : Str) (l : List α), A s → (starN sep p n s).val = some (l, r) → (∀ a ∈ l, G a) → Q r →
      (starN sep p n s).tries + K * r.length ≤ K * s.length + K
  | 0, s, r, l, _, h, _, _ => by
    cases h
    show 0 + K * _ ≤ _
    omega
  | n + 1, s, r, l, h, hv, hG, hq => by
    cases h1 : sep s with
    | none =>
      rw [(starN_stop p _ h1).2] at hv
      cases hv
      rw [(starN_stop p _ h1).1]
      omega
    | some s1 =>
      obtain ⟨hs1, hl1⟩ := hs _ _ h1
      have hp := pay K hl1
      cases h2 : (p s1).val with
      | none =>
        rw [(starN_fail h1 h2).2] at hv
        cases hv
        rw [(starN_fail h1 h2).1]
        have := hquick _ _ h hq h1 h2
        omega
      | some x =>
        obtain ⟨a, s2⟩ := x
        rw [(starN_step h1 h2).2] at hv
        obtain ⟨⟨l', r'⟩, hv1, hv2⟩ := Option.bind_eq_some_iff.1 hv
        cases hv2
        rw [(starN_step h1 h2).1]
        have ho : ok s2 := by
          refine Classical.byContradiction fun hn => ?_
          rw [(starN_stop p n (hok _ hn)).2] at hv1
          cases hv1
          exact hn (hQ _ hq)
        have := hsome _ _ _ (hA _ _ hs1 h) h2 (hG a List.mem_cons_self) ho
        have := starN_paid hA hc hs hok hQ hquick hsome n s2 r' l'
          (hA _ _ (hc _ _ _ h2).1 (hA _ _ hs1 h)) hv1 (fun b hb => hG b (List.mem_cons_of_mem _ hb)) hq
        dsimp only
        omega

/-- What a list costs at most. -/
theorem sep1_le (hA : ∀ r s, r <:+ s → A s → A r) (hc : Cuts p) (hs : SepCuts sep)
    (hok : ∀ r, ¬ ok r → sep r = none)
    (hall : ∀ s, A s → (p s).tries ≤ K * (s.length + 1))
    (hsome : ∀ s a r, A s → (p s).val = some (a, r) → ok r → (p s).tries + K * r.length ≤ K * s.length)
    (s : Str) (h : A s) : (sep1 sep p s).tries ≤ K * (s.length + 1) := by
  have ha := hall s h
  unfold sep1
  cases h2 : (p s).val with
  | none => rw [tries_bind_none _ h2]; exact ha
  | some x =>
    obtain ⟨a, s2⟩ := x
    rw [tries_bind_some _ h2]
    have ht : ∀ (m : Counted (List α × Str)),
        (do let (l, s) ← m; pure (a :: l, s) : Counted (List α × Str)).tries = m.tries := by
      intro m; rw [tries_bind]; cases m.val <;> simp
    show _ + (do let (l, s) ← starN sep p s2.length s2; pure (a :: l, s) : Counted (List α × Str)).tries ≤ _
    rw [ht]
    by_cases ho : ok s2
    · have := hsome _ _ _ h h2 ho
      have := starN_le hA hc hs hok hall hsome s2.length s2 (hA _ _ (hc _ _ _ h2).1 h)
      rw [pay1]
      omega
    · rw [(starN_stop p _ (hok _ ho)).1]
      exact ha

theorem sep1_some {s s2 : Str} {a : α} (h : (p s).val = some (a, s2)) :
    (sep1 sep p s).tries = (p s).tries + (starN sep p s2.length s2).tries ∧
    (sep1 sep p s).val = (starN sep p s2.length s2).val.bind fun x => some (a :: x.1, x.2) := by
  unfold sep1
  rw [tries_bind_some _ h]
  refine ⟨?_, ?_⟩
  · show _ + (do let (l, s) ← starN sep p s2.length s2; pure (a :: l, s) : Counted (List α × Str)).tries = _
    rw [tries_bind]
    cases (starN sep p s2.length s2).val <;> simp
  · simp only [val_bind, h, Option.bind_some, val_pure]

theorem sep1_none {s : Str} (h : (p s).val = none) :
    (sep1 sep p s).tries = (p s).tries ∧ (sep1 sep p s).val = none := by
  unfold sep1
  rw [tries_bind_none _ h]
  simp only [val_bind, h, Option.bind_none, and_self]

/-- What a list costs when the text goes on in a way that allows success. -/
theorem sep1_paid {G : α → Prop} {Q : Str → Prop} (hA : ∀ r s, r <:+ s → A s → A r) (hc : Cuts p)
    (hs : SepCuts sep) (hok : ∀ r, ¬ ok r → sep r = none) (hQ : ∀ r, Q r → ok r)
    (hquick : ∀ s s1, A s → Q s → sep s = some s1 → (p s1).val = none → (p s1).tries ≤ K)
    (hsome : ∀ s a r, A s → (p s).val = some (a, r) → G a → ok r → (p s).tries + K * r.length ≤ K * s.length)
    {s r : Str} {l : List α} (h : A s) (hv : (sep1 sep p s).val = some (l, r)) (hG : ∀ a ∈ l, G a) (hq : Q r) :
    (sep1 sep p s).tries + K * r.length ≤ K * s.length + K := by
  cases h2 : (p s).val with
  | none => rw [(sep1_none h2).2] at hv; cases hv
  | some x =>
    obtain ⟨a, s2⟩ := x
    rw [(sep1_some h2).2] at hv
    obtain ⟨⟨l', r'⟩, hv1, hv2⟩ := Option.bind_eq_some_iff.1 hv
    cases hv2
    rw [(sep1_some h2).1]
    have ho : ok s2 := by
      refine Classical.byContradiction fun hn => ?_
      rw [(starN_stop p _ (hok _ hn)).2] at hv1
      cases hv1
      exact hn (hQ _ hq)
    have := hsome _ _ _ h h2 (hG a List.mem_cons_self) ho
    have := starN_paid hA hc hs hok hQ hquick hsome _ s2 r' l' (hA _ _ (hc _ _ _ h2).1 h) hv1
      (fun b hb => hG b (List.mem_cons_of_mem _ hb)) hq
    dsimp only
    omega

theorem sep0_tries (sep : Str → Option Str) (p : Str → Counted (α × Str)) (s : Str) :
    (sep0 sep p s).tries = (sep1 sep p s).tries := by
  unfold sep0
  cases h : (sep1 sep p s).val with
  | none => rw [tries_or_none _ h]; rfl
  | some x => rw [tries_or_some _ h]

/-- What a list that may be empty costs when the text goes on in a way that allows success. -/
theorem sep0_paid {G : α → Prop} {Q : Str → Prop} (hA : ∀ r s, r <:+ s → A s → A r) (hc : Cuts p)
    (hs : SepCuts sep) (hok : ∀ r, ¬ ok r → sep r = none) (hQ : ∀ r, Q r → ok r)
    (hquick : ∀ s s1, A s → Q s → sep s = some s1 → (p s1).val = none → (p s1).tries ≤ K)
    (hquick0 : ∀ s, A s → Q s → (p s).val = none → (p s).tries ≤ K)
    (hsome : ∀ s a r, A s → (p s).val = some (a, r) → G a → ok r → (p s).tries + K * r.length ≤ K * s.length)
    {s r : Str} {l : List α} (h : A s) (hv : (sep0 sep p s).val = some (l, r)) (hG : ∀ a ∈ l, G a) (hq : Q r) :
    (sep0 sep p s).tries + K * r.length ≤ K * s.length + K := by
  rw [sep0_tries]
  unfold sep0 at hv
  rw [val_or] at hv
  cases h1 : (sep1 sep p s).val with
  | none =>
    rw [h1] at hv
    cases hv
    cases h2 : (p s).val with
    | none =>
      have := hquick0 _ h hq h2
      rw [(sep1_none h2).1]
      omega
    | some x =>
      obtain ⟨a, s2⟩ := x
      rw [(sep1_some h2).2] at h1
      have hst : ∃ y, (starN sep p s2.length s2).val = some y := ⟨_, val_starN (fun _ => rfl) sep _ _⟩
      obtain ⟨y, hy⟩ := hst
      rw [hy] at h1
      cases h1
  | some x =>
    rw [h1] at hv
    cases hv
    exact sep1_paid hA hc hs hok hQ hquick hsome h h1 hG hq

end bounds

end Counted
end Verif
