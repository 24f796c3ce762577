import Verif.Proofs.Wire
/-!
# Exactly which bytes are decoded, and to what
-/

namespace Verif.Wire
open WireSpec

set_option autoImplicit false

/-! ### What was read was there -/

theorem readVarint_some {t s : Bytes} {n : Nat} (h : readVarint t = some (n, s)) : ∃ v, t = v ++ s ∧ IsVarint v n := by
  obtain ⟨init, last, h1, h2⟩ := (readVarintN_iff 9 t s n).1 h
  exact ⟨init ++ [last], by simp [h1], init, last, rfl, h2⟩

theorem readKey_some {t s : Bytes} {tag wt : Nat} (h : readKey t = some (tag, wt, s)) : ∃ k, t = k ++ s ∧ IsKey k tag wt := by
  obtain ⟨⟨n, r⟩, h1, h2⟩ := Option.bind_eq_some_iff.1 h
  simp only at h2
  split at h2
  · cases h2
  · next hc =>
    cases h2
    obtain ⟨k, e, hk⟩ := readVarint_some h1
    refine ⟨k, e, by omega, by omega, by omega, ?_⟩
    have : n / 8 * 8 + n % 8 = n := by omega
    rw [this]
    exact hk

theorem splitBytes_some {n : Nat} {s a r : Bytes} (h : splitBytes n s = some (a, r)) : s = a ++ r ∧ a.length = n := by
  unfold splitBytes at h
  split at h
  · cases h
  · cases h
    refine ⟨(List.take_append_drop ..).symm, ?_⟩
    rw [List.length_take]
    omega

theorem readDelimited_some {s a r : Bytes} (h : readDelimited s = some (a, r)) :
    ∃ l, s = l ++ (a ++ r) ∧ IsVarint l a.length := by
  obtain ⟨⟨n, t⟩, h1, h2⟩ := Option.bind_eq_some_iff.1 h
  obtain ⟨l, e, hl⟩ := readVarint_some h1
  obtain ⟨e2, e3⟩ := splitBytes_some h2
  exact ⟨l, by rw [e]; exact congrArg _ e2, by rw [e3]; exact hl⟩

theorem skipGroup_some {d tag : Nat} (ih : ∀ t w s s' k, skipField d t w s = some s' → IsKey k t w → ∃ v, s = v ++ s' ∧ Field d t (k ++ v)) :
    ∀ (n : Nat) (s s' : Bytes), skipGroup (skipField d) tag n s = some s' →
      ∃ (fs : List (Nat × Bytes)) (e : Bytes), (∀ f ∈ fs, Field d f.1 f.2) ∧ IsKey e tag 4 ∧ s = (fs.map (·.2)).flatten ++ e ++ s'
  | 0, _, _, h => by cases h
  | n + 1, s, s', h => by
    obtain ⟨⟨t, w, r⟩, h1, h2⟩ := Option.bind_eq_some_iff.1 h
    obtain ⟨k, rfl, hk⟩ := readKey_some h1
    simp only at h2
    split at h2
    · next hw =>
      split at h2
      · next ht =>
        cases h2
        subst hw ht
        exact ⟨[], k, by simp, hk, by simp⟩
      · cases h2
    · obtain ⟨r', h3, h4⟩ := Option.bind_eq_some_iff.1 h2
      obtain ⟨v, rfl, hf⟩ := ih t w r r' k h3 hk
      obtain ⟨fs, e, g1, g2, rfl⟩ := skipGroup_some ih n r' s' h4
      refine ⟨(t, k ++ v) :: fs, e, ?_, g2, by simp⟩
      intro f hm
      rcases List.mem_cons.1 hm with rfl | hm
      · exact hf
      · exact g1 f hm

theorem skipField_some : ∀ (d t w : Nat) (s s' k : Bytes), skipField d t w s = some s' → IsKey k t w →
    ∃ v, s = v ++ s' ∧ Field d t (k ++ v)
  | 0, _, _, _, _, _, h, _ => by cases h
  | d + 1, t, w, s, s', k, h, hk => by
    have ih := skipField_some d
    unfold skipField at h
    split at h
    · obtain ⟨⟨n, r⟩, h1, h2⟩ := Option.map_eq_some_iff.1 h
      cases h2
      obtain ⟨v, rfl, hv⟩ := readVarint_some h1
      exact ⟨v, rfl, .number hk hv⟩
    · obtain ⟨⟨a, r⟩, h1, h2⟩ := Option.map_eq_some_iff.1 h
      cases h2
      obtain ⟨rfl, hv⟩ := splitBytes_some h1
      exact ⟨a, rfl, .eight hk hv⟩
    · obtain ⟨⟨a, r⟩, h1, h2⟩ := Option.map_eq_some_iff.1 h
      cases h2
      obtain ⟨l, rfl, hv⟩ := readDelimited_some h1
      exact ⟨l ++ a, by simp, .bytes hk hv⟩
    · obtain ⟨fs, e, g1, g2, rfl⟩ := skipGroup_some ih _ _ _ h
      exact ⟨_, rfl, .group hk g1 g2⟩
    · obtain ⟨⟨a, r⟩, h1, h2⟩ := Option.map_eq_some_iff.1 h
      cases h2
      obtain ⟨rfl, hv⟩ := splitBytes_some h1
      exact ⟨a, rfl, .four hk hv⟩
    · cases h

theorem field_bytes_tag {d tag : Nat} {b : Bytes} (h : Field d tag b) :
    ∃ wt k v, b = k ++ v ∧ IsKey k tag wt ∧ ∀ s, skipField d tag wt (v ++ s) = some s := by
  obtain ⟨wt, k, v, h1, h2, -, h3⟩ := field_skips h
  exact ⟨wt, k, v, h1, h2, h3⟩

/-! ### Numbers -/

theorem signed64 {n : Nat} (h : n < 2 ^ 64) (i : Int) : Signed 64 n i ↔ sign64 n = i := by
  unfold Signed sign64
  constructor
  · rintro ⟨h1, h2, h3⟩
    split <;> omega
  · rintro rfl
    split <;> omega

theorem signed32 (n : Nat) (i : Int) : Signed 32 n i ↔ sign32 n = i := by
  unfold Signed sign32
  constructor
  · rintro ⟨h1, h2, h3⟩
    split <;> omega
  · rintro rfl
    split <;> omega

theorem isVarint_lt {v : Bytes} {n : Nat} (h : IsVarint v n) : n < 2 ^ 64 := readVarint_lt (readVarint_of h [])

theorem strategies_iff (ns : List Nat) (is : List Int) : Strategies ns is ↔ ns.map sign32 = is := by
  constructor
  · intro h
    induction h with
    | nil => rfl
    | cons h _ ih => rw [List.map_cons, ih, (signed32 _ _).1 h]
  · rintro rfl
    induction ns with
    | nil => exact .nil
    | cons n ns ih => exact .cons ((signed32 _ _).2 rfl) ih

theorem unpack_of {v : Bytes} {ns : List Nat} (h : Varints v ns) : ∀ n, v.length ≤ n → unpack n v = some (ns.map sign32) := by
  induction h with
  | nil => intro n _; cases n <;> rfl
  | @cons v w x ns hv _ ih =>
    intro n hn
    have hp := isVarint_ne hv
    rw [List.length_append] at hn
    cases n with
    | zero => omega
    | succ n =>
      have hr := readVarint_of hv w
      cases hc : v ++ w with
      | nil => simp only [List.append_eq_nil_iff] at hc; rw [hc.1] at hp; simp at hp
      | cons b s =>
        rw [unpack, ← hc, hr]
        · simp only [Option.bind_some, List.map_cons]
          rw [ih n (by omega)]
          rfl
        · simp

theorem unpack_some : ∀ (n : Nat) (v : Bytes) (l : List Int), unpack n v = some l → ∃ ns, Varints v ns ∧ ns.map sign32 = l
  | n, [], l, h => by
    have : l = [] := by cases n <;> (cases h; rfl)
    subst this
    exact ⟨[], .nil, rfl⟩
  | 0, _ :: _, l, h => by cases h
  | n + 1, b :: s, l, h => by
    rw [unpack] at h
    · obtain ⟨⟨x, r⟩, h1, h⟩ := Option.bind_eq_some_iff.1 h
      obtain ⟨l', h2, h⟩ := Option.map_eq_some_iff.1 h
      cases h
      obtain ⟨v, e, hv⟩ := readVarint_some h1
      obtain ⟨ns, h3, rfl⟩ := unpack_some n r l' h2
      rw [e]
      exact ⟨x :: ns, .cons hv h3, rfl⟩
    · simp

/-! ### Messages -/

section
variable {M : Type} {field : M → Nat → Nat → Bytes → Option (M × Bytes)} {Step : M → Bytes → M → Prop} {P : Bytes → Prop}

theorem readFields_some
    (hs : ∀ m t w k s m' s', P s → IsKey k t w → field m t w s = some (m', s') → ∃ v, s = v ++ s' ∧ Step m (k ++ v) m')
    (hP : ∀ a s, P (a ++ s) → P s) :
    ∀ (n : Nat) (m : M) (s : Bytes) (m' : M), P s → readFields field n m s = some m' → Updates Step m s m'
  | n, m, [], m', _, h => by
    rw [readFields_nil] at h
    cases h
    exact .nil m
  | 0, m, _ :: _, m', _, h => by cases h
  | n + 1, m, b :: s, m', hp, h => by
    rw [readFields] at h
    · obtain ⟨⟨t, w, r⟩, h1, h⟩ := Option.bind_eq_some_iff.1 h
      obtain ⟨⟨x, r'⟩, h2, h5⟩ := Option.bind_eq_some_iff.1 h
      obtain ⟨k, e, hk⟩ := readKey_some h1
      rw [e] at hp ⊢
      obtain ⟨v, rfl, h3⟩ := hs m t w k r x r' (hP _ _ hp) hk h2
      have h4 := readFields_some hs hP n x r' m' (hP _ _ (hP _ _ hp)) h5
      rw [← List.append_assoc]
      exact .cons h3 h4
    · simp

theorem reads_of_updates (hs : ∀ m b m', Step m b m' → Reads field m b m') {m m' : M} {s : Bytes} (h : Updates Step m s m') :
    Reads field m s m' := by
  induction h with
  | nil m => exact .nil m
  | cons h _ ih => exact (hs _ _ _ h).append ih

theorem readMessage_iff (m0 : M)
    (hs : ∀ m t w k s m' s', P s → IsKey k t w → field m t w s = some (m', s') → ∃ v, s = v ++ s' ∧ Step m (k ++ v) m')
    (hP : ∀ a s, P (a ++ s) → P s) (hr : ∀ m b m', Step m b m' → Reads field m b m') (s : Bytes) (hp : P s) (m' : M) :
    readMessage field m0 s = some m' ↔ Updates Step m0 s m' :=
  ⟨readFields_some hs hP _ _ _ _ hp, fun h => (reads_of_updates hr h).message⟩

end

theorem otherField_some {M : Type} {m m' : M} {t w : Nat} {s s' k : Bytes} (h : otherField m t w s = some (m', s'))
    (hk : IsKey k t w) : m' = m ∧ ∃ v, s = v ++ s' ∧ Field 100 t (k ++ v) := by
  obtain ⟨x, h1, h2⟩ := Option.map_eq_some_iff.1 h
  cases h2
  exact ⟨rfl, skipField_some 100 t w s s' k h1 hk⟩

theorem otherField_of {M : Type} (m : M) {t : Nat} {b : Bytes} (h : Field 100 t b) :
    ∃ w k v, b = k ++ v ∧ IsKey k t w ∧ ∀ s, otherField m t w (v ++ s) = some (m, s) := by
  obtain ⟨w, k, v, h1, h2, h3⟩ := field_bytes_tag h
  refine ⟨w, k, v, h1, h2, fun s => ?_⟩
  unfold otherField recursionLimit
  rw [h3]
  rfl

theorem getInt_some {w : Nat} {s s' : Bytes} {i : Int} (h : getInt w s = some (i, s')) :
    w = 0 ∧ ∃ v n, s = v ++ s' ∧ IsVarint v n ∧ Signed 64 n i := by
  unfold getInt at h
  split at h
  · cases h
  · next hw =>
    obtain ⟨⟨n, r⟩, h1, h2⟩ := Option.map_eq_some_iff.1 h
    cases h2
    obtain ⟨v, rfl, hv⟩ := readVarint_some h1
    exact ⟨by omega, v, n, rfl, hv, (signed64 (isVarint_lt hv) _).2 rfl⟩

theorem getInt_of {v : Bytes} {n : Nat} {i : Int} (h : IsVarint v n) (hi : Signed 64 n i) (s : Bytes) : getInt 0 (v ++ s) = some (i, s) := by
  simp [getInt, readVarint_of h, (signed64 (isVarint_lt h) i).1 hi]

theorem getString_some {w : Nat} {s s' : Bytes} {t : Str} (hb : ∀ x ∈ s, x < 256) (h : getString w s = some (t, s')) :
    w = 2 ∧ ∃ l, s = l ++ utf8 t ++ s' ∧ IsVarint l (utf8 t).length := by
  unfold getString at h
  split at h
  · cases h
  · next hw =>
    obtain ⟨⟨a, r⟩, h1, h2⟩ := Option.bind_eq_some_iff.1 h
    obtain ⟨u, h3, h4⟩ := Option.map_eq_some_iff.1 h2
    cases h4
    obtain ⟨l, rfl, hl⟩ := readDelimited_some h1
    have : a = utf8 t := utf8_readUtf8 (fun x hx => hb x (by simp [hx])) h3
    subst this
    exact ⟨by omega, l, by simp, hl⟩

theorem getString_of {l : Bytes} {t : Str} (h : IsVarint l (utf8 t).length) (s : Bytes) :
    getString 2 (l ++ utf8 t ++ s) = some (t, s) := by
  simp only [getString, ne_eq, not_true_eq_false, if_false, List.append_assoc, readDelimited_of h, Option.bind_some,
    readUtf8_utf8, Option.map_some]

end Verif.Wire
