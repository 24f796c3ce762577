import Verif.Spec.Temporal
import Verif.Proofs.Chrono
/-!
# Which texts chrono reads
-/

namespace Verif
open TemporalSpec

set_option autoImplicit false

/-- Nothing more that belongs to a number. -/
def NoDigit (r : Str) : Prop := ∀ c r', r = c :: r' → isDigit c = false

theorem noDigit_nil : NoDigit [] := by intro c r h; cases h

theorem noDigit_cons {c : Char} {r : Str} (h : isDigit c = false) : NoDigit (c :: r) := by
  intro d r' e; cases e; exact h

theorem takeWhile_cut {p : Char → Bool} {ds r : Str} (hd : ∀ c ∈ ds, p c = true) (hr : ∀ c r', r = c :: r' → p c = false) :
    (ds ++ r).takeWhile p = ds := by
  induction ds with
  | nil =>
    cases r with
    | nil => rfl
    | cons c r => simp [hr c r rfl]
  | cons c ds ih => simp [hd c (by simp), ih fun c hc => hd c (by simp [hc])]

theorem dropWhile_cut {p : Char → Bool} {ds r : Str} (hd : ∀ c ∈ ds, p c = true) (hr : ∀ c r', r = c :: r' → p c = false) :
    (ds ++ r).dropWhile p = r := by
  induction ds with
  | nil =>
    cases r with
    | nil => rfl
    | cons c r => simp [hr c r rfl]
  | cons c ds ih => simp [hd c (by simp), ih fun c hc => hd c (by simp [hc])]

theorem takeWhile_split (p : Char → Bool) (s : Str) : ∃ ds r, s = ds ++ r ∧ s.takeWhile p = ds ∧ s.dropWhile p = r ∧
    (∀ c ∈ ds, p c = true) ∧ ∀ c r', r = c :: r' → p c = false := by
  induction s with
  | nil => exact ⟨[], [], rfl, rfl, rfl, by simp, by simp⟩
  | cons c s ih =>
    by_cases h : p c = true
    · obtain ⟨ds, r, h1, h2, h3, h4, h5⟩ := ih
      refine ⟨c :: ds, r, by simp [h1], by simp [h, h2], by simp [h, h3], ?_, h5⟩
      intro d hd
      rcases List.mem_cons.1 hd with rfl | hd
      · exact h
      · exact h4 d hd
    · refine ⟨[], c :: s, rfl, by simp [h], by simp [h], by simp, ?_⟩
      intro d r' e
      cases e
      simpa using h

theorem scanNum_iff (w : Nat) (s : Str) (n : Nat) (r : Str) : scanNum w s = some (n, r) ↔
    ∃ ds, s = ds ++ r ∧ Number ds n ∧ ds.length ≤ w ∧ (ds.length = w ∨ NoDigit r) := by
  unfold scanNum
  obtain ⟨ds, q, h1, h2, -, h4, h5⟩ := takeWhile_split isDigit (s.take w)
  simp only [h2]
  have hlen : ds.length ≤ w := by
    have := congrArg List.length h1
    simp only [List.length_take, List.length_append] at this
    omega
  have hs : s = ds ++ (q ++ s.drop w) := by
    rw [← List.append_assoc, ← h1, List.take_append_drop]
  have hdrop : s.drop ds.length = q ++ s.drop w := by
    conv => lhs; rw [hs]
    simp
  have hstop : ds.length = w ∨ NoDigit (q ++ s.drop w) := by
    cases q with
    | nil =>
      have := congrArg List.length h1
      simp only [List.length_take, List.length_append, List.length_nil] at this
      by_cases hw : w ≤ s.length
      · left; omega
      · right
        rw [List.drop_eq_nil_of_le (by omega)]
        exact noDigit_nil
    | cons c q =>
      right
      exact noDigit_cons (h5 c q rfl)
  constructor
  · intro h
    split at h
    · cases h
    · next hne =>
      cases h
      rw [hdrop]
      exact ⟨ds, hs, ⟨by simpa using hne, h4, rfl⟩, hlen, hstop⟩
  · rintro ⟨ds', e, ⟨hne, hd, hv⟩, hl, hst⟩
    have : ds = ds' := by
      rw [← h2, e]
      rcases hst with hst | hst
      · rw [← hst, List.take_left]
        have := takeWhile_cut (r := []) hd (by simp)
        simpa using this
      · rw [List.take_append, List.take_of_length_le hl]
        apply takeWhile_cut hd
        intro c r' er
        cases r with
        | nil => simp at er
        | cons d r =>
          cases hk : w - ds'.length with
          | zero => rw [hk] at er; cases er
          | succ k => rw [hk] at er; cases er; exact hst _ _ rfl
    subst this
    rw [if_neg (by simpa using hne), hv]
    congr 2
    rw [e]; simp

theorem digit_not_ws {c : Char} (h : isDigit c = true) : isWs c = false := isWs_digit h

theorem trimStart_blank {w ds r : Str} {n : Nat} (hw : Blank w) (hd : Number ds n) : trimStart (w ++ (ds ++ r)) = ds ++ r := by
  obtain ⟨hne, hd, -⟩ := hd
  unfold trimStart
  apply dropWhile_cut hw
  intro c r' e
  cases ds with
  | nil => exact absurd rfl hne
  | cons d ds => cases e; exact isWs_digit (hd _ (by simp))

theorem trimStart_split (s : Str) : ∃ w, s = w ++ trimStart s ∧ Blank w := by
  obtain ⟨w, r, h1, -, h3, h4, -⟩ := takeWhile_split isWs s
  refine ⟨w, ?_, h4⟩
  unfold trimStart
  rw [h3]
  exact h1

/-- `x` ends with two digits. -/
def Full (x : Str) : Prop := ∃ a d e, x = a ++ [d, e] ∧ isDigit d = true ∧ isDigit e = true

theorem scan2_iff (s : Str) (n : Nat) (r : Str) : scan2 s = some (n, r) ↔
    ∃ x, s = x ++ r ∧ Short x n ∧ (Full x ∨ NoDigit r) := by
  unfold scan2
  rw [scanNum_iff]
  constructor
  · rintro ⟨ds, e, hn, hl, hst⟩
    obtain ⟨w, hw, hb⟩ := trimStart_split s
    refine ⟨w ++ ds, by rw [List.append_assoc, ← e, ← hw], ⟨w, ds, rfl, hb, hn, hl⟩, hst.imp (fun h => ?_) id⟩
    match ds, h with
    | [a, b], _ => exact ⟨w, a, b, rfl, hn.2.1 a (by simp), hn.2.1 b (by simp)⟩
  · rintro ⟨x, rfl, ⟨w, ds, rfl, hb, hn, hl⟩, hst⟩
    refine ⟨ds, by rw [List.append_assoc, trimStart_blank hb hn], hn, hl, hst.imp (fun h => ?_) id⟩
    obtain ⟨a, d, e, hx, hd, he⟩ := h
    have hne := hn.1
    have hdig := hn.2.1
    match ds, hl with
    | [], _ => exact absurd rfl hne
    | [c], _ =>
      exfalso
      have h1 : w ++ [c] = (a ++ [d]) ++ [e] := by simpa using hx
      have h2 := (List.append_inj' h1 rfl).1
      have h3 := hb d (by rw [h2]; simp)
      rw [isWs_digit hd] at h3
      cases h3
    | [_, _], _ => rfl

theorem scanYear_iff (s : Str) (y : Int) (r : Str) (hr : NoDigit r) : scanYear s = some (y, r) ↔
    ∃ x, s = x ++ r ∧ Year x y := by
  unfold scanYear
  constructor
  · intro h
    obtain ⟨w, hw, hb⟩ := trimStart_split s
    split at h
    · next q hq =>
      split at h
      · next n q' hn =>
        cases h
        obtain ⟨ds, e, hn, -, -⟩ := (scanNum_iff _ _ _ _).1 hn
        refine ⟨w ++ '-' :: ds, ?_, w, ds, n, hb, hn, .inr (.inr ⟨rfl, rfl⟩)⟩
        rw [hw, hq, e]; simp
      · cases h
    · next q hq =>
      split at h
      · next n q' hn =>
        cases h
        obtain ⟨ds, e, hn, -, -⟩ := (scanNum_iff _ _ _ _).1 hn
        refine ⟨w ++ '+' :: ds, ?_, w, ds, n, hb, hn, .inr (.inl ⟨rfl, rfl⟩)⟩
        rw [hw, hq, e]; simp
      · cases h
    · split at h
      · next n q' hn =>
        cases h
        obtain ⟨ds, e, hn, hl, -⟩ := (scanNum_iff _ _ _ _).1 hn
        refine ⟨w ++ ds, ?_, w, ds, n, hb, hn, .inl ⟨rfl, hl, rfl⟩⟩
        rw [List.append_assoc, ← e, ← hw]
      · cases h
  · rintro ⟨x, rfl, w, ds, n, hb, hn, h⟩
    have sign : ∀ c, isWs c = false → trimStart (w ++ c :: (ds ++ r)) = c :: (ds ++ r) := by
      intro c hc
      unfold trimStart
      apply dropWhile_cut hb
      intro d r' e; cases e; exact hc
    have num : scanNum (ds ++ r).length (ds ++ r) = some (n, r) :=
      (scanNum_iff _ _ _ _).2 ⟨ds, rfl, hn, by simp, .inr hr⟩
    rcases h with ⟨rfl, hl, rfl⟩ | ⟨rfl, rfl⟩ | ⟨rfl, rfl⟩
    · rw [List.append_assoc, trimStart_blank hb hn]
      have h4 : scanNum 4 (ds ++ r) = some (n, r) := (scanNum_iff _ _ _ _).2 ⟨ds, rfl, hn, hl, .inr hr⟩
      obtain ⟨hne, hdig, -⟩ := hn
      cases ds with
      | nil => exact absurd rfl hne
      | cons c ds =>
        have hc := hdig c (by simp)
        split
        · next heq => cases heq; exact absurd hc (by decide)
        · next heq => cases heq; exact absurd hc (by decide)
        · rw [h4]
    · rw [show w ++ '+' :: ds ++ r = w ++ '+' :: (ds ++ r) by simp, sign '+' (by decide)]
      simp only [num]
    · rw [show w ++ '-' :: ds ++ r = w ++ '-' :: (ds ++ r) by simp, sign '-' (by decide)]
      simp only [num]

theorem lit_iff (k s r : Str) : lit k s = some r ↔ s = k ++ r :=
  ⟨fun h => lit_some h, fun h => by rw [h]; exact lit_append k r⟩

theorem scanDate_iff (sep : Char) (hsep : isDigit sep = false) (s : Str) (t : Date) (r : Str) : scanDate sep s = some (t, r) ↔
    t.Valid ∧ ∃ x, s = x ++ r ∧ DateText sep x t ∧ (Full x ∨ NoDigit r) := by
  constructor
  · intro h
    unfold scanDate at h
    simp only [Option.bind_eq_bind, Option.bind_eq_some_iff, Prod.exists] at h
    obtain ⟨y, s1, hy, s2, h2, m, s3, hm, s4, h4, d, s5, hd, h⟩ := h
    split at h
    · next hv =>
      cases h
      rw [lit_iff] at h2 h4
      subst h2 h4
      obtain ⟨a, rfl, ha⟩ := (scanYear_iff _ _ _ (noDigit_cons hsep)).1 hy
      obtain ⟨b, hb', hb, -⟩ := (scan2_iff _ _ _).1 hm
      obtain ⟨c, rfl, hc, hst⟩ := (scan2_iff _ _ _).1 hd
      subst hb'
      refine ⟨hv, a ++ sep :: (b ++ sep :: c), by simp, ⟨a, b, c, m, d, rfl, ha, hb, hc, rfl, rfl⟩, hst.imp ?_ id⟩
      rintro ⟨p, e, f, rfl, he, hf⟩
      exact ⟨a ++ sep :: (b ++ sep :: p), e, f, by simp, he, hf⟩
    · cases h
  · rintro ⟨hv, x, rfl, ⟨a, b, c, m, d, rfl, ha, hb, hc, hm, hd⟩, hst⟩
    obtain ⟨y, m', d'⟩ := t
    dsimp only at ha hm hd
    subst hm hd
    have h1 : scanYear (a ++ sep :: (b ++ sep :: c) ++ r) = some (y, sep :: (b ++ sep :: (c ++ r))) :=
      (scanYear_iff _ _ _ (noDigit_cons hsep)).2 ⟨a, by simp, ha⟩
    have h2 : scan2 (b ++ sep :: (c ++ r)) = some (m, sep :: (c ++ r)) :=
      (scan2_iff _ _ _).2 ⟨b, rfl, hb, .inr (noDigit_cons hsep)⟩
    have h3 : scan2 (c ++ r) = some (d, r) := by
      refine (scan2_iff _ _ _).2 ⟨c, rfl, hc, hst.imp ?_ id⟩
      rintro ⟨p, e, f, hx, he, hf⟩
      obtain ⟨w, ds, rfl, hw, hn, hl⟩ := hc
      have hne := hn.1
      have hdig := hn.2.1
      match ds, hl with
      | [], _ => exact absurd rfl hne
      | [g], _ =>
        exfalso
        have h1 : (a ++ sep :: (b ++ sep :: w)) ++ [g] = (p ++ [e]) ++ [f] := by simpa using hx
        have h2 := (List.append_inj' h1 rfl).1
        rcases List.eq_nil_or_concat w with rfl | ⟨w', w0, rfl⟩
        · have h3 : (a ++ sep :: b) ++ [sep] = p ++ [e] := by simpa using h2
          have h4 := (List.append_inj' h3 rfl).2
          cases h4
          rw [hsep] at he; cases he
        · have h3 : (a ++ sep :: (b ++ sep :: w')) ++ [w0] = p ++ [e] := by simpa using h2
          have h4 := (List.append_inj' h3 rfl).2
          cases h4
          have := hw e (by simp)
          rw [isWs_digit he] at this
          cases this
      | [g, g'], _ => exact ⟨w, g, g', rfl, hdig g (by simp), hdig g' (by simp)⟩
    have h4 : lit [sep] (sep :: (b ++ sep :: (c ++ r))) = some (b ++ sep :: (c ++ r)) := (lit_iff _ _ _).2 rfl
    have h5 : lit [sep] (sep :: (c ++ r)) = some (c ++ r) := (lit_iff _ _ _).2 rfl
    unfold scanDate
    simp only [Option.bind_eq_bind, h1, Option.bind_some, h4, h2, h5, h3]
    rw [if_pos hv]

/-! ## Fractions -/

theorem decVal_append (a b : Str) : decVal (a ++ b) = decVal a * 10 ^ b.length + decVal b := by
  suffices h : ∀ b : Str, decVal (a ++ b.reverse) = decVal a * 10 ^ b.length + decVal b.reverse by
    simpa using h b.reverse
  intro b
  induction b with
  | nil => simp [decVal]
  | cons c b ih =>
    rw [List.reverse_cons, ← List.append_assoc, decVal_append_single, ih, decVal_append_single]
    simp only [List.length_cons, Nat.pow_succ]
    rw [Nat.add_mul, Nat.mul_assoc]
    omega

theorem decVal_lt {ds : Str} (h : ∀ c ∈ ds, isDigit c = true) : decVal ds < 10 ^ ds.length := by
  suffices key : ∀ b : Str, (∀ c ∈ b, isDigit c = true) → decVal b.reverse < 10 ^ b.length by
    simpa using key ds.reverse (by simpa using h)
  intro b h
  induction b with
  | nil => simp [decVal]
  | cons c b ih =>
    have h1 := ih fun c hc => h c (by simp [hc])
    have h2 := h c (by simp)
    rw [List.reverse_cons, decVal_append_single, List.length_cons, Nat.pow_succ]
    have : c.toNat - 48 ≤ 9 := by
      unfold isDigit at h2
      simp only [Bool.and_eq_true, decide_eq_true_eq] at h2
      have : c.toNat ≤ 57 := h2.2
      omega
    omega

theorem fraction_value {ds : Str} (h : ∀ c ∈ ds, isDigit c = true) :
    decVal (ds.take 9) * 10 ^ (9 - (ds.take 9).length) = decVal ds * 10 ^ 9 / 10 ^ ds.length := by
  by_cases hl : ds.length ≤ 9
  · rw [List.take_of_length_le hl]
    have : (10 : Nat) ^ 9 = 10 ^ (9 - ds.length) * 10 ^ ds.length := by rw [← Nat.pow_add]; congr 1; omega
    rw [this, ← Nat.mul_assoc, Nat.mul_div_cancel _ (Nat.pow_pos (by omega))]
  · have h9 : (ds.take 9).length = 9 := by rw [List.length_take]; omega
    rw [h9, Nat.sub_self, Nat.pow_zero, Nat.mul_one]
    have hds : decVal ds = decVal (ds.take 9) * 10 ^ (ds.drop 9).length + decVal (ds.drop 9) := by
      rw [← decVal_append, List.take_append_drop]
    have hlt := decVal_lt (ds := ds.drop 9) fun c hc => h c (List.mem_of_mem_drop hc)
    have hlen : ds.length = 9 + (ds.drop 9).length := by rw [List.length_drop]; omega
    generalize decVal (ds.take 9) = A at *
    generalize decVal (ds.drop 9) = B at *
    rw [hlen, hds]
    generalize (ds.drop 9).length = k at *
    rw [Nat.pow_add, Nat.mul_comm (10 ^ 9) (10 ^ k), Nat.mul_div_mul_right _ _ (by decide), Nat.mul_comm A,
      Nat.mul_add_div (Nat.pow_pos (by omega)), Nat.div_eq_of_lt hlt, Nat.add_zero]

theorem scanFrac_iff (s : Str) (n : Nat) : scanFrac s = some (n, []) ↔ Fraction s n := by
  constructor
  · intro h
    unfold scanFrac at h
    split at h
    · next q =>
      obtain ⟨ds, r, h1, h2, h3, h4, -⟩ := takeWhile_split isDigit q
      simp only [h2, h3] at h
      split at h
      · cases h
      · next hne =>
        simp only [Option.some.injEq, Prod.mk.injEq] at h
        obtain ⟨h, rfl⟩ := h
        rw [List.append_nil] at h1
        subst h1
        refine .inr ⟨q, decVal q, rfl, ⟨by simpa using hne, h4, rfl⟩, ?_⟩
        rw [← h, fraction_value h4]
    · cases h
      exact .inl ⟨rfl, rfl⟩
  · rintro (⟨rfl, rfl⟩ | ⟨ds, v, rfl, ⟨hne, hd, rfl⟩, rfl⟩)
    · rfl
    · unfold scanFrac
      have h1 : ds.takeWhile isDigit = ds := by simpa using takeWhile_cut (r := []) hd (by simp)
      have h2 : ds.dropWhile isDigit = [] := by simpa using dropWhile_cut (r := []) hd (by simp)
      simp only [h1, h2]
      rw [if_neg (by simpa using hne), fraction_value hd]

theorem fraction_head {f : Str} {n : Nat} (h : Fraction f n) : NoDigit f := by
  rcases h with ⟨rfl, -⟩ | ⟨ds, v, rfl, -⟩
  · exact noDigit_nil
  · exact noDigit_cons (by decide)

theorem scanTime_iff (s : Str) (ns : Nat) : scanTime true s = some (ns, []) ↔ TimeText s ns := by
  have hc : isDigit ':' = false := by decide
  constructor
  · intro h
    unfold scanTime at h
    simp only [Option.bind_eq_bind, Option.bind_eq_some_iff, Prod.exists, if_true] at h
    obtain ⟨hh, s1, h1, s2, h2, m, s3, h3, s4, h4, sec, s5, h5, n, s6, h6, h⟩ := h
    split at h
    · next hv =>
      simp only [Option.some.injEq, Prod.mk.injEq] at h
      obtain ⟨rfl, rfl⟩ := h
      rw [lit_iff] at h2 h4
      subst h2 h4
      obtain ⟨a, rfl, ha, -⟩ := (scan2_iff _ _ _).1 h1
      obtain ⟨b, hb', hb, -⟩ := (scan2_iff _ _ _).1 h3
      obtain ⟨c, rfl, hc, -⟩ := (scan2_iff _ _ _).1 h5
      subst hb'
      have hf := (scanFrac_iff _ _).1 h6
      exact ⟨a, b, c, s5, hh, m, sec, n, by simp, ha, hb, hc, hf, hv.1, hv.2.1, hv.2.2, by simp⟩
    · cases h
  · rintro ⟨a, b, c, f, h, m, sec, n, rfl, ha, hb, hc', hf, h1, h2, h3, rfl⟩
    have k1 : scan2 (a ++ ':' :: (b ++ ':' :: (c ++ f))) = some (h, ':' :: (b ++ ':' :: (c ++ f))) :=
      (scan2_iff _ _ _).2 ⟨a, rfl, ha, .inr (noDigit_cons hc)⟩
    have k2 : scan2 (b ++ ':' :: (c ++ f)) = some (m, ':' :: (c ++ f)) :=
      (scan2_iff _ _ _).2 ⟨b, rfl, hb, .inr (noDigit_cons hc)⟩
    have k3 : scan2 (c ++ f) = some (sec, f) := (scan2_iff _ _ _).2 ⟨c, rfl, hc', .inr (fraction_head hf)⟩
    have k4 := (scanFrac_iff _ _).2 hf
    have l1 : lit cs!":" (':' :: (b ++ ':' :: (c ++ f))) = some (b ++ ':' :: (c ++ f)) := (lit_iff _ _ _).2 rfl
    have l2 : lit cs!":" (':' :: (c ++ f)) = some (c ++ f) := (lit_iff _ _ _).2 rfl
    unfold scanTime
    simp only [Option.bind_eq_bind, k1, Option.bind_some, l1, k2, l2, k3, if_true, k4]
    rw [if_pos ⟨h1, h2, h3⟩]

/-- The format without a fraction accepts nothing more. -/
theorem scanTime_false {s : Str} {ns : Nat} (h : scanTime false s = some (ns, [])) : scanTime true s = some (ns, []) := by
  unfold scanTime at h ⊢
  simp only [Option.bind_eq_bind, Option.bind_eq_some_iff, Prod.exists, Bool.false_eq_true, if_false] at h
  obtain ⟨hh, s1, h1, s2, h2, m, s3, h3, s4, h4, sec, s5, h5, n, s6, h6, h⟩ := h
  cases h6
  split at h
  · next hv =>
    simp only [Option.some.injEq, Prod.mk.injEq] at h
    obtain ⟨rfl, rfl⟩ := h
    simp only [Option.bind_eq_bind, h1, Option.bind_some, h2, h3, h4, h5, if_true, scanFrac]
    rw [if_pos hv]
  · cases h

/-! ## The three readers -/

theorem complete_iff {α : Type} (o : Option (α × Str)) (a : α) : complete o = some a ↔ o = some (a, []) := by
  rcases o with _ | ⟨b, _ | ⟨c, s⟩⟩ <;> simp [complete]

theorem Date.valid_real {t : Date} (h : t.Valid) : t.Real := ⟨h.2.2.1, h.2.2.2.1, h.2.2.2.2.1, h.2.2.2.2.2⟩

theorem dateText_seps {x : Str} {t u : Date} (h : DateText '-' x t) (h' : DateText '/' x u) : False := by
  obtain ⟨a, b, c, m, d, rfl, ha, hb, hc, -, -⟩ := h
  obtain ⟨a', b', c', m', d', e, ha', -⟩ := h'
  have noslash : ∀ {x : Str} {y : Int}, Year x y → '/' ∉ x := by
    rintro x y ⟨w, ds, n, hw, ⟨-, hd, -⟩, h⟩
    have h1 : '/' ∉ w := fun h => absurd (hw _ h) (by decide)
    have h2 : '/' ∉ ds := fun h => absurd (hd _ h) (by decide)
    rcases h with ⟨rfl, -⟩ | ⟨rfl, -⟩ | ⟨rfl, -⟩ <;> simp [h1, h2]
  have noslash2 : ∀ {x : Str} {n : Nat}, Short x n → '/' ∉ x := by
    rintro x n ⟨w, ds, rfl, hw, ⟨-, hd, -⟩, -⟩
    have h1 : '/' ∉ w := fun h => absurd (hw _ h) (by decide)
    have h2 : '/' ∉ ds := fun h => absurd (hd _ h) (by decide)
    simp [h1, h2]
  have : '/' ∈ a ++ '-' :: (b ++ '-' :: c) := by rw [e]; simp
  simp [noslash ha, noslash2 hb, noslash2 hc] at this

theorem readDate_iff (s : Str) (d : Int) : readDate s = some d ↔
    (minDays ≤ d ∧ d ≤ maxDays) ∧ ∃ sep, (sep = '-' ∨ sep = '/') ∧ DateText sep s (Date.ofDays d) := by
  have one : ∀ sep, isDigit sep = false → ∀ t, complete (scanDate sep s) = some t ↔ t.Valid ∧ DateText sep s t := by
    intro sep hsep t
    rw [complete_iff, scanDate_iff sep hsep]
    constructor
    · rintro ⟨hv, x, e, h, -⟩
      rw [List.append_nil] at e
      subst e
      exact ⟨hv, h⟩
    · rintro ⟨hv, h⟩
      exact ⟨hv, s, by simp, h, .inr noDigit_nil⟩
  have back : ∀ t : Date, t.Valid → Date.ofDays t.toDays = t := fun t h => Date.ofDays_toDays t (Date.valid_real h)
  unfold readDate
  rw [Option.map_eq_some_iff]
  constructor
  · rintro ⟨t, h, rfl⟩
    have : ∃ sep, (sep = '-' ∨ sep = '/') ∧ t.Valid ∧ DateText sep s t := by
      rw [Option.or_eq_some_iff] at h
      rcases h with h | ⟨-, h⟩
      · exact ⟨'-', .inl rfl, (one '-' (by decide) t).1 h⟩
      · exact ⟨'/', .inr rfl, (one '/' (by decide) t).1 h⟩
    obtain ⟨sep, hsep, hv, ht⟩ := this
    rw [back t hv]
    exact ⟨(Date.ofDays_valid_iff _).1 (by rw [back t hv]; exact hv), sep, hsep, ht⟩
  · rintro ⟨hd, sep, hsep, ht⟩
    have hv := (Date.ofDays_valid_iff d).2 hd
    refine ⟨Date.ofDays d, ?_, Date.toDays_ofDays d⟩
    rw [Option.or_eq_some_iff]
    rcases hsep with rfl | rfl
    · exact .inl ((one '-' (by decide) _).2 ⟨hv, ht⟩)
    · refine .inr ⟨?_, (one '/' (by decide) _).2 ⟨hv, ht⟩⟩
      cases hc : complete (scanDate '-' s) with
      | none => rfl
      | some u => exact (dateText_seps ((one '-' (by decide) u).1 hc).2 ht).elim

theorem readTime_iff (s : Str) (v : Int) : readTime s = some v ↔ ∃ ns, TimeText s ns ∧ v = ns := by
  unfold readTime
  rw [Option.map_eq_some_iff]
  constructor
  · rintro ⟨ns, h, rfl⟩
    rw [Option.or_eq_some_iff, complete_iff, complete_iff] at h
    refine ⟨ns, (scanTime_iff s ns).1 ?_, rfl⟩
    rcases h with h | ⟨-, h⟩
    · exact h
    · exact scanTime_false h
  · rintro ⟨ns, h, rfl⟩
    refine ⟨ns, ?_, rfl⟩
    rw [Option.or_eq_some_iff, complete_iff]
    exact .inl ((scanTime_iff s ns).2 h)

theorem timeText_head {s : Str} {n : Nat} (h : TimeText s n) : ∃ c r, s = c :: r ∧ (isDigit c = true ∨ isWs c = true) := by
  obtain ⟨a, b, c, f, hh, m, sec, k, rfl, ⟨w, ds, rfl, hw, ⟨hne, hd, -⟩, -⟩, -⟩ := h
  cases w with
  | nil =>
    cases ds with
    | nil => exact absurd rfl hne
    | cons x ds => exact ⟨x, _, rfl, .inl (hd x (by simp))⟩
  | cons x w => exact ⟨x, _, rfl, .inr (hw x (by simp))⟩

theorem timeText_trim {g s : Str} {n : Nat} (hg : Blank g) : TimeText (trimStart (g ++ s)) n ↔ TimeText s n := by
  have key : ∀ (w s : Str), Blank w → (TimeText (w ++ s) n ↔ TimeText s n) := by
    intro w s hw
    constructor
    · rintro ⟨a, b, c, f, hh, m, sec, k, e, ⟨u, ds, rfl, hu, hn, hl⟩, h⟩
      have hd0 : ∀ x ∈ ds.head?, isWs x = false := by
        intro x hx
        exact isWs_digit (hn.2.1 x (List.mem_of_head? hx))
      -- the white space in front is that of the hours
      have hdrop : (w ++ s).dropWhile isWs = ds ++ ':' :: (b ++ ':' :: (c ++ f)) := by
        rw [e, List.append_assoc]
        apply dropWhile_cut hu
        intro x r' er
        cases ds with
        | nil => exact absurd rfl hn.1
        | cons y ds => cases er; exact hd0 _ (by simp)
      obtain ⟨v, r, h1, -, h3, h4, h5⟩ := takeWhile_split isWs s
      have h6 : (w ++ s).dropWhile isWs = r := by
        rw [h1, ← List.append_assoc]
        apply dropWhile_cut _ h5
        intro x hx
        rcases List.mem_append.1 hx with hx | hx
        · exact hw x hx
        · exact h4 x hx
      rw [h6] at hdrop
      subst hdrop
      exact ⟨v ++ ds, b, c, f, hh, m, sec, k, by rw [h1]; simp, ⟨v, ds, rfl, h4, hn, hl⟩, h⟩
    · rintro ⟨a, b, c, f, hh, m, sec, k, rfl, ⟨u, ds, rfl, hu, hn, hl⟩, h⟩
      refine ⟨w ++ u ++ ds, b, c, f, hh, m, sec, k, by simp, ⟨w ++ u, ds, rfl, ?_, hn, hl⟩, h⟩
      intro x hx
      rcases List.mem_append.1 hx with hx | hx
      · exact hw x hx
      · exact hu x hx
  obtain ⟨w, hw, hb⟩ := trimStart_split (g ++ s)
  rw [← key w _ hb, ← hw, key g s hg]

theorem scanStamp_iff (sep : Char) (hsep : isDigit sep = false) (tt : Bool) (s : Str) (v : Int) :
    scanStamp sep tt true s = some v ↔ ∃ (t : Date) (ns : Nat) (a g b : Str), t.Valid ∧ v = t.toDays * dayNs + ns ∧ s = a ++ (g ++ b) ∧
      DateText sep a t ∧ TimeText b ns ∧ (if tt then g = cs!"T" else Blank g ∧ Apart a (g ++ b)) := by
  constructor
  · intro h
    unfold scanStamp at h
    simp only [Option.bind_eq_bind, Option.bind_eq_some_iff, Prod.exists] at h
    obtain ⟨t, s1, h1, s2, h2, ns, s3, h3, h⟩ := h
    split at h
    · next h0 =>
      subst h0
      cases h
      obtain ⟨hv, a, rfl, ha, hst⟩ := (scanDate_iff sep hsep _ _ _).1 h1
      have ht := (scanTime_iff _ _).1 h3
      cases tt with
      | true =>
        simp only [scanGap, if_true] at h2
        rw [lit_iff] at h2
        subst h2
        exact ⟨t, ns, a, cs!"T", s2, hv, rfl, rfl, ha, ht, by simp⟩
      | false =>
        simp only [scanGap, Bool.false_eq_true, if_false, Option.some.injEq] at h2
        obtain ⟨w, hw, hb⟩ := trimStart_split s1
        rw [h2] at hw
        refine ⟨t, ns, a, w, s2, hv, rfl, by rw [← hw], ha, ht, ?_⟩
        simp only [Bool.false_eq_true, if_false]
        refine ⟨hb, ?_⟩
        rw [← hw]
        intro c r' e hc
        rcases hst with hst | hst
        · exact hst
        · rw [hst c r' e] at hc; cases hc
    · cases h
  · rintro ⟨t, ns, a, g, b, hv, rfl, rfl, ha, hb, hg⟩
    have hst : Full a ∨ NoDigit (g ++ b) := by
      cases tt with
      | true =>
        simp only [if_true] at hg
        subst hg
        exact .inr (noDigit_cons (by decide))
      | false =>
        simp only [Bool.false_eq_true, if_false] at hg
        by_cases hn : NoDigit (g ++ b)
        · exact .inr hn
        · left
          cases hx : g ++ b with
          | nil => exact absurd (hx ▸ noDigit_nil) hn
          | cons c r =>
            refine hg.2 c r hx ?_
            cases hc : isDigit c with
            | true => rfl
            | false => exact absurd (hx ▸ noDigit_cons hc) hn
    have h1 : scanDate sep (a ++ (g ++ b)) = some (t, g ++ b) := (scanDate_iff sep hsep _ _ _).2 ⟨hv, a, rfl, ha, hst⟩
    have h2 : ∃ q, scanGap tt (g ++ b) = some q ∧ TimeText q ns := by
      cases tt with
      | true =>
        simp only [if_true] at hg
        subst hg
        exact ⟨b, (lit_iff _ _ _).2 rfl, hb⟩
      | false =>
        simp only [Bool.false_eq_true, if_false] at hg
        exact ⟨trimStart (g ++ b), rfl, (timeText_trim hg.1).2 hb⟩
    obtain ⟨q, h2, hq⟩ := h2
    unfold scanStamp
    simp only [Option.bind_eq_bind, h1, Option.bind_some, h2, (scanTime_iff _ _).2 hq, if_true]

theorem scanStamp_false {sep : Char} {tt : Bool} {s : Str} {v : Int} (h : scanStamp sep tt false s = some v) :
    scanStamp sep tt true s = some v := by
  unfold scanStamp at h ⊢
  simp only [Option.bind_eq_bind, Option.bind_eq_some_iff, Prod.exists] at h
  obtain ⟨t, s1, h1, s2, h2, ns, s3, h3, h⟩ := h
  split at h
  · next h0 =>
    subst h0
    cases h
    simp only [Option.bind_eq_bind, h1, Option.bind_some, h2, scanTime_false h3, if_true]
  · cases h

theorem short_chars {x : Str} {n : Nat} (h : Short x n) {c : Char} (hc : c ∈ x) : isDigit c = true ∨ isWs c = true := by
  obtain ⟨w, ds, rfl, hw, ⟨-, hd, -⟩, -⟩ := h
  rcases List.mem_append.1 hc with hc | hc
  · exact .inr (hw c hc)
  · exact .inl (hd c hc)

theorem timeText_chars {x : Str} {n : Nat} (h : TimeText x n) {c : Char} (hc : c ∈ x) :
    isDigit c = true ∨ isWs c = true ∨ c = ':' ∨ c = '.' := by
  obtain ⟨a, b, d, f, _, _, _, _, rfl, ha, hb, hd, hf, -⟩ := h
  simp only [List.mem_append, List.mem_cons] at hc
  rcases hc with hc | hc | hc | hc | hc | hc
  · rcases short_chars ha hc with h | h <;> simp [h]
  · simp [hc]
  · rcases short_chars hb hc with h | h <;> simp [h]
  · simp [hc]
  · rcases short_chars hd hc with h | h <;> simp [h]
  · rcases hf with ⟨rfl, -⟩ | ⟨ds, v, rfl, ⟨-, hds, -⟩, -⟩
    · cases hc
    · rcases List.mem_cons.1 hc with rfl | hc
      · simp
      · simp [hds c hc]

theorem dateText_chars {sep : Char} {x : Str} {t : Date} (h : DateText sep x t) {c : Char} (hc : c ∈ x) :
    isDigit c = true ∨ isWs c = true ∨ c = '+' ∨ c = '-' ∨ c = sep := by
  obtain ⟨a, b, d, _, _, rfl, ha, hb, hd, -⟩ := h
  simp only [List.mem_append, List.mem_cons] at hc
  rcases hc with hc | hc | hc | hc | hc
  · obtain ⟨w, ds, n, hw, ⟨-, hds, -⟩, h⟩ := ha
    rcases h with ⟨rfl, -⟩ | ⟨rfl, -⟩ | ⟨rfl, -⟩ <;> simp only [List.mem_append, List.mem_cons] at hc
    · rcases hc with hc | hc
      · simp [hw c hc]
      · simp [hds c hc]
    · rcases hc with hc | hc | hc
      · simp [hw c hc]
      · simp [hc]
      · simp [hds c hc]
    · rcases hc with hc | hc | hc
      · simp [hw c hc]
      · simp [hc]
      · simp [hds c hc]
  · simp [hc]
  · rcases short_chars hb hc with h | h <;> simp [h]
  · simp [hc]
  · rcases short_chars hd hc with h | h <;> simp [h]

theorem scanStamp_marks {sep : Char} (hsep : isDigit sep = false) {tt : Bool} {s : Str} {v : Int}
    (h : scanStamp sep tt true s = some v) (h1 : sep = '-' ∨ sep = '/') :
    ('T' ∈ s ↔ tt = true) ∧ ('/' ∈ s ↔ sep = '/') := by
  obtain ⟨t, ns, a, g, b, -, -, rfl, ha, hb, hg⟩ := (scanStamp_iff sep hsep tt s v).1 h
  have hT : 'T' ∉ a := by
    intro hc
    rcases dateText_chars ha hc with h | h | h | h | h
    · exact absurd h (by decide)
    · exact absurd h (by decide)
    · exact absurd h (by decide)
    · exact absurd h (by decide)
    · rcases h1 with rfl | rfl <;> exact absurd h (by decide)
  have hT' : 'T' ∉ b := by
    intro hc
    rcases timeText_chars hb hc with h | h | h | h <;> exact absurd h (by decide)
  have hS : '/' ∉ b := by
    intro hc
    rcases timeText_chars hb hc with h | h | h | h <;> exact absurd h (by decide)
  have hS' : '/' ∈ a ↔ sep = '/' := by
    constructor
    · intro hc
      rcases dateText_chars ha hc with h | h | h | h | h
      · exact absurd h (by decide)
      · exact absurd h (by decide)
      · exact absurd h (by decide)
      · exact absurd h (by decide)
      · exact h.symm
    · rintro rfl
      obtain ⟨a, b, d, _, _, rfl, -⟩ := ha
      simp
  have hg' : ('T' ∈ g ↔ tt = true) ∧ '/' ∉ g := by
    cases tt with
    | true =>
      simp only [if_true] at hg
      subst hg
      decide
    | false =>
      simp only [Bool.false_eq_true, if_false] at hg
      refine ⟨⟨fun h => absurd (hg.1 _ h) (by decide), by simp⟩, fun h => absurd (hg.1 _ h) (by decide)⟩
  simp [hT, hT', hS, hS', hg']

theorem readStamp_iff (s : Str) (v : Int) : readStamp s = some v ↔
    ∃ t ns, t.Valid ∧ StampText s t ns ∧ v = t.toDays * dayNs + ns := by
  have e : readStamp s = (((scanStamp '-' true true s).or (scanStamp '-' false true s)).or (scanStamp '/' true true s)).or
      (scanStamp '/' false true s) := by
    have sub : ∀ sep tt (o : Option Int), ((o.or (scanStamp sep tt true s)).or (scanStamp sep tt false s)) =
        o.or (scanStamp sep tt true s) := by
      intro sep tt o
      cases o with
      | some _ => rfl
      | none =>
        simp only [Option.none_or]
        cases hx : scanStamp sep tt false s with
        | none => simp
        | some v => rw [scanStamp_false hx]; rfl
    have sub0 := sub '-' true none
    simp only [Option.none_or] at sub0
    unfold readStamp
    rw [sub0, sub, sub, sub]
  have mark : ∀ sep tt v sep' tt' v', (sep = '-' ∨ sep = '/') → (sep' = '-' ∨ sep' = '/') →
      scanStamp sep tt true s = some v → scanStamp sep' tt' true s = some v' → sep = sep' ∧ tt = tt' := by
    intro sep tt v sep' tt' v' h1 h2 h h'
    have m1 := scanStamp_marks (by rcases h1 with rfl | rfl <;> decide) h h1
    have m2 := scanStamp_marks (by rcases h2 with rfl | rfl <;> decide) h' h2
    constructor
    · have := m1.2.symm.trans m2.2
      rcases h1 with rfl | rfl <;> rcases h2 with rfl | rfl <;> simp_all
    · have := m1.1.symm.trans m2.1
      cases tt <;> cases tt' <;> simp_all
  have any : readStamp s = some v ↔ ∃ sep tt, (sep = '-' ∨ sep = '/') ∧ scanStamp sep tt true s = some v := by
    rw [e]
    constructor
    · intro h
      simp only [Option.or_eq_some_iff] at h
      rcases h with (((h | ⟨-, h⟩) | ⟨-, h⟩) | ⟨-, h⟩)
      · exact ⟨_, _, .inl rfl, h⟩
      · exact ⟨_, _, .inl rfl, h⟩
      · exact ⟨_, _, .inr rfl, h⟩
      · exact ⟨_, _, .inr rfl, h⟩
    · rintro ⟨sep, tt, hsep, h⟩
      have none' : ∀ sep' tt', (sep' = '-' ∨ sep' = '/') → (sep', tt') ≠ (sep, tt) → scanStamp sep' tt' true s = none := by
        intro sep' tt' h2 hne
        cases hx : scanStamp sep' tt' true s with
        | none => rfl
        | some v' =>
          obtain ⟨rfl, rfl⟩ := mark _ _ _ _ _ _ h2 hsep hx h
          exact absurd rfl hne
      rcases hsep with rfl | rfl <;> cases tt
      · rw [none' '-' true (.inl rfl) (by simp), h]; rfl
      · rw [h]; rfl
      · rw [none' '-' true (.inl rfl) (by simp), none' '-' false (.inl rfl) (by simp), none' '/' true (.inr rfl) (by simp), h]
        rfl
      · rw [none' '-' true (.inl rfl) (by simp), none' '-' false (.inl rfl) (by simp), h]; rfl
  rw [any]
  constructor
  · rintro ⟨sep, tt, hsep, h⟩
    obtain ⟨t, ns, a, g, b, hv, rfl, rfl, ha, hb, hg⟩ :=
      (scanStamp_iff sep (by rcases hsep with rfl | rfl <;> decide) tt s v).1 h
    refine ⟨t, ns, hv, ⟨sep, a, g, b, hsep, rfl, ha, hb, ?_⟩, rfl⟩
    cases tt with
    | true => exact .inl (by simpa using hg)
    | false => exact .inr (by simpa using hg)
  · rintro ⟨t, ns, hv, ⟨sep, a, g, b, hsep, rfl, ha, hb, hg⟩, rfl⟩
    have hs : isDigit sep = false := by rcases hsep with rfl | rfl <;> decide
    rcases hg with rfl | hg
    · exact ⟨sep, true, hsep, (scanStamp_iff sep hs _ _ _).2 ⟨t, ns, a, _, b, hv, rfl, rfl, ha, hb, by simp⟩⟩
    · exact ⟨sep, false, hsep, (scanStamp_iff sep hs _ _ _).2 ⟨t, ns, a, g, b, hv, rfl, rfl, ha, hb, by simpa using hg⟩⟩

end Verif
