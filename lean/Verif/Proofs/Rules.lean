import Verif.Model.Types
import Verif.Proofs.Peg
/-!
# Lemmas on rule combinators
-/

namespace Verif

theorem Out.text_sep (sp : Str) (l : List Out) : (Out.sep sp l).text = joinS sp (l.map Out.text) := by
  fun_induction Out.sep sp l with
  | case1 => rfl
  | case2 a => rfl
  | case3 a b l ih => simp [ih, joinS]

theorem Out.errs_sep (sp : Str) (l : List Out) : (Out.sep sp l).errs = l.flatMap Out.errs := by
  fun_induction Out.sep sp l with
  | case1 => rfl
  | case2 a => simp
  | case3 a b l ih => simp [ih]

/-- `F` holds of the text after an item, `closing` of the text after the list. -/
theorem pStarN_join {α : Type} (sep : Str → Option Str) (p : Str → Option (α × Str)) (sp : Str)
    (F : Str → Prop) (close : Str) (items : List (Str × α)) (hne : sp ≠ [])
    (hsep : ∀ i ∈ items, ∀ r, sep (sp ++ (i.1 ++ r)) = some (i.1 ++ r))
    (hF : ∀ r, F (sp ++ r)) (hFc : F close)
    (hclose : ∀ n, pStarN sep p n close = ([], close))
    (hp : ∀ i ∈ items, ∀ r, F r → p (i.1 ++ r) = some (i.2, r)) :
    ∀ n, (items.flatMap fun i => sp ++ i.1).length ≤ n →
      pStarN sep p n ((items.flatMap fun i => sp ++ i.1) ++ close) = (items.map (·.2), close) := by
  induction items with
  | nil => intro n _; simpa using hclose n
  | cons i items ih =>
    intro n hn
    cases n with
    | zero =>
      have hz : sp = [] := by
        simp only [List.flatMap_cons, List.length_append, Nat.le_zero_eq, Nat.add_eq_zero_iff] at hn
        exact List.length_eq_zero_iff.1 hn.1.1
      exact absurd hz hne
    | succ n =>
      have hF2 : F ((items.flatMap fun i => sp ++ i.1) ++ close) := by
        cases items with
        | nil => simpa using hFc
        | cons j js => simp only [List.flatMap_cons, List.append_assoc]; exact hF _
      have hlen : (items.flatMap fun i => sp ++ i.1).length ≤ n := by
        have h0 : 0 < sp.length := List.length_pos_iff.2 hne
        simp only [List.flatMap_cons, List.length_append] at hn ⊢
        omega
      have h1 := hsep i (by simp) ((items.flatMap fun i => sp ++ i.1) ++ close)
      have h2 := hp i (by simp) _ hF2
      have h3 := ih (fun j hj => hsep j (List.mem_cons_of_mem _ hj))
        (fun j hj => hp j (List.mem_cons_of_mem _ hj)) n hlen
      simp only [List.flatMap_cons, List.append_assoc] at h1 h2 h3 ⊢
      rw [pStarN, h1]
      simp only [h2, h3, List.map_cons]

theorem joinS_cons (sp a : Str) (l : List Str) :
    joinS sp (a :: l) = a ++ l.flatMap (fun b => sp ++ b) := by
  induction l generalizing a with
  | nil => simp [joinS]
  | cons b l ih => rw [joinS, ih]; simp

theorem pSep1_join {α : Type} (sep : Str → Option Str) (p : Str → Option (α × Str)) (sp : Str)
    (F : Str → Prop) (close : Str) (items : List (Str × α)) (hne : sp ≠ []) (hi : items ≠ [])
    (hsep : ∀ i ∈ items, ∀ r, sep (sp ++ (i.1 ++ r)) = some (i.1 ++ r))
    (hF : ∀ r, F (sp ++ r)) (hFc : F close)
    (hclose : ∀ n, pStarN sep p n close = ([], close))
    (hp : ∀ i ∈ items, ∀ r, F r → p (i.1 ++ r) = some (i.2, r)) :
    pSep1 sep p (joinS sp (items.map (·.1)) ++ close) = some (items.map (·.2), close) := by
  cases items with
  | nil => exact absurd rfl hi
  | cons i items =>
    have hF2 : F ((items.flatMap fun i => sp ++ i.1) ++ close) := by
      cases items with
      | nil => simpa using hFc
      | cons j js => simp only [List.flatMap_cons, List.append_assoc]; exact hF _
    have h2 := hp i (by simp) _ hF2
    have h3 := pStarN_join sep p sp F close items hne
        (fun j hj => hsep j (List.mem_cons_of_mem _ hj)) hF hFc hclose
        (fun j hj => hp j (List.mem_cons_of_mem _ hj))
    have h4 : joinS sp ((i :: items).map (·.1)) ++ close
        = i.1 ++ ((items.flatMap fun i => sp ++ i.1) ++ close) := by
      simp [joinS_cons, List.flatMap_map]
    rw [h4, pSep1, h2]
    simp only [List.map_cons]
    rw [h3 _ (by simp)]

/-- The separator does not match the text after the list. -/
theorem pStarN_stop {α : Type} (sep : Str → Option Str) (p : Str → Option (α × Str)) (close : Str)
    (h : sep close = none) : ∀ n, pStarN sep p n close = ([], close) := by
  intro n
  cases n with
  | zero => rfl
  | succ n => simp [pStarN, h]

/-- The separator matches but no item follows. -/
theorem pStarN_stop2 {α : Type} (sep : Str → Option Str) (p : Str → Option (α × Str)) (close r : Str)
    (h : sep close = some r) (hp : p r = none) : ∀ n, pStarN sep p n close = ([], close) := by
  intro n
  cases n with
  | zero => rfl
  | succ n => simp [pStarN, h, hp]

theorem commaSp_join (t : Str) (h : NextNot (· == ' ') t) : commaSp (cs!", " ++ t) = some t := by
  have := skipSp_of_not t h
  simp [commaSp, lit]
  rw [skipSp] at this ⊢
  simpa using this

theorem spCommaSp_join (t : Str) (h : NextNot (· == ' ') t) : spCommaSp (cs!", " ++ t) = some t := by
  have h0 : skipSp (cs!", " ++ t) = cs!", " ++ t := skipSp_cons _ _ (by decide)
  have := skipSp_of_not t h
  unfold spCommaSp
  rw [h0]
  simp [lit]
  rw [skipSp] at this ⊢
  simpa using this

theorem lit_ne {c d : Char} {p s : Str} (h : c ≠ d) : lit (c :: p) (d :: s) = none := by
  simp [lit, h]

theorem NextNot.append {p : Char → Bool} {a s : Str} (h : a ≠ []) (ha : NextNot p a) : NextNot p (a ++ s) := by
  cases a with
  | nil => exact absurd rfl h
  | cons c a => rw [List.cons_append, nextNot_cons]; exact (nextNot_cons p c a).1 ha

theorem NextNot.mono {p q : Char → Bool} {s : Str} (h : NextNot p s) (hq : ∀ c, q c = true → p c = true) :
    NextNot q s := by
  intro c hc
  have := h c hc
  cases hqc : q c with
  | false => rfl
  | true => rw [hq c hqc] at this; cases this

theorem lit_none_of_next {p : Char → Bool} {c : Char} {k s : Str} (h : NextNot p s) (hc : p c = true) :
    lit (c :: k) s = none := by
  cases s with
  | nil => rfl
  | cons d s =>
    have := (nextNot_cons p d s).1 h
    apply lit_ne
    rintro rfl
    rw [hc] at this; cases this

theorem litI_append (p s : Str) : litI p (p ++ s) = some s := by
  induction p with
  | nil => simp [litI]
  | cons c p ih => simp [litI, ih]

theorem length_le_joinS (sp : Str) (l : List Str) (x : Str) (hx : x ∈ l) : x.length ≤ (joinS sp l).length := by
  have key : ∀ (l : List Str) (x : Str), x ∈ l → x.length ≤ (l.flatMap fun b => sp ++ b).length := by
    intro l
    induction l with
    | nil => intro x hx; cases hx
    | cons w l ih =>
      intro x hx
      rcases List.mem_cons.1 hx with rfl | hx
      · simp only [List.flatMap_cons, List.length_append]; omega
      · have := ih x hx
        simp only [List.flatMap_cons, List.length_append] at this ⊢
        omega
  cases l with
  | nil => cases hx
  | cons y l =>
    rw [joinS_cons]
    rcases List.mem_cons.1 hx with rfl | hx
    · simp
    · have := key l x hx
      simp only [List.length_append] at this ⊢
      omega

end Verif
