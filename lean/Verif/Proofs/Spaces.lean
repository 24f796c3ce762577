import Verif.Spec.Spaces
import Verif.Model.RelLines
import Verif.Proofs.Exprs
/-!
# The parsers do not see the width of spaces

Every rule of a relation line gives the same on a text and on the text with its runs of spaces squeezed, and
leaves the squeezed rest.  Lengths are counted without spaces, so that both sides have rounds enough.
-/

set_option autoImplicit false

namespace Verif
open SpaceSpec

/-! ## Squeezing -/

/-- The number of characters that are not spaces. -/
def wt (s : Str) : Nat := s.countP (· != ' ')

theorem wt_nil : wt [] = 0 := rfl
theorem wt_cons (c : Char) (s : Str) : wt (c :: s) = wt s + (if c = ' ' then 0 else 1) := by
  unfold wt; rw [List.countP_cons]; by_cases h : c = ' ' <;> simp [h]
theorem wt_append (a b : Str) : wt (a ++ b) = wt a + wt b := List.countP_append

theorem wt_le_length (s : Str) : wt s ≤ s.length := List.countP_le_length

theorem wt_skip (s : Str) : wt (skipSp s) = wt s := by
  unfold skipSp
  induction s with
  | nil => rfl
  | cons c s ih =>
    rw [List.dropWhile_cons]
    by_cases h : c = ' '
    · simp [h, ih, wt_cons]
    · simp [h]

theorem wt_squeezeFrom (s : Str) : ∀ p, wt (squeezeFrom p s) = wt s := by
  induction s with
  | nil => intro p; cases p with
    | out b => rfl
    | within q e => cases e <;> rfl
  | cons c s ih =>
    intro p
    cases p with
    | out b =>
      simp only [squeezeFrom]
      by_cases h : c = ' '
      · cases b <;> simp [h, wt_cons, ih]
      · by_cases hq : c = '\'' ∨ c = '"'
        · simp [h, hq, wt_cons, ih]
        · simp [h, hq, wt_cons, ih]
    | within q e =>
      cases e
      · simp only [squeezeFrom]
        split
        · simp [wt_cons, ih]
        · split <;> simp [wt_cons, ih]
      · simp [squeezeFrom, wt_cons, ih]

theorem wt_squeeze (s : Str) : wt (squeeze s) = wt s := wt_squeezeFrom s _

theorem squeeze_nil : squeeze [] = [] := rfl

/-- A character that is neither a space nor a quote. -/
def plainC (c : Char) : Bool := c != ' ' && c != '\'' && c != '"'

theorem squeeze_plain {c : Char} (h : plainC c = true) (s : Str) : squeeze (c :: s) = c :: squeeze s := by
  simp only [plainC, Bool.and_eq_true, bne_iff_ne] at h
  simp [squeeze, squeezeFrom, h]

theorem squeezeFrom_space (s : Str) : squeezeFrom (.out true) s = squeeze (skipSp s) := by
  induction s with
  | nil => rfl
  | cons c s ih =>
    by_cases h : c = ' '
    · subst h
      simp only [squeezeFrom, if_true, ih, skipSp]
      simp
    · have e : skipSp (c :: s) = c :: s := by simp [skipSp, h]
      rw [e]
      simp [squeeze, squeezeFrom, h]

theorem squeeze_space (s : Str) : squeeze (' ' :: s) = ' ' :: squeeze (skipSp s) := by
  simp [squeeze, squeezeFrom]
  exact squeezeFrom_space s

theorem skipSp_cons_ne {c : Char} (h : c ≠ ' ') (s : Str) : skipSp (c :: s) = c :: s := by simp [skipSp, h]
theorem skipSp_cons_sp (s : Str) : skipSp (' ' :: s) = skipSp s := by simp [skipSp]

theorem skip_skip (s : Str) : skipSp (skipSp s) = skipSp s := by
  induction s with
  | nil => rfl
  | cons c s ih =>
    by_cases h : c = ' '
    · subst h; rw [skipSp_cons_sp, ih]
    · rw [skipSp_cons_ne h, skipSp_cons_ne h]

theorem squeeze_head (s : Str) : (squeeze s).head? = s.head? := by
  cases s with
  | nil => rfl
  | cons c s =>
    simp only [squeeze, squeezeFrom]
    by_cases h : c = ' '
    · simp [h]
    · by_cases hq : c = '\'' ∨ c = '"'
      · simp [h, hq]
      · simp [h, hq]

theorem skip_squeeze (s : Str) : skipSp (squeeze s) = squeeze (skipSp s) := by
  induction s with
  | nil => rfl
  | cons c s ih =>
    by_cases h : c = ' '
    · subst h
      rw [squeeze_space, skipSp_cons_sp, skipSp_cons_sp, ← ih]
      exact skip_skip _
    · rw [skipSp_cons_ne h]
      have := squeeze_head (c :: s)
      cases hq : squeeze (c :: s) with
      | nil => rfl
      | cons d t =>
        rw [hq] at this
        simp only [List.head?_cons, Option.some.injEq] at this
        subst this
        exact skipSp_cons_ne h t

theorem squeeze_eq_nil (s : Str) : squeeze s = [] ↔ s = [] := by
  have := squeeze_head s
  cases s with
  | nil => simp [squeeze_nil]
  | cons c s =>
    constructor
    · intro h; rw [h] at this; cases this
    · intro h; cases h

/-! ## The relation -/

/-- Both fail, or both give the same and leave the same but for spaces, with fewer than `k` other characters. -/
inductive Sim {α : Type} (k : Nat) : Option (α × Str) → Option (α × Str) → Prop
  | none : Sim k none none
  | some (a : α) (r : Str) (h : wt r < k) : Sim k (some (a, r)) (some (a, squeeze r))

/-- The same, of a rule without a value. -/
inductive SimS (k : Nat) : Option Str → Option Str → Prop
  | none : SimS k none none
  | some (r : Str) (h : wt r < k) : SimS k (some r) (some (squeeze r))

/-- The same, of a rule that always matches. -/
def SimP {α : Type} (k : Nat) (x y : α × Str) : Prop := y = (x.1, squeeze x.2) ∧ wt x.2 < k

/-- Two versions of a rule that agree on every text with fewer than `k` characters other than spaces. -/
def Good {α : Type} (k : Nat) (p q : Str → Option (α × Str)) : Prop :=
  ∀ t, wt t < k → Sim (wt t) (p t) (q (squeeze t))

theorem Sim.mono {α : Type} {k l : Nat} {x y : Option (α × Str)} (h : Sim k x y) (hl : k ≤ l) : Sim l x y := by
  cases h with
  | none => exact .none
  | some a r h => exact .some a r (by omega)

theorem SimS.mono {k l : Nat} {x y : Option Str} (h : SimS k x y) (hl : k ≤ l) : SimS l x y := by
  cases h with
  | none => exact .none
  | some r h => exact .some r (by omega)

theorem Sim.bind {α β : Type} {k l : Nat} {x y : Option (α × Str)} {f g : α × Str → Option (β × Str)}
    (h : Sim k x y) (hf : ∀ a r, wt r < k → Sim l (f (a, r)) (g (a, squeeze r))) : Sim l (x >>= f) (y >>= g) := by
  cases h with
  | none => exact .none
  | some a r h => exact hf a r h

theorem SimS.bind {β : Type} {k l : Nat} {x y : Option Str} {f g : Str → Option (β × Str)}
    (h : SimS k x y) (hf : ∀ r, wt r < k → Sim l (f r) (g (squeeze r))) : Sim l (x >>= f) (y >>= g) := by
  cases h with
  | none => exact .none
  | some r h => exact hf r h

theorem SimS.bindS {k l : Nat} {x y : Option Str} {f g : Str → Option Str}
    (h : SimS k x y) (hf : ∀ r, wt r < k → SimS l (f r) (g (squeeze r))) : SimS l (x >>= f) (y >>= g) := by
  cases h with
  | none => exact .none
  | some r h => exact hf r h

theorem Sim.or {α : Type} {k : Nat} {a b c d : Option (α × Str)} (h : Sim k a c) (g : Sim k b d) :
    Sim k (a.or b) (c.or d) := by
  cases h with
  | none => exact g
  | some a r h => exact .some a r h

theorem SimS.or {k : Nat} {a b c d : Option Str} (h : SimS k a c) (g : SimS k b d) : SimS k (a.or b) (c.or d) := by
  cases h with
  | none => exact g
  | some r h => exact .some r h

theorem Sim.mapFst {α β : Type} {k : Nat} {f : α → β} {x y : Option (α × Str)} (h : Sim k x y) :
    Sim k (mapFst f x) (mapFst f y) := by
  cases h with
  | none => exact .none
  | some a r h => exact .some (f a) r h

theorem SimS.tag {α : Type} {k : Nat} {a : α} {x y : Option Str} (h : SimS k x y) :
    Sim k (x.map fun r => (a, r)) (y.map fun r => (a, r)) := by
  cases h with
  | none => exact .none
  | some r h => exact .some a r h

theorem SimS.skip {k : Nat} {x y : Option Str} (h : SimS k x y) : SimS k (x.map skipSp) (y.map skipSp) := by
  cases h with
  | none => exact .none
  | some r h =>
    simp only [Option.map_some, skip_squeeze]
    exact .some _ (by rw [wt_skip]; exact h)

theorem SimP.mk {α : Type} {k : Nat} (a : α) (r : Str) (h : wt r < k) : SimP k (a, r) (a, squeeze r) := ⟨rfl, h⟩

theorem SimP.some {α : Type} {k : Nat} {x y : α × Str} (h : SimP k x y) : Sim k (some x) (some y) := by
  obtain ⟨rfl, h⟩ := h
  obtain ⟨a, r⟩ := x
  exact .some a r h

/-! ## Terminals -/

theorem simS_lit (s : Str) : ∀ (p : Str), p.all plainC = true → p ≠ [] → SimS (wt s) (lit p s) (lit p (squeeze s)) := by
  have key : ∀ (p s : Str), p.all plainC = true → SimS (wt s + (if p = [] then 1 else 0)) (lit p s) (lit p (squeeze s)) := by
    intro p
    induction p with
    | nil => intro s _; simp only [lit]; exact .some s (by simp)
    | cons c p ih =>
      intro s hp
      simp only [List.all_cons, Bool.and_eq_true] at hp
      cases s with
      | nil => rw [squeeze_nil]; exact .none
      | cons d s =>
        by_cases hd : c = d
        · subst hd
          rw [squeeze_plain hp.1]
          simp only [lit, if_true]
          refine (ih s hp.2).mono ?_
          have hc : c ≠ ' ' := by
            have := hp.1; simp only [plainC, Bool.and_eq_true, bne_iff_ne] at this; exact this.1.1
          rw [wt_cons, if_neg hc]
          split <;> simp
        · have hh := squeeze_head (d :: s)
          cases hq : squeeze (d :: s) with
          | nil => simp only [lit, if_neg hd]; exact .none
          | cons e t =>
            rw [hq] at hh
            simp only [List.head?_cons, Option.some.injEq] at hh
            subst hh
            simp only [lit, if_neg hd]
            exact .none
  intro p hp hn
  have := key p s hp
  rw [if_neg hn] at this
  exact this

theorem toLower_plain {c d : Char} (h : toLower c = toLower d) (hc : isIdentChar c = true) : isIdentChar d = true := by
  by_cases hu : isUpper d = true
  · simp [isIdentChar, isAlnum, isAlpha, hu]
  · have hd : toLower d = d := by simp [toLower, hu]
    rw [hd] at h
    rw [← h]
    unfold toLower
    split
    · rename_i hcu
      have hcn : 65 ≤ c.toNat ∧ c.toNat ≤ 90 := by simpa [isUpper] using hcu
      have e : (Char.ofNat (c.toNat + 32)).toNat = c.toNat + 32 := by
        have key : ∀ m, m < 26 → (Char.ofNat (m + 65 + 32)).toNat = m + 65 + 32 := by decide
        have := key (c.toNat - 65) (by omega)
        rw [Nat.sub_add_cancel hcn.1] at this
        exact this
      simp only [isIdentChar, isAlnum, isAlpha, isLower, e, Bool.or_eq_true, Bool.and_eq_true, decide_eq_true_eq]
      left; left; right
      constructor <;> omega
    · exact hc

theorem ident_plain {c : Char} (h : isIdentChar c = true) : plainC c = true := by
  simp only [plainC, Bool.and_eq_true, bne_iff_ne]
  refine ⟨⟨?_, ?_⟩, ?_⟩ <;> (rintro rfl; revert h; decide)

theorem ident_ne_sp {c : Char} (h : isIdentChar c = true) : c ≠ ' ' := by rintro rfl; revert h; decide

theorem simS_litI (s : Str) : ∀ (p : Str), p.all isIdentChar = true → p ≠ [] → SimS (wt s) (litI p s) (litI p (squeeze s)) := by
  have key : ∀ (p s : Str), p.all isIdentChar = true →
      SimS (wt s + (if p = [] then 1 else 0)) (litI p s) (litI p (squeeze s)) := by
    intro p
    induction p with
    | nil => intro s _; simp only [litI]; exact .some s (by simp)
    | cons c p ih =>
      intro s hp
      simp only [List.all_cons, Bool.and_eq_true] at hp
      cases s with
      | nil => rw [squeeze_nil]; exact .none
      | cons d s =>
        by_cases hd : toLower c = toLower d
        · have hdi := toLower_plain hd hp.1
          rw [squeeze_plain (ident_plain hdi)]
          simp only [litI, if_pos hd]
          refine (ih s hp.2).mono ?_
          rw [wt_cons, if_neg (ident_ne_sp hdi)]
          split <;> simp
        · have hh := squeeze_head (d :: s)
          cases hq : squeeze (d :: s) with
          | nil => simp only [litI, if_neg hd]; exact .none
          | cons e t =>
            rw [hq] at hh
            simp only [List.head?_cons, Option.some.injEq] at hh
            subst hh
            simp only [litI, if_neg hd]
            exact .none
  intro p hp hn
  have := key p s hp
  rw [if_neg hn] at this
  exact this

/-- A run of characters that are neither spaces nor quotes. -/
theorem squeeze_run {C : Char → Bool} (hC : ∀ c, C c = true → plainC c = true) (s : Str) :
    (squeeze s).takeWhile C = s.takeWhile C ∧ (squeeze s).dropWhile C = squeeze (s.dropWhile C) := by
  induction s with
  | nil => exact ⟨rfl, rfl⟩
  | cons c s ih =>
    by_cases h : C c = true
    · rw [squeeze_plain (hC c h)]
      simp [h, ih]
    · have hh := squeeze_head (c :: s)
      cases hq : squeeze (c :: s) with
      | nil => rw [hq] at hh; cases hh
      | cons e t =>
        rw [hq] at hh
        simp only [List.head?_cons, Option.some.injEq] at hh
        subst hh
        simp [h, hq]

theorem wt_dropWhile (C : Char → Bool) (s : Str) : wt (s.dropWhile C) ≤ wt s := by
  have := wt_append (s.takeWhile C) (s.dropWhile C)
  rw [List.takeWhile_append_dropWhile] at this
  omega

theorem sim_word (C : Char → Bool) (hC : ∀ c, C c = true → plainC c = true) (s : Str) :
    Sim (wt s) (match s with
      | [] => none
      | c :: cs => if isAlpha c then some (c :: cs.takeWhile C, cs.dropWhile C) else none)
      (match squeeze s with
      | [] => none
      | c :: cs => if isAlpha c then some (c :: cs.takeWhile C, cs.dropWhile C) else none) := by
  cases s with
  | nil => rw [squeeze_nil]; exact .none
  | cons c s =>
    by_cases h : isAlpha c = true
    · have hi : isIdentChar c = true := by simp [isIdentChar, isAlnum, h]
      rw [squeeze_plain (ident_plain hi)]
      simp only [if_pos h, (squeeze_run hC s).1, (squeeze_run hC s).2]
      refine .some _ _ ?_
      have := wt_dropWhile C s
      rw [wt_cons, if_neg (ident_ne_sp hi)]
      omega
    · have hh := squeeze_head (c :: s)
      cases hq : squeeze (c :: s) with
      | nil => rw [hq] at hh; cases hh
      | cons e t =>
        rw [hq] at hh
        simp only [List.head?_cons, Option.some.injEq] at hh
        subst hh
        simp only [if_neg h]
        exact .none

theorem sim_ident (s : Str) : Sim (wt s) (pIdent s) (pIdent (squeeze s)) :=
  sim_word isIdentChar (fun _ => ident_plain) s

theorem sim_shortName (s : Str) : Sim (wt s) (pShortName s) (pShortName (squeeze s)) :=
  sim_word isAlnum (fun c h => ident_plain (by simp [isIdentChar, h])) s

theorem digit_ident {c : Char} (h : isDigit c = true) : isIdentChar c = true := by simp [isIdentChar, isAlnum, h]

theorem sim_digits (s : Str) : Sim (wt s) (pDigits s) (pDigits (squeeze s)) := by
  unfold pDigits
  have hr := squeeze_run (C := isDigit) (fun c h => ident_plain (digit_ident h)) s
  simp only [hr.1, hr.2]
  cases hd : s.takeWhile isDigit with
  | nil => exact .none
  | cons d ds =>
    refine .some _ _ ?_
    have := wt_append (s.takeWhile isDigit) (s.dropWhile isDigit)
    rw [List.takeWhile_append_dropWhile, hd, wt_cons] at this
    have hdd : isDigit d = true := takeWhile_mem (by rw [hd]; exact List.mem_cons_self)
    rw [if_neg (ident_ne_sp (digit_ident hdd))] at this
    omega

theorem simP_minus (s : Str) : SimP (wt s + 1) (pMinus s) (pMinus (squeeze s)) := by
  cases s with
  | nil => exact ⟨rfl, by simp [pMinus]⟩
  | cons c s =>
    by_cases h : c = '-'
    · subst h
      rw [squeeze_plain (by decide)]
      exact ⟨rfl, by simp [pMinus, wt_cons]; omega⟩
    · have e : ∀ t : Str, pMinus (c :: t) = (false, c :: t) := by
        intro t; unfold pMinus; split
        · rename_i heq; exact absurd (List.cons.inj heq).1 h
        · rfl
      have hh := squeeze_head (c :: s)
      cases hq : squeeze (c :: s) with
      | nil => rw [hq] at hh; cases hh
      | cons d t =>
        rw [hq] at hh
        simp only [List.head?_cons, Option.some.injEq] at hh
        subst hh
        rw [e, e]
        exact ⟨by rw [hq], by simp⟩

theorem sim_integer (s : Str) : Sim (wt s) (pInteger s) (pInteger (squeeze s)) := by
  unfold pInteger
  have h := simP_minus s
  rw [h.1]
  cases hm : pMinus s with
  | mk neg r =>
    rw [hm] at h
    have hw := h.2
    dsimp only at hw ⊢
    have hd := sim_digits r
    revert hd
    generalize pDigits r = x
    generalize pDigits (squeeze r) = y
    intro hd
    cases hd with
    | none => exact .none
    | some ds t h => exact .some _ _ (by omega)

theorem sim_float (s : Str) : Sim (wt s) (pFloat s) (pFloat (squeeze s)) := by
  unfold pFloat
  have h := simP_minus s
  rw [h.1]
  cases hm : pMinus s with
  | mk neg r =>
    rw [hm] at h
    have hw := h.2
    dsimp only at hw ⊢
    have hd := sim_digits r
    revert hd
    generalize pDigits r = x
    generalize pDigits (squeeze r) = y
    intro hd
    cases hd with
    | none => exact .none
    | some ds t ht =>
      dsimp only
      have hl := simS_lit t cs!"." (by decide) (by decide)
      revert hl
      generalize lit cs!"." t = x
      generalize lit cs!"." (squeeze t) = y
      intro hl
      cases hl with
      | none => exact .none
      | some u hu =>
        dsimp only
        have hd := sim_digits u
        revert hd
        generalize pDigits u = x
        generalize pDigits (squeeze u) = y
        intro hd
        cases hd with
        | none => exact .none
        | some fs v hv => exact .some _ _ (by omega)

theorem sim_boolean (s : Str) : Sim (wt s) (pBoolean s) (pBoolean (squeeze s)) := by
  unfold pBoolean
  have h1 := simS_lit s cs!"true" (by decide) (by decide)
  have h2 := simS_lit s cs!"false" (by decide) (by decide)
  revert h1 h2
  generalize lit cs!"true" s = x1
  generalize lit cs!"true" (squeeze s) = y1
  generalize lit cs!"false" s = x2
  generalize lit cs!"false" (squeeze s) = y2
  intro h1 h2
  cases h1 with
  | some r h => exact .some _ _ h
  | none =>
    cases h2 with
    | some r h => exact .some _ _ h
    | none => exact .none

theorem pQuoted_nil (q : Char) : pQuoted q [] = none := rfl
theorem pQuoted_esc (q d : Char) (s : Str) :
    pQuoted q ('\\' :: d :: s) = (pQuoted q s).map fun x => ('\\' :: d :: x.1, x.2) := by
  rw [pQuoted]; rw [if_pos rfl]; cases pQuoted q s <;> rfl
theorem pQuoted_end (q : Char) (s : Str) (h : q ≠ '\\') : pQuoted q (q :: s) = some ([], s) := by
  rw [pQuoted.eq_def]; simp only [if_neg h, if_true]
theorem pQuoted_char (q c : Char) (s : Str) (h : c ≠ '\\') (hq : c ≠ q) :
    pQuoted q (c :: s) = (pQuoted q s).map fun x => (c :: x.1, x.2) := by
  rw [pQuoted.eq_def]; simp only [if_neg h, if_neg hq]; cases pQuoted q s <;> rfl

/-- Within quotes nothing is squeezed. -/
theorem quoted_squeeze (q : Char) (hq : q = '\'' ∨ q = '"') : ∀ (n : Nat) (s : Str), s.length ≤ n →
    (pQuoted q s = none → pQuoted q (squeezeFrom (.within q false) s) = none) ∧
    ∀ b r, pQuoted q s = some (b, r) →
      squeezeFrom (.within q false) s = b ++ q :: squeeze r ∧ s = b ++ q :: r ∧
      pQuoted q (squeezeFrom (.within q false) s) = some (b, squeeze r) := by
  intro n
  induction n with
  | zero =>
    intro s hs
    have : s = [] := List.eq_nil_of_length_eq_zero (by omega)
    subst this
    exact ⟨fun _ => rfl, fun b r h => by simp [pQuoted] at h⟩
  | succ n ih =>
    intro s hs
    have hqb : q ≠ '\\' := by rcases hq with rfl | rfl <;> decide
    cases s with
    | nil => exact ⟨fun _ => rfl, fun b r h => by simp [pQuoted] at h⟩
    | cons c s =>
      by_cases hb : c = '\\'
      · subst hb
        cases s with
        | nil => exact ⟨fun _ => rfl, fun b r h => by simp [pQuoted] at h⟩
        | cons d s =>
          have hi := ih s (by simp at hs; omega)
          simp only [squeezeFrom, if_true]
          cases hp : pQuoted q s with
          | none => exact ⟨fun _ => by simp [pQuoted, hi.1 hp], fun b r h => by simp [pQuoted, hp] at h⟩
          | some x =>
            obtain ⟨b, r⟩ := x
            obtain ⟨h1, h2, h3⟩ := hi.2 b r hp
            refine ⟨fun h => by simp [pQuoted, hp] at h, ?_⟩
            intro b' r' h
            simp only [pQuoted, if_true, hp, Option.some.injEq, Prod.mk.injEq] at h
            obtain ⟨rfl, rfl⟩ := h
            refine ⟨by simp [h1], by simp [← h2], ?_⟩
            simp [pQuoted, h3]
      · by_cases hc : c = q
        · subst hc
          simp only [squeezeFrom, if_neg hb, if_true]
          rw [pQuoted_end c s hb, pQuoted_end c _ hb]
          refine ⟨(fun h => by cases h), ?_⟩
          intro b r h
          simp only [Option.some.injEq, Prod.mk.injEq] at h
          obtain ⟨rfl, rfl⟩ := h
          exact ⟨rfl, rfl, rfl⟩
        · have hi := ih s (by simp at hs; omega)
          simp only [squeezeFrom, if_neg hb, if_neg hc]
          rw [pQuoted_char q c s hb hc, pQuoted_char q c _ hb hc]
          cases hp : pQuoted q s with
          | none => exact ⟨fun _ => by rw [hi.1 hp]; rfl, fun b r h => by cases h⟩
          | some x =>
            obtain ⟨b, r⟩ := x
            obtain ⟨h1, h2, h3⟩ := hi.2 b r hp
            refine ⟨(fun h => by cases h), ?_⟩
            intro b' r' h
            simp only [Option.map_some, Option.some.injEq, Prod.mk.injEq] at h
            obtain ⟨rfl, rfl⟩ := h
            refine ⟨by simp [h1], by simp [← h2], ?_⟩
            rw [h3]; rfl

/-- A quoted text, by its opening quote. -/
theorem sim_quotes (q : Char) (hq : q = '\'' ∨ q = '"') (s : Str) :
    Sim (wt s)
      (match lit [q] s with
        | none => none
        | some s =>
          match pQuoted q s with
          | none => none
          | some (b, r) => some (unescape b, r))
      (match lit [q] (squeeze s) with
        | none => none
        | some s =>
          match pQuoted q s with
          | none => none
          | some (b, r) => some (unescape b, r)) := by
  have hqs : q ≠ ' ' := by rcases hq with rfl | rfl <;> decide
  cases s with
  | nil => rw [squeeze_nil]; exact .none
  | cons c s =>
    by_cases hc : q = c
    · subst hc
      have e : squeeze (q :: s) = q :: squeezeFrom (.within q false) s := by
        simp only [squeeze, squeezeFrom, if_neg hqs, if_pos hq]
      rw [e]
      simp only [lit, if_true]
      have hk := quoted_squeeze q hq s.length s (Nat.le_refl _)
      cases hp : pQuoted q s with
      | none => rw [hk.1 hp]; exact .none
      | some x =>
        obtain ⟨b, r⟩ := x
        obtain ⟨h1, h2, h3⟩ := hk.2 b r hp
        rw [h3]
        refine .some _ _ ?_
        rw [h2, wt_cons, if_neg hqs, wt_append, wt_cons, if_neg hqs]
        omega
    · have hh := squeeze_head (c :: s)
      cases hs : squeeze (c :: s) with
      | nil => rw [hs] at hh; cases hh
      | cons d t =>
        rw [hs] at hh
        simp only [List.head?_cons, Option.some.injEq] at hh
        subst hh
        simp only [lit, if_neg hc]
        exact .none

theorem sim_string (s : Str) : Sim (wt s) (pString s) (pString (squeeze s)) := sim_quotes '\'' (.inl rfl) s
theorem sim_quotedName (s : Str) : Sim (wt s) (pQuotedName s) (pQuotedName (squeeze s)) := sim_quotes '"' (.inr rfl) s

theorem pName_or (s : Str) : pName s = (pIdent s).or (pQuotedName s) := by
  unfold pName; cases pIdent s <;> rfl

theorem sim_name (s : Str) : Sim (wt s) (pName s) (pName (squeeze s)) := by
  rw [pName_or, pName_or]; exact (sim_ident s).or (sim_quotedName s)

theorem simS_null (s : Str) : SimS (wt s) (pNull s) (pNull (squeeze s)) := simS_lit s _ (by decide) (by decide)

/-! ## Combinators -/

theorem simP_opt {α : Type} {k : Nat} {p q : Str → Option (α × Str)} {s : Str} (h : Sim k (p s) (q (squeeze s)))
    (hk : wt s < k) : SimP k (pOpt p s) (pOpt q (squeeze s)) := by
  unfold pOpt
  revert h
  generalize p s = x
  generalize q (squeeze s) = y
  intro h
  cases h with
  | none => exact ⟨rfl, hk⟩
  | some a r h => exact ⟨rfl, h⟩

theorem simP_star {α : Type} {k : Nat} {sep : Str → Option Str} {p q : Str → Option (α × Str)}
    (hsep : ∀ s, SimS (wt s) (sep s) (sep (squeeze s))) (hp : Good k p q) :
    ∀ (n m : Nat) (s : Str), wt s ≤ n → wt s ≤ m → wt s < k + 1 →
      SimP (wt s + 1) (pStarN sep p n s) (pStarN sep q m (squeeze s)) := by
  intro n
  induction n with
  | zero =>
    intro m s hn _ _
    have h0 : sep s = none ∧ sep (squeeze s) = none := by
      have := hsep s
      revert this
      generalize sep s = x
      generalize sep (squeeze s) = y
      intro h
      cases h with
      | none => exact ⟨rfl, rfl⟩
      | some r h => omega
    have e : pStarN sep q m (squeeze s) = ([], squeeze s) := by
      cases m with
      | zero => rfl
      | succ m => simp only [pStarN, h0.2]
    rw [e]
    exact ⟨rfl, by simp [pStarN]⟩
  | succ n ih =>
    intro m s hn hm hk
    cases m with
    | zero =>
      have h0 : sep s = none := by
        have := hsep s
        revert this
        generalize sep s = x
        generalize sep (squeeze s) = y
        intro h
        cases h with
        | none => rfl
        | some r h => omega
      simp only [pStarN, h0]
      exact ⟨rfl, by simp⟩
    | succ m =>
      simp only [pStarN]
      have hs := hsep s
      revert hs
      generalize sep s = x
      generalize sep (squeeze s) = y
      intro hs
      cases hs with
      | none => exact ⟨rfl, by simp⟩
      | some r hr =>
        dsimp only
        have hq := hp r (by omega)
        revert hq
        generalize p r = x
        generalize q (squeeze r) = y
        intro hq
        cases hq with
        | none => exact ⟨rfl, by simp⟩
        | some a t ht =>
          have := ih m t (by omega) (by omega) (by omega)
          refine ⟨?_, ?_⟩
          · dsimp only; rw [this.1]
          · dsimp only; have := this.2; omega

theorem simP_many {α : Type} {k : Nat} {p q : Str → Option (α × Str)} (hp : Good k p q) :
    ∀ (n m : Nat) (s : Str), wt s ≤ n → wt s ≤ m → wt s < k →
      SimP (wt s + 1) (pManyN p n s) (pManyN q m (squeeze s)) := by
  intro n
  induction n with
  | zero =>
    intro m s hn _ hk
    have h0 : q (squeeze s) = none := by
      have := hp s hk
      revert this
      generalize p s = x
      generalize q (squeeze s) = y
      intro h
      cases h with
      | none => rfl
      | some a r h => omega
    have e : pManyN q m (squeeze s) = ([], squeeze s) := by
      cases m with
      | zero => rfl
      | succ m => simp only [pManyN, h0]
    rw [e]
    exact ⟨rfl, by simp [pManyN]⟩
  | succ n ih =>
    intro m s hn hm hk
    cases m with
    | zero =>
      have h0 : p s = none := by
        have := hp s hk
        revert this
        generalize p s = x
        generalize q (squeeze s) = y
        intro h
        cases h with
        | none => rfl
        | some a r h => omega
      simp only [pManyN, h0]
      exact ⟨rfl, by simp⟩
    | succ m =>
      simp only [pManyN]
      have hq := hp s hk
      revert hq
      generalize p s = x
      generalize q (squeeze s) = y
      intro hq
      cases hq with
      | none => exact ⟨rfl, by simp⟩
      | some a t ht =>
        have := ih m t (by omega) (by omega) (by omega)
        refine ⟨?_, ?_⟩
        · dsimp only; rw [this.1]
        · dsimp only; have := this.2; omega

theorem simP_star' {α : Type} {k : Nat} {sep : Str → Option Str} {p q : Str → Option (α × Str)}
    (hsep : ∀ s, SimS (wt s) (sep s) (sep (squeeze s))) (hp : Good k p q) (s : Str) (hk : wt s < k + 1) :
    SimP (wt s + 1) (pStarN sep p s.length s) (pStarN sep q (squeeze s).length (squeeze s)) :=
  simP_star hsep hp _ _ s (wt_le_length s) (by rw [← wt_squeeze]; exact wt_le_length _) hk

theorem simP_many' {α : Type} {k : Nat} {p q : Str → Option (α × Str)} (hp : Good k p q) (s : Str) (hk : wt s < k) :
    SimP (wt s + 1) (pManyN p s.length s) (pManyN q (squeeze s).length (squeeze s)) :=
  simP_many hp _ _ s (wt_le_length s) (by rw [← wt_squeeze]; exact wt_le_length _) hk

theorem sim_sep1 {α : Type} {k : Nat} {sep : Str → Option Str} {p q : Str → Option (α × Str)}
    (hsep : ∀ s, SimS (wt s) (sep s) (sep (squeeze s))) (hp : Good k p q) (s : Str) (hk : wt s < k) :
    Sim (wt s) (pSep1 sep p s) (pSep1 sep q (squeeze s)) := by
  unfold pSep1
  have hq := hp s hk
  revert hq
  generalize p s = x
  generalize q (squeeze s) = y
  intro hq
  cases hq with
  | none => exact .none
  | some a t ht =>
    have := simP_star' hsep hp t (by omega)
    dsimp only
    rw [this.1]
    have := this.2
    exact .some _ _ (by omega)

theorem simP_sep {α : Type} {k : Nat} {sep : Str → Option Str} {p q : Str → Option (α × Str)}
    (hsep : ∀ s, SimS (wt s) (sep s) (sep (squeeze s))) (hp : Good k p q) (s : Str) (hk : wt s < k) :
    SimP (wt s + 1) (pSep sep p s) (pSep sep q (squeeze s)) := by
  unfold pSep
  have hq := sim_sep1 hsep hp s hk
  revert hq
  generalize pSep1 sep p s = x
  generalize pSep1 sep q (squeeze s) = y
  intro hq
  cases hq with
  | none => exact ⟨rfl, by simp⟩
  | some a t ht => exact ⟨rfl, by dsimp only; omega⟩

theorem sim_first (s : Str) (ks : List Str) (h : ks.all (fun k => k.all plainC && !k.isEmpty) = true) :
    Sim (wt s) (pFirst ks s) (pFirst ks (squeeze s)) := by
  induction ks with
  | nil => exact .none
  | cons k ks ih =>
    simp only [List.all_cons, Bool.and_eq_true] at h
    have hl := simS_lit s k h.1.1 (by intro e; simp [e] at h)
    simp only [pFirst]
    revert hl
    generalize lit k s = x
    generalize lit k (squeeze s) = y
    intro hl
    cases hl with
    | none => exact ih h.2
    | some r hr => exact .some _ _ hr

theorem simS_commaSp (s : Str) : SimS (wt s) (commaSp s) (commaSp (squeeze s)) :=
  (simS_lit s _ (by decide) (by decide)).skip

theorem simS_spCommaSp (s : Str) : SimS (wt s) (spCommaSp s) (spCommaSp (squeeze s)) := by
  unfold spCommaSp
  rw [skip_squeeze]
  have := (simS_lit (skipSp s) cs!"," (by decide) (by decide)).skip
  rw [wt_skip] at this
  exact this

end Verif
