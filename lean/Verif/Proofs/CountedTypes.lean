import Verif.Proofs.CountedLists
import Verif.Proofs.Grammar
import Verif.Spec.Attempts
/-!
# How many attempts a type takes
-/

set_option autoImplicit false

namespace Verif
namespace Counted
open Grammar AttemptSpec

/-! ## Cuts -/

theorem cuts_of {α : Type} {G : α → Str → Prop} {q : Str → Option (α × Str)} (hq : Reads G q)
    (hG : ∀ a x, G a x → x ≠ []) {s r : Str} {a : α} (h : q s = some (a, r)) : r <:+ s ∧ r.length < s.length := by
  obtain ⟨x, e, hx⟩ := hq _ _ _ h
  have := List.length_pos_iff.2 (hG _ _ hx)
  subst e
  exact ⟨⟨x, rfl⟩, by simp; omega⟩

theorem lit_cut {k s r : Str} (h : lit k s = some r) : r <:+ s ∧ s.length = k.length + r.length := by
  have := lit_some h
  subst this
  exact ⟨⟨k, rfl⟩, by simp⟩

theorem skipSp_suffix (s : Str) : skipSp s <:+ s := List.dropWhile_suffix _

theorem skipSp_le (s : Str) : (skipSp s).length ≤ s.length := (skipSp_suffix s).length_le

theorem commaSp_cuts : SepCuts commaSp := by
  intro s r h
  unfold commaSp at h
  obtain ⟨t, h1, rfl⟩ := Option.map_eq_some_iff.1 h
  obtain ⟨e1, e2⟩ := lit_cut h1
  exact ⟨(skipSp_suffix t).trans e1, by have := skipSp_le t; simp at e2; omega⟩

theorem spCommaSp_cuts : SepCuts spCommaSp := by
  intro s r h
  unfold spCommaSp at h
  obtain ⟨t, h1, rfl⟩ := Option.map_eq_some_iff.1 h
  obtain ⟨e1, e2⟩ := lit_cut h1
  refine ⟨((skipSp_suffix t).trans e1).trans (skipSp_suffix s), ?_⟩
  have := skipSp_le t
  have := skipSp_le s
  simp at e2
  omega

theorem commaSp_none {r : Str} (h : r.head? ≠ some ',') : commaSp r = none := by
  unfold commaSp
  cases r with
  | nil => rfl
  | cons c r =>
    have : ',' ≠ c := fun e => h (by rw [← e]; rfl)
    simp [lit, this]

theorem tyText_ne {t : STy} {x : Str} (h : TyText t x) : x ≠ [] := by
  cases h with
  | simple h _ =>
    intro e
    rw [List.append_eq_nil_iff] at e
    rw [e.1] at h
    revert h
    unfold SimpleName
    decide
  | user _ h _ _ _ _ =>
    intro e
    simp only [List.append_eq_nil_iff] at e
    rw [e.2.1] at h
    obtain ⟨c, cs, hc, -⟩ := h
    cases hc
  | _ => simp

theorem ident_ne {x : Str} (h : Ident x) : x ≠ [] := by
  obtain ⟨c, cs, rfl, -⟩ := h
  simp

theorem intText_ne {i : IntTok} {x : Str} (h : IntText i x) : x ≠ [] := by
  cases h with
  | pos h => exact h.1
  | neg h => simp

theorem nameText_ne {n x : Str} (h : NameText n x) : x ≠ [] := by
  cases h with
  | ident h => exact ident_ne h
  | quoted h => simp

theorem paramText_ne {t : SParam} {x : Str} (h : ParamText t x) : x ≠ [] := by
  cases h with
  | ty h => exact tyText_ne h
  | int h => exact intText_ne h
  | name h => exact nameText_ne h

theorem typeN_cuts (n : Nat) : Cuts (typeN n) := fun _ _ _ h =>
  cuts_of (reads_tyN n) (fun _ _ => tyText_ne) (by rw [← val_typeN]; exact h)

/-! ## Alternatives that make no attempt -/

theorem or_idle {α : Type} (m : Counted α) {k : Counted α} (h : k.val = none) (h' : k.tries = 0) : m.or k = m := by
  obtain ⟨v, t⟩ := m
  unfold Counted.or
  cases v with
  | none => simp [h, h']
  | some a => rfl

theorem idle_or {α : Type} {m : Counted α} (k : Counted α) (h : m.val = none) (h' : m.tries = 0) : m.or k = k := by
  unfold Counted.or
  rw [h, h', Nat.zero_add]

theorem free_none_bind {α β : Type} {x : Option α} (f : α → Counted β) (h : x = none) :
    (free x >>= f).val = none ∧ (free x >>= f).tries = 0 := by
  subst h; exact ⟨by simp, tries_bind_none _ rfl⟩

theorem free_some_bind {α β : Type} {x : Option α} {a : α} (f : α → Counted β) (h : x = some a) :
    (free x >>= f) = f a := by
  subst h
  show Counted.bind _ _ = _
  simp [Counted.bind, free]

/-! ## Keywords -/

theorem litI_head {c : Char} {kw s r : Str} (h : litI (c :: kw) s = some r) :
    ∃ d t, s = d :: t ∧ toLower c = toLower d := by
  cases s with
  | nil => cases h
  | cons d t =>
    unfold litI at h
    split at h
    · exact ⟨d, t, rfl, by assumption⟩
    · cases h

theorem kw_other {c c' : Char} {kw kw' s : Str} {x : Nul × Str} (h : pKwOpen (c :: kw) s = some x)
    (hc : toLower c ≠ toLower c') : pKwOpen (c' :: kw') s = none := by
  unfold pKwOpen at h ⊢
  cases h2 : litI (c' :: kw') s with
  | none => rfl
  | some r =>
    cases h1 : litI (c :: kw) s with
    | none => rw [h1] at h; cases h
    | some r' =>
      obtain ⟨d, t, rfl, e⟩ := litI_head h1
      obtain ⟨d', t', e', e2⟩ := litI_head h2
      cases e'
      exact absurd (e.trans e2.symm) hc

theorem isAlpha_of_lower {c : Char} (h : isAlpha (toLower c) = true) : isAlpha c = true := by
  unfold toLower at h
  split at h
  · next h' => simp [isAlpha, h']
  · exact h

/-- Text that begins with a keyword of a compound type and an opening bracket also begins with the
name of a user-defined type. -/
theorem kw_user {c : Char} {kw s r : Str} {n : Nul} (hk : (c :: kw).map Char.toLower = c :: kw)
    (ha : ∀ d ∈ c :: kw, isAlpha d = true) (hu : c ≠ 'u') (h : pKwOpen (c :: kw) s = some (n, r)) :
    ∃ name t, name.map toLower = c :: kw ∧ pIdent (skipUBang s) = some (name, t) ∧
      pOpt pAnchor t = (none, t) ∧ pOpt pUrnAnchor t = (none, t) ∧ pNullability t = (n, '<' :: r) := by
  obtain ⟨k, z, e, hkw, hz⟩ := kwOpen_cut hk h
  have hkw' : k.map toLower = c :: kw := by
    have : k.map toLower = k.map Char.toLower := List.map_congr_left fun c _ => toLower_core c
    rw [this]; exact hkw
  have hal : ∀ d ∈ k, isAlpha d = true := fun d hd =>
    isAlpha_of_lower (ha _ (by rw [← hkw']; exact List.mem_map_of_mem hd))
  refine ⟨k, z ++ '<' :: r, hkw', ?_, ?_⟩
  · cases k with
    | nil => cases hkw'
    | cons d k =>
      have hd : 'u' ≠ d := by
        rintro rfl
        simp only [List.map_cons, List.cons.injEq] at hkw'
        exact hu (by rw [← hkw'.1]; decide)
      have hs : skipUBang s = s := by
        rw [e]
        simp [skipUBang, hd]
      rw [hs, e]
      have hi : ∀ x ∈ k, isIdentChar x = true := fun x hx => by
        have := hal x (List.mem_cons_of_mem _ hx)
        simp [isIdentChar, isAlnum, this]
      refine pIdent_append k _ d (hal d List.mem_cons_self) hi ?_
      cases hz <;> (intro x hx; cases hx; decide)
  · cases hz <;> simp [pOpt, pAnchor, pUrnAnchor, pNullability]

/-! ## Bounds -/

/-- Successful attempts at types in `G` are paid by the characters they take, `K` for each. -/
structure Paid (ty : Str → Counted (STy × Str)) (G : STy → Prop) (A : Str → Prop) (K : Nat) : Prop where
  cut : Cuts ty
  none : ∀ s, A s → (ty s).val = none → (ty s).tries ≤ K
  some : ∀ s a r, A s → (ty s).val = some (a, r) → G a → r.head? ≠ some '<' → (ty s).tries + K * r.length ≤ K * s.length

/-- In addition no attempt costs more than `K` for each character there is. -/
structure Fair (ty : Str → Counted (STy × Str)) (A : Str → Prop) (K : Nat) : Prop extends Paid ty (fun _ => True) A K where
  all : ∀ s, A s → (ty s).tries ≤ K * (s.length + 1)

/-- A condition on types for parameters. -/
def ParamG (G : STy → Prop) : SParam → Prop
  | .ty t => G t
  | _ => True

section step
variable {ty : Str → Counted (STy × Str)} {A : Str → Prop} {K : Nat} {G : STy → Prop}

theorem param_tries (s : Str) : (param ty s).tries = (ty s).tries := by
  unfold param
  cases h : (ty s).val with
  | some x =>
    have h1 : (mapFst SParam.ty (ty s)).val = some (SParam.ty x.1, x.2) := by simp [h, Verif.mapFst]
    have h2 := tries_or_some (free (Verif.mapFst SParam.int (pInteger s))) h1
    have h3 : ((mapFst SParam.ty (ty s)).or (free (Verif.mapFst .int (pInteger s)))).val = some (SParam.ty x.1, x.2) := by
      rw [val_or, h1]; rfl
    rw [tries_or_some _ h3, h2]; rfl
  | none =>
    have h1 : (mapFst SParam.ty (ty s)).val = none := by simp [h, Verif.mapFst]
    cases hi : pInteger s with
    | some y =>
      have h3 : ((mapFst SParam.ty (ty s)).or (free (some (SParam.int y.1, y.2)))).val = some (SParam.int y.1, y.2) := by
        rw [val_or, h1]; rfl
      simp only [Verif.mapFst]
      rw [tries_or_some _ h3, tries_or_none _ h1]; simp
    | none =>
      have h3 : ((mapFst SParam.ty (ty s)).or (free (Verif.mapFst SParam.int none))).val = none := by
        rw [val_or, h1]; rfl
      rw [tries_or_none _ h3, tries_or_none _ h1]; simp

theorem param_val {s r : Str} {a : SParam} (h : (param ty s).val = some (a, r)) :
    (∃ t, a = .ty t ∧ (ty s).val = some (t, r)) ∨ ((ty s).val = none ∧ r <:+ s ∧ r.length < s.length) := by
  unfold param at h
  simp only [val_or, val_mapFst, val_free] at h
  cases hv : (ty s).val with
  | some x =>
    rw [hv] at h
    cases h
    exact .inl ⟨_, rfl, rfl⟩
  | none =>
    rw [hv] at h
    refine .inr ⟨rfl, ?_⟩
    cases hi : pInteger s with
    | some y =>
      obtain ⟨i, r'⟩ := y
      rw [hi] at h
      cases h
      exact cuts_of reads_int (fun _ _ => intText_ne) hi
    | none =>
      rw [hi] at h
      cases hn : pName s with
      | none => rw [hn] at h; cases h
      | some y =>
        obtain ⟨i, r'⟩ := y
        rw [hn] at h
        cases h
        exact cuts_of reads_name (fun _ _ => nameText_ne) hn

theorem param_cuts (hc : Cuts ty) : Cuts (param ty) := by
  intro s a r h
  rcases param_val h with ⟨t, -, h⟩ | ⟨-, h⟩
  · exact hc _ _ _ h
  · exact h

theorem param_paid (hp : Paid ty G A K) (s : Str) (a : SParam) (r : Str) (h : A s)
    (hv : (param ty s).val = some (a, r)) (hg : ParamG G a) (hr : r.head? ≠ some '<') :
    (param ty s).tries + K * r.length ≤ K * s.length := by
  rw [param_tries]
  rcases param_val hv with ⟨t, rfl, h'⟩ | ⟨hn, h1, h2⟩
  · exact hp.some _ _ _ h h' hg hr
  · have := hp.none _ h hn
    have := pay K h2
    omega

theorem comma_stop (r : Str) (h : ¬ r.head? ≠ some '<') : commaSp r = none := by
  apply commaSp_none
  intro e
  apply h
  rw [e]
  decide

theorem paramsTail_tries (s : Str) : (paramsTail ty s).tries = (sep1 commaSp (param ty) s).tries := by
  rw [← sep0_tries]
  unfold paramsTail
  rw [tries_bind]
  cases (sep0 commaSp (param ty) s).val with
  | none => rfl
  | some x =>
    dsimp only
    rw [tries_bind]
    cases (free (lit ['>'] x.2)).val <;> simp

/-- What the parameters cost at most. -/
theorem paramsTail_le (hA : ∀ r s, r <:+ s → A s → A r) (hf : Fair ty A K) (s : Str) (h : A s) :
    (paramsTail ty s).tries ≤ K * (s.length + 1) := by
  rw [paramsTail_tries]
  refine sep1_le (ok := fun r => r.head? ≠ some '<') hA (param_cuts hf.cut) commaSp_cuts comma_stop ?_ ?_ s h
  · intro s h
    rw [param_tries]
    exact hf.all s h
  · intro s a r h hv hr
    exact param_paid hf.toPaid s a r h hv (by cases a <;> trivial) hr

/-- What the parameters cost when they are closed. -/
theorem paramsTail_paid (hA : ∀ r s, r <:+ s → A s → A r) (hp : Paid ty G A K) {s r : Str} {ps : List SParam} (h : A s)
    (hv : (paramsTail ty s).val = some (ps, r)) (hg : ∀ a ∈ ps, ParamG G a) :
    (paramsTail ty s).tries + K * r.length ≤ K * s.length := by
  rw [paramsTail_tries, ← sep0_tries]
  unfold paramsTail at hv
  simp only [val_bind, val_free, val_pure, Option.bind_eq_some_iff] at hv
  obtain ⟨⟨ps', r0⟩, h1, r1, h2, h3⟩ := hv
  cases h3
  dsimp only at h2 hg
  have e := lit_some h2
  have hstop : ∀ s : Str, s.head? = some '>' → commaSp s = none := fun s hs => commaSp_none (by rw [hs]; decide)
  have := sep0_paid (G := ParamG G) (ok := fun r => r.head? ≠ some '<') (Q := fun r => r.head? = some '>') hA
    (param_cuts hp.cut) commaSp_cuts comma_stop (fun r hr => by rw [hr]; decide)
    (fun s s1 _ hs h1 _ => by rw [hstop s hs] at h1; cases h1)
    (fun s hs _ hn => by
      rw [param_tries]
      refine hp.none s hs ?_
      cases hv : (ty s).val with
      | none => rfl
      | some x => simp [param, hv, Verif.mapFst] at hn)
    (param_paid hp) h h1 hg (by rw [e]; rfl)
  rw [e, List.length_append] at this
  have e2 := pay1 K r.length
  have : K * ((cs!">").length + r.length) = K * r.length + K := by rw [← e2]; congr 1; simp; omega
  omega

/-! ### The alternatives -/

theorem listType_none {s : Str} (h : pKwOpen cs!"list" s = none) :
    (listType ty s).val = none ∧ (listType ty s).tries = 0 := free_none_bind _ h

theorem mapType_none {s : Str} (h : pKwOpen cs!"map" s = none) :
    (mapType ty s).val = none ∧ (mapType ty s).tries = 0 := free_none_bind _ h

theorem structType_none {s : Str} (h : pKwOpen cs!"struct" s = none) :
    (structType ty s).val = none ∧ (structType ty s).tries = 0 := free_none_bind _ h

theorem intType_none {kw s : Str} {f : Nul → IntTok → STy} (h : pKwOpen kw s = none) : pIntType kw f s = none := by
  unfold pIntType
  rw [h]; rfl

/-- A text that begins as a list is tried as a list only. -/
theorem compound_list {s : Str} {x : Nul × Str} (h : pKwOpen cs!"list" s = some x) :
    compound ty s = listType ty s := by
  unfold compound
  have hm := mapType_none (ty := ty) (kw_other h (c' := 'm') (kw' := cs!"ap") (by decide))
  have hs := structType_none (ty := ty) (kw_other h (c' := 's') (kw' := cs!"truct") (by decide))
  rw [or_idle _ (k := mapType ty s) hm.1 hm.2, or_idle _ (k := structType ty s) hs.1 hs.2,
    or_idle _ (k := free (pIntType cs!"precisiontimestamptz" (.prec .timestampTz) s))
      (intType_none (kw_other h (by decide))) rfl,
    or_idle _ (k := free (pIntType cs!"precisiontimestamp" (.prec .timestamp) s))
      (intType_none (kw_other h (by decide))) rfl,
    or_idle _ (k := free (pIntType cs!"precisiontime" (.prec .time) s))
      (intType_none (kw_other h (by decide))) rfl,
    or_idle _ (k := free (pIntType cs!"interval_day" .intervalDay s))
      (intType_none (kw_other h (by decide))) rfl]

/-- A text that begins as a map is tried as a map only. -/
theorem compound_map {s : Str} {x : Nul × Str} (h : pKwOpen cs!"map" s = some x) :
    compound ty s = mapType ty s := by
  unfold compound
  have hm := listType_none (ty := ty) (kw_other h (c' := 'l') (kw' := cs!"ist") (by decide))
  have hs := structType_none (ty := ty) (kw_other h (c' := 's') (kw' := cs!"truct") (by decide))
  rw [idle_or (m := listType ty s) _ hm.1 hm.2, or_idle _ (k := structType ty s) hs.1 hs.2,
    or_idle _ (k := free (pIntType cs!"precisiontimestamptz" (.prec .timestampTz) s))
      (intType_none (kw_other h (by decide))) rfl,
    or_idle _ (k := free (pIntType cs!"precisiontimestamp" (.prec .timestamp) s))
      (intType_none (kw_other h (by decide))) rfl,
    or_idle _ (k := free (pIntType cs!"precisiontime" (.prec .time) s))
      (intType_none (kw_other h (by decide))) rfl,
    or_idle _ (k := free (pIntType cs!"interval_day" .intervalDay s))
      (intType_none (kw_other h (by decide))) rfl]

/-- A text that begins as a struct is tried as a struct only. -/
theorem compound_struct {s : Str} {x : Nul × Str} (h : pKwOpen cs!"struct" s = some x) :
    compound ty s = structType ty s := by
  unfold compound
  have hl := listType_none (ty := ty) (kw_other h (c' := 'l') (kw' := cs!"ist") (by decide))
  have hm := mapType_none (ty := ty) (kw_other h (c' := 'm') (kw' := cs!"ap") (by decide))
  rw [idle_or (m := listType ty s) _ hl.1 hl.2, idle_or (m := mapType ty s) _ hm.1 hm.2,
    or_idle _ (k := free (pIntType cs!"precisiontimestamptz" (.prec .timestampTz) s))
      (intType_none (kw_other h (by decide))) rfl,
    or_idle _ (k := free (pIntType cs!"precisiontimestamp" (.prec .timestamp) s))
      (intType_none (kw_other h (by decide))) rfl,
    or_idle _ (k := free (pIntType cs!"precisiontime" (.prec .time) s))
      (intType_none (kw_other h (by decide))) rfl,
    or_idle _ (k := free (pIntType cs!"interval_day" .intervalDay s))
      (intType_none (kw_other h (by decide))) rfl]

/-- Without these beginnings no nested type is tried. -/
theorem compound_flat {s : Str} (hl : pKwOpen cs!"list" s = none) (hm : pKwOpen cs!"map" s = none)
    (hs : pKwOpen cs!"struct" s = none) : (compound ty s).tries = 0 := by
  have hl' := listType_none (ty := ty) hl
  have hm' := mapType_none (ty := ty) hm
  have hs' := structType_none (ty := ty) hs
  unfold compound
  rw [idle_or (m := listType ty s) _ hl'.1 hl'.2, idle_or (m := mapType ty s) _ hm'.1 hm'.2,
    idle_or (m := structType ty s) _ hs'.1 hs'.2]
  refine Nat.le_zero.1 (Nat.le_trans (tries_or_le _ _) ?_)
  refine Nat.le_trans (Nat.add_le_add_right (tries_or_le _ _) _) ?_
  refine Nat.le_trans (Nat.add_le_add_right (Nat.add_le_add_right (tries_or_le _ _) _) _) ?_
  simp

theorem listType_tries {s t : Str} {n : Nul} (h : pKwOpen cs!"list" s = some (n, t)) :
    (listType ty s).tries = (ty t).tries := by
  unfold listType
  rw [free_some_bind _ h]
  dsimp only
  rw [tries_bind]
  cases (ty t).val with
  | none => rfl
  | some x =>
    dsimp only
    rw [tries_bind]
    cases (free (lit ['>'] x.2)).val <;> simp

theorem structType_tries {s t : Str} {n : Nul} (h : pKwOpen cs!"struct" s = some (n, t)) :
    (structType ty s).tries = (paramsTail ty t).tries := by
  unfold structType
  rw [free_some_bind _ h]
  dsimp only
  rw [tries_bind]
  cases (paramsTail ty t).val <;> rfl

theorem mapType_tries {s t : Str} {n : Nul} (h : pKwOpen cs!"map" s = some (n, t)) :
    (mapType ty s).tries = (ty t).tries +
      (match (ty t).val with
      | none => 0
      | some x => match lit cs!"," x.2 with
        | none => 0
        | some u => (ty (skipSp u)).tries) := by
  unfold mapType
  rw [free_some_bind _ h]
  dsimp only
  rw [tries_bind]
  cases (ty t).val with
  | none => rfl
  | some x =>
    dsimp only
    cases hl : lit cs!"," x.2 with
    | none => rw [(free_none_bind _ rfl).2]
    | some u =>
      rw [free_some_bind _ rfl]
      dsimp only
      rw [tries_bind]
      cases (ty (skipSp u)).val with
      | none => rfl
      | some y =>
        dsimp only
        rw [tries_bind]
        cases (free (lit ['>'] y.2)).val <;> simp

/-- Where the parameters of a user-defined type begin. -/
def userRest (s : Str) : Str := (pNullability (pOpt pUrnAnchor (pOpt pAnchor s).2).2).2

theorem userRest_suffix (s : Str) : userRest s <:+ s := by
  unfold userRest
  obtain ⟨x, e1, -⟩ := Reads.opt reads_anchor (s := s) (a := (pOpt pAnchor s).1) (r := (pOpt pAnchor s).2) rfl
  obtain ⟨y, e2, -⟩ := Reads.opt reads_urnAnchor (s := (pOpt pAnchor s).2)
    (a := (pOpt pUrnAnchor (pOpt pAnchor s).2).1) (r := (pOpt pUrnAnchor (pOpt pAnchor s).2).2) rfl
  obtain ⟨n, t, z, e3, e4, -⟩ := nullability_cut (pOpt pUrnAnchor (pOpt pAnchor s).2).2
  rw [e3]
  refine ⟨x ++ (y ++ z), ?_⟩
  rw [List.append_assoc, List.append_assoc, ← e4, ← e2, ← e1]

theorem user_some {s name t : Str} (h : pIdent (skipUBang s) = some (name, t)) :
    (user ty s).tries = (params ty (userRest t)).tries ∧
    ∃ a u n, (user ty s).val = some (.user name a u n (pOpt (fun s => (params ty s).val) (userRest t)).1,
      (pOpt (fun s => (params ty s).val) (userRest t)).2) := by
  unfold user
  rw [free_some_bind _ h]
  dsimp only
  constructor
  · rw [tries_bind_some _ (val_opt _ _)]
    simp [userRest]
  · exact ⟨(pOpt pAnchor t).1, (pOpt pUrnAnchor (pOpt pAnchor t).2).1,
      (pNullability (pOpt pUrnAnchor (pOpt pAnchor t).2).2).1, by rw [val_bind, val_opt, Option.bind_some]; rfl⟩

theorem user_none {s : Str} (h : pIdent (skipUBang s) = none) : (user ty s).tries = 0 ∧ (user ty s).val = none :=
  ⟨(free_none_bind _ h).2, (free_none_bind _ h).1⟩

theorem ident_cut {s name t : Str} (h : pIdent (skipUBang s) = some (name, t)) : t <:+ s ∧ t.length < s.length := by
  have h1 := cuts_of (G := fun n x => n = x ∧ Ident x) (fun s a r h => by
    obtain ⟨x, e, hx⟩ := reads_ident _ _ _ h
    exact ⟨x, e, hx⟩) (fun _ _ h => ident_ne h.2) h
  have h2 : skipUBang s <:+ s := by
    unfold skipUBang
    cases hl : lit cs!"u!" s with
    | none => exact List.suffix_refl s
    | some r => exact (lit_cut hl).1
  exact ⟨h1.1.trans h2, Nat.lt_of_lt_of_le h1.2 h2.length_le⟩

theorem params_open (t : Str) : params ty ('<' :: t) = paramsTail ty t := by
  unfold params
  exact free_some_bind _ (by simp [lit])

theorem params_shut {s : Str} (h : s.head? ≠ some '<') : (params ty s).tries = 0 ∧ (params ty s).val = none := by
  have : lit cs!"<" s = none := by
    cases s with
    | nil => rfl
    | cons c s =>
      have : '<' ≠ c := fun e => h (by rw [← e]; rfl)
      simp [lit, this]
  exact ⟨(free_none_bind _ this).2, (free_none_bind _ this).1⟩

/-- The parameters after an opening bracket are tried at least once, at their beginning. -/
theorem paramsTail_ge (t : Str) : (ty t).tries ≤ (paramsTail ty t).tries := by
  rw [paramsTail_tries, ← param_tries]
  cases h : (param ty t).val with
  | none => rw [(sep1_none h).1]; exact Nat.le_refl _
  | some x => rw [(sep1_some (sep := commaSp) (s2 := x.2) (a := x.1) h).1]; exact Nat.le_add_right _ _

theorem mapType_ge {s t : Str} {n : Nul} (h : pKwOpen cs!"map" s = some (n, t)) :
    (mapType ty s).tries ≤ (paramsTail ty t).tries := by
  rw [mapType_tries h]
  cases hv : (ty t).val with
  | none => exact paramsTail_ge t
  | some x =>
    dsimp only
    cases hl : lit cs!"," x.2 with
    | none => exact paramsTail_ge t
    | some u =>
      dsimp only
      have hp : (param ty t).val = some (.ty x.1, x.2) := by
        simp [param, hv, Verif.mapFst]
      rw [paramsTail_tries, (sep1_some (sep := commaSp) hp).1, param_tries]
      have hlen : ∃ m, x.2.length = m + 1 := by
        have := (lit_cut hl).2
        exact ⟨u.length, by simp at this; omega⟩
      obtain ⟨m, hm⟩ := hlen
      rw [hm]
      have hcs : commaSp x.2 = some (skipSp u) := by simp [commaSp, hl]
      cases hq : (param ty (skipSp u)).val with
      | none => rw [(starN_fail hcs hq).1, param_tries]; exact Nat.le_refl _
      | some y =>
        rw [(starN_step (a := y.1) (s2 := y.2) hcs hq).1, param_tries]; omega

/-- **Attempts made by a compound type that fails are made again by the user-defined type.** -/
theorem compound_le_user (s : Str) : (compound ty s).val = none → (compound ty s).tries ≤ (user ty s).tries := by
  intro _
  cases hl : pKwOpen cs!"list" s with
  | some x =>
    obtain ⟨n, t⟩ := x
    obtain ⟨name, u, -, h1, h2, h3, h4⟩ := kw_user (by decide) (by decide) (by decide) hl
    have : userRest u = '<' :: t := by simp [userRest, h2, h3, h4]
    rw [compound_list hl, listType_tries hl, (user_some h1).1, this, params_open]
    exact paramsTail_ge t
  | none =>
    cases hm : pKwOpen cs!"map" s with
    | some x =>
      obtain ⟨n, t⟩ := x
      obtain ⟨name, u, -, h1, h2, h3, h4⟩ := kw_user (by decide) (by decide) (by decide) hm
      have : userRest u = '<' :: t := by simp [userRest, h2, h3, h4]
      rw [compound_map hm, (user_some h1).1, this, params_open]
      exact mapType_ge hm
    | none =>
      cases hs : pKwOpen cs!"struct" s with
      | some x =>
        obtain ⟨n, t⟩ := x
        obtain ⟨name, u, -, h1, h2, h3, h4⟩ := kw_user (by decide) (by decide) (by decide) hs
        have : userRest u = '<' :: t := by simp [userRest, h2, h3, h4]
        rw [compound_struct hs, structType_tries hs, (user_some h1).1, this, params_open]
        exact Nat.le_refl _
      | none => rw [compound_flat hl hm hs]; exact Nat.zero_le _

/-! ### One level -/

/-- A condition on the immediate parts of a type. -/
def SubG (G : STy → Prop) : STy → Prop
  | .list _ t => G t
  | .map _ a b => G a ∧ G b
  | .struct _ ps => ∀ a ∈ ps, ParamG G a
  | .user _ _ _ _ (some ps) => ∀ a ∈ ps, ParamG G a
  | _ => True

theorem subG_true (b : STy) : SubG (fun _ => True) b := by
  have hp : ∀ q, ParamG (fun _ => True) q := fun q => by cases q <;> trivial
  cases b with
  | list n t => trivial
  | map n a b => exact ⟨trivial, trivial⟩
  | struct n ps => exact fun q _ => hp q
  | user _ _ _ _ ps => cases ps with
    | none => trivial
    | some ps => exact fun q _ => hp q
  | _ => trivial

section level
variable {A' : Str → Prop} (hA : ∀ r s, r <:+ s → A s → A r) (hAA : ∀ s t, A' s → ('<' :: t) <:+ s → A t)
include hA hAA

omit hA in
theorem kw_inside {kw s t : Str} {n : Nul} (hk : kw.map Char.toLower = kw) (hs : A' s) (h : pKwOpen kw s = some (n, t)) :
    A t ∧ t.length < s.length := by
  obtain ⟨k, z, e, -, -⟩ := kwOpen_cut hk h
  refine ⟨hAA s t hs ⟨k ++ z, by rw [e]; simp⟩, ?_⟩
  rw [e]
  simp
  omega

theorem compound_paid (hp : Paid ty G A K) {s r : Str} {a : STy} (hs : A' s) (hv : (compound ty s).val = some (a, r))
    (hg : SubG G a) : (compound ty s).tries + K * r.length + K ≤ K * s.length ∨ (compound ty s).tries = 0 := by
  cases hl : pKwOpen cs!"list" s with
  | some x =>
    obtain ⟨n, t⟩ := x
    obtain ⟨hat, hlt⟩ := kw_inside hAA (by decide) hs hl
    have hpay := pay K hlt
    rw [compound_list hl] at hv ⊢
    rw [listType_tries hl]
    unfold listType at hv
    simp only [val_bind, val_free, val_pure, Option.bind_eq_some_iff] at hv
    obtain ⟨x, h1, ⟨t', r1⟩, h2, r2, h3, h4⟩ := hv
    rw [hl] at h1
    cases h1
    cases h4
    have e := lit_some h3
    dsimp only at e h2
    have := hp.some _ _ _ hat h2 hg (by rw [e]; simp)
    have h5 : r.length < r1.length := by rw [e]; simp
    have := pay K h5
    left
    omega
  | none =>
    cases hm : pKwOpen cs!"map" s with
    | some x =>
      obtain ⟨n, t⟩ := x
      obtain ⟨hat, hlt⟩ := kw_inside hAA (by decide) hs hm
      have hpay := pay K hlt
      rw [compound_map hm] at hv ⊢
      rw [mapType_tries hm]
      unfold mapType at hv
      simp only [val_bind, val_free, val_pure, Option.bind_eq_some_iff] at hv
      obtain ⟨x, h1, ⟨t', r1⟩, h2, r2, h3, ⟨u', r3⟩, h4, r4, h5, h6⟩ := hv
      rw [hm] at h1
      cases h1
      cases h6
      dsimp only at h2 h3 h4 h5
      rw [h2]
      dsimp only
      rw [h3]
      dsimp only
      have e1 := lit_some h3
      have e2 := lit_some h5
      have p1 := hp.some _ _ _ hat h2 hg.1 (by rw [e1]; simp)
      have p2 := hp.some _ _ _ (hA _ _ (((skipSp_suffix r2).trans (lit_cut h3).1).trans (hp.cut _ _ _ h2).1) hat) h4 hg.2
        (by rw [e2]; simp)
      have p3 := pay' K (skipSp_le r2)
      have p4 : K * r2.length + K ≤ K * r1.length := pay K (by rw [e1]; simp)
      have p5 : K * r.length + K ≤ K * r3.length := pay K (by rw [e2]; simp)
      left
      omega
    | none =>
      cases hst : pKwOpen cs!"struct" s with
      | some x =>
        obtain ⟨n, t⟩ := x
        obtain ⟨hat, hlt⟩ := kw_inside hAA (by decide) hs hst
        have hpay := pay K hlt
        rw [compound_struct hst] at hv ⊢
        rw [structType_tries hst]
        unfold structType at hv
        simp only [val_bind, val_free, val_pure, Option.bind_eq_some_iff] at hv
        obtain ⟨x, h1, ⟨t', r1⟩, h2, h3⟩ := hv
        rw [hst] at h1
        cases h1
        cases h3
        have := paramsTail_paid hA hp hat h2 hg
        dsimp only
        left
        omega
      | none => exact .inr (compound_flat hl hm hst)

theorem user_paid (hp : Paid ty G A K) {s r : Str} {a : STy} (hs : A' s) (hv : (user ty s).val = some (a, r))
    (hg : SubG G a) (hr : r.head? ≠ some '<') : (user ty s).tries + K * r.length + K ≤ K * s.length := by
  cases hi : pIdent (skipUBang s) with
  | none => rw [(user_none hi).2] at hv; cases hv
  | some x =>
    obtain ⟨name, t⟩ := x
    obtain ⟨h1, a', u', n', h2⟩ := user_some (ty := ty) hi
    obtain ⟨c1, c2⟩ := ident_cut hi
    have p1 := pay K c2
    have p2 := pay' K (userRest_suffix t).length_le
    rw [hv] at h2
    rw [h1]
    simp only [pOpt] at h2
    by_cases ho : (userRest t).head? = some '<'
    · obtain ⟨w, hw⟩ : ∃ w, userRest t = '<' :: w := by
        cases h : userRest t with
        | nil => rw [h] at ho; cases ho
        | cons c w => rw [h] at ho; cases ho; exact ⟨w, rfl⟩
      have hat : A w := hAA s w hs (by rw [← hw]; exact (userRest_suffix t).trans c1)
      rw [hw] at h2 p2 ⊢
      rw [params_open] at h2 ⊢
      cases hv2 : (paramsTail ty w).val with
      | none =>
        rw [hv2] at h2
        cases h2
        exact absurd rfl hr
      | some y =>
        obtain ⟨ps, r'⟩ := y
        rw [hv2] at h2
        cases h2
        have := paramsTail_paid hA hp hat hv2 hg
        have p3 : K * w.length + K ≤ K * ('<' :: w).length := pay K (by simp)
        dsimp only
        omega
    · obtain ⟨e1, e2⟩ := params_shut (ty := ty) ho
      rw [e2] at h2
      cases h2
      rw [e1]
      dsimp only
      omega

theorem user_le (hf : Fair ty A K) {s : Str} (hs : A' s) : (user ty s).tries ≤ K * s.length := by
  cases hi : pIdent (skipUBang s) with
  | none => rw [(user_none hi).1]; exact Nat.zero_le _
  | some x =>
    obtain ⟨name, t⟩ := x
    obtain ⟨h1, -⟩ := user_some (ty := ty) hi
    obtain ⟨c1, c2⟩ := ident_cut hi
    rw [h1]
    by_cases ho : (userRest t).head? = some '<'
    · obtain ⟨w, hw⟩ : ∃ w, userRest t = '<' :: w := by
        cases h : userRest t with
        | nil => rw [h] at ho; cases ho
        | cons c w => rw [h] at ho; cases ho; exact ⟨w, rfl⟩
      have hsuf : ('<' :: w) <:+ s := by rw [← hw]; exact (userRest_suffix t).trans c1
      rw [hw, params_open]
      exact Nat.le_trans (paramsTail_le hA hf w (hAA s w hs hsuf)) (pay' K hsuf.length_le)
    · rw [(params_shut ho).1]; exact Nat.zero_le _

/-- One level of `type`. -/
def tyStep (ty : Str → Counted (STy × Str)) (s : Str) : Counted (STy × Str) :=
  tick (((free (pSimpleType s)).or (compound ty s)).or (user ty s))

omit hA hAA in
theorem tyStep_none {s : Str} (h : (tyStep ty s).val = none) : (tyStep ty s).tries = 1 := by
  unfold tyStep at h ⊢
  simp only [val_tick, val_or, val_free, Option.or_eq_none_iff] at h
  have hu : (user ty s).tries = 0 := by
    cases hi : pIdent (skipUBang s) with
    | none => exact (user_none hi).1
    | some x =>
      obtain ⟨_, _, _, _, e⟩ := user_some (ty := ty) (name := x.1) (t := x.2) hi
      rw [e] at h
      cases h.2
  have := compound_le_user s h.1.2
  have h1 : (tick (((free (pSimpleType s)).or (compound ty s)).or (user ty s))).tries ≤ 1 := by
    rw [tries_tick]
    refine Nat.add_le_add_right (Nat.le_trans (tries_or_le _ _) ?_) 1
    refine Nat.le_trans (Nat.add_le_add_right (tries_or_le _ _) _) ?_
    simp
    omega
  have h2 : 1 ≤ (tick (((free (pSimpleType s)).or (compound ty s)).or (user ty s))).tries := by simp
  omega

/-- One more level at most doubles the cost. -/
theorem tyStep_fair (hf : Fair ty A K) (hc : Cuts (tyStep ty)) : Fair (tyStep ty) A' (2 * K + 1) where
  cut := hc
  none := fun s _ h => by rw [tyStep_none h]; omega
  some := fun s a r hs hv _ hr => by
    have hlt := (hc _ _ _ hv).2
    have e1 : (2 * K + 1) * r.length = 2 * (K * r.length) + r.length := by rw [Nat.add_mul, Nat.mul_assoc, Nat.one_mul]
    have e2 : (2 * K + 1) * s.length = 2 * (K * s.length) + s.length := by rw [Nat.add_mul, Nat.mul_assoc, Nat.one_mul]
    have p := pay K hlt
    rw [e1, e2]
    unfold tyStep at hv ⊢
    rw [tries_tick]
    simp only [val_tick, val_or, val_free] at hv
    cases h1 : pSimpleType s with
    | some x =>
      rw [tries_or_some (a := x) _ (by rw [val_or]; rfl), tries_or_some (a := x) _ rfl, tries_free]
      omega
    | none =>
      rw [h1] at hv
      rw [idle_or (m := free none) _ rfl rfl]
      cases h2 : (compound ty s).val with
      | some x =>
        rw [h2] at hv
        cases hv
        rw [tries_or_some _ h2]
        rcases compound_paid hA hAA hf.toPaid hs h2 (subG_true a) with h | h <;> omega
      | none =>
        rw [h2] at hv
        rw [tries_or_none _ h2]
        have := compound_le_user s h2
        have := user_paid hA hAA hf.toPaid hs hv (subG_true a) hr
        omega
  all := fun s hs => by
    have hu := user_le hA hAA hf hs
    have hcm : (compound ty s).tries ≤ K * s.length := by
      cases h2 : (compound ty s).val with
      | none => exact Nat.le_trans (compound_le_user s h2) hu
      | some x =>
        rcases compound_paid hA hAA hf.toPaid (a := x.1) (r := x.2) hs h2 (subG_true _) with h | h <;> omega
    have e : (2 * K + 1) * (s.length + 1) = 2 * (K * s.length) + 2 * K + s.length + 1 := by
      rw [Nat.add_mul, Nat.mul_assoc, pay1, Nat.one_mul]; omega
    unfold tyStep
    rw [tries_tick, e]
    have := tries_or_le ((free (pSimpleType s)).or (compound ty s)) (user ty s)
    have := tries_or_le (free (pSimpleType s)) (compound ty s)
    rw [tries_free] at this
    omega

end level

/-! ### Types without the names of compound types -/

theorem clean_sub {t : STy} (h : Clean t) : SubG Clean t := by
  have hp : ∀ l : List SParam, (∀ t, .ty t ∈ l → Clean t) → ∀ a ∈ l, ParamG Clean a := by
    intro l h a ha
    cases a with
    | ty t => exact h t ha
    | _ => trivial
  cases h with
  | list h => exact h
  | map h1 h2 => exact ⟨h1, h2⟩
  | struct h => exact hp _ h
  | @user _ _ _ _ ps _ h => cases ps with
    | none => trivial
    | some l => exact hp l (h l rfl)
  | _ => trivial

theorem tyStep_clean (hp : Paid ty Clean (fun _ => True) 1) (hc : Cuts (tyStep ty)) :
    Paid (tyStep ty) Clean (fun _ => True) 1 where
  cut := hc
  none := fun s _ h => by rw [tyStep_none h]; exact Nat.le_refl _
  some := fun s a r hs hv hg hr => by
    have hlt := (hc _ _ _ hv).2
    unfold tyStep at hv ⊢
    rw [tries_tick]
    simp only [val_tick, val_or, val_free] at hv
    cases h1 : pSimpleType s with
    | some x =>
      rw [tries_or_some (a := x) _ (by rw [val_or]; rfl), tries_or_some (a := x) _ rfl, tries_free]
      omega
    | none =>
      rw [h1] at hv
      rw [idle_or (m := free none) _ rfl rfl]
      cases h2 : (compound ty s).val with
      | some x =>
        rw [h2] at hv
        cases hv
        rw [tries_or_some _ h2]
        rcases compound_paid (A' := fun _ => True) (fun _ _ _ _ => trivial) (fun _ _ _ _ => trivial) hp trivial h2
          (clean_sub hg) with h | h <;> omega
      | none =>
        rw [h2] at hv
        rw [tries_or_none _ h2]
        have hu := user_paid (A' := fun _ => True) (fun _ _ _ _ => trivial) (fun _ _ _ _ => trivial) hp trivial hv
          (clean_sub hg) hr
        have hz : (compound ty s).tries = 0 := by
          have key : ∀ {c : Char} {kw : Str} {x : Nul × Str}, (c :: kw).map Char.toLower = c :: kw →
              (∀ d ∈ c :: kw, isAlpha d = true) → c ≠ 'u' → pKwOpen (c :: kw) s = some x →
              (c :: kw) ∉ [cs!"list", cs!"map", cs!"struct"] := by
            intro c kw x k1 k2 k3 hk
            obtain ⟨name, t, e, hi, -⟩ := kw_user (n := x.1) (r := x.2) k1 k2 k3 hk
            obtain ⟨-, a', u', n', e2⟩ := user_some (ty := ty) hi
            have hv' : (user ty s).val = some (a, r) := hv
            rw [hv'] at e2
            cases e2
            cases hg with
            | user h _ => rw [← e]; exact h
          apply compound_flat
          · cases h : pKwOpen cs!"list" s with
            | none => rfl
            | some x => exact absurd (key (by decide) (by decide) (by decide) h) (by decide)
          · cases h : pKwOpen cs!"map" s with
            | none => rfl
            | some x => exact absurd (key (by decide) (by decide) (by decide) h) (by decide)
          · cases h : pKwOpen cs!"struct" s with
            | none => rfl
            | some x => exact absurd (key (by decide) (by decide) (by decide) h) (by decide)
        omega

end step

/-- Texts with fewer than `k` opening angle brackets cost at most `2 ^ k - 1` attempts for each
character. -/
theorem typeN_fair : ∀ (n k : Nat), Fair (typeN n) (fun s => s.count '<' < k) (2 ^ k - 1)
  | n, 0 => {
      cut := typeN_cuts n
      none := fun _ h => absurd h (Nat.not_lt_zero _)
      some := fun _ _ _ h => absurd h (Nat.not_lt_zero _)
      all := fun _ h => absurd h (Nat.not_lt_zero _) }
  | 0, k + 1 => by
    have hk : 1 ≤ 2 ^ (k + 1) - 1 := by
      have := Nat.one_le_two_pow (n := k)
      rw [Nat.pow_succ]
      omega
    exact {
      cut := typeN_cuts 0
      none := fun _ _ _ => hk
      some := fun _ _ _ _ h => by cases h
      all := fun s _ => by
        show 1 ≤ _
        rw [pay1]
        omega }
  | n + 1, k + 1 => by
    have := tyStep_fair (A' := fun s => s.count '<' < k + 1)
      (fun r s h hs => Nat.lt_of_le_of_lt (h.sublist.count_le _) hs)
      (fun s t hs h => by
        have := h.sublist.count_le '<'
        rw [List.count_cons_self] at this
        show List.count '<' t < k
        omega) (typeN_fair n k) (typeN_cuts (n + 1))
    have e : 2 * (2 ^ k - 1) + 1 = 2 ^ (k + 1) - 1 := by
      have := Nat.one_le_two_pow (n := k)
      rw [Nat.pow_succ]
      omega
    rw [e] at this
    exact this


/-- Types without the names of compound types take no more attempts than characters. -/
theorem typeN_clean : ∀ n, Paid (typeN n) Clean (fun _ => True) 1
  | 0 => {
      cut := typeN_cuts 0
      none := fun _ _ _ => Nat.le_refl _
      some := fun _ _ _ _ h => by cases h }
  | n + 1 => tyStep_clean (typeN_clean n) (typeN_cuts (n + 1))

end Counted
end Verif
