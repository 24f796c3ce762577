import Verif.Spec.Grammar
import Verif.Proofs.Peg
import Verif.Proofs.Types
/-!
# The recognisers accept only what the grammar derives
-/

namespace Verif

set_option autoImplicit false

open Grammar

/-- Whatever `p` matches is a spelling of what it answers. -/
def Reads {α : Type} (G : α → Str → Prop) (p : Str → Option (α × Str)) : Prop :=
  ∀ s a r, p s = some (a, r) → ∃ x, s = x ++ r ∧ G a x

/-- The same for separators. -/
def Skips (G : Str → Prop) (p : Str → Option Str) : Prop :=
  ∀ s r, p s = some r → ∃ x, s = x ++ r ∧ G x

section generic
variable {α β : Type} {G : α → Str → Prop} {sep : Str → Prop}

theorem Reads.orElse {p q : Str → Option (α × Str)} (hp : Reads G p) (hq : Reads G q) :
    Reads G (fun s => (p s).or (q s)) := by
  intro s a r h
  rcases Option.or_eq_some_iff.1 h with h | ⟨-, h⟩
  · exact hp _ _ _ h
  · exact hq _ _ _ h

theorem Reads.mapFst {H : β → Str → Prop} {p : Str → Option (α × Str)} (f : α → β) (hp : Reads G p)
    (hf : ∀ a x, G a x → H (f a) x) : Reads H (fun s => mapFst f (p s)) := by
  intro s b r h
  dsimp only at h
  cases hps : p s with
  | none => rw [hps] at h; cases h
  | some ar =>
    obtain ⟨a, r'⟩ := ar
    rw [hps] at h
    cases h
    obtain ⟨x, e, hx⟩ := hp _ _ _ hps
    exact ⟨x, e, hf _ _ hx⟩

theorem Reads.star {psep : Str → Option Str} {p : Str → Option (α × Str)} (hs : Skips sep psep)
    (hp : Reads G p) : ∀ (n : Nat) (s : Str),
      ∃ x, s = x ++ (pStarN psep p n s).2 ∧ Rest sep G (pStarN psep p n s).1 x
  | 0, s => ⟨[], rfl, .nil⟩
  | n + 1, s => by
    unfold pStarN
    cases h1 : psep s with
    | none => exact ⟨[], rfl, .nil⟩
    | some s1 =>
      cases h2 : p s1 with
      | none => simp only [h2]; exact ⟨[], rfl, .nil⟩
      | some as =>
        obtain ⟨a, s2⟩ := as
        simp only [h2]
        obtain ⟨m, e1, hm⟩ := hs _ _ h1
        obtain ⟨x, e2, hx⟩ := hp _ _ _ h2
        obtain ⟨y, e3, hy⟩ := Reads.star hs hp n s2
        refine ⟨m ++ (x ++ y), ?_, .cons hm hx hy⟩
        rw [e1, e2]
        simp only [List.append_assoc]
        rw [← e3]

theorem Reads.sep1 {psep : Str → Option Str} {p : Str → Option (α × Str)} (hs : Skips sep psep)
    (hp : Reads G p) : Reads (SepBy sep G) (pSep1 psep p) := by
  intro s l r h
  unfold pSep1 at h
  cases h1 : p s with
  | none => rw [h1] at h; cases h
  | some as =>
    obtain ⟨a, s1⟩ := as
    rw [h1] at h
    cases h
    obtain ⟨x, e1, hx⟩ := hp _ _ _ h1
    obtain ⟨y, e2, hy⟩ := Reads.star hs hp s1.length s1
    refine ⟨x ++ y, ?_, .mk hx hy⟩
    rw [e1, List.append_assoc, ← e2]

theorem Reads.sep0 {psep : Str → Option Str} {p : Str → Option (α × Str)} (hs : Skips sep psep)
    (hp : Reads G p) {s r : Str} {l : List α} (h : pSep psep p s = (l, r)) :
    ∃ x, s = x ++ r ∧ Sep0 sep G l x := by
  unfold pSep at h
  cases h1 : pSep1 psep p s with
  | none => rw [h1] at h; cases h; exact ⟨[], rfl, .nil⟩
  | some lr =>
    rw [h1] at h
    obtain ⟨l', r'⟩ := lr
    cases h
    obtain ⟨x, e, hx⟩ := Reads.sep1 hs hp _ _ _ h1
    exact ⟨x, e, .some hx⟩

theorem Reads.opt {p : Str → Option (α × Str)} (hp : Reads G p) {s r : Str} {a : Option α}
    (h : pOpt p s = (a, r)) : ∃ x, s = x ++ r ∧ Maybe G a x := by
  unfold pOpt at h
  cases h1 : p s with
  | none => rw [h1] at h; cases h; exact ⟨[], rfl, .none⟩
  | some lr =>
    rw [h1] at h
    obtain ⟨l', r'⟩ := lr
    cases h
    obtain ⟨x, e, hx⟩ := hp _ _ _ h1
    exact ⟨x, e, .some hx⟩

end generic

/-! ## Terminals -/

theorem sp_nil : Sp [] := fun _ h => by cases h

/-- What is left after spaces. -/
theorem skipSp_cut (s : Str) : ∃ w t, Sp w ∧ skipSp s = t ∧ s = w ++ t := by
  refine ⟨s.takeWhile (· == ' '), skipSp s, ?_, rfl, (List.takeWhile_append_dropWhile ..).symm⟩
  intro c hc
  have := List.all_takeWhile (p := (· == ' ')) (l := s)
  rw [List.all_eq_true] at this
  simpa using this c hc

theorem skips_comma : Skips Comma commaSp := by
  intro s r h
  unfold commaSp at h
  obtain ⟨t, h1, h2⟩ := Option.map_eq_some_iff.1 h
  obtain ⟨w, u, hw, e, e'⟩ := skipSp_cut t
  rw [e] at h2; subst h2
  exact ⟨',' :: w, by rw [lit_some h1, e']; rfl, w, hw, rfl⟩

theorem skips_spComma : Skips SpComma spCommaSp := by
  intro s r h
  unfold spCommaSp at h
  obtain ⟨t, h1, h2⟩ := Option.map_eq_some_iff.1 h
  obtain ⟨v, u, hv, e1, e1'⟩ := skipSp_cut s
  obtain ⟨w, u', hw, e2, e2'⟩ := skipSp_cut t
  rw [e1] at h1
  rw [e2] at h2; subst h2
  refine ⟨v ++ ',' :: w, ?_, v, w, hv, hw, rfl⟩
  rw [e1', lit_some h1, e2']; simp

theorem skips_arrow : Skips Arrow pArrow := by
  intro s r h
  unfold pArrow at h
  obtain ⟨t, h1, h2⟩ := Option.map_eq_some_iff.1 h
  obtain ⟨v, u, hv, e1, e1'⟩ := skipSp_cut s
  obtain ⟨w, u', hw, e2, e2'⟩ := skipSp_cut t
  rw [e1] at h1
  rw [e2] at h2; subst h2
  refine ⟨v ++ cs!"=>" ++ w, ?_, v, w, hv, hw, rfl⟩
  rw [e1', lit_some h1, e2']; simp

theorem skips_lit (k : Str) : Skips (· = k) (lit k) := by
  intro s r h
  exact ⟨k, lit_some h, rfl⟩

theorem isAlpha_core (c : Char) : isAlpha c = c.isAlpha := by
  rw [Bool.eq_iff_iff]
  simp only [isAlpha, isUpper, isLower, Char.isAlpha, Char.isUpper, Char.isLower, Bool.or_eq_true, Bool.and_eq_true,
    decide_eq_true_eq, Char.toNat, UInt32.le_iff_toNat_le, ge_iff_le]
  rfl

theorem isDigit_core (c : Char) : isDigit c = c.isDigit := by
  rw [Bool.eq_iff_iff]
  simp only [isDigit, Char.isDigit, Bool.and_eq_true,
    decide_eq_true_eq, Char.toNat, UInt32.le_iff_toNat_le, ge_iff_le]
  rfl

theorem isAlnum_core (c : Char) : isAlnum c = c.isAlphanum := by
  rw [isAlnum, isAlpha_core, isDigit_core]; rfl

theorem mem_takeWhile_true {p : Char → Bool} {s : Str} {c : Char} (h : c ∈ s.takeWhile p) : p c = true := by
  have := List.all_takeWhile (p := p) (l := s)
  rw [List.all_eq_true] at this
  exact this c h

theorem reads_ident : Reads (fun n x => n = x ∧ Ident x) pIdent := by
  intro s a r h
  unfold pIdent at h
  split at h
  · cases h
  next c cs =>
    split at h
    · next hc =>
      cases h
      refine ⟨_, ?_, rfl, c, _, rfl, by rw [← isAlpha_core]; exact hc, ?_⟩
      · rw [List.cons_append, List.takeWhile_append_dropWhile]
      · intro d hd
        have := mem_takeWhile_true hd
        simp only [isIdentChar, Bool.or_eq_true, beq_iff_eq, isAlnum_core] at this
        exact this
    · cases h

theorem digits_of (s : Str) {ds r : Str} (h : pDigits s = some (ds, r)) : s = ds ++ r ∧ Digits (decVal ds) ds := by
  unfold pDigits at h
  simp only at h
  split at h
  · cases h
  · next hne =>
    cases h
    refine ⟨(List.takeWhile_append_dropWhile ..).symm, by simpa using hne, ?_, ?_⟩
    · intro c hc
      have := mem_takeWhile_true hc
      simpa [isDigit, Digit] using this
    · unfold decVal
      congr 1
      funext v c
      rw [Nat.mul_comm]; rfl

theorem pMinus_cut (s : Str) : ∃ b t, pMinus s = (b, t) ∧ s = (if b then ['-'] else []) ++ t := by
  unfold pMinus
  split
  · exact ⟨true, _, rfl, rfl⟩
  · exact ⟨false, _, rfl, rfl⟩

theorem reads_int : Reads IntText pInteger := by
  intro s a r h
  unfold pInteger at h
  obtain ⟨b, t, e1, e2⟩ := pMinus_cut s
  rw [e1] at h
  simp only at h
  split at h
  · cases h
  · next ds s' hd =>
    cases h
    obtain ⟨e3, e4⟩ := digits_of _ hd
    cases b with
    | true => exact ⟨'-' :: ds, by rw [e2, e3]; rfl, .neg e4⟩
    | false => exact ⟨ds, by rw [e2, e3]; rfl, .pos e4⟩

theorem reads_float : Reads (fun a x => a = x ∧ FloatText x) pFloat := by
  intro s a r h
  unfold pFloat at h
  obtain ⟨b, t, e1, e2⟩ := pMinus_cut s
  rw [e1] at h
  simp only at h
  split at h
  · cases h
  next ds s1 h1 =>
  split at h
  · cases h
  next s2 h2 =>
  split at h
  · cases h
  next fs s3 h3 =>
  cases h
  obtain ⟨e3, e4⟩ := digits_of _ h1
  obtain ⟨e5, e6⟩ := digits_of _ h3
  refine ⟨_, ?_, rfl, _, _, _, _, _, ?_, e4, e6, rfl⟩
  · rw [e2, e3, lit_some h2, e5]
    cases b <;> simp
  · cases b <;> simp

theorem escaped_eq (c : Char) : escaped c =
    if c = 'n' then '\n' else if c = 't' then '\t' else if c = 'r' then '\r' else c := by
  unfold escaped
  split <;> simp_all

theorem quoted_of (q : Char) (hq : q ≠ '\\') (s b r : Str) (h : pQuoted q s = some (b, r)) :
    s = b ++ q :: r ∧ Quoted q (unescape b) b := by
  obtain ⟨e, hb⟩ := pQuoted_some q hq s b r h
  refine ⟨e, ?_⟩
  clear e h
  fun_induction QBody q b with
  | case1 => exact .nil
  | case2 => exact hb.elim
  | case3 c s ih =>
    have := Quoted.esc (c := c) (ih hb)
    rwa [escaped_eq] at this
  | case4 c s h1 h2 ih =>
    have hc : c ≠ '\\' := by
      rintro rfl
      cases s with
      | nil => exact h1 rfl rfl
      | cons d s => exact h2 d s rfl rfl
    have e : unescape (c :: s) = c :: unescape s := by
      rw [unescape]
      · rintro rfl; exact absurd rfl hc
      · intro d s' hcd; exact absurd hcd hc
    rw [e]
    exact .plain hb.1 hc (ih hb.2)

theorem reads_string : Reads StringText pString := by
  intro s a r h
  unfold pString at h
  split at h
  · cases h
  next s1 h1 =>
  split at h
  · cases h
  next b r' h2 =>
  cases h
  obtain ⟨e, hb⟩ := quoted_of _ (by decide) _ _ _ h2
  exact ⟨['\''] ++ b ++ ['\''], by rw [lit_some h1, e]; simp, b, hb, rfl⟩

theorem reads_name : Reads NameText pName := by
  intro s a r h
  unfold pName at h
  split at h
  · next r' h1 =>
    cases h
    obtain ⟨x, e, rfl, hx⟩ := reads_ident _ _ _ h1
    exact ⟨_, e, .ident hx⟩
  · unfold pQuotedName at h
    split at h
    · cases h
    next s1 h1 =>
    split at h
    · cases h
    next b r' h2 =>
    cases h
    obtain ⟨e, hb⟩ := quoted_of _ (by decide) _ _ _ h2
    exact ⟨['"'] ++ b ++ ['"'], by rw [lit_some h1, e]; simp, .quoted hb⟩

theorem reads_first (l : List Str) : Reads (fun a x => a = x ∧ a ∈ l) (pFirst l) := by
  induction l with
  | nil => intro s a r h; cases h
  | cons k ks ih =>
    intro s a r h
    unfold pFirst at h
    split at h
    · next h1 => cases h; exact ⟨_, lit_some h1, rfl, by simp⟩
    · obtain ⟨x, e, hx, hm⟩ := ih _ _ _ h
      exact ⟨x, e, hx, by simp [hm]⟩

/-! ## Types -/

theorem reads_anchor : Reads AnchorText pAnchor := by
  intro s a r h
  unfold pAnchor at h
  simp only [Option.bind_eq_bind, Option.bind_eq_some_iff] at h
  obtain ⟨s1, h1, h⟩ := h
  obtain ⟨w, t, hw, e, e'⟩ := skipSp_cut s1
  rw [e] at h
  obtain ⟨y, e2, hy⟩ := reads_int _ _ _ h
  exact ⟨['#'] ++ w ++ y, by rw [lit_some h1, e', e2]; simp, w, y, hw, hy, rfl⟩

theorem reads_urnAnchor : Reads UrnAnchorText pUrnAnchor := by
  intro s a r h
  unfold pUrnAnchor at h
  simp only [Option.bind_eq_bind, Option.bind_eq_some_iff] at h
  obtain ⟨s1, h1, h⟩ := h
  obtain ⟨w, t, hw, e, e'⟩ := skipSp_cut s1
  rw [e] at h
  obtain ⟨y, e2, hy⟩ := reads_int _ _ _ h
  exact ⟨['@'] ++ w ++ y, by rw [lit_some h1, e', e2]; simp, w, y, hw, hy, rfl⟩

theorem nullability_cut (s : Str) : ∃ n t z, pNullability s = (n, t) ∧ s = z ++ t ∧ NulText n z := by
  unfold pNullability
  split
  · exact ⟨_, _, _, rfl, rfl, .nullable⟩
  · exact ⟨_, _, _, rfl, rfl, .unspecified⟩
  · exact ⟨_, _, [], rfl, rfl, .required⟩

theorem reads_simple : Reads TyText pSimpleType := by
  intro s a r h
  unfold pSimpleType at h
  simp only [Option.bind_eq_bind, Option.bind_eq_some_iff] at h
  obtain ⟨⟨name, s1⟩, h1, h⟩ := h
  try dsimp only at *
  obtain ⟨n, t, z, e1, e2, hz⟩ := nullability_cut s1
  simp only [e1] at h
  cases h
  obtain ⟨x, e3, rfl, hx⟩ := reads_first _ _ _ _ h1
  exact ⟨_, by rw [e3, e2, List.append_assoc], .simple hx hz⟩

theorem toLower_core (c : Char) : toLower c = c.toLower := by
  unfold toLower Char.toLower isUpper
  simp only [Bool.and_eq_true, decide_eq_true_eq, Char.toNat, ge_iff_le, UInt32.le_iff_toNat_le]
  split
  · next h =>
    have h' : 65 ≤ c.val.toNat ∧ c.val.toNat ≤ 90 := h
    rw [dif_pos (show 'A'.val.toNat ≤ c.val.toNat ∧ c.val.toNat ≤ 'Z'.val.toNat from h)]
    apply Char.ext
    have hv : (c.val.toNat + 32).isValidChar := Or.inl (by omega)
    rw [Char.ofNat, dif_pos hv]
    apply UInt32.toNat_inj.1
    simp only [Char.ofNatAux, UInt32.toNat_add]
    show c.val.toNat + 32 = (c.val.toNat + 32) % 2^32
    omega
  · next h =>
    rw [dif_neg]
    exact h

theorem litI_some {kw s r : Str} (hk : kw.map Char.toLower = kw) (h : litI kw s = some r) :
    ∃ x, s = x ++ r ∧ KwI kw x := by
  induction kw generalizing s with
  | nil => cases s <;> (cases h; exact ⟨[], rfl, rfl⟩)
  | cons c kw ih =>
    cases s with
    | nil => cases h
    | cons d s =>
      unfold litI at h
      simp only [List.map_cons, List.cons.injEq] at hk
      split at h
      · next hcd =>
        obtain ⟨x, e, hx⟩ := ih hk.2 h
        refine ⟨d :: x, by rw [e]; rfl, ?_⟩
        unfold KwI at *
        rw [List.map_cons, hx, ← toLower_core, ← hcd, toLower_core, hk.1]
      · cases h

theorem kwOpen_cut {kw s r : Str} {n : Nul} (hk : kw.map Char.toLower = kw) (h : pKwOpen kw s = some (n, r)) :
    ∃ k z, s = k ++ (z ++ (cs!"<" ++ r)) ∧ KwI kw k ∧ NulText n z := by
  unfold pKwOpen at h
  simp only [Option.bind_eq_bind, Option.bind_eq_some_iff] at h
  obtain ⟨s1, h1, h⟩ := h
  obtain ⟨n', t, z, e1, e2, hz⟩ := nullability_cut s1
  simp only [e1] at h
  obtain ⟨s2, h2, h⟩ := h
  cases h
  obtain ⟨k, e3, hk'⟩ := litI_some hk h1
  exact ⟨k, z, by rw [e3, e2, lit_some h2], hk', hz⟩

section types
variable {ty : Str → Option (STy × Str)} (hty : Reads TyText ty)
include hty

theorem reads_param : Reads ParamText (pParamWith ty) := by
  unfold pParamWith
  exact ((hty.mapFst _ fun _ _ => .ty).orElse (reads_int.mapFst _ fun _ _ => .int)).orElse
    (reads_name.mapFst _ fun _ _ => .name)

theorem paramsTail_cut {s r : Str} {ps : List SParam} (h : pParamsTail ty s = some (ps, r)) :
    ∃ x, s = x ++ (cs!">" ++ r) ∧ Sep0 Comma ParamText ps x := by
  unfold pParamsTail at h
  generalize hq : pSep commaSp (pParamWith ty) s = q at h
  obtain ⟨ps', s1⟩ := q
  simp only [Option.bind_eq_bind, Option.bind_eq_some_iff] at h
  obtain ⟨s2, h2, h⟩ := h
  cases h
  obtain ⟨x, e, hx⟩ := Reads.sep0 skips_comma (reads_param hty) hq
  exact ⟨x, by rw [e, lit_some h2], hx⟩

theorem reads_params : Reads ParamsText (pParamsWith ty) := by
  intro s a r h
  unfold pParamsWith at h
  simp only [Option.bind_eq_bind, Option.bind_eq_some_iff] at h
  obtain ⟨s1, h1, h⟩ := h
  obtain ⟨x, e, hx⟩ := paramsTail_cut hty h
  exact ⟨_, by rw [lit_some h1, e]; simp, .mk hx⟩

theorem reads_listTy : Reads TyText (pListWith ty) := by
  intro s a r h
  unfold pListWith at h
  simp only [Option.bind_eq_bind, Option.bind_eq_some_iff] at h
  obtain ⟨⟨n, s1⟩, h1, ⟨t, s2⟩, h2, s3, h3, h⟩ := h
  try dsimp only at *
  cases h
  obtain ⟨k, z, e1, hk, hz⟩ := kwOpen_cut rfl h1
  obtain ⟨x, e2, hx⟩ := hty _ _ _ h2
  exact ⟨_, by rw [e1, e2, lit_some h3]; simp, .list hk hz hx⟩

theorem reads_mapTy : Reads TyText (pMapWith ty) := by
  intro s a r h
  unfold pMapWith at h
  simp only [Option.bind_eq_bind, Option.bind_eq_some_iff] at h
  obtain ⟨⟨n, s1⟩, h1, ⟨t, s2⟩, h2, s3, h3, ⟨u, s4⟩, h4, s5, h5, h⟩ := h
  try dsimp only at *
  cases h
  obtain ⟨k, z, e1, hk, hz⟩ := kwOpen_cut rfl h1
  obtain ⟨x, e2, hx⟩ := hty _ _ _ h2
  obtain ⟨w, t', hw, e, e'⟩ := skipSp_cut s3
  rw [e] at h4
  obtain ⟨y, e4, hy⟩ := hty _ _ _ h4
  exact ⟨_, by rw [e1, e2, lit_some h3, e', e4, lit_some h5]; simp, .map hk hz hx ⟨w, hw, rfl⟩ hy⟩

theorem reads_structTy : Reads TyText (pStructWith ty) := by
  intro s a r h
  unfold pStructWith at h
  simp only [Option.bind_eq_bind, Option.bind_eq_some_iff] at h
  obtain ⟨⟨n, s1⟩, h1, ⟨t, s2⟩, h2, h⟩ := h
  try dsimp only at *
  cases h
  obtain ⟨k, z, e1, hk, hz⟩ := kwOpen_cut rfl h1
  obtain ⟨x, e2, hx⟩ := paramsTail_cut hty h2
  exact ⟨_, by rw [e1, e2]; simp, .struct hk hz hx⟩

omit hty in
theorem reads_intTy {kw : Str} {f : Nul → IntTok → STy} (hk : kw.map Char.toLower = kw)
    (hf : ∀ {n i k z x}, KwI kw k → NulText n z → IntText i x →
      TyText (f n i) (k ++ (z ++ (cs!"<" ++ (x ++ cs!">"))))) : Reads TyText (pIntType kw f) := by
  intro s a r h
  unfold pIntType at h
  simp only [Option.bind_eq_bind, Option.bind_eq_some_iff] at h
  obtain ⟨⟨n, s1⟩, h1, ⟨t, s2⟩, h2, s3, h3, h⟩ := h
  try dsimp only at *
  cases h
  obtain ⟨k, z, e1, hk, hz⟩ := kwOpen_cut hk h1
  obtain ⟨x, e2, hx⟩ := reads_int _ _ _ h2
  exact ⟨_, by rw [e1, e2, lit_some h3]; simp, hf hk hz hx⟩

theorem reads_compound : Reads TyText (pCompoundWith ty) := by
  unfold pCompoundWith
  exact ((((((reads_listTy hty).orElse (reads_mapTy hty)).orElse (reads_structTy hty)).orElse
    (reads_intTy (by decide) fun h1 h2 h3 => .prec (p := .timestampTz) h1 h2 h3)).orElse
    (reads_intTy (by decide) fun h1 h2 h3 => .prec (p := .timestamp) h1 h2 h3)).orElse
    (reads_intTy (by decide) fun h1 h2 h3 => .prec (p := .time) h1 h2 h3)).orElse
    (reads_intTy (by decide) fun h1 h2 h3 => .intervalDay h1 h2 h3)

omit hty in
theorem skipUBang_cut (s : Str) : ∃ u t, (u = [] ∨ u = cs!"u!") ∧ skipUBang s = t ∧ s = u ++ t := by
  unfold skipUBang
  cases h : lit cs!"u!" s with
  | none => exact ⟨[], s, .inl rfl, rfl, rfl⟩
  | some r => exact ⟨_, r, .inr rfl, rfl, lit_some h⟩

theorem reads_userTy : Reads TyText (pUserWith ty) := by
  intro s a r h
  unfold pUserWith at h
  simp only [Option.bind_eq_bind, Option.bind_eq_some_iff] at h
  obtain ⟨⟨name, s1⟩, h1, h⟩ := h
  try dsimp only at *
  obtain ⟨u, t, hu, e0, e0'⟩ := skipUBang_cut s
  rw [e0] at h1
  obtain ⟨x, e1, rfl, hx⟩ := reads_ident _ _ _ h1
  generalize hq1 : pOpt pAnchor s1 = q1 at h
  obtain ⟨a1, s2⟩ := q1
  simp only at h
  generalize hq2 : pOpt pUrnAnchor s2 = q2 at h
  obtain ⟨a2, s3⟩ := q2
  simp only at h
  obtain ⟨n, s4, z, e4, e4', hz⟩ := nullability_cut s3
  rw [e4] at h
  simp only at h
  generalize hq5 : pOpt (pParamsWith ty) s4 = q5 at h
  obtain ⟨ps, s5⟩ := q5
  cases h
  obtain ⟨x2, e2, hx2⟩ := reads_anchor.opt hq1
  obtain ⟨x3, e3, hx3⟩ := reads_urnAnchor.opt hq2
  obtain ⟨x5, e5, hx5⟩ := (reads_params hty).opt hq5
  exact ⟨_, by rw [e0', e1, e2, e3, e4', e5]; simp, .user hu hx hx2 hx3 hz hx5⟩

end types

theorem reads_tyN : ∀ n, Reads TyText (pTypeN n)
  | 0 => by intro s a r h; cases h
  | n + 1 => by
    have ih := reads_tyN n
    exact (reads_simple.orElse (reads_compound ih)).orElse (reads_userTy ih)

theorem reads_ty : Reads TyText pType := fun s => reads_tyN (s.length + 1) s

/-! ## Literals -/

theorem reads_bool : Reads (fun b x => x = if b then cs!"true" else cs!"false") pBoolean := by
  intro s a r h
  unfold pBoolean at h
  split at h
  · next h1 => cases h; exact ⟨_, lit_some h1, rfl⟩
  · split at h
    · next h1 => cases h; exact ⟨_, lit_some h1, rfl⟩
    · cases h

theorem reads_value : Reads ValueText pValue := by
  unfold pValue
  refine ((((reads_float.mapFst _ ?_).orElse (reads_int.mapFst _ fun _ _ => .int)).orElse
    (reads_bool.mapFst _ ?_)).orElse (reads_string.mapFst _ fun _ _ => .str)).orElse ?_
  · rintro a x ⟨rfl, h⟩; exact .float h
  · rintro b x rfl
    cases b
    · exact .false
    · exact .true
  · intro s a r h
    obtain ⟨t, h1, h2⟩ := Option.map_eq_some_iff.1 h
    cases h2
    exact ⟨_, lit_some h1, .null⟩

theorem reads_ascription : Reads AscriptionText pAscription := by
  intro s a r h
  unfold pAscription at h
  simp only [Option.bind_eq_bind, Option.bind_eq_some_iff] at h
  obtain ⟨s1, h1, h⟩ := h
  obtain ⟨w, t, hw, e, e'⟩ := skipSp_cut s1
  rw [e] at h
  obtain ⟨y, e2, hy⟩ := reads_ty _ _ _ h
  exact ⟨[':'] ++ w ++ y, by rw [lit_some h1, e', e2]; simp, w, y, hw, hy, rfl⟩

theorem reads_lit : Reads LitText pLiteral := by
  intro s a r h
  unfold pLiteral at h
  simp only [Option.bind_eq_bind, Option.bind_eq_some_iff] at h
  obtain ⟨⟨v, s1⟩, h1, h⟩ := h
  try dsimp only at *
  generalize hq : pOpt pAscription s1 = q at h
  obtain ⟨t, s2⟩ := q
  cases h
  obtain ⟨x, e1, hx⟩ := reads_value _ _ _ h1
  obtain ⟨y, e2, hy⟩ := reads_ascription.opt hq
  exact ⟨x ++ y, by rw [e1, e2]; simp, x, y, hx, hy, rfl⟩

/-! ## Expressions -/

theorem reads_ref : Reads RefText pRef := by
  intro s a r h
  unfold pRef at h
  simp only [Option.bind_eq_bind, Option.bind_eq_some_iff] at h
  obtain ⟨s1, h1, h⟩ := h
  obtain ⟨y, e2, hy⟩ := reads_int _ _ _ h
  exact ⟨['$'] ++ y, by rw [lit_some h1, e2]; simp, y, hy, rfl⟩

theorem shortName_cut {s a r : Str} (h : pShortName s = some (a, r)) :
    s = a ++ r ∧ ∃ c cs, a = c :: cs ∧ c.isAlpha = true ∧ ∀ d ∈ cs, d.isAlphanum = true := by
  unfold pShortName at h
  split at h
  · cases h
  next c cs =>
    split at h
    · next hc =>
      cases h
      refine ⟨by rw [List.cons_append, List.takeWhile_append_dropWhile], c, _, rfl,
        by rw [← isAlpha_core]; exact hc, ?_⟩
      intro d hd
      rw [← isAlnum_core]
      exact mem_takeWhile_true hd
    · cases h

theorem reads_shortArg : Reads (fun a y => a = y ∧ ShortArg y) pShortArg := by
  intro s a r h
  unfold pShortArg at h
  rcases Option.or_eq_some_iff.1 h with h | ⟨-, h⟩
  · split at h
    · next r' h1 =>
      cases h2 : pShortName r' with
      | none => rw [h2] at h; cases h
      | some q =>
        obtain ⟨a', r''⟩ := q
        rw [h2] at h
        cases h
        obtain ⟨e, c, cs, rfl, h3, h4⟩ := shortName_cut h2
        exact ⟨_, by rw [lit_some h1, e]; simp, rfl, _, c, cs, .inr rfl, rfl, h3, h4⟩
    · cases h
  · obtain ⟨e, c, cs, rfl, h3, h4⟩ := shortName_cut h
    exact ⟨_, e, rfl, [], c, cs, .inl rfl, rfl, h3, h4⟩

theorem sepBy_join {P : Str → Prop} {k : Str} {l : List Str} {x : Str}
    (h : SepBy (· = k) (fun a y => a = y ∧ P y) l x) : joinS k l = x := by
  obtain ⟨⟨rfl, -⟩, h⟩ := h
  next a l y =>
  induction h generalizing a with
  | nil => simp [joinS]
  | cons h1 h2 h3 ih =>
    obtain ⟨rfl, -⟩ := h2
    subst h1
    rw [joinS, ih, List.append_assoc]

theorem reads_argSig : Reads (fun a y => a = y ∧ ArgSig y) pArgSig := by
  unfold pArgSig
  refine (Reads.sep1 (skips_lit _) reads_shortArg).mapFst _ ?_
  intro l x h
  exact ⟨sepBy_join h, l, h⟩

theorem reads_funSig : Reads (fun a y => a = y ∧ FunSig y) pFunSig := by
  intro s a r h
  unfold pFunSig at h
  split at h
  · cases h
  next i r1 h1 =>
  obtain ⟨x, e1, rfl, hx⟩ := reads_ident _ _ _ h1
  split at h
  · cases h; exact ⟨_, e1, rfl, .plain hx⟩
  next r2 h2 =>
  split at h
  · cases h; exact ⟨_, by rw [e1, lit_some h2]; simp, rfl, .colon hx⟩
  · next h3 =>
    cases h
    obtain ⟨y, e3, rfl, hy⟩ := reads_argSig _ _ _ h3
    exact ⟨_, by rw [e1, lit_some h2, e3]; simp, rfl, .sig hx hy⟩

theorem behavior_cut (s : Str) : ∃ b t z, pBehavior s = (b, t) ∧ s = z ++ t ∧ BehaviorText b z := by
  unfold pBehavior
  split
  · exact ⟨_, _, _, rfl, rfl, .null⟩
  · exact ⟨_, _, _, rfl, rfl, .throw⟩
  · exact ⟨_, _, [], rfl, rfl, .unspecified⟩

section exprs
variable {e : Str → Option (SExpr × Str)} (he : Reads ExprText e)
include he

theorem args_cut {s r : Str} {args : List SExpr} (h : pArgsWith e s = some (args, r)) :
    ∃ x, s = cs!"(" ++ (x ++ (cs!")" ++ r)) ∧ Sep0 SpComma ExprText args x := by
  unfold pArgsWith at h
  simp only [Option.bind_eq_bind, Option.bind_eq_some_iff] at h
  obtain ⟨s1, h1, h⟩ := h
  generalize hq : pSep spCommaSp e s1 = q at h
  obtain ⟨l, s2⟩ := q
  dsimp only at h
  obtain ⟨s3, h3, h⟩ := h
  cases h
  obtain ⟨x, ex, hx⟩ := Reads.sep0 skips_spComma he hq
  exact ⟨x, by rw [lit_some h1, ex, lit_some h3], hx⟩

theorem reads_call : Reads ExprText (pCallWith e) := by
  intro s a r h
  unfold pCallWith at h
  simp only [Option.bind_eq_bind, Option.bind_eq_some_iff] at h
  obtain ⟨⟨name, s1⟩, h1, h⟩ := h
  try dsimp only at *
  obtain ⟨x, e1, rfl, hx⟩ := reads_funSig _ _ _ h1
  obtain ⟨w1, t1, hw1, c1, c1'⟩ := skipSp_cut s1
  rw [c1] at h
  generalize hq1 : pOpt pAnchor t1 = q1 at h
  obtain ⟨a1, s2⟩ := q1
  simp only at h
  obtain ⟨w2, t2, hw2, c2, c2'⟩ := skipSp_cut s2
  rw [c2] at h
  generalize hq2 : pOpt pUrnAnchor t2 = q2 at h
  obtain ⟨a2, s3⟩ := q2
  simp only at h
  obtain ⟨w3, t3, hw3, c3, c3'⟩ := skipSp_cut s3
  rw [c3] at h
  obtain ⟨⟨args, s4⟩, h4, s5, h5, h⟩ := h
  try dsimp only at *
  obtain ⟨w4, t4, hw4, c4, c4'⟩ := skipSp_cut s5
  rw [c4] at h
  obtain ⟨⟨t, s6⟩, h6, h⟩ := h
  try dsimp only at *
  cases h
  obtain ⟨x2, e2, hx2⟩ := reads_anchor.opt hq1
  obtain ⟨x3, e3, hx3⟩ := reads_urnAnchor.opt hq2
  obtain ⟨x4, e4, hx4⟩ := args_cut he h4
  obtain ⟨x6, e6, hx6⟩ := reads_ty _ _ _ h6
  exact ⟨_, by rw [e1, c1', e2, c2', e3, c3', e4, lit_some h5, c4', e6]; simp,
    .call hx hw1 hx2 hw2 hx3 hw3 hx4 hw4 hx6⟩

theorem reads_cast : Reads ExprText (pCastWith e) := by
  intro s a r h
  unfold pCastWith at h
  simp only [Option.bind_eq_bind, Option.bind_eq_some_iff] at h
  obtain ⟨s1, h1, h⟩ := h
  obtain ⟨w1, t1, hw1, c1, c1'⟩ := skipSp_cut s1
  rw [c1] at h
  obtain ⟨⟨x, s2⟩, h2, h⟩ := h
  try dsimp only at *
  obtain ⟨w2, t2, hw2, c2, c2'⟩ := skipSp_cut s2
  simp only [c2] at h
  obtain ⟨s3, h3, h⟩ := h
  obtain ⟨w3, t3, hw3, c3, c3'⟩ := skipSp_cut s3
  rw [c3] at h
  obtain ⟨s4, h4, h⟩ := h
  obtain ⟨w4, t4, hw4, c4, c4'⟩ := skipSp_cut s4
  rw [c4] at h
  obtain ⟨b, s5, z, hb, e5, hz⟩ := behavior_cut t4
  rw [hb] at h
  obtain ⟨w5, t5, hw5, c5, c5'⟩ := skipSp_cut s5
  simp only [c5] at h
  obtain ⟨⟨t, s6⟩, h6, h⟩ := h
  try dsimp only at *
  cases h
  obtain ⟨y, e2, hy⟩ := he _ _ _ h2
  obtain ⟨x6, e6, hx6⟩ := reads_ty _ _ _ h6
  exact ⟨_, by rw [lit_some h1, c1', e2, c2', lit_some h3, c3', lit_some h4, c4', e5, c5', e6]; simp,
    .cast hw1 hy hw2 hw3 hw4 hz hw5 hx6⟩

theorem clause_cut {s r : Str} {c d : SExpr} (h : pClauseComma e s = some ((c, d), r)) :
    ∃ x w v y u t, s = x ++ (w ++ (cs!"->" ++ (v ++ (y ++ (u ++ (cs!"," ++ (t ++ r))))))) ∧
      ExprText c x ∧ Sp w ∧ Sp v ∧ ExprText d y ∧ Sp u ∧ Sp t := by
  unfold pClauseComma pClauseWith at h
  simp only [Option.bind_eq_bind, Option.bind_eq_some_iff] at h
  obtain ⟨⟨q, s5⟩, ⟨⟨c', s1⟩, h1, s2, h2, ⟨d', s3⟩, h3, hq⟩, s6, h6, h⟩ := h
  try dsimp only at *
  cases hq
  cases h
  obtain ⟨w1, t1, hw1, c1, c1'⟩ := skipSp_cut s1
  obtain ⟨w2, t2, hw2, c2, c2'⟩ := skipSp_cut s2
  obtain ⟨w3, t3, hw3, c3, c3'⟩ := skipSp_cut s5
  obtain ⟨w6, t6, hw6, c6, c6'⟩ := skipSp_cut s6
  rw [c1] at h2
  rw [c2] at h3
  rw [c3] at h6
  obtain ⟨x, e1, hx⟩ := he _ _ _ h1
  obtain ⟨y, e3, hy⟩ := he _ _ _ h3
  refine ⟨x, w1, w2, y, w3, w6, ?_, hx, hw1, hw2, hy, hw3, hw6⟩
  rw [e1, c1', lit_some h2, c2', e3, c3', lit_some h6, c6, ← c6']

theorem clauses_cut : ∀ (n : Nat) (s : Str), ∃ x, s = x ++ (pManyN (pClauseComma e) n s).2 ∧
    ClausesText (pManyN (pClauseComma e) n s).1 x
  | 0, s => ⟨[], rfl, .nil⟩
  | n + 1, s => by
    unfold pManyN
    cases h1 : pClauseComma e s with
    | none => exact ⟨[], rfl, .nil⟩
    | some q =>
      obtain ⟨⟨c, d⟩, s1⟩ := q
      obtain ⟨x, w, v, y, u, t, e1, hx, hw, hv, hy, hu, ht⟩ := clause_cut he h1
      obtain ⟨z, e2, hz⟩ := clauses_cut n s1
      refine ⟨_, ?_, .cons hx hw hv hy hu ht hz⟩
      simp only [List.append_assoc]
      rw [← e2]
      exact e1

theorem reads_ifThen : Reads ExprText (pIfThenWith e) := by
  intro s a r h
  unfold pIfThenWith at h
  simp only [Option.bind_eq_bind, Option.bind_eq_some_iff] at h
  obtain ⟨s1, h1, h⟩ := h
  obtain ⟨w1, t1, hw1, c1, c1'⟩ := skipSp_cut s1
  rw [c1] at h
  obtain ⟨⟨⟨c, d⟩, s2⟩, h2, h⟩ := h
  simp only at h
  obtain ⟨z, e3, hz⟩ := clauses_cut he s2.length s2
  generalize pManyN (pClauseComma e) s2.length s2 = q at h e3 hz
  obtain ⟨xs, s3⟩ := q
  obtain ⟨w3, t3, hw3, c3, c3'⟩ := skipSp_cut s3
  simp only [c3] at h
  obtain ⟨s4, h4, h⟩ := h
  obtain ⟨w4, t4, hw4, c4, c4'⟩ := skipSp_cut s4
  rw [c4] at h
  obtain ⟨s5, h5, h⟩ := h
  obtain ⟨w5, t5, hw5, c5, c5'⟩ := skipSp_cut s5
  rw [c5] at h
  obtain ⟨⟨y, s6⟩, h6, s7, h7, h⟩ := h
  try dsimp only at *
  cases h
  obtain ⟨x, w, v, y', u, t, e2, hx, hw, hv, hy', hu, ht⟩ := clause_cut he h2
  obtain ⟨y6, e6, hy6⟩ := he _ _ _ h6
  refine ⟨_, ?_, .ifThen (by simp) hw1 (.cons hx hw hv hy' hu ht hz) hw3 hw4 hw5 hy6⟩
  rw [lit_some h1, c1', e2, e3, c3', lit_some h4, c4', lit_some h5, c5', e6, lit_some h7]
  simp

end exprs

theorem reads_exprN : ∀ n, Reads ExprText (pExprN n)
  | 0 => by intro s a r h; cases h
  | n + 1 => by
    have ih := reads_exprN n
    exact ((((reads_ifThen ih).orElse (reads_cast ih)).orElse (reads_call ih)).orElse
      (reads_ref.mapFst _ fun _ _ => .ref)).orElse (reads_lit.mapFst _ fun _ _ => .lit)

theorem reads_expr : Reads ExprText pExpr := fun s => reads_exprN (s.length + 1) s

end Verif
