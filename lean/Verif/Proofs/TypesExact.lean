import Verif.Spec.TypesExact
import Verif.Props.Types
/-!
# Types that survive, and no others
-/

namespace Verif
open StoreSpec

set_option autoImplicit false

theorem declared_fun {st : Store} {k : Kind} {a : Nat} {n m : Str} (h : Declared st k a n) (h' : Declared st k a m) : n = m := by
  obtain ⟨u, h⟩ := h
  obtain ⟨w, h'⟩ := h'
  rw [h] at h'
  cases h'
  rfl

/-- The text of a reference is the words of the specification. -/
theorem textAnchor_shown {h : List Op} {o : Opts} {ref : Nat} {nm : Str} {a : Option Nat}
    (hs : ShownRef (run h) o.anchors ref nm a) : textAnchor (run h) o .type ref = .s (nm ++ showAnchor a) := by
  obtain ⟨n, b, hd, hb, hm⟩ := hs
  obtain ⟨h1, h2, h3, h4⟩ := C11_reference_text h o .type (by decide) ref n b hd hb
  cases ho : o.anchors with
  | never => rw [ho] at hm; obtain ⟨rfl, rfl⟩ := hm; rw [h1 ho]; simp [showAnchor]
  | always => rw [ho] at hm; obtain ⟨rfl, rfl⟩ := hm; rw [h2 ho]; simp [showAnchor]
  | required =>
    rw [ho] at hm
    obtain ⟨rfl, ⟨ht, rfl⟩ | ⟨ht, rfl⟩⟩ := hm
    · rw [h4 ho ht]; simp [showAnchor]
    · rw [h3 ho ht]; simp [showAnchor]

/-- A declared type is shown somehow. -/
theorem shown_exists {st : Store} {v : Visibility} {ref : Nat} {n : Str} (hd : Declared st .type ref n) :
    ∃ nm a, ShownRef st v ref nm a := by
  have hb := (bareName_iff n _).2 rfl
  cases v with
  | never => exact ⟨_, _, n, _, hd, hb, rfl, rfl⟩
  | always => exact ⟨_, _, n, _, hd, hb, rfl, rfl⟩
  | required =>
    rcases Classical.em (Twin st .type ref n) with ht | ht
    · exact ⟨_, _, n, _, hd, hb, rfl, .inl ⟨ht, rfl⟩⟩
    · exact ⟨_, _, n, _, hd, hb, rfl, .inr ⟨ht, rfl⟩⟩

theorem shown_anchor {st : Store} {v : Visibility} {ref : Nat} {nm : Str} {a : Option Nat} (h : ShownRef st v ref nm a) :
    a = none ∨ a = some ref := by
  obtain ⟨n, b, -, -, h⟩ := h
  cases v with
  | never => exact .inl h.2
  | always => exact .inr h.2
  | required => rcases h.2 with h | h <;> simp [h.2]

/-- Usable words are resolved to the type. -/
theorem usable_resolves {h : List Op} {v : Visibility} {ref : Nat} {nm : Str} {a : Option Nat}
    (hs : ShownRef (run h) v ref nm a) (hu : UsableRef (run h) ref nm a) :
    (run h).getAndValidateAnchor .type a nm = .ok ref := by
  rw [Store.getAndValidate_type (Store.ordered_run h) .type (by decide)]
  rcases shown_anchor hs with rfl | rfl
  · refine ⟨hu.2.2.1, fun b hb => ?_⟩
    rcases Classical.em (b = ref) with e | e
    · exact e
    · exact absurd ⟨b, e, hb⟩ hu.2.2.2
  · obtain ⟨n, b, hd, hb, hm⟩ := hs
    refine ⟨rfl, n, hd, ?_⟩
    cases v with
    | never => cases hm.2
    | always => exact .inl hm.1.symm
    | required => right; rw [hm.1]; exact hb

theorem usable_ident {st : Store} {ref : Nat} {nm : Str} {a : Option Nat} (h : UsableRef st ref nm a) :
    isIdentifier nm = true ∧ (∀ w ∈ reservedPrefixes, ¬ w <+: nm) := by
  cases a <;> exact ⟨h.1, h.2.1⟩

theorem ident_chars {name : Str} (h : isIdentifier name = true) : ∀ c ∈ name, isIdentChar c = true := by
  obtain ⟨c, t, rfl, hc, ht⟩ := (isIdentifier_iff name).1 h
  intro d hd
  rcases List.mem_cons.1 hd with rfl | hd
  · exact isAlpha_ident hc
  · exact ht d hd

theorem ident_colon {name : Str} (h : isIdentifier name = true) : ':' ∉ name := fun hm => by
  have := ident_chars h _ hm
  simp [isIdentChar, isAlnum, isAlpha, isUpper, isLower, isDigit] at this

/-- What follows the parts of a user-defined type. -/
theorem user_follow (a : Option Nat) (n : Nul) (ts : List Str) {rest : Str} (hr : TyFollow rest) :
    NextNot (fun c => typeContinues c && c != '<') (paramsText ts ++ rest) ∧
    NextNot (fun c => isIdentChar c || c == '#' || c == '@' || c == '!') ((textNul n).text ++ (paramsText ts ++ rest)) ∧
    NextNot (fun c => isIdentChar c || c == '!') (showAnchor a ++ ((textNul n).text ++ (paramsText ts ++ rest))) := by
  have hz : NextNot (fun c => typeContinues c && c != '<') (paramsText ts ++ rest) := by
    unfold paramsText
    split
    · exact NextNot.mono hr fun c hc => by simp at hc; exact hc.1
    · exact (nextNot_cons _ _ _).2 (by decide)
  have hy : NextNot (fun c => isIdentChar c || c == '#' || c == '@' || c == '!')
      ((textNul n).text ++ (paramsText ts ++ rest)) := by
    cases n with
    | unspecified => exact (nextNot_cons _ _ _).2 (by decide)
    | nullable => exact (nextNot_cons _ _ _).2 (by decide)
    | required =>
      refine NextNot.mono hz fun c hc => ?_
      simp only [Bool.or_eq_true, beq_iff_eq] at hc
      rcases hc with ((hc | rfl) | rfl) | rfl
      · simp only [typeContinues, hc, Bool.true_or, Bool.true_and]
        rw [bne_iff_ne]
        rintro rfl
        revert hc; decide
      · decide
      · decide
      · decide
  refine ⟨hz, hy, ?_⟩
  cases a with
  | some a => exact (nextNot_cons _ _ _).2 (by decide)
  | none =>
    refine NextNot.mono hy fun c hc => ?_
    simp only [Bool.or_eq_true, beq_iff_eq] at hc ⊢
    rcases hc with hc | rfl
    · exact Or.inl (Or.inl (Or.inl hc))
    · exact Or.inr rfl

/-- The parts of a user-defined type as they are read, up to the parameters. -/
theorem pUser_parts (ty : Str → Option (STy × Str)) {name : Str} (a : Option Nat) (n : Nul) (ts : List Str) {rest : Str}
    (hi : isIdentifier name = true) (hr : TyFollow rest) :
    pUserWith ty (name ++ (showAnchor a ++ ((textNul n).text ++ (paramsText ts ++ rest)))) =
      some (.user name (a.map fun a => ⟨false, a⟩) none n (pOpt (pParamsWith ty) (paramsText ts ++ rest)).1,
        (pOpt (pParamsWith ty) (paramsText ts ++ rest)).2) := by
  obtain ⟨hz, hy, hx⟩ := user_follow a n ts hr
  have hid := pIdent_name hi (NextNot.mono (q := isIdentChar) hx fun c hc => by simp [hc])
  have hub := skipUBang_name hi hx
  have han := pAnchor_text a _ (NextNot.mono (q := isIdentChar) hy fun c hc => by simp [hc])
    (NextNot.mono hy fun c hc => by simp at hc; simp [hc])
  have hur := pUrn_none _ (NextNot.mono hy fun c hc => by simp at hc; simp [hc])
  have hnul := pNullability_text n (paramsText ts ++ rest)
    (NextNot.mono hz fun c hc => by
      simp only [Bool.or_eq_true, beq_iff_eq] at hc
      rcases hc with rfl | rfl <;> decide)
  unfold pUserWith
  simp only [hub, hid, han, hur, hnul, Option.bind_eq_bind, Option.bind_some]

/-- The opening of a built-in type in front of a user-defined type. -/
theorem pKwOpen_user {kw name : Str} {a : Option Nat} {n n' : Nul} {ts : List Str} {rest y : Str}
    (hk : ∀ c ∈ kw, isIdentChar c = true) (hi : isIdentifier name = true) (hr : TyFollow rest)
    (h : pKwOpen kw (name ++ (showAnchor a ++ ((textNul n).text ++ (paramsText ts ++ rest)))) = some (n', y)) :
    name.map toLower = kw.map toLower ∧ a = none ∧ ts ≠ [] ∧ n' = n ∧ y = joinS cs!", " ts ++ '>' :: rest := by
  obtain ⟨hz, hy, hx⟩ := user_follow a n ts hr
  have hxi := NextNot.mono (q := isIdentChar) hx fun c hc => by simp [hc]
  obtain ⟨h1, h2, h3⟩ := pKwOpen_name hk hxi (ident_chars hi) h
  have hnul := pNullability_text n (paramsText ts ++ rest)
    (NextNot.mono hz fun c hc => by
      simp only [Bool.or_eq_true, beq_iff_eq] at hc
      rcases hc with rfl | rfl <;> decide)
  cases a with
  | some a =>
    have : pNullability (showAnchor (some a) ++ ((textNul n).text ++ (paramsText ts ++ rest))) =
      (.required, showAnchor (some a) ++ ((textNul n).text ++ (paramsText ts ++ rest))) :=
      pNullability_other ((nextNot_cons _ _ _).2 (by decide))
    rw [this] at h2
    simp [showAnchor] at h2
  | none =>
    simp only [showAnchor, List.nil_append, hnul] at h2 h3
    refine ⟨h1, rfl, ?_, h3, ?_⟩
    · rintro rfl
      simp only [paramsText, if_true, List.nil_append] at h2
      rw [lit_lt_none hr] at h2; cases h2
    · by_cases hne : ts = []
      · subst hne
        simp only [paramsText, if_true, List.nil_append] at h2
        rw [lit_lt_none hr] at h2; cases h2
      · have h4 := lit_some h2
        simp only [paramsText, hne, if_false, List.cons_append, List.nil_append, List.cons.injEq, true_and,
          List.append_assoc] at h4
        exact h4.symm

/-- The same, when it does open. -/
theorem pKwOpen_user_self {kw name : Str} {n : Nul} {ts : List Str} {rest : Str}
    (hn : name.map toLower = kw.map toLower) (hne : ts ≠ []) :
    pKwOpen kw (name ++ (showAnchor none ++ ((textNul n).text ++ (paramsText ts ++ rest)))) =
      some (n, joinS cs!", " ts ++ '>' :: rest) := by
  have h1 : ∀ (kw name y : Str), name.map toLower = kw.map toLower → litI kw (name ++ y) = some y := by
    intro kw
    induction kw with
    | nil => intro name y h; cases name with
      | nil => rfl
      | cons c l => simp at h
    | cons k kw ih =>
      intro name y h
      cases name with
      | nil => simp at h
      | cons c name =>
        simp only [List.map_cons, List.cons.injEq] at h
        simp [litI, h.1, ih name y h.2]
  have h2 := pNullability_text n ('<' :: (joinS cs!", " ts ++ '>' :: rest)) (by simp [nextNot_cons])
  have h3 : paramsText ts ++ rest = '<' :: (joinS cs!", " ts ++ '>' :: rest) := by simp [paramsText, hne]
  unfold pKwOpen
  rw [h3, h1 kw name _ hn]
  simp [showAnchor, h2, lit]

/-- The texts of surviving types begin with a letter. -/
theorem survives_head {h : List Op} (o : Opts) (t : Ty) (hs : SurvivesTy (run h) o.anchors t) :
    ∃ c tl, (textTy (run h) o t).text = c :: tl ∧ isAlpha c = true := by
  cases t with
  | simple k n v => cases k <;> exact ⟨_, _, rfl, by decide⟩
  | intervalDay p n v => exact ⟨_, _, rfl, by decide⟩
  | prec k p n v => cases k <;> exact ⟨_, _, rfl, by decide⟩
  | list t n v => exact ⟨_, _, rfl, by decide⟩
  | user ref ps n v =>
    unfold SurvivesTy at hs
    obtain ⟨-, ⟨nm, a, h1, h2, -⟩, -⟩ := hs
    obtain ⟨c, t, rfl, hc, ht⟩ := (isIdentifier_iff nm).1 (usable_ident h2).1
    exact ⟨c, _, by rw [textTy, textUser, textifyType, textAnchor_shown h1]; rfl, hc⟩
  | _ => simp [SurvivesTy] at hs

/-- Reading a user-defined type that does not look built in, given its parameters. -/
theorem rt_user_exact {ty : Str → Option (STy × Str)} {name : Str} {a : Option Nat} {n : Nul}
    {items : List (Str × STy)} {rest : Str}
    (hi : isIdentifier name = true) (hw : ∀ w ∈ reservedPrefixes, ¬ w <+: name)
    (hb : a = none → ¬ LooksBuiltIn name items.length) (hr : TyFollow rest)
    (hp : ∀ i ∈ items, ∀ r, TyFollow r → ty (i.1 ++ r) = some (i.2, r))
    (hh : ∀ i ∈ items, ∃ c tl, i.1 = c :: tl ∧ isAlpha c = true) :
    let s := name ++ (showAnchor a ++ ((textNul n).text ++ (paramsText (items.map (·.1)) ++ rest)))
    pSimpleType s = none ∧ pCompoundWith ty s = none ∧
    pUserWith ty s = some (.user name (a.map fun a => ⟨false, a⟩) none n
      (if items = [] then none else some (items.map fun i => SParam.ty i.2)), rest) := by
  intro s
  obtain ⟨hz, hy, hx⟩ := user_follow a n (items.map (·.1)) hr
  have hxi := NextNot.mono (q := isIdentChar) hx fun c hc => by simp [hc]
  have hparams : items ≠ [] → pParamsWith ty (paramsText (items.map (·.1)) ++ rest) =
      some (items.map fun i => SParam.ty i.2, rest) := by
    intro hne
    have h1 := pSep1_join commaSp (pParamWith ty) cs!", " TyFollow ('>' :: rest)
      (items.map fun i => (i.1, SParam.ty i.2)) (by decide) (by simpa using hne)
      (fun i hi r => by
        obtain ⟨j, hj, rfl⟩ := List.mem_map.1 hi
        obtain ⟨c, tl, h, hc⟩ := hh j hj
        apply commaSp_join
        dsimp only
        rw [h]; exact alpha_next hc)
      comma_follow (close_follow rest)
      (pStarN_stop _ _ _ (by simp [commaSp, lit]))
      (fun i hi r hF => by
        obtain ⟨j, hj, rfl⟩ := List.mem_map.1 hi
        exact pParamWith_ty (hp j hj r hF))
    have h2 : paramsText (items.map (·.1)) ++ rest = '<' :: (joinS cs!", " (items.map (·.1)) ++ '>' :: rest) := by
      simp [paramsText, hne]
    rw [h2]
    simp only [List.map_map, Function.comp_def] at h1
    simp [pParamsWith, lit, pParamsTail, pSep, h1]
  refine ⟨pSimpleType_none _ _ hxi (reserved_find hw), ?_, ?_⟩
  · have hint : ∀ w f, (∀ c ∈ w, isIdentChar c = true) → pIntType w f s = none := by
      intro w f hwi
      apply pIntType_none
      intro n' y h
      obtain ⟨-, -, h3, -, rfl⟩ := pKwOpen_user hwi hi hr h
      cases items with
      | nil => exact absurd rfl h3
      | cons i items =>
        obtain ⟨c, tl, h, hc⟩ := hh i (by simp)
        rw [List.map_cons, joinS_cons, h]
        exact pInteger_alpha hc
    have hlist : pListWith ty s = none := by
      unfold pListWith
      cases hk : pKwOpen cs!"list" s with
      | none => rfl
      | some q =>
        obtain ⟨n', y⟩ := q
        obtain ⟨h1, rfl, h3, rfl, rfl⟩ := pKwOpen_user (by decide) hi hr hk
        have hnb := hb rfl
        match items, h3, hp, hh, hnb with
        | [], h3, _, _, _ => exact absurd rfl h3
        | [i], _, _, _, hnb => exact absurd (.inl ⟨h1, rfl⟩) hnb
        | i :: j :: l, _, hp, hh, _ =>
          have := hp i (by simp) (cs!", " ++ (joinS cs!", " ((j :: l).map (·.1)) ++ '>' :: rest)) (comma_follow _)
          have e : joinS cs!", " ((i :: j :: l).map (·.1)) ++ '>' :: rest =
              i.1 ++ (cs!", " ++ (joinS cs!", " ((j :: l).map (·.1)) ++ '>' :: rest)) := by simp [joinS]
          rw [e]
          simp only [Option.bind_eq_bind, Option.bind_some, this]
          simp [lit]
    have hmap : pMapWith ty s = none := by
      unfold pMapWith
      cases hk : pKwOpen cs!"map" s with
      | none => rfl
      | some q =>
        obtain ⟨n', y⟩ := q
        obtain ⟨h1, rfl, h3, rfl, rfl⟩ := pKwOpen_user (by decide) hi hr hk
        have hnb := hb rfl
        match items, h3, hp, hh, hnb with
        | [], h3, _, _, _ => exact absurd rfl h3
        | [i], _, hp, _, hnb =>
          have := hp i (by simp) ('>' :: rest) (close_follow _)
          simp [joinS, this, lit]
        | [i, j], _, _, _, hnb => exact absurd (.inr (.inl ⟨h1, rfl⟩)) hnb
        | i :: j :: k :: l, _, hp, hh, _ =>
          have p1 := hp i (by simp) (cs!", " ++ (j.1 ++ (cs!", " ++ (joinS cs!", " ((k :: l).map (·.1)) ++ '>' :: rest)))) (comma_follow _)
          have p2 := hp j (by simp) (cs!", " ++ (joinS cs!", " ((k :: l).map (·.1)) ++ '>' :: rest)) (comma_follow _)
          have e : joinS cs!", " ((i :: j :: k :: l).map (·.1)) ++ '>' :: rest =
              i.1 ++ (cs!", " ++ (j.1 ++ (cs!", " ++ (joinS cs!", " ((k :: l).map (·.1)) ++ '>' :: rest)))) := by simp [joinS]
          obtain ⟨c, tl, hj, hc⟩ := hh j (by simp)
          have hsk : skipSp (' ' :: (j.1 ++ (cs!", " ++ (joinS cs!", " ((k :: l).map (·.1)) ++ '>' :: rest)))) =
              j.1 ++ (cs!", " ++ (joinS cs!", " ((k :: l).map (·.1)) ++ '>' :: rest)) := by
            have := commaSp_join (j.1 ++ (cs!", " ++ (joinS cs!", " ((k :: l).map (·.1)) ++ '>' :: rest)))
              (by rw [hj]; exact alpha_next hc)
            simpa [commaSp, lit] using this
          rw [e]
          simp only [Option.bind_eq_bind, Option.bind_some, p1]
          simp only [lit, List.cons_append, List.nil_append, if_true, Option.bind_some]
          simp only [List.cons_append, List.nil_append] at hsk p2
          rw [hsk, p2]
          simp
    have hstruct : pStructWith ty s = none := by
      unfold pStructWith
      cases hk : pKwOpen cs!"struct" s with
      | none => rfl
      | some q =>
        obtain ⟨n', y⟩ := q
        obtain ⟨h1, rfl, h3, rfl, rfl⟩ := pKwOpen_user (by decide) hi hr hk
        exact absurd (.inr (.inr ⟨h1, by simpa using h3⟩)) (hb rfl)
    unfold pCompoundWith
    rw [hlist, hmap, hstruct, hint _ _ (by decide), hint _ _ (by decide), hint _ _ (by decide), hint _ _ (by decide)]
    rfl
  · simp only [s]
    rw [pUser_parts ty a n _ hi hr]
    by_cases hne : items = []
    · subst hne
      have : pParamsWith ty rest = none := by simp [pParamsWith, lit_lt_none hr]
      simp [paramsText, pOpt, this]
    · rw [if_neg hne]
      simp [pOpt, hparams hne]

mutual
/-- A surviving type is read back from its text, whatever follows. -/
theorem survives_ty {h : List Op} (o : Opts) :
    (t : Ty) → SurvivesTy (run h) o.anchors t → ∃ s, convTy (run h) s = .ok t ∧
      ∀ (fuel : Nat) (rest : Str), (textTy (run h) o t).text.length < fuel →
        TyFollow rest → pTypeN fuel ((textTy (run h) o t).text ++ rest) = some (s, rest)
  | .simple k n v, hs => by
    unfold SurvivesTy at hs
    subst hs
    refine ⟨.simple k.name n, by rw [convTy]; exact convSimple_name k n, ?_⟩
    intro fuel rest hf hr
    obtain ⟨fuel, rfl⟩ : ∃ f, fuel = f + 1 := ⟨fuel - 1, by omega⟩
    exact rt_simple _ o k n rest fuel hr
  | .intervalDay (some p) n v, hs => by
    unfold SurvivesTy at hs
    obtain ⟨rfl, h0, h1⟩ := hs
    refine ⟨.intervalDay n (.ofInt p), by rw [convTy, convPrecision_ofInt h0 h1]; rfl, ?_⟩
    intro fuel rest hf hr
    obtain ⟨fuel, rfl⟩ : ∃ f, fuel = f + 1 := ⟨fuel - 1, by omega⟩
    exact rt_intervalDay _ o p n rest fuel
  | .prec k p n v, hs => by
    unfold SurvivesTy at hs
    obtain ⟨rfl, h0, h1⟩ := hs
    refine ⟨.prec k n (.ofInt p), by rw [convTy, convPrecision_ofInt h0 h1]; rfl, ?_⟩
    intro fuel rest hf hr
    obtain ⟨fuel, rfl⟩ : ∃ f, fuel = f + 1 := ⟨fuel - 1, by omega⟩
    exact rt_prec _ o k p n rest fuel
  | .list (some t) n v, hs => by
    unfold SurvivesTy at hs
    obtain ⟨rfl, ht⟩ := hs
    obtain ⟨s, h1, h2⟩ := survives_ty o t ht
    refine ⟨.list n s, by rw [convTy, h1]; rfl, ?_⟩
    intro fuel rest hf hr
    obtain ⟨fuel, rfl⟩ : ∃ f, fuel = f + 1 := ⟨fuel - 1, by omega⟩
    have hlen : (textTy (run h) o t).text.length < fuel := by
      simp [textTy, textTyOpt, textifyType, textVariation_zero, textParamList, Out.sep] at hf
      omega
    exact rt_list (h2 fuel ('>' :: rest) hlen (close_follow rest))
  | .user ref ps n v, hs => by
    unfold SurvivesTy at hs
    obtain ⟨rfl, ⟨nm, a, h1, h2, hnb⟩, hps⟩ := hs
    have h3 := usable_resolves h1 h2
    have htext : (textTy (run h) o (.user ref ps n 0)).text =
        nm ++ (showAnchor a ++ ((textNul n).text ++ (paramsText ((textParams (run h) o ps).map Out.text)))) := by
      simp [textTy, textUser, textifyType, textAnchor_shown h1, textVariation_zero, textParamList_text]
    obtain ⟨items, hi1, hi3, hi4, hi2⟩ := survives_params o ps hps
    have hlens : items.length = ps.length := by
      have e1 : ((textParams (run h) o ps).map Out.text).length = items.length := by rw [← hi1]; simp
      have e2 : ∀ l : List Param, (textParams (run h) o l).length = l.length := by
        intro l
        induction l with
        | nil => rfl
        | cons p l ih => simp [textParams, ih]
      rw [List.length_map, e2] at e1
      exact e1.symm
    refine ⟨.user nm (a.map fun a => ⟨false, a⟩) none n (if items = [] then none else some (items.map fun i => SParam.ty i.2)), ?_, ?_⟩
    · have hu : unwrapU32 (a.map fun a => ⟨false, a⟩) = .ok a := by
        rcases shown_anchor h1 with rfl | rfl
        · rfl
        · exact unwrapU32_anchor (.inr rfl) h2.2.2
      by_cases hne : items = []
      · rw [if_pos hne]
        have : ps = [] := by rw [hne] at hlens; exact List.eq_nil_of_length_eq_zero hlens.symm
        subst this
        simp [convTy, hu, unwrapU32_none, h3, ofLookup]
      · rw [if_neg hne]
        simp [convTy, hu, unwrapU32_none, hi4, h3, ofLookup]
    · intro fuel rest hf hr
      obtain ⟨fuel, rfl⟩ : ∃ f, fuel = f + 1 := ⟨fuel - 1, by omega⟩
      have hlen : ∀ x ∈ (textParams (run h) o ps).map Out.text, x.length < fuel := by
        intro x hx
        rw [htext] at hf
        simp only [List.length_append] at hf
        have := length_lt_paramsText _ x hx
        omega
      obtain ⟨hs, hc, hu⟩ := rt_user_exact (ty := pTypeN fuel) (a := a) (n := n) (rest := rest)
        (usable_ident h2).1 (usable_ident h2).2 (by rw [hlens]; exact hnb) hr (hi2 fuel hlen) hi3
      rw [hi1] at hs hc hu
      rw [htext]
      simp only [List.append_assoc] at hs hc hu ⊢
      rw [pTypeN, hs, hc, hu]
      rfl
/-- Surviving parameters are read back from their texts. -/
theorem survives_params {h : List Op} (o : Opts) :
    (ps : List Param) → SurvivesParams (run h) o.anchors ps →
      ∃ items : List (Str × STy), items.map (·.1) = (textParams (run h) o ps).map Out.text ∧
        (∀ i ∈ items, ∃ c tl, i.1 = c :: tl ∧ isAlpha c = true) ∧
        convParams (run h) (items.map fun i => SParam.ty i.2) = .ok ps ∧
        ∀ (fuel : Nat), (∀ x ∈ (textParams (run h) o ps).map Out.text, x.length < fuel) →
          ∀ i ∈ items, ∀ r, TyFollow r → pTypeN fuel (i.1 ++ r) = some (i.2, r)
  | [], _ => ⟨[], rfl, by simp, rfl, by simp⟩
  | .ty t :: ps, hs => by
    unfold SurvivesParams at hs
    obtain ⟨items, h1, h2, h3, h4⟩ := survives_params o ps hs.2
    obtain ⟨s, hconv, hs'⟩ := survives_ty o t hs.1
    refine ⟨((textTy (run h) o t).text, s) :: items, by simp [h1, textParams, textParam], ?_, ?_, ?_⟩
    · intro i hi
      rcases List.mem_cons.1 hi with rfl | hi
      · exact survives_head o t hs.1
      · exact h2 i hi
    · simp [convParams, convParam, hconv, convCons, h3, Res.map]
    · intro fuel hlen i hi r hr
      rcases List.mem_cons.1 hi with rfl | hi
      · exact hs' fuel r (hlen _ (by simp [textParams, textParam])) hr
      · exact h4 fuel (fun x hx => hlen x (by simp only [textParams, List.map_cons]; exact List.mem_cons_of_mem _ hx))
          i hi r hr
end

/-! ## And no others -/

theorem pSimpleType_kind {x r : Str} {s : STy} (h : pSimpleType x = some (s, r)) : ∃ k n, s = .simple k n := by
  unfold pSimpleType at h
  cases h1 : pFirst simpleNames x with
  | none => simp [h1] at h
  | some q => simp [h1] at h; exact ⟨_, _, h.1.symm⟩

theorem pListWith_kind {ty : Str → Option (STy × Str)} {x r : Str} {s : STy} (h : pListWith ty x = some (s, r)) :
    ∃ n t y, s = .list n t ∧ pKwOpen cs!"list" x = some (n, y) ∧ ty y = some (t, '>' :: r) := by
  unfold pListWith at h
  cases h1 : pKwOpen cs!"list" x with
  | none => simp [h1] at h
  | some q =>
    cases h2 : ty q.2 with
    | none => simp [h1, h2] at h
    | some w =>
      cases h3 : lit cs!">" w.2 with
      | none => simp [h1, h2, h3] at h
      | some z =>
        simp [h1, h2, h3] at h
        have := lit_some h3
        obtain ⟨rfl, rfl⟩ := h
        exact ⟨q.1, w.1, q.2, rfl, rfl, by rw [h2]; simp at this; rw [← this]⟩

theorem pMapWith_kind {ty : Str → Option (STy × Str)} {x r : Str} {s : STy} (h : pMapWith ty x = some (s, r)) :
    ∃ n a b, s = .map n a b := by
  unfold pMapWith at h
  simp only [Option.bind_eq_bind, Option.bind_eq_some_iff] at h
  obtain ⟨_, _, _, _, _, _, _, _, _, _, h⟩ := h
  cases h
  exact ⟨_, _, _, rfl⟩

theorem pStructWith_kind {ty : Str → Option (STy × Str)} {x r : Str} {s : STy} (h : pStructWith ty x = some (s, r)) :
    ∃ n ps, s = .struct n ps := by
  unfold pStructWith at h
  simp only [Option.bind_eq_bind, Option.bind_eq_some_iff] at h
  obtain ⟨_, _, _, _, h⟩ := h
  cases h
  exact ⟨_, _, rfl⟩

theorem pIntType_kind {kw x r : Str} {f : Nul → IntTok → STy} {s : STy} (h : pIntType kw f x = some (s, r)) :
    ∃ n i, s = f n i := by
  unfold pIntType at h
  simp only [Option.bind_eq_bind, Option.bind_eq_some_iff] at h
  obtain ⟨_, _, _, _, _, _, h⟩ := h
  cases h
  exact ⟨_, _, rfl⟩

theorem or_some {α : Type} {a b : Option α} {x : α} (h : a.or b = some x) : a = some x ∨ (a = none ∧ b = some x) := by
  cases a with
  | none => exact .inr ⟨rfl, by simpa using h⟩
  | some y => exact .inl (by simpa using h)

/-- A built-in type is a list only by the rule for lists, and never user-defined. -/
theorem pCompound_kind {ty : Str → Option (STy × Str)} {x r : Str} {s : STy} (h : pCompoundWith ty x = some (s, r)) :
    (∀ name a u n ps, s ≠ .user name a u n ps) ∧ ((∃ n t, s = .list n t) → pListWith ty x = some (s, r)) := by
  have hi : ∀ {kw f}, pIntType kw f x = some (s, r) → (∀ n i, ¬ (∃ name a u m ps, f n i = STy.user name a u m ps)) →
      (∀ n i, ¬ (∃ m t, f n i = STy.list m t)) → (∀ name a u n ps, s ≠ .user name a u n ps) ∧
        ((∃ n t, s = .list n t) → pListWith ty x = some (s, r)) := by
    intro kw f h1 h2 h3
    obtain ⟨n, i, rfl⟩ := pIntType_kind h1
    exact ⟨fun _ _ _ _ _ e => h2 n i ⟨_, _, _, _, _, e⟩, fun e => absurd e (h3 n i)⟩
  unfold pCompoundWith at h
  rcases or_some h with h | ⟨-, h⟩
  · rcases or_some h with h | ⟨-, h⟩
    · rcases or_some h with h | ⟨-, h⟩
      · rcases or_some h with h | ⟨-, h⟩
        · rcases or_some h with h | ⟨-, h⟩
          · rcases or_some h with h | ⟨-, h⟩
            · obtain ⟨n, t, y, rfl, -⟩ := pListWith_kind h
              exact ⟨by simp, fun _ => h⟩
            · obtain ⟨n, a, b, rfl⟩ := pMapWith_kind h
              exact ⟨by simp, by simp⟩
          · obtain ⟨n, ps, rfl⟩ := pStructWith_kind h
            exact ⟨by simp, by simp⟩
        · exact hi h (by simp) (by simp)
      · exact hi h (by simp) (by simp)
    · exact hi h (by simp) (by simp)
  · exact hi h (by simp) (by simp)

theorem pIdent_is {x r name : Str} (h : pIdent x = some (name, r)) : isIdentifier name = true := by
  rw [isIdentifier_iff]
  cases x with
  | nil => simp [pIdent] at h
  | cons c x =>
    simp only [pIdent] at h
    split at h
    · next hc =>
      cases h
      exact ⟨c, _, rfl, hc, fun d hd => by
        have := List.all_takeWhile (p := isIdentChar) (l := x)
        rw [List.all_eq_true] at this
        exact this d hd⟩
    · cases h

theorem pUserWith_kind {ty : Str → Option (STy × Str)} {x r : Str} {s : STy} (h : pUserWith ty x = some (s, r)) :
    ∃ name a u n ps, s = .user name a u n ps ∧ isIdentifier name = true := by
  unfold pUserWith at h
  simp only [Option.bind_eq_bind, Option.bind_eq_some_iff] at h
  obtain ⟨q, h1, h⟩ := h
  cases h
  exact ⟨_, _, _, _, _, rfl, pIdent_is h1⟩

/-- A type that is read as user-defined is read by the rule for user-defined types, all others having failed. -/
theorem pTypeN_user {fuel : Nat} {x r name : Str} {a u : Option IntTok} {n : Nul} {ps : Option (List SParam)}
    (h : pTypeN (fuel + 1) x = some (.user name a u n ps, r)) :
    pSimpleType x = none ∧ pCompoundWith (pTypeN fuel) x = none ∧
      pUserWith (pTypeN fuel) x = some (.user name a u n ps, r) ∧ isIdentifier name = true := by
  rw [pTypeN] at h
  rcases or_some h with h | ⟨h2, h⟩
  · rcases or_some h with h | ⟨h1, h⟩
    · obtain ⟨k, n, e⟩ := pSimpleType_kind h
      cases e
    · exact absurd rfl ((pCompound_kind h).1 _ _ _ _ _)
  · obtain ⟨_, _, _, _, _, e, hi⟩ := pUserWith_kind h
    cases e
    cases h1 : pSimpleType x with
    | some q => rw [h1] at h2; simp at h2
    | none => rw [h1] at h2; exact ⟨rfl, by simpa using h2, h, hi⟩

theorem pTypeN_list {fuel : Nat} {x r : Str} {n : Nul} {t : STy} (h : pTypeN (fuel + 1) x = some (.list n t, r)) :
    ∃ y, pKwOpen cs!"list" x = some (n, y) ∧ pTypeN fuel y = some (t, '>' :: r) := by
  rw [pTypeN] at h
  rcases or_some h with h | ⟨h2, h⟩
  · rcases or_some h with h | ⟨h1, h⟩
    · obtain ⟨k, n, e⟩ := pSimpleType_kind h
      cases e
    · obtain ⟨n', t', y, e, h3, h4⟩ := pListWith_kind ((pCompound_kind h).2 ⟨_, _, rfl⟩)
      cases e
      exact ⟨y, h3, h4⟩
  · obtain ⟨_, _, _, _, _, e, hi⟩ := pUserWith_kind h
    cases e

/-- What it takes to build a user-defined type. -/
theorem convTy_user {st : Store} {s : STy} {ref : Nat} {ps : List Param} {n : Nul} {v : Nat}
    (h : convTy st s = .ok (.user ref ps n v)) : ∃ name a u qs a', s = .user name a u n qs ∧ v = 0 ∧
      unwrapU32 a = .ok a' ∧ st.getAndValidateAnchor .type a' name = .ok ref ∧
      (match qs with | some qs => convParams st qs | none => .ok []) = .ok ps := by
  cases s with
  | simple name n =>
    rw [convTy] at h
    obtain ⟨k, e⟩ := convSimple_ok h
    cases e
  | list n t => rw [convTy, Res.bind_ok_iff] at h; obtain ⟨_, _, e⟩ := h; cases e
  | map n a b => rw [convTy] at h; cases h
  | struct n ps => rw [convTy] at h; cases h
  | prec k n i => rw [convTy, Res.bind_ok_iff] at h; obtain ⟨_, _, e⟩ := h; cases e
  | intervalDay n i => rw [convTy, Res.bind_ok_iff] at h; obtain ⟨_, _, e⟩ := h; cases e
  | user name a u n' qs =>
    unfold convTy at h
    simp only [Res.bind_ok_iff] at h
    obtain ⟨a', h1, u', h2, ps', h3, r, h4, e⟩ := h
    cases e
    refine ⟨name, a, u, qs, a', rfl, rfl, h1, ?_, h3⟩
    cases h5 : st.getAndValidateAnchor .type a' name with
    | error e => rw [h5] at h4; cases h4
    | ok x => rw [h5] at h4; cases h4; rfl

theorem convTy_list {st : Store} {s : STy} {t : Option Ty} {n : Nul} {v : Nat} (h : convTy st s = .ok (.list t n v)) :
    ∃ s' t', s = .list n s' ∧ t = some t' ∧ convTy st s' = .ok t' := by
  cases s with
  | simple name n =>
    rw [convTy] at h
    obtain ⟨k, e⟩ := convSimple_ok h
    cases e
  | list n t => rw [convTy, Res.bind_ok_iff] at h; obtain ⟨t', h1, e⟩ := h; cases e; exact ⟨_, _, rfl, rfl, h1⟩
  | map n a b => rw [convTy] at h; cases h
  | struct n ps => rw [convTy] at h; cases h
  | prec k n i => rw [convTy, Res.bind_ok_iff] at h; obtain ⟨_, _, e⟩ := h; cases e
  | intervalDay n i => rw [convTy, Res.bind_ok_iff] at h; obtain ⟨_, _, e⟩ := h; cases e
  | user name a u n' qs =>
    unfold convTy at h
    simp only [Res.bind_ok_iff] at h
    obtain ⟨a', h1, u', h2, ps', h3, r, h4, e⟩ := h
    cases e

/-- The words shown for a type that a word is resolved to: the same word, or one that goes on with a colon, and
then only a number resolves it. -/
theorem shown_resolved {h : List Op} (v : Visibility) {ref : Nat} {name : Str} {a' : Option Nat}
    (hi : isIdentifier name = true) (hg : (run h).getAndValidateAnchor .type a' name = .ok ref) :
    ∃ nm a, ShownRef (run h) v ref nm a ∧ (nm = name ∨ (a' ≠ none ∧ ∃ sig, nm = name ++ ':' :: sig)) := by
  rw [Store.getAndValidate_type (Store.ordered_run h) .type (by decide)] at hg
  have hc := ident_colon hi
  cases a' with
  | none =>
    obtain ⟨hd, -⟩ := hg
    obtain ⟨nm, a, hs⟩ := shown_exists (v := v) hd
    refine ⟨nm, a, hs, .inl ?_⟩
    obtain ⟨n, b, hd', hb, hm⟩ := hs
    obtain rfl := declared_fun hd hd'
    have hbn : b = name := by
      have := (bareName_iff _ _).1 hb
      rw [← this, baseName_of_not_mem hc]
    cases v with
    | never => rw [hm.1, hbn]
    | always => exact hm.1
    | required => rw [hm.1, hbn]
  | some r =>
    obtain ⟨-, n, hd, hn⟩ := hg
    have hbn : BareName n name := by
      rcases hn with rfl | hn
      · exact ⟨hc, .inl rfl⟩
      · exact hn
    obtain ⟨nm, a, hs⟩ := shown_exists (v := v) hd
    refine ⟨nm, a, hs, ?_⟩
    obtain ⟨n', b, hd', hb, hm⟩ := hs
    obtain rfl := declared_fun hd hd'
    have hb' : b = name := by
      rw [← (bareName_iff _ _).1 hb, (bareName_iff _ _).1 hbn]
    have hfull : nm = n → nm = name ∨ (some r ≠ none ∧ ∃ sig, nm = name ++ ':' :: sig) := by
      intro e
      rcases hbn.2 with h | h
      · exact .inl (e.trans h)
      · exact .inr ⟨by simp, e ▸ h⟩
    cases v with
    | never => exact .inl (hm.1.trans hb')
    | always => exact hfull hm.1
    | required => exact .inl (hm.1.trans hb')

/-- A type that is read from any text at all has a text that begins with a letter. -/
theorem read_head {h : List Op} (o : Opts) {fuel : Nat} {x r : Str} {s : STy} {t : Ty}
    (hp : pTypeN fuel x = some (s, r)) (hc : convTy (run h) s = .ok t) :
    ∃ c tl, (textTy (run h) o t).text = c :: tl ∧ isAlpha c = true := by
  have hpr := convTy_image (Store.ordered_run h) s t hc
  cases t with
  | simple k n v => cases k <;> exact ⟨_, _, rfl, by decide⟩
  | intervalDay p n v => exact ⟨_, _, rfl, by decide⟩
  | prec k p n v => cases k <;> exact ⟨_, _, rfl, by decide⟩
  | list t n v => exact ⟨_, _, rfl, by decide⟩
  | user ref ps n v =>
    obtain ⟨name, a, u, qs, a', rfl, rfl, h1, h2, h3⟩ := convTy_user hc
    obtain ⟨fuel, rfl⟩ : ∃ f, fuel = f + 1 := by
      cases fuel with
      | zero => simp [pTypeN] at hp
      | succ f => exact ⟨f, rfl⟩
    have hi := (pTypeN_user hp).2.2.2
    obtain ⟨nm, b, hs, hn⟩ := shown_resolved o.anchors hi h2
    obtain ⟨c, tl, rfl, hal, -⟩ := (isIdentifier_iff name).1 hi
    refine ⟨c, ?_⟩
    rcases hn with rfl | ⟨-, sig, rfl⟩
    · exact ⟨_, by rw [textTy, textUser, textifyType, textAnchor_shown hs]; rfl, hal⟩
    · exact ⟨_, by rw [textTy, textUser, textifyType, textAnchor_shown hs]; rfl, hal⟩
  | _ => simp [Producible] at hpr

theorem pParam_kind {ty : Str → Option (STy × Str)} {x r : Str} {s : STy} (h : pParamWith ty x = some (.ty s, r)) :
    ty x = some (s, r) := by
  unfold pParamWith at h
  rcases or_some h with h | ⟨-, h⟩
  · rcases or_some h with h | ⟨-, h⟩
    · cases h1 : ty x with
      | none => rw [h1] at h; cases h
      | some q => rw [h1] at h; cases h; rfl
    · cases h1 : pInteger x with
      | none => rw [h1] at h; cases h
      | some q => rw [h1] at h; cases h
  · cases h1 : pName x with
    | none => rw [h1] at h; cases h
    | some q => rw [h1] at h; cases h

theorem convParam_kind {st : Store} {q : SParam} {p : Param} (h : convParam st q = .ok p) :
    ∃ s t, q = .ty s ∧ p = .ty t ∧ convTy st s = .ok t := by
  cases q with
  | ty s => rw [convParam, Res.bind_ok_iff] at h; obtain ⟨t, h1, e⟩ := h; cases e; exact ⟨s, t, rfl, rfl, h1⟩
  | int i => rw [convParam] at h; cases h
  | name i => rw [convParam] at h; cases h

theorem convParams_cons {st : Store} {q : SParam} {qs : List SParam} {ps : List Param}
    (h : convParams st (q :: qs) = .ok ps) : ∃ p ps', ps = p :: ps' ∧ convParam st q = .ok p ∧ convParams st qs = .ok ps' := by
  rw [convParams] at h
  unfold convCons at h
  cases h1 : convParam st q with
  | ok p =>
    rw [h1] at h
    cases h2 : convParams st qs with
    | ok ps' => rw [h2] at h; cases h; exact ⟨p, ps', rfl, rfl, rfl⟩
    | err e => rw [h2] at h; cases h
    | panic => rw [h2] at h; cases h
  | err e => rw [h1] at h; dsimp only at h; split at h <;> cases h
  | panic => rw [h1] at h; cases h

theorem flat_follow (l : List Str) (rest : Str) : TyFollow (l.flatMap (cs!", " ++ ·) ++ '>' :: rest) := by
  cases l with
  | nil => exact close_follow rest
  | cons x l => simp only [List.flatMap_cons, List.append_assoc]; exact comma_follow _

theorem commaSp_alpha {x y : Str} (h : ∃ c tl, x = c :: tl ∧ isAlpha c = true) : commaSp (cs!", " ++ (x ++ y)) = some (x ++ y) := by
  obtain ⟨c, tl, rfl, hc⟩ := h
  exact commaSp_join _ (alpha_next hc)

/-- The parameters, with a separator before the first too. -/
theorem params_star {h : List Op} (o : Opts) {ps : List Param} {fuel : Nat} {rest r : Str} {qs : List SParam} (hne : ps ≠ [])
    (hp : pParamsWith (pTypeN fuel) (paramsText ((textParams (run h) o ps).map Out.text) ++ rest) = some (qs, r))
    (hc : convParams (run h) qs = .ok ps) :
    ∃ n r', pStarN commaSp (pParamWith (pTypeN fuel)) n
        (((textParams (run h) o ps).map Out.text).flatMap (cs!", " ++ ·) ++ '>' :: rest) = (qs, r') := by
  cases ps with
  | nil => exact absurd rfl hne
  | cons p ps =>
    have hx : paramsText ((textParams (run h) o (p :: ps)).map Out.text) ++ rest = '<' :: ((textParam (run h) o p).text ++
        (((textParams (run h) o ps).map Out.text).flatMap (cs!", " ++ ·) ++ '>' :: rest)) := by
      simp [paramsText, textParams, joinS_cons]
    have hy : ((textParams (run h) o (p :: ps)).map Out.text).flatMap (cs!", " ++ ·) ++ '>' :: rest =
        cs!", " ++ ((textParam (run h) o p).text ++
          (((textParams (run h) o ps).map Out.text).flatMap (cs!", " ++ ·) ++ '>' :: rest)) := by
      simp [textParams]
    rw [hy]
    rw [hx] at hp
    generalize ((textParams (run h) o ps).map Out.text).flatMap (cs!", " ++ ·) ++ '>' :: rest = R at hp ⊢
    simp only [pParamsWith, lit, if_true, Option.bind_eq_bind, Option.bind_some, pParamsTail, Option.bind_eq_some_iff,
      Option.some.injEq, Prod.mk.injEq] at hp
    obtain ⟨r', -, rfl, -⟩ := hp
    cases hw : pParamWith (pTypeN fuel) ((textParam (run h) o p).text ++ R) with
    | none => simp [pSep, pSep1, hw, convParams] at hc
    | some w =>
      obtain ⟨q, s1⟩ := w
      simp only [pSep, pSep1, hw] at hc
      obtain ⟨_, _, e, h1, -⟩ := convParams_cons hc
      cases e
      obtain ⟨s, t, rfl, rfl, h3⟩ := convParam_kind h1
      have hhead := read_head o (pParam_kind hw) h3
      refine ⟨s1.length + 1, (pStarN commaSp (pParamWith (pTypeN fuel)) s1.length s1).2, ?_⟩
      rw [pStarN, textParam, commaSp_alpha hhead]
      rw [textParam] at hw
      simp only [pSep, pSep1, textParam, hw]

/-- A user-defined type whose words look like a built-in type is taken for it. -/
theorem looks_built_in {h : List Op} (o : Opts) {nm : Str} {n : Nul} {ps : List Param} {fuel : Nat} {rest : Str}
    (hsp : SurvivesParams (run h) o.anchors ps)
    (hlen : ∀ x ∈ (textParams (run h) o ps).map Out.text, x.length < fuel) (hr : TyFollow rest)
    (hpc : pCompoundWith (pTypeN fuel) (nm ++ (showAnchor none ++ ((textNul n).text ++
      (paramsText ((textParams (run h) o ps).map Out.text) ++ rest)))) = none) : ¬ LooksBuiltIn nm ps.length := by
  obtain ⟨items, hi1, hi3, hi4, hi2⟩ := survives_params o ps hsp
  have hp := hi2 fuel hlen
  have hlens : items.length = ps.length := by
    have e1 : ((textParams (run h) o ps).map Out.text).length = items.length := by rw [← hi1]; simp
    have e2 : ∀ l : List Param, (textParams (run h) o l).length = l.length := by
      intro l
      induction l with
      | nil => rfl
      | cons p l ih => simp [textParams, ih]
    rw [List.length_map, e2] at e1
    exact e1.symm
  rw [← hi1] at hpc
  rw [← hlens]
  unfold pCompoundWith at hpc
  simp only [Option.or_eq_none_iff] at hpc
  obtain ⟨⟨⟨⟨⟨⟨hl, hm⟩, hst⟩, -⟩, -⟩, -⟩, -⟩ := hpc
  rintro (⟨h1, h2⟩ | ⟨h1, h2⟩ | ⟨h1, h2⟩)
  · match items, h2, hp, hl with
    | [i], _, hp, hl =>
      have := hp i (by simp) ('>' :: rest) (close_follow _)
      rw [pListWith, pKwOpen_user_self (kw := cs!"list") (by rw [h1]; decide) (by simp)] at hl
      simp [joinS, this, lit] at hl
  · match items, h2, hp, hi3, hm with
    | [i, j], _, hp, hi3, hm =>
      have p1 := hp i (by simp) (cs!", " ++ (j.1 ++ '>' :: rest)) (comma_follow _)
      have p2 := hp j (by simp) ('>' :: rest) (close_follow _)
      have hsk : skipSp (' ' :: (j.1 ++ '>' :: rest)) = j.1 ++ '>' :: rest := by
        have := commaSp_alpha (y := '>' :: rest) (hi3 j (by simp))
        simpa [commaSp, lit] using this
      rw [pMapWith, pKwOpen_user_self (kw := cs!"map") (by rw [h1]; decide) (by simp)] at hm
      have e : joinS cs!", " ([i, j].map (·.1)) ++ '>' :: rest = i.1 ++ (cs!", " ++ (j.1 ++ '>' :: rest)) := by simp [joinS]
      rw [e] at hm
      simp only [Option.bind_eq_bind, Option.bind_some, p1] at hm
      simp only [lit, List.cons_append, List.nil_append, if_true, Option.bind_some] at hm
      rw [hsk, p2] at hm
      simp at hm
  · have hne : items ≠ [] := by rintro rfl; exact h2 rfl
    have h3 := pSep1_join commaSp (pParamWith (pTypeN fuel)) cs!", " TyFollow ('>' :: rest)
      (items.map fun i => (i.1, SParam.ty i.2)) (by decide) (by simpa using hne)
      (fun i hi r => by
        obtain ⟨j, hj, rfl⟩ := List.mem_map.1 hi
        exact commaSp_alpha (hi3 j hj))
      comma_follow (close_follow rest)
      (pStarN_stop _ _ _ (by simp [commaSp, lit]))
      (fun i hi r hF => by
        obtain ⟨j, hj, rfl⟩ := List.mem_map.1 hi
        exact pParamWith_ty (hp j hj r hF))
    simp only [List.map_map, Function.comp_def] at h3
    rw [pStructWith, pKwOpen_user_self (kw := cs!"struct") (by rw [h1]; decide) (by simpa using hne)] at hst
    simp [pParamsTail, pSep, h3, lit] at hst

mutual
/-- A type that is read back from its text is one that survives. -/
theorem survives_of_read {h : List Op} (o : Opts) :
    (t : Ty) → ∀ (fuel : Nat) (rest r : Str) (s : STy), (textTy (run h) o t).text.length < fuel → TyFollow rest →
      pTypeN fuel ((textTy (run h) o t).text ++ rest) = some (s, r) → convTy (run h) s = .ok t →
      SurvivesTy (run h) o.anchors t
  | .simple k n v => by
    intro fuel rest r s hf hr hp hc
    have := convTy_image (Store.ordered_run h) s _ hc
    rw [Producible] at this
    rw [SurvivesTy]; exact this
  | .intervalDay (some p) n v => by
    intro fuel rest r s hf hr hp hc
    have := convTy_image (Store.ordered_run h) s _ hc
    rw [Producible] at this
    rw [SurvivesTy]; exact this
  | .prec k p n v => by
    intro fuel rest r s hf hr hp hc
    have := convTy_image (Store.ordered_run h) s _ hc
    rw [Producible] at this
    rw [SurvivesTy]; exact this
  | .list (some t) n v => by
    intro fuel rest r s hf hr hp hc
    have hpr := convTy_image (Store.ordered_run h) s _ hc
    rw [Producible] at hpr
    obtain ⟨rfl, -⟩ := hpr
    obtain ⟨s', t', rfl, e, hc'⟩ := convTy_list hc
    cases e
    obtain ⟨fuel, rfl⟩ : ∃ f, fuel = f + 1 := ⟨fuel - 1, by omega⟩
    obtain ⟨y, h1, h2⟩ := pTypeN_list hp
    have ht : (textTy (run h) o (.list (some t) n 0)).text ++ rest =
        cs!"list" ++ ((textNul n).text ++ '<' :: ((textTy (run h) o t).text ++ '>' :: rest)) := by
      simp [textTy, textTyOpt, textifyType, textVariation_zero, textParamList, Out.sep]
    rw [ht, pKwOpen_self] at h1
    cases h1
    have hlen : (textTy (run h) o t).text.length < fuel := by
      simp [textTy, textTyOpt, textifyType, textVariation_zero, textParamList, Out.sep] at hf
      omega
    rw [SurvivesTy]
    exact ⟨rfl, survives_of_read o t _ _ _ _ hlen (close_follow rest) h2 hc'⟩
  | .user ref ps n v => by
    intro fuel rest r s hf hr hp hc
    obtain ⟨name, a, u, qs, a', rfl, rfl, h1, h2, h3⟩ := convTy_user hc
    obtain ⟨fuel, rfl⟩ : ∃ f, fuel = f + 1 := ⟨fuel - 1, by omega⟩
    obtain ⟨hps, hpc, hpu, hi⟩ := pTypeN_user hp
    obtain ⟨nm, b, hs, hn⟩ := shown_resolved o.anchors hi h2
    have htext : (textTy (run h) o (.user ref ps n 0)).text =
        nm ++ (showAnchor b ++ ((textNul n).text ++ (paramsText ((textParams (run h) o ps).map Out.text)))) := by
      simp [textTy, textUser, textifyType, textAnchor_shown hs, textVariation_zero, textParamList_text]
    rw [htext] at hps hpc hpu
    simp only [List.append_assoc] at hps hpc hpu
    rcases hn with rfl | ⟨hne, sig, rfl⟩
    case inr =>
      -- the rule stops at the colon and finds no number
      exfalso
      have hx : NextNot (fun c => isIdentChar c || c == '!') (':' :: (sig ++ (showAnchor b ++ ((textNul n).text ++
          (paramsText ((textParams (run h) o ps).map Out.text) ++ rest))))) := (nextNot_cons _ _ _).2 (by decide)
      have hid := pIdent_name hi (NextNot.mono (q := isIdentChar) hx fun c hc => by simp [hc])
      have hub := skipUBang_name hi hx
      unfold pUserWith at hpu
      simp only [List.cons_append, List.append_assoc] at hpu
      rw [hub, hid] at hpu
      simp [pOpt, pAnchor, lit] at hpu
      rw [← hpu.1.1] at h1
      cases h1
      exact hne rfl
    rw [pUser_parts _ b n _ hi hr] at hpu
    simp only [Option.some.injEq, Prod.mk.injEq, STy.user.injEq] at hpu
    obtain ⟨⟨-, rfl, rfl, -, hq⟩, -⟩ := hpu
    have hlen : ∀ x ∈ (textParams (run h) o ps).map Out.text, x.length < fuel := by
      intro x hx
      rw [htext] at hf
      simp only [List.length_append] at hf
      have := length_lt_paramsText _ x hx
      omega
    have hsp : SurvivesParams (run h) o.anchors ps := by
      by_cases hps : ps = []
      · rw [hps, SurvivesParams]; trivial
      · cases hw : pParamsWith (pTypeN fuel) (paramsText ((textParams (run h) o ps).map Out.text) ++ rest) with
        | none => rw [pOpt, hw] at hq; dsimp only at hq; rw [← hq] at h3; cases h3; exact absurd rfl hps
        | some w =>
          rw [pOpt, hw] at hq
          dsimp only at hq
          rw [← hq] at h3
          obtain ⟨m, r', h5⟩ := params_star o hps hw h3
          exact survives_params_of_read o ps _ _ _ _ _ hlen h5 h3
    have hw : ∀ w ∈ reservedPrefixes, ¬ w <+: nm := by
      intro w hw hpre
      obtain ⟨-, -, hx⟩ := user_follow b n ((textParams (run h) o ps).map Out.text) hr
      rw [pSimpleType_name _ _ (NextNot.mono (q := isIdentChar) hx fun c hc => by simp [hc]), Option.map_eq_none_iff,
        List.find?_eq_none] at hps
      have hsub : ∀ w ∈ reservedPrefixes, w ∈ simpleNames := by decide
      exact hps w (hsub w hw) (List.isPrefixOf_iff_prefix.2 hpre)
    rw [SurvivesTy]
    refine ⟨rfl, ⟨nm, b, hs, ?_, ?_⟩, hsp⟩
    · rcases shown_anchor hs with rfl | rfl
      · cases h1
        rw [Store.getAndValidate_type (Store.ordered_run h) .type (by decide)] at h2
        refine ⟨hi, hw, h2.1, ?_⟩
        rintro ⟨c, hc1, hc2⟩
        exact hc1 (h2.2 c hc2)
      · refine ⟨hi, hw, ?_⟩
        simp only [Option.map_some, unwrapU32, IntTok.toU32, Bool.false_eq_true, if_false] at h1
        by_cases hlt : ref < 2 ^ 32
        · exact hlt
        · rw [if_neg hlt] at h1; cases h1
    · rintro rfl
      exact looks_built_in o hsp hlen hr hpc
  | .missing | .intervalDay none _ _ | .intervalCompound _ _ _ | .len _ _ _ _ | .decimal _ _ _ _ | .struct _ _ _
  | .list none _ _ | .map _ _ _ _ | .userRef _ | .func | .alias => by
    intro fuel rest r s hf hr hp hc
    have := convTy_image (Store.ordered_run h) s _ hc
    simp [Producible] at this
/-- The same for parameters. -/
theorem survives_params_of_read {h : List Op} (o : Opts) :
    (ps : List Param) → ∀ (fuel n : Nat) (rest r : Str) (qs : List SParam),
      (∀ x ∈ (textParams (run h) o ps).map Out.text, x.length < fuel) →
      pStarN commaSp (pParamWith (pTypeN fuel)) n
        (((textParams (run h) o ps).map Out.text).flatMap (cs!", " ++ ·) ++ '>' :: rest) = (qs, r) →
      convParams (run h) qs = .ok ps → SurvivesParams (run h) o.anchors ps
  | [] => by intros; rw [SurvivesParams]; trivial
  | p :: ps => by
    intro fuel n rest r qs hlen hp hc
    cases qs with
    | nil => cases hc
    | cons q qs =>
      obtain ⟨_, _, e, h1, h2⟩ := convParams_cons hc
      cases e
      obtain ⟨s, t, rfl, rfl, h3⟩ := convParam_kind h1
      cases n with
      | zero => simp [pStarN] at hp
      | succ n =>
        rw [pStarN] at hp
        have hx : ((textParams (run h) o (Param.ty t :: ps)).map Out.text).flatMap (cs!", " ++ ·) ++ '>' :: rest =
            cs!", " ++ ((textTy (run h) o t).text ++
              (((textParams (run h) o ps).map Out.text).flatMap (cs!", " ++ ·) ++ '>' :: rest)) := by
          simp [textParams, textParam]
        rw [hx] at hp
        cases hcs : commaSp (cs!", " ++ ((textTy (run h) o t).text ++
              (((textParams (run h) o ps).map Out.text).flatMap (cs!", " ++ ·) ++ '>' :: rest))) with
        | none => rw [hcs] at hp; cases hp
        | some s1 =>
          rw [hcs] at hp
          dsimp only at hp
          cases hpp : pParamWith (pTypeN fuel) s1 with
          | none => rw [hpp] at hp; cases hp
          | some w =>
            obtain ⟨q', s2⟩ := w
            rw [hpp] at hp
            simp only [Prod.mk.injEq, List.cons.injEq] at hp
            obtain ⟨⟨rfl, hqs⟩, hr⟩ := hp
            have hty := pParam_kind hpp
            have hhead := read_head o hty h3
            rw [commaSp_alpha hhead] at hcs
            cases hcs
            have hl : (textTy (run h) o t).text.length < fuel := hlen _ (by simp [textParams, textParam])
            have hs := survives_of_read o t _ _ _ _ hl (flat_follow _ rest) hty h3
            obtain ⟨s', -, h5⟩ := survives_ty o t hs
            rw [h5 fuel _ hl (flat_follow _ rest)] at hty
            cases hty
            rw [SurvivesParams]
            exact ⟨hs, survives_params_of_read o ps _ _ rest _ _
              (fun x hx => hlen x (by simp only [textParams, List.map_cons]; exact List.mem_cons_of_mem _ hx))
              (Prod.ext hqs hr) h2⟩
end

end Verif
