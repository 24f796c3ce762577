import Verif.Proofs.ExtArgsExact
import Verif.Proofs.ExtArgsRT
/-!
# Argument lists that survive are read back, and no others
-/

namespace Verif
open StoreSpec TextSpec Grammar

set_option autoImplicit false

/-! ## Names -/

/-- No character that is not an escape's letter is lost in unescaping. -/
theorem count_unescape (c : Char) (h : c ∉ ['n', 't', 'r', '\\']) (b : Str) : b.count c ≤ (unescape b).count c := by
  simp only [List.mem_cons, List.not_mem_nil, or_false, not_or] at h
  fun_induction unescape b with
  | case1 => simp
  | case2 =>
    have : ¬ ('\\' = c) := fun e => h.2.2.2 e.symm
    simp [this]
  | case3 d s ih =>
    have hb : ¬ ('\\' = c) := fun e => h.2.2.2 e.symm
    simp only [List.count_cons]
    by_cases hd : d = c
    · subst hd
      simp only [h.1, h.2.1, h.2.2.1, if_false, beq_self_eq_true, if_true]
      simp only [beq_iff_eq, if_neg hb]
      omega
    · simp only [beq_iff_eq, if_neg hb, if_neg hd]
      omega
  | case4 d s _ _ ih =>
    simp only [List.count_cons]
    omega

theorem unescape_length (b : Str) : (unescape b).length ≤ b.length := by
  fun_induction unescape b with
  | case1 => simp
  | case2 => simp
  | case3 d s ih => simp only [List.length_cons]; omega
  | case4 d s _ _ ih => simp only [List.length_cons]; omega

/-- A name that is read, from right where it was written, as itself is an identifier. -/
theorem name_is {c : Char} (hc : c ∉ ['n', 't', 'r', '\\', '"', ' ']) {n x r : Str} (h : pName (skipSp (n ++ c :: x)) = some (n, r)) :
    isIdentifier n = true := by
  simp only [List.mem_cons, List.not_mem_nil, or_false, not_or] at hc
  unfold pName at h
  split at h
  · next w hw => cases h; exact pIdent_is hw
  · exfalso
    unfold pQuotedName at h
    split at h
    · cases h
    · next s hs =>
      split at h
      · cases h
      · next b r' hq =>
        cases h
        have h1 := lit_some hs
        obtain ⟨h2, -⟩ := pQuoted_some '"' (by decide) _ _ _ hq
        have hsplit : unescape b ++ c :: x = (unescape b ++ c :: x).takeWhile (· == ' ') ++ skipSp (unescape b ++ c :: x) :=
          List.takeWhile_append_dropWhile.symm
        rw [h1, h2] at hsplit
        have hsp : ((unescape b ++ c :: x).takeWhile (· == ' ')).count c = 0 := by
          rw [List.count_eq_zero]
          intro hm
          have := List.all_eq_true.1 (List.all_takeWhile (p := (· == ' ')) (l := unescape b ++ c :: x)) c hm
          exact hc.2.2.2.2.2 (by simpa using this)
        have hp1 : unescape b ++ [c] <+: unescape b ++ c :: x := ⟨x, by simp⟩
        have hp2 : (unescape b ++ c :: x).takeWhile (· == ' ') ++ '"' :: b <+: unescape b ++ c :: x := by
          refine ⟨'"' :: r, ?_⟩
          generalize ((unescape b ++ c :: x).takeWhile (· == ' ')) = w at hsp hsplit ⊢
          rw [hsplit]
          simp
        have hl := unescape_length b
        have hpre := List.prefix_of_prefix_length_le hp1 hp2 (by simp only [List.length_append, List.length_cons, List.length_nil]; omega)
        have h3 := hpre.sublist.count_le c
        have h4 := count_unescape c (by simp [hc.1, hc.2.1, hc.2.2.1, hc.2.2.2.1]) b
        have hqc : ¬ ('"' = c) := fun e => hc.2.2.2.2.1 e.symm
        simp only [List.count_append, List.count_cons, List.count_nil, hsp, beq_iff_eq, if_neg hqc, if_true] at h3
        omega

/-! ## What conversion says about named arguments -/

/-- Named arguments and what they become, one by one. -/
def OneByOne [FTab] (st : Store) : List (Str × SArg) → List (Str × ExtValue) → Prop
  | [], [] => True
  | (k, a) :: l, (k', v) :: ps => k = k' ∧ convArg st a = .ok v ∧ OneByOne st l ps
  | _, _ => False

theorem insertKey_length {V : Type} (l : List (Str × V)) (k : Str) (v : V) :
    (insertKey l k v).length = if k ∈ l.map (·.1) then l.length else l.length + 1 := by
  induction l with
  | nil => simp [insertKey]
  | cons p l ih =>
    obtain ⟨k', v'⟩ := p
    simp only [insertKey]
    by_cases hk : k' = k
    · simp [hk]
    · have : ¬ (k = k') := fun e => hk e.symm
      simp only [if_neg hk, List.length_cons, ih, List.map_cons, List.mem_cons, this, false_or]
      split <;> rfl

theorem convNamed_length [FTab] {st : Store} {l : List (Str × SArg)} {acc res : List (Str × ExtValue)}
    (h : convNamed st acc l = .ok res) : res.length ≤ acc.length + l.length := by
  induction l generalizing acc with
  | nil => cases h; simp
  | cons i l ih =>
    obtain ⟨k, a⟩ := i
    rw [convNamed] at h
    obtain ⟨v, h1, h2⟩ := Res.bind_ok_iff.1 h
    have := ih h2
    have hi := insertKey_length acc k v
    split at hi <;> simp only [List.length_cons] <;> omega

theorem convNamed_each [FTab] {st : Store} {l : List (Str × SArg)} {acc res : List (Str × ExtValue)}
    (h : convNamed st acc l = .ok res) (hl : res.length = acc.length + l.length) (hn : (acc.map (·.1)).Nodup) :
    (res.map (·.1)).Nodup ∧ ∃ ps, res = acc ++ ps ∧ OneByOne st l ps := by
  induction l generalizing acc with
  | nil => cases h; exact ⟨hn, [], by simp, trivial⟩
  | cons i l ih =>
    obtain ⟨k, a⟩ := i
    rw [convNamed] at h
    obtain ⟨v, h1, h2⟩ := Res.bind_ok_iff.1 h
    have hi := insertKey_length acc k v
    by_cases hk : k ∈ acc.map (·.1)
    · exfalso
      rw [if_pos hk] at hi
      have := convNamed_length h2
      simp only [List.length_cons] at hl
      omega
    · rw [insertKey_new acc k v hk] at h2
      obtain ⟨h3, ps, h4, h5⟩ := ih h2 (by simp only [List.length_append, List.length_cons, List.length_nil] at hl ⊢; omega)
        (by
          rw [List.map_append, List.nodup_append]
          refine ⟨hn, by simp, ?_⟩
          intro x hx y hy
          simp only [List.map_cons, List.map_nil, List.mem_singleton] at hy
          rintro rfl
          exact hk (hy ▸ hx))
      exact ⟨h3, (k, v) :: ps, by rw [h4]; simp, rfl, h1, h5⟩

/-! ## What is read back survives -/

/-- The values behind commas are read one by one; behind them the list ends. -/
theorem survives_values_star [UTab] [FTab] (hA : AsciiPrintable) (hF : FloatsShown) {h : List Op} (o : Opts) {tail : Str}
    (ht : ExprFollow tail) : (vs : List ExtValue) → ∀ (n : Nat) (r : Str) (l : List SArg),
      pStarN spCommaSp pArg n (((textExtValues (run h) o vs).map Out.text).flatMap (cs!", " ++ ·) ++ tail) = (l, r) →
      convArgList (run h) l = .ok vs →
      SurvivesValues (run h) o vs ∧ r = tail ∧ pStarN spCommaSp pArg (n - vs.length) tail = ([], tail)
  | [] => by
    intro n r l hp hc
    rw [SurvivesValues]
    cases l with
    | cons s l => obtain ⟨_, _, e, -⟩ := convArgList_cons hc; cases e
    | nil =>
      simp only [textExtValues, List.map_nil, List.flatMap_nil, List.nil_append] at hp
      have hr : r = tail := by
        cases n with
        | zero => cases hp; rfl
        | succ n =>
          rw [pStarN] at hp
          split at hp
          · cases hp; rfl
          · split at hp
            · cases hp; rfl
            · cases hp
      subst hr
      exact ⟨trivial, rfl, hp⟩
  | v :: vs => by
    intro n r l hp hc
    cases l with
    | nil => cases hc
    | cons s l =>
      obtain ⟨v', vs', he, h1, h2⟩ := convArgList_cons hc
      injection he with he1 he2
      subst he1 he2
      cases n with
      | zero => simp [pStarN] at hp
      | succ n =>
        have hfl : ExprFollow (((textExtValues (run h) o vs).map Out.text).flatMap (cs!", " ++ ·) ++ tail) := by
          cases vs with
          | nil => exact ht
          | cons w vs => exact exprFollow_comma _
        have hx : ((textExtValues (run h) o (v :: vs)).map Out.text).flatMap (cs!", " ++ ·) ++ tail =
            cs!", " ++ ((textExtValue (run h) o v).text ++ (((textExtValues (run h) o vs).map Out.text).flatMap (cs!", " ++ ·) ++ tail)) := by
          simp [textExtValues]
        rw [hx, pStarN, spCommaSp_skip] at hp
        simp only at hp
        cases hpp : pArg (skipSp ((textExtValue (run h) o v).text ++ (((textExtValues (run h) o vs).map Out.text).flatMap (cs!", " ++ ·) ++ tail))) with
        | none => rw [hpp] at hp; cases hp
        | some w =>
          obtain ⟨s', s2⟩ := w
          rw [hpp] at hp
          simp only [Prod.mk.injEq, List.cons.injEq] at hp
          obtain ⟨⟨rfl, hss⟩, hr⟩ := hp
          rw [(starts_of_read_value hF o hpp h1).skip] at hpp
          have hs := survives_value_of_read hA hF o v _ _ _ _ (by simp only [List.length_append]; omega) hfl hpp h1
          obtain ⟨a', ha'⟩ := argText_survives hA o v hs
          have hread : pArg ((textExtValue (run h) o v).text ++ (((textExtValues (run h) o vs).map Out.text).flatMap (cs!", " ++ ·) ++ tail)) = _ :=
            ha'.arg _ _ (by simp only [List.length_append]; omega) hfl
          rw [hread] at hpp
          cases hpp
          rw [SurvivesValues]
          have := survives_values_star hA hF o ht vs _ _ _ (Prod.ext hss hr) h2
          refine ⟨⟨hs, this.1⟩, this.2.1, ?_⟩
          have hn : n + 1 - (v :: vs).length = n - vs.length := by simp only [List.length_cons]; omega
          rw [hn]
          exact this.2.2

theorem namedArg_parts {x r : Str} {k : Str} {a : SArg} (h : pNamedArg x = some ((k, a), r)) :
    ∃ s1 s2, pName x = some (k, s1) ∧ lit cs!"=" (skipSp s1) = some s2 ∧ pArg (skipSp s2) = some (a, r) := by
  unfold pNamedArg at h
  simp only [Option.bind_eq_bind, Option.bind_eq_some_iff] at h
  obtain ⟨⟨n, s1⟩, h1, s2, h2, ⟨b, s3⟩, h3, h4⟩ := h
  cases h4
  exact ⟨s1, s2, h1, h2, h3⟩

theorem textNamed_text [UTab] [FTab] (st : Store) (o : Opts) (p : Str × ExtValue) (rest : Str) :
    (textNamed st o p).text ++ rest = p.1 ++ '=' :: ((textExtValue st o p.2).text ++ rest) := by
  simp [textNamed]

/-- A named argument that is read as itself. -/
theorem survives_named_of_read [UTab] [FTab] (hA : AsciiPrintable) (hF : FloatsShown) {h : List Op} (o : Opts)
    (p : Str × ExtValue) {tail r : Str} {a : SArg} (ht : ExprFollow tail)
    (hp : pNamedArg (skipSp ((textNamed (run h) o p).text ++ tail)) = some ((p.1, a), r)) (hc : convArg (run h) a = .ok p.2) :
    isIdentifier p.1 = true ∧ SurvivesValue (run h) o p.2 ∧ r = tail := by
  rw [textNamed_text] at hp
  obtain ⟨s1, s2, h1, h2, h3⟩ := namedArg_parts hp
  have hid := name_is (by decide) h1
  have hsk : skipSp (p.1 ++ '=' :: ((textExtValue (run h) o p.2).text ++ tail)) = p.1 ++ '=' :: ((textExtValue (run h) o p.2).text ++ tail) := by
    obtain ⟨c, t, e, hal, _⟩ := (isIdentifier_iff p.1).1 hid
    rw [e]
    exact skipSp_cons _ _ (alpha_ne_space hal)
  have hnm : pName (p.1 ++ '=' :: ((textExtValue (run h) o p.2).text ++ tail)) = some (p.1, '=' :: ((textExtValue (run h) o p.2).text ++ tail)) := by
    unfold pName
    rw [pIdent_name hid ((nextNot_cons _ _ _).2 (by decide))]
  rw [hsk, hnm] at h1
  cases h1
  rw [skipSp_cons _ _ (by decide), lit_cons, if_pos rfl, lit_nil] at h2
  cases h2
  rw [(starts_of_read_value hF o h3 hc).skip] at h3
  have hs := survives_value_of_read hA hF o p.2 _ _ _ _ (by simp only [List.length_append]; omega) ht h3 hc
  obtain ⟨a', ha'⟩ := argText_survives hA o p.2 hs
  have hread : pArg ((textExtValue (run h) o p.2).text ++ tail) = _ :=
    ha'.arg _ _ (by simp only [List.length_append]; omega) ht
  rw [hread] at h3
  cases h3
  exact ⟨hid, hs, rfl⟩

/-- The named arguments behind commas. -/
theorem survives_named_star [UTab] [FTab] (hA : AsciiPrintable) (hF : FloatsShown) {h : List Op} (o : Opts) {rest : Str}
    (hr : ExprFollow rest) : (ps : List (Str × ExtValue)) → ∀ (n : Nat) (r : Str) (l : List (Str × SArg)),
      pStarN spCommaSp pNamedArg n (((ps.map (textNamed (run h) o)).map Out.text).flatMap (cs!", " ++ ·) ++ rest) = (l, r) →
      OneByOne (run h) l ps → (∀ p ∈ ps, isIdentifier p.1 = true ∧ SurvivesValue (run h) o p.2) ∧ r = rest
  | [] => by
    intro n r l hp hc
    refine ⟨by simp, ?_⟩
    cases l with
    | cons s l => exact hc.elim
    | nil =>
      simp only [List.map_nil, List.flatMap_nil, List.nil_append] at hp
      cases n with
      | zero => cases hp; rfl
      | succ n =>
        rw [pStarN] at hp
        split at hp
        · cases hp; rfl
        · split at hp
          · cases hp; rfl
          · cases hp
  | p :: ps => by
    intro n r l hp hc
    obtain ⟨k', v'⟩ := p
    cases l with
    | nil => exact hc.elim
    | cons i l =>
      obtain ⟨k, a⟩ := i
      obtain ⟨rfl, hc1, hc2⟩ := hc
      cases n with
      | zero => simp [pStarN] at hp
      | succ n =>
        have hfl : ExprFollow (((ps.map (textNamed (run h) o)).map Out.text).flatMap (cs!", " ++ ·) ++ rest) := by
          cases ps with
          | nil => exact hr
          | cons w vs => exact exprFollow_comma _
        have hx : ((((k, v') :: ps).map (textNamed (run h) o)).map Out.text).flatMap (cs!", " ++ ·) ++ rest =
            cs!", " ++ ((textNamed (run h) o (k, v')).text ++ (((ps.map (textNamed (run h) o)).map Out.text).flatMap (cs!", " ++ ·) ++ rest)) := by
          simp
        rw [hx, pStarN, spCommaSp_skip] at hp
        simp only at hp
        cases hpp : pNamedArg (skipSp ((textNamed (run h) o (k, v')).text ++ (((ps.map (textNamed (run h) o)).map Out.text).flatMap (cs!", " ++ ·) ++ rest))) with
        | none => rw [hpp] at hp; cases hp
        | some w =>
          obtain ⟨s', s2⟩ := w
          rw [hpp] at hp
          simp only [Prod.mk.injEq, List.cons.injEq] at hp
          obtain ⟨⟨rfl, hss⟩, hr'⟩ := hp
          obtain ⟨h1, h2, rfl⟩ := survives_named_of_read hA hF o (k, v') hfl hpp hc1
          obtain ⟨this, hrr⟩ := survives_named_star hA hF o hr ps _ r l (Prod.ext hss hr') hc2
          refine ⟨?_, hrr⟩
          intro p hp
          rcases List.mem_cons.1 hp with rfl | hp
          · exact ⟨h1, h2⟩
          · exact this p hp

/-- A name that begins with a word is read as the word. -/
theorem clear_of_none {n x : Str} (hi : isIdentifier n = true) (h : pArg (n ++ '=' :: x) = none) : ClearName n := by
  intro w hw hpre
  obtain ⟨t, rfl⟩ := hpre
  obtain ⟨sv, hv⟩ := pValue_word hw (t ++ '=' :: x)
  have hna : notAhead ':' (t ++ '=' :: x) = some (t ++ '=' :: x) := by
    cases t with
    | nil => rfl
    | cons d t =>
      have hd : ¬ (d = ':') := by
        rintro rfl
        exact ident_colon hi (by simp)
      simp [notAhead, hd]
  have hp : pParamLit (w ++ t ++ '=' :: x) = some (sv, t ++ '=' :: x) := by
    rw [List.append_assoc]
    simp [pParamLit, hv, hna]
  rw [pArg, pArgN, hp] at h
  cases he : pEnumValue (w ++ t ++ '=' :: x) with
  | none => rw [he] at h; simp [mapFst] at h
  | some y => rw [he] at h; simp [mapFst] at h

/-- Named arguments that begin with the first one. -/
theorem survives_named_list [UTab] [FTab] (hA : AsciiPrintable) (hF : FloatsShown) {h : List Op} (o : Opts) {rest : Str}
    (hr : ExprFollow rest) (p : Str × ExtValue) (ps : List (Str × ExtValue)) {r : Str} {l : List (Str × SArg)}
    (hp : pSep1 spCommaSp pNamedArg (skipSp ((textNamed (run h) o p).text ++
      (((ps.map (textNamed (run h) o)).map Out.text).flatMap (cs!", " ++ ·) ++ rest))) = some (l, r))
    (hc : OneByOne (run h) l (p :: ps)) : (∀ q ∈ p :: ps, isIdentifier q.1 = true ∧ SurvivesValue (run h) o q.2) ∧ r = rest := by
  have hfl : ExprFollow (((ps.map (textNamed (run h) o)).map Out.text).flatMap (cs!", " ++ ·) ++ rest) := by
    cases ps with
    | nil => exact hr
    | cons w vs => exact exprFollow_comma _
  unfold pSep1 at hp
  split at hp
  · cases hp
  · next i s1 he =>
    injection hp with hp
    injection hp with hl hrr
    subst hl
    obtain ⟨k, a⟩ := i
    obtain ⟨k', v⟩ := p
    obtain ⟨rfl, hc1, hc2⟩ := hc
    obtain ⟨h1, h2, rfl⟩ := survives_named_of_read hA hF o (k, v) hfl he hc1
    obtain ⟨this, hr2⟩ := survives_named_star hA hF o hr ps _ r _ (Prod.ext rfl hrr) hc2
    refine ⟨?_, hr2⟩
    intro q hq
    rcases List.mem_cons.1 hq with rfl | hq
    · exact ⟨h1, h2⟩
    · exact this q hq

theorem stop_none {n : Nat} {s1 tail : Str} (hn : 0 < n) (hs : spCommaSp tail = some s1) (h : pStarN spCommaSp pArg n tail = ([], tail)) :
    pArg s1 = none := by
  obtain ⟨m, rfl⟩ : ∃ m, n = m + 1 := ⟨n - 1, by omega⟩
  rw [pStarN, hs] at h
  simp only at h
  cases hp : pArg s1 with
  | none => rfl
  | some w => rw [hp] at h; cases h

theorem flatMap_length_le (l : List Str) : l.length ≤ (l.flatMap (cs!", " ++ ·)).length := by
  induction l with
  | nil => simp
  | cons x l ih => simp only [List.flatMap_cons, List.length_append, List.length_cons] at ih ⊢; omega

/-- An argument list that is read back survives. -/
theorem survives_list_of_read [UTab] [FTab] (hA : AsciiPrintable) (hF : FloatsShown) {h : List Op} (o : Opts)
    (pos : List ExtValue) (named : List (Str × ExtValue)) {rest r : Str} (hr : ArgsEnd rest) {s : SArgs}
    (hp : pExtArgs (skipSp ((textArgList (textExtValues (run h) o pos) (named.map (textNamed (run h) o))).text ++ rest)) = (s, r))
    (hlen : s.named.length = named.length)
    (hc1 : convArgList (run h) s.positional = .ok pos) (hc2 : convNamed (run h) [] s.named = .ok named) :
    SurvivesList (run h) o pos named ∧ r = rest := by
  obtain ⟨hnd, ps, e, hone⟩ := convNamed_each hc2 (by simp [hlen]) (by simp)
  rw [List.nil_append] at e
  subst e
  suffices hmain : (SurvivesValues (run h) o pos ∧ (∀ p ∈ named, isIdentifier p.1 = true ∧ SurvivesValue (run h) o p.2) ∧
      ∀ p, named.head? = some p → ClearName p.1) ∧ r = rest from ⟨⟨hmain.1.1, hmain.1.2.1, hnd, hmain.1.2.2⟩, hmain.2⟩
  by_cases hboth : pos = [] ∧ named = []
  · obtain ⟨rfl, rfl⟩ := hboth
    rw [SurvivesValues]
    refine ⟨by simp, ?_⟩
    have : (textArgList (textExtValues (run h) o []) (([] : List (Str × ExtValue)).map (textNamed (run h) o))).text = cs!"_" := by
      simp [textArgList, textExtValues]
    rw [this, List.cons_append, skipSp_cons _ _ (by decide)] at hp
    simp [pExtArgs, lit] at hp
    exact hp.2.symm
  have hempty : s = {} → False := by
    rintro rfl
    cases hc1
    cases hc2
    exact hboth ⟨rfl, rfl⟩
  have htext : (textArgList (textExtValues (run h) o pos) (named.map (textNamed (run h) o))).text =
      joinS cs!", " ((textExtValues (run h) o pos).map Out.text ++ (named.map (textNamed (run h) o)).map Out.text) := by
    unfold textArgList
    rw [if_neg (by rw [textExtValues_nil_iff, List.map_eq_nil_iff]; exact hboth), Out.text_sep, List.map_append]
  rw [htext] at hp
  unfold pExtArgs at hp
  split at hp
  · next w hw =>
    subst hp
    rcases or_some hw with hw | ⟨hnone, hw⟩
    · rcases or_some hw with hw | ⟨-, hw⟩
      · -- an underscore
        rw [Option.map_eq_some_iff] at hw
        obtain ⟨_, _, e⟩ := hw
        injection e with e _
        exact (hempty e.symm).elim
      · -- positional arguments come first
        unfold pPositional at hw
        simp only [Option.bind_eq_bind, Option.bind_eq_some_iff] at hw
        obtain ⟨⟨l, s1⟩, h1, h2⟩ := hw
        injection h2 with h2
        injection h2 with h2 h2r
        subst h2
        simp only at hc1 hc2 hone hlen h2r
        unfold pSep1 at h1
        split at h1
        · cases h1
        · next a s0 he =>
          injection h1 with h1
          injection h1 with hl hs1
          subst hl
          obtain ⟨v, vs, rfl, hc3, hc4⟩ := convArgList_cons hc1
          generalize htail : ((named.map (textNamed (run h) o)).map Out.text).flatMap (cs!", " ++ ·) ++ rest = tail
          have hfl : ExprFollow tail := by
            rw [← htail]
            cases named with
            | nil => exact hr.1
            | cons w vs => exact exprFollow_comma _
          have hx : joinS cs!", " ((textExtValues (run h) o (v :: vs)).map Out.text ++ (named.map (textNamed (run h) o)).map Out.text) ++ rest =
              (textExtValue (run h) o v).text ++ (((textExtValues (run h) o vs).map Out.text).flatMap (cs!", " ++ ·) ++ tail) := by
            rw [← htail]
            simp [textExtValues, joinS_cons]
          rw [hx, (starts_of_read_value hF o he hc3).skip] at he
          have hfl2 : ExprFollow (((textExtValues (run h) o vs).map Out.text).flatMap (cs!", " ++ ·) ++ tail) := by
            cases vs with
            | nil => exact hfl
            | cons w vs => exact exprFollow_comma _
          have hsv := survives_value_of_read hA hF o v _ _ _ _ (by simp only [List.length_append]; omega) hfl2 he hc3
          obtain ⟨a', ha'⟩ := argText_survives hA o v hsv
          have hread : pArg ((textExtValue (run h) o v).text ++ (((textExtValues (run h) o vs).map Out.text).flatMap (cs!", " ++ ·) ++ tail)) = _ :=
            ha'.arg _ _ (by simp only [List.length_append]; omega) hfl2
          rw [hread] at he
          cases he
          obtain ⟨hvs, hs1t, hstop⟩ := survives_values_star hA hF o hfl vs _ s1 _ (Prod.ext rfl hs1) hc4
          rw [SurvivesValues]
          cases named with
          | nil =>
            refine ⟨⟨⟨hsv, hvs⟩, by simp⟩, ?_⟩
            simp only [List.map_nil, List.flatMap_nil, List.nil_append] at htail
            subst hs1t
            rw [← htail] at h2r
            rw [← h2r]
            simp [pOpt, pCommaNamed, hr.2]
          | cons p ps =>
            have htail' : tail = cs!", " ++ ((textNamed (run h) o p).text ++ (((ps.map (textNamed (run h) o)).map Out.text).flatMap (cs!", " ++ ·) ++ rest)) := by
              rw [← htail]; simp
            subst hs1t
            have hopt : ∃ q, pCommaNamed s1 = some q ∧ pOpt pCommaNamed s1 = (some q.1, q.2) := by
              unfold pOpt at hone ⊢
              cases hq : pCommaNamed s1 with
              | none => rw [hq] at hone; exact hone.elim
              | some q => exact ⟨q, rfl, rfl⟩
            obtain ⟨q, hq, hq2⟩ := hopt
            rw [hq2] at hone h2r
            simp only [Option.getD_some] at hone h2r
            unfold pCommaNamed at hq
            rw [htail', spCommaSp_skip] at hq
            simp only [Option.bind_eq_bind, Option.bind_some] at hq
            obtain ⟨hall, hqr⟩ := survives_named_list hA hF o hr.1 p ps hq hone
            refine ⟨⟨⟨hsv, hvs⟩, hall, ?_⟩, by rw [← h2r, hqr]⟩
            intro p' hp'
            cases hp'
            have hid := (hall p (by simp)).1
            have hne : spCommaSp s1 = some (p.1 ++ '=' :: ((textExtValue (run h) o p.2).text ++ (((ps.map (textNamed (run h) o)).map Out.text).flatMap (cs!", " ++ ·) ++ rest))) := by
              rw [htail', spCommaSp_skip, textNamed_text]
              obtain ⟨c, t, e, hal, _⟩ := (isIdentifier_iff p.1).1 hid
              rw [e, List.cons_append, skipSp_cons _ _ (alpha_ne_space hal)]
            have hpos : 0 < (((textExtValues (run h) o vs).map Out.text).flatMap (cs!", " ++ ·) ++ s1).length - vs.length := by
              have h1 := flatMap_length_le ((textExtValues (run h) o vs).map Out.text)
              have h2 : ((textExtValues (run h) o vs).map Out.text).length = vs.length := by
                have : ∀ l : List ExtValue, (textExtValues (run h) o l).length = l.length := by
                  intro l
                  induction l with
                  | nil => rfl
                  | cons x l ih => simp [textExtValues, ih]
                simp [this]
              have h3 : 0 < s1.length := by rw [htail']; simp
              simp only [List.length_append]
              omega
            exact clear_of_none hid (stop_none hpos hne hstop)
    · -- only named arguments
      obtain ⟨l, h1, e⟩ := mapFst_some hw
      cases e
      cases hc1
      rw [SurvivesValues]
      cases named with
      | nil => exact (hboth ⟨rfl, rfl⟩).elim
      | cons p ps =>
        have hx : joinS cs!", " ((textExtValues (run h) o []).map Out.text ++ ((p :: ps).map (textNamed (run h) o)).map Out.text) ++ rest =
            (textNamed (run h) o p).text ++ (((ps.map (textNamed (run h) o)).map Out.text).flatMap (cs!", " ++ ·) ++ rest) := by
          simp [textExtValues, joinS_cons]
        rw [hx] at h1 hnone
        obtain ⟨hall, hrr⟩ := survives_named_list hA hF o hr.1 p ps h1 hone
        refine ⟨⟨trivial, hall, ?_⟩, hrr⟩
        intro p' hp'
        cases hp'
        have hid := (hall p (by simp)).1
        rw [textNamed_text] at hnone
        have hsk : ∀ x, skipSp (p.1 ++ x) = p.1 ++ x := by
          obtain ⟨c, t, e, hal, _⟩ := (isIdentifier_iff p.1).1 hid
          intro x
          rw [e, List.cons_append, skipSp_cons _ _ (alpha_ne_space hal)]
        rw [hsk] at hnone
        generalize ((textExtValue (run h) o p.2).text ++ (((ps.map (textNamed (run h) o)).map Out.text).flatMap (cs!", " ++ ·) ++ rest)) = y at hnone
        have hpn : pPositional (p.1 ++ '=' :: y) = none := by
          cases hq : pPositional (p.1 ++ '=' :: y) with
          | none => rfl
          | some q =>
            rw [hq] at hnone
            cases hl : lit cs!"_" (p.1 ++ '=' :: y) <;> rw [hl] at hnone <;> simp at hnone
        have hpa : pArg (p.1 ++ '=' :: y) = none := by
          cases hq : pArg (p.1 ++ '=' :: y) with
          | none => rfl
          | some q =>
            unfold pPositional pSep1 at hpn
            rw [hq] at hpn
            simp at hpn
        exact clear_of_none hid hpa
  · injection hp with hp1 hp2
    exact (hempty hp1.symm).elim

/-- An argument list does not begin with a space. -/
theorem pExtArgs_space (x : Str) : pExtArgs (' ' :: x) = ({}, ' ' :: x) := by
  have h1 : pArg (' ' :: x) = none := by
    have he : pExpr (' ' :: x) = none := pExprN_none (by decide) (by decide) (by decide) (by decide) _
    have hv : pParamLit (' ' :: x) = none := pParamLit_none (pValue_other (by decide) (by decide))
    rw [pArg, pArgN, he, hv, pRef_none (by decide)]
    simp [pEnumValue, pTupleWith, pTuple0, pTuple1With, pTuple2With, lit, mapFst]
  simp [pExtArgs, lit, pPositional, pSep1, h1, pNamedArg, pName_none (c := ' ') (by decide) (by decide), mapFst]

/-! ## What survives is read back -/

/-- The text of a named argument and its parse tree; it may also be readable as something else. -/
structure NamedRead [FTab] (st : Store) (x : Str) (a : Str × SArg) (p : Str × ExtValue) : Prop where
  key : a.1 = p.1
  conv : convArg st a.2 = .ok p.2
  starts : ∃ c t, x = c :: t ∧ isAlpha c = true
  read : ∀ rest, ExprFollow rest → pNamedArg (x ++ rest) = some (a, rest)

theorem NamedRead.starts' [FTab] {st : Store} {x : Str} {a : Str × SArg} {p : Str × ExtValue}
    (h : NamedRead st x a p) : Starts x := by
  obtain ⟨c, t, h1, h2⟩ := h.starts
  exact ⟨c, t, h1, by rintro rfl; revert h2; decide⟩

theorem namedRead [UTab] [FTab] (hA : AsciiPrintable) {h : List Op} (o : Opts) (p : Str × ExtValue)
    (hi : isIdentifier p.1 = true) (hv : SurvivesValue (run h) o p.2) :
    ∃ a, NamedRead (run h) (textNamed (run h) o p).text a p := by
  obtain ⟨a, ha⟩ := argText_survives hA o p.2 hv
  refine ⟨(p.1, a), rfl, ha.conv, ?_, ?_⟩
  · obtain ⟨c, t, h1, h2, _⟩ := (isIdentifier_iff p.1).1 hi
    exact ⟨c, _, by have := textNamed_text (run h) o p []; rw [List.append_nil] at this; rw [this, h1]; rfl, h2⟩
  · intro rest hr
    rw [textNamed_text]
    have h1 : pName (p.1 ++ '=' :: ((textExtValue (run h) o p.2).text ++ rest)) = some (p.1, '=' :: ((textExtValue (run h) o p.2).text ++ rest)) :=
      pName_ident hi ((nextNot_cons _ _ _).2 (by decide))
    have h2 : pArg ((textExtValue (run h) o p.2).text ++ rest) = some (a, rest) :=
      ha.arg _ _ (by simp; omega) hr
    have h3 := ha.starts'.skip rest
    simp [pNamedArg, h1, skipSp_cons, lit, h3, h2]

/-- Texts and parse trees of named arguments. -/
def NamedReads [FTab] (st : Store) : List (Str × (Str × SArg)) → List (Str × ExtValue) → Prop
  | [], [] => True
  | i :: l, p :: ps => NamedRead st i.1 i.2 p ∧ NamedReads st l ps
  | _, _ => False

theorem NamedReads.mem [FTab] {st : Store} {l : List (Str × (Str × SArg))} {ps : List (Str × ExtValue)}
    (h : NamedReads st l ps) : ∀ i ∈ l, ∃ p, NamedRead st i.1 i.2 p := by
  induction l generalizing ps with
  | nil => simp
  | cons i l ih => cases ps with
    | nil => exact h.elim
    | cons p ps =>
      intro j hj
      rcases List.mem_cons.1 hj with rfl | hj
      · exact ⟨p, h.1⟩
      · exact ih h.2 j hj

theorem NamedReads.conv [FTab] {st : Store} {l : List (Str × (Str × SArg))} {ps : List (Str × ExtValue)}
    (h : NamedReads st l ps) : ∀ acc, (acc.map (·.1) ++ ps.map (·.1)).Nodup →
      convNamed st acc (l.map (·.2)) = .ok (acc ++ ps) := by
  induction l generalizing ps with
  | nil => cases ps with
    | nil => intro acc _; simp [convNamed]
    | cons => exact h.elim
  | cons i l ih => cases ps with
    | nil => exact h.elim
    | cons p ps =>
      intro acc hn
      obtain ⟨x, k, a⟩ := i
      obtain ⟨k', v⟩ := p
      have hk : k = k' := h.1.key
      have hc : convArg st a = .ok v := h.1.conv
      subst hk
      have hmem : k ∉ acc.map (·.1) := by
        intro hk
        have := (List.nodup_append.1 hn).2.2 k hk k (by simp)
        exact this rfl
      simp only [List.map_cons, convNamed, hc, Res.bind, insertKey_new acc k v hmem]
      have := ih h.2 (acc ++ [(k, v)]) (by simpa using hn)
      simpa using this

theorem namedReads [UTab] [FTab] (hA : AsciiPrintable) {h : List Op} (o : Opts) (ps : List (Str × ExtValue))
    (hp : ∀ p ∈ ps, isIdentifier p.1 = true ∧ SurvivesValue (run h) o p.2) : ∃ items : List (Str × (Str × SArg)),
      items.map (·.1) = (ps.map (textNamed (run h) o)).map Out.text ∧ NamedReads (run h) items ps := by
  induction ps with
  | nil => exact ⟨[], rfl, trivial⟩
  | cons p ps ih =>
    obtain ⟨a, ha⟩ := namedRead hA o p (hp p (by simp)).1 (hp p (by simp)).2
    obtain ⟨items, h1, h2⟩ := ih (fun q hq => hp q (by simp [hq]))
    exact ⟨(_, a) :: items, by simp [h1], ha, h2⟩

/-- The argument list is read back from its text. -/
theorem pExtArgs_survives [UTab] [FTab] (hA : AsciiPrintable) {h : List Op} (o : Opts) (pos : List ExtValue)
    (named : List (Str × ExtValue)) (hs : SurvivesList (run h) o pos named) :
    ∃ a : SArgs, a.named.length = named.length ∧ convArgList (run h) a.positional = .ok pos ∧ convNamed (run h) [] a.named = .ok named ∧
      ∀ rest, ArgsEnd rest →
        pExtArgs ((textArgList (textExtValues (run h) o pos) (named.map (textNamed (run h) o))).text ++ rest) = (a, rest) := by
  obtain ⟨hp, hn, hd, hclear⟩ := hs
  obtain ⟨pi, hp1, hp2⟩ := argTexts_survive hA o pos hp
  obtain ⟨ni, hn1, hn2⟩ := namedReads hA o named hn
  refine ⟨⟨pi.map (·.2), ni.map (·.2)⟩, by simpa using congrArg List.length hn1, hp2.conv, by simpa using hn2.conv [] (by simpa using hd), ?_⟩
  intro rest hr
  have hpm := hp2.mem
  have hnm := hn2.mem
  have hfirst : ∀ i l, ni = i :: l → ∀ r, pArg (i.1 ++ r) = none := by
    rintro i l rfl r
    cases named with
    | nil => exact hn2.elim
    | cons p ps =>
      have : i.1 = (textNamed (run h) o p).text := by simpa using congrArg List.head? hn1
      rw [this, textNamed_text]
      exact pArg_named_none (hn p (by simp)).1 (hclear p rfl)
  have hpos : ∀ close, (pi ≠ []) → ExprFollow close → (∀ n, pStarN spCommaSp pArg n close = ([], close)) →
      pSep1 spCommaSp pArg (joinS cs!", " (pi.map (·.1)) ++ close) = some (pi.map (·.2), close) := by
    intro close hne hc hstop
    refine pSep1_join spCommaSp pArg cs!", " ExprFollow close pi (by simp) hne ?_ (fun r => exprFollow_comma _) hc hstop ?_
    · intro i hi r
      obtain ⟨v, hv⟩ := hpm i hi
      exact spCommaSp_join _ (starts_next hv.starts' r)
    · intro i hi r hr
      obtain ⟨v, hv⟩ := hpm i hi
      exact hv.arg _ _ (by simp; omega) hr
  have hnam : ni ≠ [] → pSep1 spCommaSp pNamedArg (joinS cs!", " (ni.map (·.1)) ++ rest) = some (ni.map (·.2), rest) := by
    intro hne
    refine pSep1_join spCommaSp pNamedArg cs!", " ExprFollow rest ni (by simp) hne ?_ (fun r => exprFollow_comma _) hr.1
      (pStarN_stop _ _ _ hr.2) ?_
    · intro i hi r
      obtain ⟨v, hv⟩ := hnm i hi
      exact spCommaSp_join _ (starts_next hv.starts' r)
    · intro i hi r hr
      obtain ⟨v, hv⟩ := hnm i hi
      exact hv.read _ hr
  have hstop : pi = [] → pos = [] := by
    rintro rfl
    cases pos with
    | nil => rfl
    | cons => exact hp2.elim
  have hstopn : ni = [] → named = [] := by
    rintro rfl
    cases named with
    | nil => rfl
    | cons => exact hn2.elim
  by_cases h1 : pi = []
  · have hpe := hstop h1
    by_cases h2 : ni = []
    · have hne := hstopn h2
      subst h1 h2 hpe hne
      simp [textArgList, textExtValues, pExtArgs, lit]
    · have hj := hnam h2
      obtain ⟨i, l, rfl⟩ : ∃ i l, ni = i :: l := by cases ni with
        | nil => exact absurd rfl h2
        | cons i l => exact ⟨i, l, rfl⟩
      obtain ⟨p, hpn⟩ := hnm i (by simp)
      have hnn : named ≠ [] := by rintro rfl; exact hn2.elim
      have htx : (textArgList (textExtValues (run h) o pos) (named.map (textNamed (run h) o))).text = joinS cs!", " ((i :: l).map (·.1)) := by
        rw [textArgList, if_neg (by simp [hnn]), Out.text_sep, hn1, hpe]
        simp [textExtValues]
      rw [htx]
      have ha : ∀ r, pArg (joinS cs!", " ((i :: l).map (·.1)) ++ r) = none := by
        intro r
        rw [List.map_cons, joinS_cons, List.append_assoc]
        exact hfirst i l rfl _
      have h_ : lit cs!"_" (joinS cs!", " ((i :: l).map (·.1)) ++ rest) = none := by
        obtain ⟨c, t, hc1, hc2⟩ := hpn.starts
        rw [List.map_cons, joinS_cons, hc1]
        exact lit_ne (by rintro rfl; revert hc2; decide)
      have hpo : pPositional (joinS cs!", " ((i :: l).map (·.1)) ++ rest) = none := by
        have : pSep1 spCommaSp pArg (joinS cs!", " ((i :: l).map (·.1)) ++ rest) = none := by
          simp only [pSep1, ha]
        simp only [pPositional, this]
        rfl
      simp only [pExtArgs, h_, hpo, hj, h1]
      rfl
  · obtain ⟨i, l, hil⟩ : ∃ i l, pi = i :: l := by cases pi with
      | nil => exact absurd rfl h1
      | cons i l => exact ⟨i, l, rfl⟩
    have hpp : pos ≠ [] := by rintro rfl; rw [hil] at hp2; exact hp2.elim
    have h_ : ∀ r, lit cs!"_" (joinS cs!", " (pi.map (·.1)) ++ r) = none := by
      intro r
      obtain ⟨v, hv⟩ := hpm i (by simp [hil])
      obtain ⟨c, t, hc1, _, _, hc2⟩ := hv.starts
      rw [hil, List.map_cons, joinS_cons, hc1]
      exact lit_ne (Ne.symm hc2)
    have htx : (textArgList (textExtValues (run h) o pos) (named.map (textNamed (run h) o))).text =
        joinS cs!", " (pi.map (·.1) ++ ni.map (·.1)) := by
      rw [textArgList, if_neg (by simp [textExtValues_nil_iff, hpp]), Out.text_sep, hp1, hn1, List.map_append]
    rw [htx]
    by_cases h2 : ni = []
    · have hj := hpos rest h1 hr.1 (pStarN_stop _ _ _ hr.2)
      simp only [h2, List.map_nil, List.append_nil]
      simp [pExtArgs, h_, pPositional, hj, pOpt, pCommaNamed, hr.2]
    · obtain ⟨j, m, hjm⟩ : ∃ i l, ni = i :: l := by cases ni with
        | nil => exact absurd rfl h2
        | cons i l => exact ⟨i, l, rfl⟩
      obtain ⟨p, hpn⟩ := hnm j (by simp [hjm])
      have hsep : spCommaSp (cs!", " ++ (joinS cs!", " (ni.map (·.1)) ++ rest)) = some (joinS cs!", " (ni.map (·.1)) ++ rest) := by
        refine spCommaSp_join _ ?_
        rw [hjm, List.map_cons, joinS_cons, List.append_assoc]
        exact starts_next hpn.starts' _
      have hno : pArg (joinS cs!", " (ni.map (·.1)) ++ rest) = none := by
        rw [hjm, List.map_cons, joinS_cons, List.append_assoc]
        exact hfirst j m hjm _
      have hj := hpos (cs!", " ++ (joinS cs!", " (ni.map (·.1)) ++ rest)) h1 (exprFollow_comma _)
        (pStarN_stop2 _ _ _ _ hsep hno)
      have hk := hnam h2
      rw [joinS_append _ _ _ (by simpa using h1) (by simpa using h2)]
      simp only [List.append_assoc]
      simp only [pExtArgs, h_, pPositional, hj, pOpt, pCommaNamed, hsep, hk, Option.bind_eq_bind, Option.bind_some]
      rfl

end Verif
