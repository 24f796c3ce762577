import Verif.Proofs.LinesExactProject
import Verif.Proofs.RelLineRead
import Verif.Proofs.ReparseRel
import Verif.Proofs.ExtLinesExact
/-!
# Reads whose lines survive
-/

namespace Verif
open StoreSpec TextSpec RelSpec

set_option autoImplicit false

theorem pRelLine_read_eq (s : Str) : pRelLine (cs!"Read[" ++ s) = pRead (cs!"Read[" ++ s) := by
  unfold pRelLine
  cases h : pRead (cs!"Read[" ++ s) <;>
    simp [pReadExt, pReadVirtual, pProject, pFilter, pAggregate, pSort, pFetch, pJoin, pSet, pCross, pExtRel, pExtKind]

section
variable [UTab]

/-- What a name is read as. -/
def nameBack (s : Str) : Str := if isIdentifier s then s else unescape (escape s)

theorem nameBack_iff (hA : AsciiPrintable) (s : Str) : nameBack s = s ↔ Spellable s := by
  unfold nameBack
  by_cases h : isIdentifier s = true
  · rw [if_pos h]
    refine ⟨fun _ => ?_, fun _ => rfl⟩
    exact (ident_ascii h).spellable hA
  · rw [if_neg h]
    exact unescape_escape_iff s

theorem pName_back (s : Str) {rest : Str} (hr : NextNot isIdentChar rest) : pName (showName s ++ rest) = some (nameBack s, rest) :=
  pName_showName s rest hr

theorem pTable_back {names : List Str} (hne : names ≠ []) (rest : Str) :
    pSep1 pDot pName (joinS cs!"." (names.map showName) ++ ' ' :: rest) = some (names.map nameBack, ' ' :: rest) := by
  have := pSep1_join pDot pName cs!"." (NextNot isIdentChar) (' ' :: rest) (names.map fun n => (showName n, nameBack n))
    (by simp) (by simpa using hne) (fun i _ r => lit_append _ _) (fun r => (nextNot_cons _ _ _).2 (by decide))
    ((nextNot_cons _ _ _).2 (by decide)) (pStarN_stop _ _ _ (by simp [pDot, lit]))
    (by
      intro i hi r hr
      obtain ⟨n, hn, rfl⟩ := List.mem_map.1 hi
      exact pName_back n hr)
  simpa [Function.comp_def] using this

/-- A type that is read from a line survives, and it is read as a whole. -/
theorem ty_in_line {h : List Op} {o : Opts} {t : Ty} {rest r : Str} {s : STy} (hr : TyFollow rest)
    (hp : pType ((textTy (run h) o t).text ++ rest) = some (s, r)) (hc : convTy (run h) s = .ok t) :
    SurvivesTy (run h) o.anchors t ∧ r = rest := by
  unfold pType at hp
  have h1 := survives_of_read o t _ rest r s (by simp only [List.length_append]; omega) hr hp hc
  obtain ⟨s', h2, h3⟩ := survives_ty o t h1
  rw [h3 _ rest (by simp only [List.length_append]; omega) hr] at hp
  cases hp
  exact ⟨h1, rfl⟩

theorem column_in_line (hA : AsciiPrintable) {h : List Op} {o : Opts} {c : Str × Ty} {rest r : Str} {s : SColumn} (hr : TyFollow rest)
    (hp : pNamedColumn (columnStr (run h) o c ++ rest) = some (s, r)) (hc : convTy (run h) s.2 = .ok c.2) (hn : s.1 = c.1) :
    (Spellable c.1 ∧ SurvivesTy (run h) o.anchors c.2) ∧ r = rest := by
  unfold pNamedColumn at hp
  simp only [columnStr, List.append_assoc, List.cons_append] at hp
  rw [pName_back c.1 ((nextNot_cons _ _ _).2 (by decide))] at hp
  simp only [Option.bind_eq_bind, Option.bind_some, lit_cons, lit_nil, if_true, Option.bind_eq_some_iff] at hp
  obtain ⟨⟨t, r1⟩, h1, h2⟩ := hp
  cases h2
  obtain ⟨h3, rfl⟩ := ty_in_line hr h1 hc
  exact ⟨⟨(nameBack_iff hA _).1 hn, h3⟩, rfl⟩

omit [UTab] in
theorem convColumns_cons {st : Store} {s : SColumn} {l : List SColumn} {c : Str × Ty} {cols : List (Str × Ty)}
    (h : convColumns st (s :: l) = .ok (c :: cols)) : s.1 = c.1 ∧ convTy st s.2 = .ok c.2 ∧ convColumns st l = .ok cols := by
  obtain ⟨n, t⟩ := s
  rw [convColumns] at h
  obtain ⟨t', h1, h⟩ := Res.bind_ok_iff.1 h
  obtain ⟨l', h2, h⟩ := Res.bind_ok_iff.1 h
  cases h
  exact ⟨rfl, h1, h2⟩

theorem columnStr_starts (st : Store) (o : Opts) (c : Str × Ty) : Starts (columnStr st o c) := showName_starts _ _

omit [UTab] in
theorem columns_follow {rest : Str} (hr : TyFollow rest) (l : List Str) : TyFollow (l.flatMap (cs!", " ++ ·) ++ rest) := by
  cases l with
  | nil => exact hr
  | cons a l => exact (nextNot_cons _ _ _).2 (by decide)

theorem columns_star (hA : AsciiPrintable) {h : List Op} {o : Opts} {rest : Str} (hr : TyFollow rest) :
    ∀ (cols : List (Str × Ty)) (fuel : Nat) (l : List SColumn) (r : Str),
    pStarN commaSp pNamedColumn fuel ((cols.map (columnStr (run h) o)).flatMap (cs!", " ++ ·) ++ rest) = (l, r) →
    convColumns (run h) l = .ok cols → ∀ c ∈ cols, Spellable c.1 ∧ SurvivesTy (run h) o.anchors c.2
  | [], _, _, _, _, _ => fun c hc => (nomatch hc)
  | c :: cols, fuel, l, r, hp, hc => by
    cases l with
    | nil => cases hc
    | cons s l =>
      obtain ⟨k1, k2, k3⟩ := convColumns_cons hc
      cases fuel with
      | zero => simp [pStarN] at hp
      | succ fuel =>
        rw [List.map_cons, List.flatMap_cons, List.append_assoc, List.append_assoc, pStarN,
          commaSp_join _ (starts_next (columnStr_starts _ _ _) _)] at hp
        simp only at hp
        split at hp
        · cases hp
        · next a' s2 he =>
          simp only [Prod.mk.injEq, List.cons.injEq] at hp
          obtain ⟨⟨rfl, hss⟩, hr'⟩ := hp
          obtain ⟨g1, rfl⟩ := column_in_line hA (columns_follow hr _) he k2 k1
          have g2 := columns_star hA hr cols fuel _ _ (Prod.ext hss hr') k3
          intro y hy
          rcases List.mem_cons.1 hy with rfl | hy
          · exact g1
          · exact g2 y hy

/-- Columns that are read from a line survive. -/
theorem columns_in_line (hA : AsciiPrintable) {h : List Op} {o : Opts} {rest r : Str} (hr : TyFollow rest) {cols : List (Str × Ty)}
    {l : List SColumn} (hp : pColumns (skipSp (columnsStr (run h) o cols ++ rest)) = (l, r)) (hc : convColumns (run h) l = .ok cols) :
    ∀ c ∈ cols, Spellable c.1 ∧ SurvivesTy (run h) o.anchors c.2 := by
  cases cols with
  | nil => exact fun c hc => (nomatch hc)
  | cons c cols =>
    cases l with
    | nil => cases hc
    | cons s l =>
      obtain ⟨k1, k2, k3⟩ := convColumns_cons hc
      rw [columnsStr, List.map_cons, joinS_cons, List.append_assoc, skipSp_of_not _ (starts_next (columnStr_starts _ _ _) _)] at hp
      unfold pColumns pSep pSep1 at hp
      cases hq : pNamedColumn (columnStr (run h) o c ++ ((cols.map (columnStr (run h) o)).flatMap (cs!", " ++ ·) ++ rest)) with
      | none => rw [hq] at hp; cases hp
      | some y =>
        obtain ⟨a', s2⟩ := y
        rw [hq] at hp
        simp only [Prod.mk.injEq, List.cons.injEq] at hp
        obtain ⟨⟨rfl, hss⟩, hr'⟩ := hp
        obtain ⟨g1, rfl⟩ := column_in_line hA (columns_follow hr _) hq k2 k1
        have g2 := columns_star hA hr cols _ _ _ (Prod.ext hss hr') k3
        intro y hy
        rcases List.mem_cons.1 hy with rfl | hy
        · exact g1
        · exact g2 y hy

/-- Columns that survive are read. -/
theorem columns_read (h : List Op) (o : Opts) {cols : List (Str × Ty)} (hs : ∀ c ∈ cols, Spellable c.1 ∧ SurvivesTy (run h) o.anchors c.2) :
    ∃ tree : Ty → STy, (∀ c ∈ cols, Item TyFollow pNamedColumn (columnStr (run h) o c) (c.1, tree c.2)) ∧
      convColumns (run h) (cols.map fun c => (c.1, tree c.2)) = .ok cols := by
  have key : ∀ t, ∃ s, SurvivesTy (run h) o.anchors t → convTy (run h) s = .ok t ∧
      ∀ rest, TyFollow rest → pType ((textTy (run h) o t).text ++ rest) = some (s, rest) := by
    intro t
    by_cases ht : SurvivesTy (run h) o.anchors t
    · obtain ⟨s, h1, h2⟩ := survives_ty o t ht
      exact ⟨s, fun _ => ⟨h1, fun rest hr => h2 _ rest (by simp only [List.length_append]; omega) hr⟩⟩
    · exact ⟨.simple [] .required, fun h => absurd h ht⟩
  obtain ⟨tree, htree⟩ : ∃ tree : Ty → STy, ∀ t, SurvivesTy (run h) o.anchors t → convTy (run h) (tree t) = .ok t ∧
      ∀ rest, TyFollow rest → pType ((textTy (run h) o t).text ++ rest) = some (tree t, rest) :=
    ⟨fun t => Classical.choose (key t), fun t => Classical.choose_spec (key t)⟩
  refine ⟨tree, fun c hc => ⟨showName_starts _ _, fun rest hr => ?_⟩, convColumns_map fun c hc => (htree c.2 (hs c hc).2).1⟩
  have h2 := (htree c.2 (hs c hc).2).2 rest hr
  have h4 := pName_spelled (rest := ':' :: ((textTy (run h) o c.2).text ++ rest)) (hs c hc).1 ((nextNot_cons _ _ _).2 (by decide))
  simp only [columnStr, List.append_assoc, List.cons_append]
  simp [pNamedColumn, h4, lit, h2]

omit [UTab] in
theorem implicitCols_direct (o : Opts) (cols : List Out) {c : Option Common} (h : mapping c = none) :
    implicitCols o cols (getEmit c) = cols := by
  unfold implicitCols
  rcases getEmit_mapping c with ⟨m, _, h2⟩ | ⟨h1, _⟩
  · rw [h] at h2; cases h2
  · rcases h1 with h1 | h1 <;> rw [h1] <;> simp

variable [FTab] {h : List Op} {o : Opts} {reg : Registry ExtArgs (List Nat)}

theorem named_text (ws : List (Option Nat)) (c : Option Common) (filter : Option Expr) (names : List Str) (k : Nat) (adv : Option AdvExt)
    (rest : Nat) (cols : List (Str × Ty)) :
    (textHeader o 0 (relHead ⟨run h, o, reg⟩ ws
      (.read c (some ⟨cols.map (·.1), some ⟨cols.map (·.2), 0, .required⟩⟩) filter (.named names k) adv rest))).text =
      cs!"Read[" ++ (joinS cs!"." (names.map showName) ++ ' ' :: outputStr (run h) o cols (mapping c)) := by
  rw [line_text]
  simp only [headBody, relHead, headRead, textArgList]
  rw [if_neg (by simp)]
  rcases getEmit_mapping c with ⟨m, g1, g2⟩ | ⟨g1, g2⟩
  · simp only [g1, g2, textOutput, if_true, textEmitSuffix]
    simp only [Out.text_append, Out.text_sep, readColumns_text, outputStr, columnsStr]
    simp [Out.text_sep, refsText, Function.comp_def, textRef_text, joinS]
  · rw [textOutput_implicit _ _ (by rcases g1 with g1 | g1 <;> simp only [g1]),
      implicitCols_direct _ _ g2, readColumns_text, g2]
    simp [Out.sep, Out.text_sep, outputStr, columnsStr, Function.comp_def]

theorem named_kept (hA : AsciiPrintable) (kids : List (Rel × Nat)) (c : Option Common) (schema : Option NamedStruct)
    (filter : Option Expr) (names : List Str) (k rest : Nat) :
    (LineBack ⟨run h, o, reg⟩ kids (.read c schema filter (.named names k) none rest) → SurvivesLine (run h) o (kids.map (·.2)) (.read c schema filter (.named names k) none rest)) ∧
      (SurvivesLine (run h) o (kids.map (·.2)) (.read c schema filter (.named names k) none rest) → LineKept ⟨run h, o, reg⟩ kids (.read c schema filter (.named names k) none rest)) := by
  constructor
  · rintro ⟨line, rst, op', ins, w, h1, h2, h3⟩
    simp only at h1 h2
    have hpre : ∃ x, (textHeader o 0 (relHead ⟨run h, o, reg⟩ (kids.map fun k => some k.2)
        (.read c schema filter (.named names k) none rest))).text = cs!"Read[" ++ x := by
      rw [line_text]
      simp only [headBody, relHead, headRead]
      exact ⟨_, rfl⟩
    obtain ⟨x, hx⟩ := hpre
    have h0 := h1
    rw [hx, pRelLine_read_eq] at h0
    unfold pRead at h0
    rw [lit_append] at h0
    simp only [Option.bind_eq_bind, Option.bind_some, Option.bind_eq_some_iff] at h0
    obtain ⟨⟨table, s1⟩, -, ⟨out, s2⟩, -, s3, -, h5⟩ := h0
    cases h5
    simp only [convLine, standardAdv_nil, Res.bind, convBody] at h2
    split at h2
    · cases h2
    rename_i hk
    split at h2
    · cases h2
    obtain ⟨⟨cols, em, w'⟩, k1, h2⟩ := Res.bind_ok_iff.1 h2
    cases h2
    simp only [OpEquiv] at h3
    obtain ⟨g1, g2, rfl, rfl, g5, -, rfl⟩ := h3
    injection g5 with g5 g6
    subst g6
    simp only [buildStruct] at h1
    rw [named_text, pRelLine_read_eq] at h1
    unfold pRead at h1
    rw [lit_append] at h1
    simp only [Option.bind_eq_bind, Option.bind_some, Option.bind_eq_some_iff] at h1
    obtain ⟨⟨table, s1⟩, h4, ⟨out', s2⟩, h6, s3, -, h5⟩ := h1
    cases h5
    have hne : names ≠ [] := by
      rintro rfl
      simp only [List.map_nil, joinS, List.nil_append, pSep1] at h4
      rw [pName_none (by decide) (by decide)] at h4
      cases h4
    rw [pTable_back hne] at h4
    injection h4 with h4
    injection h4 with h4 h7
    subst h7
    have hkids : kids = [] := by simpa using hk
    subst hkids
    have hsp : skipSp (' ' :: outputStr (run h) o cols (mapping c)) = outputStr (run h) o cols (mapping c) := by
      rw [skipSp_space]
      cases mapping c <;> exact skipSp_cons _ _ (by decide)
    simp only at h6
    rw [hsp] at h6
    have hcols : ∀ x ∈ cols, Spellable x.1 ∧ SurvivesTy (run h) o.anchors x.2 := by
      cases hm : mapping c with
      | none =>
        rw [hm] at h6
        simp only [outputStr, pOutput, pImplicit] at h6
        rw [show cs!"=> " ++ (columnsStr (run h) o cols ++ [']']) = cs!"=>" ++ (' ' :: (columnsStr (run h) o cols ++ [']'])) from rfl,
          lit_append] at h6
        simp only [Option.bind_eq_bind, Option.bind_some, Option.some_or, skipSp_space] at h6
        cases h6
        simp only [convOutput] at k1
        obtain ⟨cols', k2, k1⟩ := Res.bind_ok_iff.1 k1
        cases k1
        rw [plain_ok] at k2
        exact columns_in_line hA (rest := [']']) ((nextNot_cons _ _ _).2 (by decide)) rfl k2
      | some m =>
        rw [hm] at h6
        simp only [outputStr, pOutput, pImplicit, pDirect] at h6
        rw [show cs!"+> " ++ (columnsStr (run h) o cols ++ (cs!" |> " ++ (refsText m ++ [']']))) =
          cs!"+>" ++ (' ' :: (columnsStr (run h) o cols ++ (cs!" |> " ++ (refsText m ++ [']'])))) from rfl, lit_append] at h6
        simp only [Option.bind_eq_bind, Option.bind_some, skipSp_space] at h6
        rw [show lit cs!"=>" (cs!"+>" ++ (' ' :: (columnsStr (run h) o cols ++ (cs!" |> " ++ (refsText m ++ [']']))))) = none by simp [lit]] at h6
        simp only [Option.bind_none, Option.none_or] at h6
        cases h6
        simp only [convOutput] at k1
        obtain ⟨cols', k2, k1⟩ := Res.bind_ok_iff.1 k1
        rw [dropPanics_ok] at k2
        have : cols' = cols := by
          split at k1
          · cases k1; rfl
          · obtain ⟨m', -, k1⟩ := Res.bind_ok_iff.1 k1
            cases k1; rfl
        subst this
        exact columns_in_line hA (rest := cs!" |> " ++ (refsText m ++ [']'])) ((nextNot_cons _ _ _).2 (by decide)) rfl k2
    refine ⟨rfl, g2, rfl, rfl, rfl, hne, ?_, ⟨cols, rfl, hcols⟩, ?_⟩
    · intro n hn
      rw [← nameBack_iff hA]
      have : ∀ (l : List Str), l.map nameBack = l → ∀ n ∈ l, nameBack n = n := by
        intro l
        induction l with
        | nil => intro _ n hn; cases hn
        | cons a l ih =>
          intro hl n hn
          simp only [List.map_cons, List.cons.injEq] at hl
          rcases List.mem_cons.1 hn with rfl | hn
          · exact hl.1
          · exact ih hl.2 n hn
      exact this names (h4.trans g5.symm) n hn
    · intro m hm
      rw [g1] at hm
      cases out' with
      | implicit l =>
        simp only [convOutput] at k1
        obtain ⟨cols', k2, k1⟩ := Res.bind_ok_iff.1 k1
        cases k1
        simp [mapping, mkCommon] at hm
      | direct l suffix =>
        simp only [convOutput] at k1
        obtain ⟨cols', k2, k1⟩ := Res.bind_ok_iff.1 k1
        split at k1
        · cases k1
          simp [mapping, mkCommon] at hm
        · obtain ⟨m', k3, k1⟩ := Res.bind_ok_iff.1 k1
          cases k1
          simp only [mapping, mkCommon, Option.bind_some, Option.some.injEq] at hm
          subst hm
          exact convRefs_inI32 k3
  · rintro ⟨hk, hh, rfl, rfl, rfl, hne, hn, ⟨cols, rfl, hcols⟩, hm⟩
    have hkids : kids = [] := by simpa using hk
    subst hkids
    obtain ⟨tree, h1, h2⟩ := columns_read h o hcols
    cases hmc : mapping c with
    | none =>
      refine ⟨.read names (outTree tree cols none), [], .read (mkCommon .direct) (some (buildStruct cols)) none (.named names 0) none 0,
        [], cols.length, by simp, by simp [outWidth, directWidth, common, shown, identity, hmc], ?_, ?_, ?_⟩
      · rw [named_text, pRelLine_read_eq, hmc]
        exact pRead_text hne hn h1 none
      · simp [convLine, standardAdv_nil, Res.bind, convBody, outTree, convOutput, h2, plain]
      · exact ⟨hmc, hh, rfl, rfl, rfl, rfl, rfl⟩
    | some m =>
      have h4 := convRefs_text (hm m hmc)
      refine ⟨.read names (outTree tree cols (some m)), [], .read (mkCommon (.emit m)) (some (buildStruct cols)) none (.named names 0) none 0,
        [], m.length, by simp, by simp [outWidth, directWidth, common, shown, hmc], ?_, ?_, ?_⟩
      · rw [named_text, pRelLine_read_eq, hmc]
        exact pRead_text hne hn h1 (some m)
      · simp [convLine, standardAdv_nil, Res.bind, convBody, outTree, convOutput, h2, dropPanics, h4]
      · exact ⟨hmc, hh, rfl, rfl, rfl, rfl, rfl⟩

theorem named_exact (hA : AsciiPrintable) (kids : List (Rel × Nat)) (c : Option Common) (schema : Option NamedStruct)
    (filter : Option Expr) (names : List Str) (k rest : Nat) :
    LineBack ⟨run h, o, reg⟩ kids (.read c schema filter (.named names k) none rest) ↔ SurvivesLine (run h) o (kids.map (·.2)) (.read c schema filter (.named names k) none rest) :=
  ⟨(named_kept hA kids c schema filter names k rest).1, fun hs => kept_back ((named_kept hA kids c schema filter names k rest).2 hs)⟩

end
end Verif
