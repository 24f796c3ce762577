import Verif.Proofs.RelLineAggregate
/-!
# Read and extension lines, read back
-/

namespace Verif
open StoreSpec TextSpec RelSpec

set_option autoImplicit false

/-! ### Columns of a read -/

theorem zipFields_map (cols : List (Str × Ty)) :
    zipFields (cols.map (·.1)) (cols.map (·.2)) = cols.map fun c => (some c.1, some c.2) := by
  induction cols with
  | nil => rfl
  | cons c l ih => simp [zipFields, ih]

theorem readColumns_text [UTab] (st : Store) (o : Opts) (cols : List (Str × Ty)) :
    (readColumns st o (some ⟨cols.map (·.1), some ⟨cols.map (·.2), 0, .required⟩⟩)).map Out.text =
      cols.map (columnStr st o) := by
  simp only [readColumns, schemaValues, zipFields_map, List.map_map]
  apply List.map_congr_left
  intro c _
  exact textField_text st o c

theorem implicitCols_all {o : Opts} (ho : o.showEmit = false) (cols : List Out) {c : Option Common}
    (h : mapping c = none) : implicitCols o cols (getEmit c) = cols := by
  unfold implicitCols
  rw [if_neg (by simp [ho])]
  rcases getEmit_mapping c with ⟨m, _, h2⟩ | ⟨h1, _⟩
  · rw [h] at h2; cases h2
  · rcases h1 with h1 | h1 <;> rw [h1]

/-- Columns and a closing bracket. -/
theorem pColumns_close [UTab] {st : Store} {o : Opts} {tree : Ty → STy} {cols : List (Str × Ty)}
    (h : ∀ c ∈ cols, Item TyFollow pNamedColumn (columnStr st o c) (c.1, tree c.2)) :
    pColumns (columnsStr st o cols ++ [']']) = (cols.map fun c => (c.1, tree c.2), [']']) :=
  pColumns_text h ((nextNot_cons _ _ _).2 (by decide)) (commaSp_stop (by decide)) (pNamedColumn_none (by decide) (by decide))

/-! ### Named tables -/

theorem pTable_text [UTab] {names : List Str} (hne : names ≠ []) (h : ∀ n ∈ names, Spellable n) (rest : Str) :
    pSep1 pDot pName (joinS cs!"." (names.map showName) ++ ' ' :: rest) = some (names, ' ' :: rest) := by
  have := pSep1_join pDot pName cs!"." (NextNot isIdentChar) (' ' :: rest) (names.map fun n => (showName n, n))
    (by simp) (by simpa using hne) (fun i _ r => lit_append _ _) (fun r => (nextNot_cons _ _ _).2 (by decide))
    ((nextNot_cons _ _ _).2 (by decide)) (pStarN_stop _ _ _ (by simp [pDot, lit]))
    (by
      intro i hi r hr
      obtain ⟨n, hn, rfl⟩ := List.mem_map.1 hi
      exact pName_spelled (h n hn) hr)
  simpa [Function.comp_def] using this

/-- The output part of a read. -/
def outputStr [UTab] (st : Store) (o : Opts) (cols : List (Str × Ty)) : Option (List Int) → Str
  | none => cs!"=> " ++ (columnsStr st o cols ++ [']'])
  | some m => cs!"+> " ++ (columnsStr st o cols ++ (cs!" |> " ++ (refsText m ++ [']'])))

/-- Its parse tree. -/
def outTree (tree : Ty → STy) (cols : List (Str × Ty)) : Option (List Int) → SOutput
  | none => .implicit (cols.map fun c => (c.1, tree c.2))
  | some m => .direct (cols.map fun c => (c.1, tree c.2)) (some (m.map IntTok.ofInt))

theorem pOutput_text [UTab] {st : Store} {o : Opts} {tree : Ty → STy} {cols : List (Str × Ty)}
    (h : ∀ c ∈ cols, Item TyFollow pNamedColumn (columnStr st o c) (c.1, tree c.2)) (m : Option (List Int)) :
    pOutput (outputStr st o cols m) = some (outTree tree cols m, [']']) := by
  cases m with
  | none =>
    have h1 := pColumns_close h
    have h2 : skipSp (columnsStr st o cols ++ [']']) = columnsStr st o cols ++ [']'] :=
      skipSp_of_not _ (columnsStr_next st o cols [])
    simp only [outputStr, pOutput, pImplicit]
    rw [show cs!"=> " ++ (columnsStr st o cols ++ [']']) = cs!"=>" ++ (' ' :: (columnsStr st o cols ++ [']'])) from rfl,
      lit_append]
    simp [skipSp_space, h2, h1, outTree]
  | some m =>
    have hsuf : pSuffix (cs!" |> " ++ (refsText m ++ [']'])) = some (m.map IntTok.ofInt, [']']) := by
      have h3 : skipSp (refsText m ++ [']']) = refsText m ++ [']'] := skipSp_of_not _ (refsText_next m [])
      unfold pSuffix
      simp only [List.cons_append, List.nil_append, skipSp_space]
      rw [skipSp_cons _ _ (by decide)]
      simp [lit, skipSp_space, h3, pRefs_text]
    have hcols : pColumns (skipSp (columnsStr st o cols ++ (cs!" |> " ++ (refsText m ++ [']'])))) =
        (cols.map fun c => (c.1, tree c.2), if cols = [] then skipSp (cs!" |> " ++ (refsText m ++ [']']))
          else cs!" |> " ++ (refsText m ++ [']'])) := by
      cases cols with
      | nil =>
        simp only [columnsStr, List.map_nil, joinS, List.nil_append, if_true]
        simp only [List.cons_append, List.nil_append, skipSp_space]
        rw [skipSp_cons _ _ (by decide)]
        have hnone : pNamedColumn ('|' :: '>' :: ' ' :: (refsText m ++ [']'])) = none :=
          pNamedColumn_none (by decide) (by decide)
        simp [pColumns, pSep, pSep1, hnone]
      | cons c l =>
        rw [if_neg (by simp)]
        rw [skipSp_of_not]
        · exact pColumns_text h ((nextNot_cons _ _ _).2 (by decide)) (commaSp_stop (by decide))
            (pNamedColumn_none (by decide) (by decide))
        · simp only [columnsStr, List.map_cons, joinS_cons, List.append_assoc]
          exact starts_next (showName_starts _ _) _
    have hsuf2 : pOpt pSuffix (if cols = [] then skipSp (cs!" |> " ++ (refsText m ++ [']']))
        else cs!" |> " ++ (refsText m ++ [']'])) = (some (m.map IntTok.ofInt), [']']) := by
      split
      · have : pSuffix (skipSp (cs!" |> " ++ (refsText m ++ [']']))) = pSuffix (cs!" |> " ++ (refsText m ++ [']'])) := by
          unfold pSuffix
          rw [skipSp_skipSp]
        simp only [pOpt, this, hsuf]
      · simp only [pOpt, hsuf]
    simp only [outputStr, pOutput, pImplicit, pDirect]
    rw [show cs!"+> " ++ (columnsStr st o cols ++ (cs!" |> " ++ (refsText m ++ [']']))) =
      cs!"+>" ++ (' ' :: (columnsStr st o cols ++ (cs!" |> " ++ (refsText m ++ [']'])))) from rfl, lit_append]
    simp only [Option.bind_eq_bind, Option.bind_some, skipSp_space, hcols, hsuf2]
    simp [lit, outTree]

theorem pRead_text [UTab] {st : Store} {o : Opts} {tree : Ty → STy} {cols : List (Str × Ty)} {names : List Str}
    (hne : names ≠ []) (hn : ∀ n ∈ names, Spellable n)
    (h : ∀ c ∈ cols, Item TyFollow pNamedColumn (columnStr st o c) (c.1, tree c.2)) (m : Option (List Int)) :
    pRead (cs!"Read[" ++ (joinS cs!"." (names.map showName) ++ ' ' :: outputStr st o cols m)) =
      some (.read names (outTree tree cols m), []) := by
  have h1 := pOutput_text h m
  have h2 : skipSp (' ' :: outputStr st o cols m) = outputStr st o cols m := by
    rw [skipSp_space]
    cases m <;> exact skipSp_cons _ _ (by decide)
  unfold pRead
  rw [lit_append]
  simp only [Option.bind_eq_bind, Option.bind_some, pTable_text hne hn, h2, h1]
  simp [lit]

theorem lineRT_named [UTab] [FTab] {env : Env} (hst : env.st.Ordered) (ho : Readable env.o)
    {ws : List Nat} {c : Option Common} {schema : Option NamedStruct} {filter : Option Expr} {names : List Str} {k : Nat}
    {adv : Option AdvExt} {rest : Nat} (hl : ws.length = 0)
    (h : OpOk env ws (.read c schema filter (.named names k) adv rest)) :
    LineRT env ws (.read c schema filter (.named names k) adv rest) := by
  obtain ⟨hh, rfl, ⟨cols, rfl, hcols⟩, ⟨hne, hn, rfl, rfl, hm⟩, ha⟩ := h
  obtain ⟨tree, htree⟩ := colTrees hst env.o ho.1
  obtain ⟨adv', h1, h2⟩ := standardAdv_advList ha
  have hitems : ∀ x ∈ cols, Item TyFollow pNamedColumn (columnStr env.st env.o x) (x.1, tree x.2) :=
    fun x hx => (htree x.2 (hcols x hx).2).2 x.1 (hcols x hx).1
  refine ⟨.read names (outTree tree cols (mapping c)), ?_, ?_⟩
  · intro lvl
    have h3 : headBody env.o lvl (relHead env (ws.map some)
        (.read c (some ⟨cols.map (·.1), some ⟨cols.map (·.2), 0, .required⟩⟩) none (.named names 0) adv 0)) =
        cs!"Read[" ++ (joinS cs!"." (names.map showName) ++ ' ' :: outputStr env.st env.o cols (mapping c)) := by
      simp only [headBody, relHead, headRead, textArgList]
      rw [if_neg (by simp)]
      rcases getEmit_mapping c with ⟨m, g1, g2⟩ | ⟨g1, g2⟩
      · simp only [g1, g2, textOutput, if_true, textEmitSuffix]
        simp only [Out.text_append, Out.text_sep, readColumns_text, outputStr, columnsStr]
        simp [Out.text_sep, refsText, Function.comp_def, textRef_text, joinS]
      · rw [textOutput_implicit _ _ (by rcases g1 with g1 | g1 <;> simp only [g1]),
          implicitCols_all ho.2.2.2 _ g2, readColumns_text, g2]
        simp [Out.sep, Out.text_sep, outputStr, columnsStr, Function.comp_def]
    rw [h3]
    exact pRelLine_read (pRead_text hne hn hitems (mapping c))
  · intro kids hk
    have hk0 : kids = [] := by
      subst hk
      simpa using hl
    subst hk0
    subst hk
    have hconv := convColumns_map (st := env.st) (tree := tree) (cols := cols) fun x hx => (htree x.2 (hcols x hx).2).1
    cases hmc : mapping c with
    | none =>
      refine ⟨.read (mkCommon .direct) (some (buildStruct cols)) none (.named names 0) adv' 0, ?_, ?_⟩
      · simp [convLine, opAddenda, h1, Res.bind, convBody, outTree, convOutput, hconv, plain, outWidth, directWidth, common,
          shown, hmc, identity]
      · exact ⟨⟨hmc, hh, rfl, rfl, rfl, h2, rfl⟩, trivial⟩
    | some m =>
      have h4 := convRefs_text (hm m hmc)
      refine ⟨.read (mkCommon (.emit m)) (some (buildStruct cols)) none (.named names 0) adv' 0, ?_, ?_⟩
      · simp [convLine, opAddenda, h1, Res.bind, convBody, outTree, convOutput, hconv, dropPanics, outWidth, common,
          shown, hmc, h4]
      · exact ⟨⟨hmc, hh, rfl, rfl, rfl, h2, rfl⟩, trivial⟩

/-! ### Extension tables -/

theorem lineRT_readExt [UTab] [FTab] {env : Env} (hst : env.st.Ordered) (ho : Readable env.o)
    {ws : List Nat} {c : Option Common} {schema : Option NamedStruct} {filter : Option Expr} {d : Option AnyMsg}
    {adv : Option AdvExt} {rest : Nat} (hl : ws.length = 0)
    (h : OpOk env ws (.read c schema filter (.extension d) adv rest)) :
    LineRT env ws (.read c schema filter (.extension d) adv rest) := by
  obtain ⟨hh, rfl, ⟨cols, rfl, hcols⟩, hread, ha⟩ := h
  cases d with
  | none => exact hread.elim
  | some d =>
  obtain ⟨rfl, hd, hmc⟩ := hread
  obtain ⟨tree, htree⟩ := colTrees hst env.o ho.1
  obtain ⟨adv', h1, h2⟩ := standardAdv_advList ha
  have hitems : ∀ x ∈ cols, Item TyFollow pNamedColumn (columnStr env.st env.o x) (x.1, tree x.2) :=
    fun x hx => (htree x.2 (hcols x hx).2).2 x.1 (hcols x hx).1
  refine ⟨.readExt (cols.map fun c => (c.1, tree c.2)), ?_, ?_⟩
  · intro lvl
    have h3 : headBody env.o lvl (relHead env (ws.map some)
        (.read c (some ⟨cols.map (·.1), some ⟨cols.map (·.2), 0, .required⟩⟩) none (.extension (some d)) adv 0)) =
        cs!"Read:Extension[" ++ (columnsStr env.st env.o cols ++ [']']) := by
      simp only [headBody, relHead, headRead, implicitCols_all ho.2.2.2 _ hmc, readColumns_text]
      simp [columnsStr]
    rw [h3]
    refine pRelLine_readExt ?_
    unfold pReadExt
    rw [lit_append]
    simp [pColumns_close hitems, lit]
  · intro kids hk
    have hk0 : kids = [] := by
      subst hk
      simpa using hl
    subst hk0
    subst hk
    have hconv := convColumns_map (st := env.st) (tree := tree) (cols := cols) fun x hx => (htree x.2 (hcols x hx).2).1
    obtain ⟨n, a, g1, _, _, _, _, g2⟩ := addendumOf_ok hd
    have hk : (addendumOf env .ext d).kind = .ext := by rw [g1]
    have hadv : ∀ x ∈ advList env adv, x.kind ≠ .ext := by
      intro x hx
      simp only [advList, List.mem_append, List.mem_map, Option.mem_toList] at hx
      rcases hx with ⟨y, _, rfl⟩ | ⟨y, _, rfl⟩ <;> (unfold addendumOf; split <;> simp)
    have f1 : (addendumOf env .ext d :: advList env adv).filter (fun a => decide (a.kind = .ext)) = [addendumOf env .ext d] := by
      rw [List.filter_cons_of_pos (by simp [hk])]
      congr 1
      rw [List.filter_eq_nil_iff]
      intro x hx
      simpa using hadv x hx
    have f2 : (addendumOf env .ext d :: advList env adv).filter (fun a => decide (a.kind ≠ .ext)) = advList env adv := by
      rw [List.filter_cons_of_neg (by simp [hk])]
      rw [List.filter_eq_self]
      intro x hx
      simpa using hadv x hx
    refine ⟨.read (mkCommon .direct) (some (buildStruct cols)) none (.extension (some d)) adv' 0, ?_, ?_⟩
    · simp only [convLine, opAddenda, extReadParts, f1, f2, g2, h1, Res.bind]
      simp [convReadExt, hconv, plain, Res.bind, outWidth, directWidth, common, shown, hmc, identity]
    · exact ⟨⟨hmc, hh, rfl, rfl, rfl, h2, rfl⟩, trivial⟩

/-! ### Extension relations -/

theorem lineRT_ext [UTab] [FTab] (hA : AsciiPrintable) {env : Env} (hst : env.st.Ordered) (ho : Readable env.o)
    {ws : List Nat} {k : ExtKind} {c : Option Common} {detail : Option AnyMsg}
    (hl : k.arityOk ws.length = true) (h : OpOk env ws (.ext k c detail)) : LineRT env ws (.ext k c detail) := by
  obtain ⟨hh, hmc, d, name, args, rfl, hd, hp, hn, hargs⟩ := h
  obtain ⟨sa, cols, h1, h2⟩ := pExtRel_text hA hst env.o ho.1 ho.2.1 k name args hn hargs
  refine ⟨.ext k name sa cols, ?_, ?_⟩
  · intro lvl
    have hf : (ws.map some).filterMap id = ws := by simp [List.filterMap_map]
    have h3 : headBody env.o lvl (relHead env (ws.map some) (.ext k c (some d))) =
        k.spell ++ ':' :: (name ++ '[' ::
          ((textArgList (textExtValues env.st env.o args.positional) (args.named.map (textNamed env.st env.o))).text ++
            (cs!" => " ++ (joinS cs!", " ((args.columns.map (textExtColumn env.st env.o)).map Out.text) ++ [']'])))) := by
      simp only [headBody, relHead, headExt, decodeRel, hf, hd]
      rw [textOutput_implicit _ _ rfl]
      simp [implicitCols, ho.2.2.2]
    rw [h3]
    exact pRelLine_ext (h2 [])
  · intro kids hk
    refine ⟨.ext k (mkCommon .direct) (some d), ?_, ?_⟩
    · have hkl : kids.length = ws.length := by rw [← hk]; simp
      simp [convLine, opAddenda, convExtRel, h1, plain, Res.bind, hkl, hl, hp, resolved, outWidth, directWidth, common,
        shown, hmc, hd, identity, Function.comp_def]
    · exact ⟨⟨rfl, hmc, hh, rfl⟩, trivial⟩

end Verif
