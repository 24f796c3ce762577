import Verif.Proofs.RelLineOps
import Verif.Proofs.ExtLinesExact
/-!
# Lines of core relations that survive are read back, and no others
-/

namespace Verif
open StoreSpec TextSpec RelSpec

set_option autoImplicit false

/-! ## Which rule reads a line -/

theorem pRelLine_filter_eq (s : Str) : pRelLine (cs!"Filter[" ++ s) = pFilter (cs!"Filter[" ++ s) := by
  unfold pRelLine
  cases h : pFilter (cs!"Filter[" ++ s) <;>
    simp [pReadExt, pReadVirtual, pRead, pProject, pAggregate, pSort, pFetch, pJoin, pSet, pCross, pExtRel, pExtKind, lit]

theorem pRelLine_sort_eq (s : Str) : pRelLine (cs!"Sort[" ++ s) = pSort (cs!"Sort[" ++ s) := by
  unfold pRelLine
  cases h : pSort (cs!"Sort[" ++ s) <;>
    simp [pReadExt, pReadVirtual, pRead, pFilter, pProject, pAggregate, pFetch, pJoin, pSet, pCross, pExtRel, pExtKind, lit]

theorem pRelLine_fetch_eq (s : Str) : pRelLine (cs!"Fetch[" ++ s) = pFetch (cs!"Fetch[" ++ s) := by
  unfold pRelLine
  cases h : pFetch (cs!"Fetch[" ++ s) <;>
    simp [pReadExt, pReadVirtual, pRead, pFilter, pProject, pAggregate, pSort, pJoin, pSet, pCross, pExtRel, pExtKind, lit]

theorem pRelLine_join_eq (s : Str) : pRelLine (cs!"Join[" ++ s) = pJoin (cs!"Join[" ++ s) := by
  unfold pRelLine
  cases h : pJoin (cs!"Join[" ++ s) <;>
    simp [pReadExt, pReadVirtual, pRead, pFilter, pProject, pAggregate, pSort, pFetch, pSet, pCross, pExtRel, pExtKind, lit]

theorem pRelLine_set_eq (s : Str) : pRelLine (cs!"Set[" ++ s) = pSet (cs!"Set[" ++ s) := by
  unfold pRelLine
  cases h : pSet (cs!"Set[" ++ s) <;>
    simp [pReadExt, pReadVirtual, pRead, pFilter, pProject, pAggregate, pSort, pFetch, pJoin, pCross, pExtRel, pExtKind, lit]

theorem pRelLine_cross_eq (s : Str) : pRelLine (cs!"Cross[" ++ s) = pCross (cs!"Cross[" ++ s) := by
  unfold pRelLine
  cases h : pCross (cs!"Cross[" ++ s) <;>
    simp [pReadExt, pReadVirtual, pRead, pFilter, pProject, pAggregate, pSort, pFetch, pJoin, pSet, pExtRel, pExtKind, lit]

/-! ## Output columns -/

/-- The column written for an index: a reference, or the mark of an error. -/
def colText (n : Nat) (i : Int) : Str := (Out.expect cs!"Emitted" (getCol (references n) i)).text

/-- The columns of a line as written. -/
def colsText (o : Opts) (n : Nat) (c : Option Common) : Str :=
  joinS cs!", " ((implicitCols o (references n) (getEmit c)).map Out.text)

theorem getCol_references (n : Nat) (i : Int) :
    getCol (references n) i = if 0 ≤ i ∧ i < n then some (textRef (wrap32 i)) else none := by
  unfold getCol references
  by_cases h : i < 0
  · rw [if_pos h, if_neg (by omega)]
  · rw [if_neg h]
    by_cases h2 : i < n
    · rw [if_pos ⟨by omega, h2⟩]
      have h3 : i.toNat < n := by omega
      simp [h3]
      congr 1
      congr 1
      omega
    · rw [if_neg (by omega)]
      have h3 : ¬ i.toNat < n := by omega
      simp
      omega

theorem pRef_close {n : Nat} {m : List Int} {fuel : Nat} {r x : Str}
    (h : lit cs!"]" (pStarN spCommaSp pRef fuel (m.flatMap (fun i => cs!", " ++ colText n i) ++ ']' :: x)).2 = some r) :
    ∀ i ∈ m, 0 ≤ i ∧ i < (n : Int) := by
  induction m generalizing fuel with
  | nil => intro i hi; cases hi
  | cons i m ih =>
    cases fuel with
    | zero => simp [pStarN, lit] at h
    | succ fuel =>
      by_cases hi : 0 ≤ i ∧ i < (n : Int)
      · have h1 : colText n i = refText (wrap32 i) := by
          simp [colText, getCol_references, hi, Out.expect, textRef, refText]
        have h2 : NextNot isDigit (m.flatMap (fun i => cs!", " ++ colText n i) ++ ']' :: x) := by
          cases m <;> exact (nextNot_cons _ _ _).2 (by decide)
        have h3 : spCommaSp (cs!", " ++ (refText (wrap32 i) ++ (m.flatMap (fun i => cs!", " ++ colText n i) ++ ']' :: x))) =
            some (refText (wrap32 i) ++ (m.flatMap (fun i => cs!", " ++ colText n i) ++ ']' :: x)) := by
          simp [spCommaSp, lit, skipSp, refText]
        rw [List.flatMap_cons, List.append_assoc, List.append_assoc, h1, pStarN, h3] at h
        simp only [pRef_text h2] at h
        intro j hj
        rcases List.mem_cons.1 hj with rfl | hj
        · exact hi
        · exact ih h j hj
      · exfalso
        have h1 : colText n i = cs!"!{Emitted}" := by
          rw [colText, getCol_references, if_neg hi]
          rfl
        rw [List.flatMap_cons, h1, pStarN] at h
        simp [spCommaSp, lit, skipSp, pRef] at h

theorem cols_of_read {o : Opts} (ho : o.showEmit = false) {n : Nat} {c : Option Common} {x r : Str} {refs : List IntTok}
    (h : pRefsClose (colsText o n c ++ ']' :: x) = some (refs, r)) : ∀ i ∈ shown n c, 0 ≤ i ∧ i < (n : Int) := by
  have hid : ∀ i ∈ identity n, 0 ≤ i ∧ i < (n : Int) := by
    intro i hi
    simp only [identity, List.mem_map, List.mem_range] at hi
    obtain ⟨k, hk, rfl⟩ := hi
    exact ⟨Int.natCast_nonneg k, Int.ofNat_lt.2 hk⟩
  unfold shown mapping
  cases hc : c.bind (·.emit) with
  | none => exact hid
  | some e =>
    cases e with
    | direct => exact hid
    | emit m =>
      simp only [Option.getD_some]
      have ht : colsText o n c = joinS cs!", " (m.map (colText n)) := by
        simp [colsText, implicitCols, ho, getEmit, hc, Function.comp_def]
        rfl
      rw [ht] at h
      cases m with
      | nil => intro i hi; cases hi
      | cons i m =>
        unfold pRefsClose pRefs pSep pSep1 at h
        rw [List.map_cons, joinS_cons, List.append_assoc, List.flatMap_map] at h
        by_cases hi : 0 ≤ i ∧ i < (n : Int)
        · have h1 : colText n i = refText (wrap32 i) := by
            simp [colText, getCol_references, hi, Out.expect, textRef, refText]
          have h2 : NextNot isDigit (m.flatMap (fun i => cs!", " ++ colText n i) ++ ']' :: x) := by
            cases m <;> exact (nextNot_cons _ _ _).2 (by decide)
          rw [h1, pRef_text h2] at h
          simp only [Option.bind_eq_bind, Option.bind_eq_some_iff] at h
          obtain ⟨s, h3, _⟩ := h
          intro j hj
          rcases List.mem_cons.1 hj with rfl | hj
          · exact hi
          · exact pRef_close h3 j hj
        · exfalso
          have h1 : colText n i = cs!"!{Emitted}" := by
            rw [colText, getCol_references, if_neg hi]
            rfl
          rw [h1] at h
          simp [pRef, lit] at h

/-- The end of a line: arrow, columns, bracket. -/
def endText (o : Opts) (n : Nat) (c : Option Common) : Str := cs!" => " ++ (colsText o n c ++ [']'])

theorem textRef_starts (i : Int) : Starts (textRef i).text := by
  have h : (textRef i).text = refText i := by simp [textRef, refText]
  rw [h]
  exact refText_starts i

theorem colsText_next (o : Opts) (ho : o.showEmit = false) (n : Nat) (c : Option Common) (x : Str) :
    NextNot (· == ' ') (colsText o n c ++ ']' :: x) := by
  unfold colsText
  have key : ∀ l : List Out, (∀ y ∈ l, Starts y.text) → NextNot (· == ' ') (joinS cs!", " (l.map Out.text) ++ ']' :: x) := by
    intro l hl
    cases l with
    | nil => exact (nextNot_cons _ _ _).2 (by decide)
    | cons y l =>
      rw [List.map_cons, joinS_cons, List.append_assoc]
      exact starts_next (hl y (by simp)) _
  have href : ∀ y ∈ references n, Starts y.text := by
    intro y hy
    simp only [references, List.mem_map] at hy
    obtain ⟨k, _, rfl⟩ := hy
    exact textRef_starts _
  apply key
  intro y hy
  unfold implicitCols at hy
  rw [ho] at hy
  simp only [Bool.false_eq_true, if_false] at hy
  cases he : getEmit c with
  | none => rw [he] at hy; exact href y hy
  | some e =>
    rw [he] at hy
    cases e with
    | direct => exact href y hy
    | emit m =>
      simp only [List.mem_map] at hy
      obtain ⟨i, _, rfl⟩ := hy
      rw [getCol_references]
      split
      · exact textRef_starts _
      · exact ⟨'!', _, rfl, by decide⟩

theorem pArrow_end {o : Opts} (ho : o.showEmit = false) (n : Nat) (c : Option Common) :
    pArrow (endText o n c) = some (colsText o n c ++ [']']) := pArrow_text (colsText_next o ho n c [])

theorem exprFollow_end (o : Opts) (n : Nat) (c : Option Common) : ExprFollow (endText o n c) := exprFollow_to _

theorem spCommaSp_end (o : Opts) (n : Nat) (c : Option Common) : spCommaSp (endText o n c) = none := by
  simp [spCommaSp, endText, skipSp, lit]

theorem headBody_end {o : Opts} (lvl : Nat) (h : Head) (pos named : List Out)
    (n : Nat) (c : Option Common) (ha : h.args = .inline pos named) (hx : h.explicit = false)
    (hc : h.columns = references n) (he : h.emit = getEmit c) :
    headBody o lvl h = h.name.text ++ '[' :: ((textArgList pos named).text ++ endText o n c) := by
  unfold headBody
  rw [ha]
  simp only [textOutput_implicit o h hx, hc, he]
  simp [endText, colsText]

/-- The columns of a line that is read are those of the relation. -/
theorem end_read {o : Opts} (ho : o.showEmit = false) {n : Nat} {c : Option Common} (hn : n + (shown n c).length ≤ 2 ^ 31)
    {s r : Str} {refs : List IntTok} (ha : pArrow (endText o n c) = some s) (h : pRefsClose s = some (refs, r)) :
    InRange n (shown n c) := by
  rw [pArrow_end ho] at ha
  cases ha
  exact ⟨hn, cols_of_read ho h⟩

theorem end_text {o : Opts} (ho : o.showEmit = false) {n : Nat} {c : Option Common} (h : InRange n (shown n c)) :
    endText o n c = tailText (shown n c) := by
  rw [endText, tailText, colsText, implicitCols_refs ho n c h]

/-! ## Expressions of a line -/

section
variable [UTab] [FTab] (hA : AsciiPrintable) (hF : FloatsShown) {h : List Op} {o : Opts}

include hA in
/-- An expression that survives, with its parse tree. -/
theorem survivor {e : Expr} (hs : SurvivesExpr (run h) o e) : ∃ s, convExpr (run h) s = .ok e ∧
    ∀ rest, ExprFollow rest → pExpr ((textExpr (run h) o e).text ++ rest) = some (s, rest) := by
  obtain ⟨s, h1, h2⟩ := read_expr hA o e hs
  exact ⟨s, h1, fun rest hr => h2 _ rest (by simp only [List.length_append]; omega) hr⟩

include hA hF in
/-- An expression that is read from a line survives, and it is read as a whole. -/
theorem expr_in_line {e : Expr} {rest r : Str} {s : SExpr} (hr : ExprFollow rest)
    (hp : pExpr ((textExpr (run h) o e).text ++ rest) = some (s, r)) (hc : convExpr (run h) s = .ok e) :
    SurvivesExpr (run h) o e ∧ r = rest := by
  have hs := survives_expr_of_read hA hF o e _ rest r s (by simp only [List.length_append]; omega) hr hp hc
  obtain ⟨s', _, h2⟩ := survivor hA hs
  rw [h2 rest hr] at hp
  cases hp
  exact ⟨hs, rfl⟩

include hA hF in
/-- The same behind spaces. -/
theorem expr_in_line_skip {e : Expr} {rest r : Str} {s : SExpr} (hr : ExprFollow rest)
    (hp : pExpr (skipSp ((textExpr (run h) o e).text ++ rest)) = some (s, r)) (hc : convExpr (run h) s = .ok e) :
    SurvivesExpr (run h) o e ∧ r = rest := by
  have hst : Starts (textExpr (run h) o e).text := starts_of_read hF o hp hc
  rw [hst.skip] at hp
  exact expr_in_line hA hF hr hp hc

include hA in
/-- An expression that survives starts with no space. -/
theorem survivor_starts (hF : FloatsShown) {e : Expr} (hs : SurvivesExpr (run h) o e) : Starts (textExpr (run h) o e).text := by
  obtain ⟨s, h1, h2⟩ := survivor hA hs
  exact starts_of_read hF o (h2 [] ⟨NextNot.nil _, NextNot.nil _⟩) h1

end

end Verif
