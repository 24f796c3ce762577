import Verif.Proofs.LinesExactFetch
import Verif.Proofs.RelLineProject
import Verif.Proofs.RelNames
/-!
# Projects whose lines survive
-/

namespace Verif
open StoreSpec TextSpec RelSpec

set_option autoImplicit false

theorem pRelLine_project_eq (s : Str) : pRelLine (cs!"Project[" ++ s) = pProject (cs!"Project[" ++ s) := by
  unfold pRelLine
  cases h : pProject (cs!"Project[" ++ s) <;>
    simp [pReadExt, pReadVirtual, pRead, pFilter, pAggregate, pSort, pFetch, pJoin, pSet, pCross, pExtRel, pExtKind, lit]

/-! ## What is read as an expression -/

theorem projArg_cases {x r : Str} {a : SProj} (h : pProjArg x = some (a, r)) :
    (∃ i, a = .ref i ∧ pRef x = some (i, r)) ∨ ∃ s, a = .expr s ∧ pRef x = none ∧ pExpr x = some (s, r) := by
  unfold pProjArg at h
  cases hr : pRef x with
  | some y =>
    obtain ⟨i, r'⟩ := y
    rw [hr] at h
    simp only [mapFst, Option.some_or, Option.some.injEq, Prod.mk.injEq] at h
    obtain ⟨rfl, rfl⟩ := h
    exact .inl ⟨i, rfl, rfl⟩
  | none =>
    rw [hr] at h
    simp only [mapFst, Option.none_or] at h
    split at h
    case h_2 => cases h
    next s r' hp =>
    cases h
    exact .inr ⟨s, rfl, rfl, hp⟩

theorem pExpr_ref {fuel : Nat} {x r : Str} {i : IntTok} (h : pExprN fuel x = some (.ref i, r)) : pRef x ≠ none := by
  cases fuel with
  | zero => cases h
  | succ fuel =>
    rw [pExprN] at h
    rcases or_some h with h | ⟨-, h⟩
    · rcases or_some h with h | ⟨-, h⟩
      · rcases or_some h with h | ⟨-, h⟩
        · rcases or_some h with h | ⟨-, h⟩
          · obtain ⟨_, _, _, _, _, _, _, _, _, -, -, -, -, -, -, he⟩ := ifThen_parts h
            cases he
          · obtain ⟨_, _, _, _, _, _, -, -, -, -, -, he⟩ := cast_parts h
            cases he
        · obtain ⟨_, _, _, _, _, _, -, -, -, -, he⟩ := call_parts h
          cases he
      · intro hn
        rw [hn] at h
        cases h
    · obtain ⟨i, -, he⟩ := mapFst_some h
      cases he

theorem convExpr_plainRef [FTab] {st : Store} {s : SExpr} {i : Int} (h : convExpr st s = .ok (.selection (.field i none))) :
    ∃ t, s = .ref t := by
  cases s with
  | ref t => exact ⟨t, rfl⟩
  | lit y => rw [convExpr] at h; obtain ⟨_, _, h2⟩ := Res.bind_ok_iff.1 h; cases h2
  | cast y b q =>
    rw [convExpr] at h
    obtain ⟨_, _, h2⟩ := Res.bind_ok_iff.1 h
    obtain ⟨_, _, h2⟩ := Res.bind_ok_iff.1 h2
    cases h2
  | ifThen cs y =>
    rw [convExpr] at h
    obtain ⟨_, _, h2⟩ := Res.bind_ok_iff.1 h
    obtain ⟨_, _, h2⟩ := Res.bind_ok_iff.1 h2
    cases h2
  | call name a u args t =>
    rw [convExpr] at h
    obtain ⟨_, _, h2⟩ := Res.bind_ok_iff.1 h
    obtain ⟨_, _, h2⟩ := Res.bind_ok_iff.1 h2
    obtain ⟨_, _, h2⟩ := Res.bind_ok_iff.1 h2
    obtain ⟨_, _, h2⟩ := Res.bind_ok_iff.1 h2
    obtain ⟨_, _, h2⟩ := Res.bind_ok_iff.1 h2
    cases h2

/-- Texts that start with neither a space nor a dollar sign. -/
def StartsPlain (x : Str) : Prop := ∃ c t, x = c :: t ∧ c ≠ ' ' ∧ c ≠ '$'

theorem startsPlain_append {x : Str} (h : StartsPlain x) (y : Str) : StartsPlain (x ++ y) := by
  obtain ⟨c, t, rfl, hc⟩ := h
  exact ⟨c, t ++ y, rfl, hc⟩

theorem startsPlain_digits (neg : Bool) {ds : Str} (h1 : ds ≠ []) (h2 : ∀ c ∈ ds, isDigit c = true) :
    StartsPlain ((if neg then ['-'] else []) ++ ds) := by
  cases neg with
  | true => exact ⟨'-', _, rfl, by decide, by decide⟩
  | false =>
    cases ds with
    | nil => exact absurd rfl h1
    | cons c ds =>
      have := h2 c (by simp)
      refine ⟨c, ds, rfl, ?_, ?_⟩ <;> (rintro rfl; exact absurd this (by decide))

theorem startsPlain_float {x : Str} (h : FloatShown x) : StartsPlain x := by
  rcases h with h | ⟨neg, ds, h1, h2, rfl⟩ | ⟨neg, ds, fs, h1, -, h2, -, rfl⟩
  · simp only [List.mem_cons, List.not_mem_nil, or_false] at h
    rcases h with rfl | rfl | rfl <;> exact ⟨_, _, rfl, by decide, by decide⟩
  · exact startsPlain_digits neg h1 h2
  · rw [List.append_assoc]
    exact startsPlain_append (startsPlain_digits neg h1 h2) _

theorem startsPlain_int (i : Int) : StartsPlain (decInt i) := by
  unfold decInt
  by_cases hi : i < 0
  · have := startsPlain_digits true (dec_ne_nil i.natAbs) (dec_all_digits _)
    simpa [hi] using this
  · have := startsPlain_digits false (dec_ne_nil i.natAbs) (dec_all_digits _)
    simpa [hi] using this

theorem startsPlain_alpha {c : Char} (h : isAlpha c = true) (t : Str) : StartsPlain (c :: t) :=
  ⟨c, t, rfl, (by rintro rfl; exact absurd h (by decide)), (by rintro rfl; exact absurd h (by decide))⟩

theorem startsPlain_name {name nm : Str} (hn : FunctionName name)
    (h : nm = name ∨ nm = baseName name ∨ (':' ∉ name ∧ ∃ sig, nm = name ++ ':' :: sig)) : StartsPlain nm := by
  rcases h with rfl | rfl | ⟨-, sig, rfl⟩
  · obtain ⟨c, t, rfl, hc⟩ := hn.head; exact startsPlain_alpha hc _
  · obtain ⟨c, t, h, hc⟩ := hn.base.head; rw [h]; exact startsPlain_alpha hc _
  · obtain ⟨c, t, rfl, hc⟩ := hn.head; exact startsPlain_alpha hc _

theorem startsPlain_lit [UTab] [FTab] (hF : FloatsShown) {st : Store} (st' : Store) (o : Opts) (l : Literal) (h : LitImage st l) :
    StartsPlain (textLit st' o l).text := by
  obtain ⟨value, nullable, tvar⟩ := l
  obtain ⟨-, v, h1, hi⟩ := h
  simp only at h1 hi
  subst h1
  by_cases hn : ∃ t, v = .null t
  · obtain ⟨t, rfl⟩ := hn
    exact ⟨'n', _, by simp [textLit, textValue]; rfl, by decide, by decide⟩
  · have hn : ∀ t, v ≠ .null t := fun t e => hn ⟨t, e⟩
    rw [textLit_value st' o hn, Out.text_append]
    apply startsPlain_append
    have hprec : ∀ (p : Int) (x : Option Str), StartsPlain (textPrecLit p x).text := by
      intro p x
      cases x with
      | none => exact ⟨'!', _, rfl, by decide, by decide⟩
      | some x => exact ⟨'\'', _, rfl, by decide, by decide⟩
    cases v with
    | null t => exact absurd rfl (hn t)
    | binary _ => exact hi.elim
    | other _ => exact hi.elim
    | bool b => cases b <;> exact ⟨_, _, rfl, by decide, by decide⟩
    | int w i => exact startsPlain_int i
    | fp32 f => exact startsPlain_float (hF f).1
    | fp64 f => exact startsPlain_float (hF f).2
    | string s => exact ⟨'\'', _, rfl, by decide, by decide⟩
    | date d =>
      have : dateText d = some (showDate (Date.ofDays d)) := by unfold dateText; rw [if_pos hi]
      simp only [textValue, this]
      exact ⟨'\'', _, rfl, by decide, by decide⟩
    | time us => exact hprec _ _
    | timestamp us => exact hprec _ _
    | prec k p v => cases k <;> exact hprec _ _
    | interval i =>
      simp only [textValue, textInterval]
      split
      · exact ⟨'!', _, rfl, by decide, by decide⟩
      · split
        · split
          · rw [Out.text_append]; exact ⟨'!', _, rfl, by decide, by decide⟩
          · rw [Out.text_append, Out.text_append]; exact ⟨'\'', _, rfl, by decide, by decide⟩
        · rw [Out.text_append]; exact ⟨'\'', _, rfl, by decide, by decide⟩

/-- Expressions that `pProjArg` reads as expressions. -/
def ReadAsExpr [FTab] (st : Store) (e : Expr) : Prop :=
  ∃ x s r, pRef x = none ∧ pExpr x = some (s, r) ∧ convExpr st s = .ok e

section
variable [UTab] [FTab] (hA : AsciiPrintable) (hF : FloatsShown) {h : List Op} {o : Opts}

omit hA hF [UTab] in
theorem readAsExpr_plain {e : Expr} (hr : ReadAsExpr (run h) e) (i : Int) : e ≠ .selection (.field i none) := by
  rintro rfl
  obtain ⟨x, s, r, h1, h2, h3⟩ := hr
  obtain ⟨t, rfl⟩ := convExpr_plainRef h3
  exact pExpr_ref h2 h1

include hF in
/-- The text of an expression that was read and is no plain reference starts with no dollar sign. -/
theorem read_dollar {e : Expr} {x r : Str} {s : SExpr} (hp : pExpr x = some (s, r)) (hc : convExpr (run h) s = .ok e)
    (hpl : ∀ i, e ≠ .selection (.field i none)) (y : Str) : pRef (skipSp ((textExpr (run h) o e).text ++ y)) = none := by
  have key : StartsPlain (textExpr (run h) o e).text := by
    have hi := convExpr_image (Store.ordered_run h) s e hc
    unfold pExpr at hp
    generalize x.length + 1 = fuel at hp
    cases fuel with
    | zero => cases hp
    | succ fuel =>
    have hk := exprN_parts hp
    cases e with
    | missing => simp [ExprImage] at hi
    | other => simp [ExprImage] at hi
    | literal l =>
      rw [ExprImage] at hi
      rw [textExpr]
      exact startsPlain_lit hF _ o l hi
    | selection f =>
      cases f with
      | field i child =>
        cases child with
        | none => exact absurd rfl (hpl i)
        | some c => simp [ExprImage] at hi
      | badReference => simp [ExprImage] at hi
      | badSegment => simp [ExprImage] at hi
    | cast e t fb => exact ⟨'(', _, by simp [textExpr]; rfl, by decide, by decide⟩
    | ifThen ifs els => exact ⟨'i', _, by simp [textExpr]; rfl, by decide, by decide⟩
    | call f args opts out =>
      obtain ⟨name, a, u, ss, q, a', t', rfl, h1, h2, h3, h4, rfl, rfl⟩ := convExpr_call hc
      obtain ⟨name', s1, args', s4, s5, t, hf, -, -, -, he⟩ := call_parts hk
      cases he
      obtain ⟨nm, b, hs, hn, hnm⟩ := call_name o hf h4
      rw [call_text o (textAnchor_fn hs)]
      exact startsPlain_append (startsPlain_name hn hnm) _
  obtain ⟨c, t, h1, h2, h3⟩ := key
  rw [h1, List.cons_append, skipSp_cons _ _ h2]
  exact pRef_none h3

include hF in
theorem readAsExpr_dollar {e : Expr} (hr : ReadAsExpr (run h) e) (y : Str) : pRef (skipSp ((textExpr (run h) o e).text ++ y)) = none := by
  have hpl := readAsExpr_plain hr
  obtain ⟨x, s, r, -, hp, hc⟩ := hr
  exact read_dollar hF hp hc hpl y

/-! ## Columns -/

/-- The text of a column that is put out. -/
def projText (st : Store) (o : Opts) (n : Nat) (exprs : List Expr) (i : Int) : Str :=
  (Out.expect cs!"Emitted" (getCol (references n ++ exprs.map (textExpr st o)) i)).text

omit hA hF in
theorem proj_cols (ho : o.showEmit = false) (st : Store) (n : Nat) (exprs : List Expr) (c : Option Common) :
    (implicitCols o (references n ++ exprs.map (textExpr st o)) (getEmit c)).map Out.text =
      (shown (n + exprs.length) c).map (projText st o n exprs) := by
  have hN : (references n ++ exprs.map (textExpr st o)).length = n + exprs.length := by simp [length_references]
  have hd : (references n ++ exprs.map (textExpr st o)).map Out.text = (identity (n + exprs.length)).map (projText st o n exprs) := by
    apply List.ext_getElem
    · simp [identity, length_references]
    · intro k h1 h2
      have hk : k < (references n ++ exprs.map (textExpr st o)).length := by simpa using h1
      simp only [List.getElem_map, identity, List.getElem_range, projText, getCol]
      rw [if_neg (by simp), Int.ofNat_eq_natCast]
      simp only [Int.toNat_natCast, List.getElem?_eq_getElem hk, Out.expect]
  unfold implicitCols shown mapping getEmit
  rw [ho]
  cases hc : c.bind (·.emit) with
  | none => simpa using hd
  | some e =>
    cases e with
    | direct => simpa using hd
    | emit m => simp [projText, Function.comp_def]

omit hA hF in
/-- The three kinds of columns. -/
theorem projText_cases (st : Store) {n : Nat} (hn : n ≤ 2 ^ 31) (exprs : List Expr) (i : Int) :
    (¬ (0 ≤ i ∧ i < ((n + exprs.length : Nat) : Int)) ∧ projText st o n exprs i = cs!"!{Emitted}") ∨
    (0 ≤ i ∧ i < (n : Int) ∧ projText st o n exprs i = refText i ∧ at? (projectColumns n exprs) i = some (.selection (.field i none))) ∨
    ((n : Int) ≤ i ∧ i < ((n + exprs.length : Nat) : Int) ∧ ∃ e, exprs[i.toNat - n]? = some e ∧
      projText st o n exprs i = (textExpr st o e).text ∧ at? (projectColumns n exprs) i = some e) := by
  unfold projText getCol at?
  by_cases h1 : i < 0
  · left
    rw [if_pos h1]
    exact ⟨by omega, rfl⟩
  · rw [if_neg h1, if_pos (by omega)]
    by_cases h2 : i < (n : Int)
    · right; left
      refine ⟨by omega, h2, ?_, ?_⟩
      · rw [List.getElem?_append_left (by rw [length_references]; omega)]
        have h3 : i.toNat < n := by omega
        have h4 : ((i.toNat : Nat) : Int) = i := by omega
        simp only [references, List.getElem?_map, List.getElem?_range h3, Option.map_some, Out.expect]
        rw [wrap32_small (by omega), h4]
        simp [textRef, refText]
      · have h3 : i.toNat < n := by omega
        have h4 : ((i.toNat : Nat) : Int) = i := by omega
        unfold projectColumns
        rw [List.getElem?_append_left (by simpa using h3)]
        simp [List.getElem?_range h3, inputRef, h4]
    · by_cases h3 : i < ((n + exprs.length : Nat) : Int)
      · right; right
        obtain ⟨e, hx⟩ : ∃ e, exprs[i.toNat - n]? = some e := ⟨_, List.getElem?_eq_getElem (by omega)⟩
        refine ⟨by omega, h3, e, hx, ?_, ?_⟩
        · rw [List.getElem?_append_right (by rw [length_references]; omega), length_references, List.getElem?_map, hx]
          rfl
        · unfold projectColumns
          rw [List.getElem?_append_right (by simp; omega)]
          simpa using hx
      · left
        refine ⟨by omega, ?_⟩
        rw [List.getElem?_eq_none (by simp [length_references]; omega)]
        rfl

/-- What is asked of a column. -/
def ColumnGood (st : Store) (o : Opts) (n : Nat) (exprs : List Expr) (i : Int) : Prop :=
  (0 ≤ i ∧ i < ((n + exprs.length : Nat) : Int)) ∧ ∀ e, (n : Int) ≤ i → exprs[i.toNat - n]? = some e → SurvivesExpr st o e ∧
    ∀ j, e = .selection (.field j none) → 0 ≤ j ∧ j < (n : Int)

include hA hF in
theorem proj_arg {n : Nat} (hn : n ≤ 2 ^ 31) {exprs es : List Expr} (hes : ∀ e ∈ es, ReadAsExpr (run h) e) {i : Int} {a : SProj}
    {rest r : Str} (hr : ExprFollow rest) (hp : pProjArg (skipSp (projText (run h) o n exprs i ++ rest)) = some (a, r))
    (hd : projItem (run h) (projectColumns n es) a = at? (projectColumns n exprs) i) :
    ColumnGood (run h) o n exprs i ∧ r = rest := by
  rcases projText_cases (o := o) (run h) hn exprs i with ⟨h1, h2⟩ | ⟨h1, h2, h3, h4⟩ | ⟨h1, h2, e, h3, h4, h5⟩
  · exfalso
    have he : ∀ t, pExpr (cs!"!{Emitted}" ++ t) = none := fun t => pExprN_none (by decide) (by decide) (by decide) (by decide) _
    rw [h2, show ∀ t, skipSp (cs!"!{Emitted}" ++ t) = cs!"!{Emitted}" ++ t from fun t => skipSp_cons _ _ (by decide)] at hp
    rcases projArg_cases hp with ⟨k, -, hk⟩ | ⟨s, -, -, hk⟩
    · have : pRef (cs!"!{Emitted}" ++ rest) = none := pRef_none (by decide)
      rw [this] at hk
      cases hk
    · rw [he] at hk
      cases hk
  · rw [h3, (refText_starts i).skip, (item_projRef i).read rest hr] at hp
    cases hp
    exact ⟨⟨⟨h1, by omega⟩, fun e h => by omega⟩, rfl⟩
  · rw [h4] at hp
    rw [h5] at hd
    rcases projArg_cases hp with ⟨tok, rfl, hk⟩ | ⟨s, rfl, hk1, hk⟩
    · simp only [projItem] at hd
      -- the reference stands for an input column
      have hcase : ∃ j : Nat, j < n ∧ e = .selection (.field j none) := by
        unfold at? at hd
        split at hd
        · next h0 =>
          unfold projectColumns at hd
          by_cases hlt : tok.toInt.toNat < n
          · rw [List.getElem?_append_left (by simpa using hlt)] at hd
            simp only [List.getElem?_map, List.getElem?_range hlt, Option.map_some, Option.some.injEq] at hd
            exact ⟨_, hlt, hd.symm⟩
          · exfalso
            rw [List.getElem?_append_right (by simp; omega)] at hd
            have hmem : e ∈ es := List.mem_of_getElem? hd
            rw [readAsExpr_dollar hF (hes e hmem)] at hk
            cases hk
        · cases hd
      obtain ⟨j, hj, rfl⟩ := hcase
      have ht : (textExpr (run h) o (.selection (.field j none))).text = refText j := by
        simp [textExpr, textFieldRef, textRef, refText]
      rw [ht, (refText_starts _).skip, pRef_text (litContinues_digit hr)] at hk
      cases hk
      refine ⟨⟨⟨by omega, h2⟩, ?_⟩, rfl⟩
      intro e' _ he'
      rw [h3] at he'
      cases he'
      refine ⟨?_, ?_⟩
      · simp only [SurvivesExpr, InI32]
        omega
      · rintro j' hj'
        cases hj'
        omega
    · simp only [projItem] at hd
      split at hd
      case h_2 => cases hd
      next e' hc =>
      cases hd
      obtain ⟨g1, rfl⟩ := expr_in_line_skip hA hF hr hk hc
      refine ⟨⟨⟨by omega, h2⟩, ?_⟩, rfl⟩
      intro e' _ he'
      rw [h3] at he'
      cases he'
      refine ⟨g1, fun j hj => ?_⟩
      exact absurd hj (readAsExpr_plain ⟨_, _, _, hk1, hk, hc⟩ j)

omit hA hF [UTab] in
/-- What conversion makes of the arguments of a project that were read. -/
theorem convProj_read {st : Store} {n : Nat} : ∀ (args : List SProj) (k : Nat) (es : List Expr) (m : List Int),
    convProj st n k args = .ok (es, m) → (∀ a ∈ args, ∃ x r, pProjArg x = some (a, r)) →
    (∀ e ∈ es, ReadAsExpr st e) ∧ es.length ≤ args.length ∧ m.length = args.length
  | [], _, es, m, hc, _ => by
    cases hc
    exact ⟨fun e he => (nomatch he), Nat.le_refl _, rfl⟩
  | a :: args, k, es, m, hc, ha => by
    have hl := fun x hx => ha x (List.mem_cons_of_mem _ hx)
    cases a with
    | ref i =>
      simp only [convProj, Res.bind_ok_iff, plain_ok] at hc
      obtain ⟨j, hj, ⟨es', m'⟩, hr, hh⟩ := hc
      cases hh
      obtain ⟨g1, g2, g3⟩ := convProj_read args k _ _ hr hl
      exact ⟨g1, by simp; omega, by simp [g3]⟩
    | expr s =>
      simp only [convProj, Res.bind_ok_iff, plain_ok] at hc
      obtain ⟨e', he, ⟨es', m'⟩, hr, hh⟩ := hc
      cases hh
      obtain ⟨g1, g2, g3⟩ := convProj_read args (k + 1) _ _ hr hl
      refine ⟨?_, by simp; omega, by simp [g3]⟩
      intro e hm
      rcases List.mem_cons.1 hm with rfl | hm
      · obtain ⟨x, r, hx⟩ := ha (.expr s) (by simp)
        rcases projArg_cases hx with ⟨i, hi, -⟩ | ⟨s', hs, hn, hp⟩
        · cases hi
        · cases hs
          exact ⟨x, s, r, hn, hp, he⟩
      · exact g1 e hm

omit hA hF [UTab] [FTab] in
theorem projArg_skip {x r : Str} {a : SProj} (hp : pProjArg x = some (a, r)) : skipSp x = x := by
  cases x with
  | nil => rfl
  | cons c t =>
    by_cases hc : c = ' '
    · exfalso
      subst hc
      rcases projArg_cases hp with ⟨k, -, hk⟩ | ⟨s, -, -, hk⟩
      · rw [pRef_none (by decide)] at hk
        cases hk
      · have : pExpr (' ' :: t) = none := pExprN_none (by decide) (by decide) (by decide) (by decide) _
        rw [this] at hk
        cases hk
    · exact skipSp_cons _ _ hc

omit hA hF [UTab] [FTab] in
theorem proj_follow (l : List Str) : ExprFollow (l.flatMap (cs!", " ++ ·) ++ cs!"]") := by
  cases l with
  | nil => exact exprFollow_bracket _
  | cons a l => exact exprFollow_comma _

include hA hF in
theorem proj_star {n : Nat} (hn : n ≤ 2 ^ 31) {exprs es : List Expr} (hes : ∀ e ∈ es, ReadAsExpr (run h) e) :
    ∀ (M : List Int) (fuel : Nat) (args : List SProj) (r : Str),
    pStarN spCommaSp pProjArg fuel ((M.map (projText (run h) o n exprs)).flatMap (cs!", " ++ ·) ++ cs!"]") = (args, r) →
    args.map (projItem (run h) (projectColumns n es)) = M.map (at? (projectColumns n exprs)) →
    ∀ i ∈ M, ColumnGood (run h) o n exprs i
  | [], _, _, _, _, _ => fun i hi => (nomatch hi)
  | i :: M, fuel, args, r, hp, hc => by
    cases args with
    | nil => cases hc
    | cons a args =>
      simp only [List.map_cons, List.cons.injEq] at hc
      cases fuel with
      | zero => simp [pStarN] at hp
      | succ fuel =>
        rw [List.map_cons, List.flatMap_cons, List.append_assoc, List.append_assoc, pStarN, spCommaSp_skip] at hp
        simp only at hp
        split at hp
        · cases hp
        · next a' s2 he =>
          simp only [Prod.mk.injEq, List.cons.injEq] at hp
          obtain ⟨⟨rfl, hss⟩, hr⟩ := hp
          obtain ⟨g1, rfl⟩ := proj_arg hA hF hn hes (proj_follow _) he hc.1
          have g2 := proj_star hn hes M fuel _ _ (Prod.ext hss hr) hc.2
          intro y hy
          rcases List.mem_cons.1 hy with rfl | hy
          · exact g1
          · exact g2 y hy

include hA hF in
theorem proj_args {n : Nat} (hn : n ≤ 2 ^ 31) {exprs es : List Expr} (hes : ∀ e ∈ es, ReadAsExpr (run h) e)
    (M : List Int) {args : List SProj} {r : Str}
    (hp : pSep spCommaSp pProjArg (joinS cs!", " (M.map (projText (run h) o n exprs)) ++ cs!"]") = (args, r))
    (hc : args.map (projItem (run h) (projectColumns n es)) = M.map (at? (projectColumns n exprs))) :
    ∀ i ∈ M, ColumnGood (run h) o n exprs i := by
  cases M with
  | nil => exact fun i hi => (nomatch hi)
  | cons i M =>
    cases args with
    | nil => cases hc
    | cons a args =>
      simp only [List.map_cons, List.cons.injEq] at hc
      rw [List.map_cons, joinS_cons, List.append_assoc] at hp
      unfold pSep pSep1 at hp
      cases hq : pProjArg (projText (run h) o n exprs i ++ ((M.map (projText (run h) o n exprs)).flatMap (cs!", " ++ ·) ++ cs!"]")) with
      | none => rw [hq] at hp; cases hp
      | some y =>
        obtain ⟨a', s2⟩ := y
        rw [hq] at hp
        simp only [Prod.mk.injEq, List.cons.injEq] at hp
        obtain ⟨⟨rfl, hss⟩, hr⟩ := hp
        rw [← projArg_skip hq] at hq
        obtain ⟨g1, rfl⟩ := proj_arg hA hF hn hes (proj_follow _) hq hc.1
        have g2 := proj_star hA hF hn hes M _ _ _ (Prod.ext hss hr) hc.2
        intro y hy
        rcases List.mem_cons.1 hy with rfl | hy
        · exact g1
        · exact g2 y hy

/-! ## Survival -/

include hA hF in
/-- A column that is good is read as an argument that stands for it. -/
theorem column_read {n : Nat} (hn : n ≤ 2 ^ 31) {exprs : List Expr} {i : Int} (hi : ColumnGood (run h) o n exprs i) :
    ∃ a, Item ExprFollow pProjArg (projText (run h) o n exprs i) a ∧
      (match a with
        | .ref i => ∃ j, convIndex i = .ok j ∧ j < (n : Int)
        | .expr e => ∃ e', convExpr (run h) e = .ok e') ∧
      ∀ es, projItem (run h) (projectColumns n es) a = at? (projectColumns n exprs) i := by
  have refCase : ∀ j : Int, 0 ≤ j → j < (n : Int) → (∃ k, convIndex (.ofInt j) = .ok k ∧ k < (n : Int)) ∧
      ∀ es, projItem (run h) (projectColumns n es) (.ref (.ofInt j)) = some (.selection (.field j none)) := by
    intro j h3 h4
    refine ⟨⟨j, ?_, h4⟩, ?_⟩
    · simp only [convIndex, ofInt_toI32 (show InI32 j from ⟨by omega, by omega⟩)]
    · intro es
      have h5 : j.toNat < n := by omega
      have h6 : ((j.toNat : Nat) : Int) = j := by omega
      simp only [projItem, IntTok.toInt_ofInt, projectColumns, at?, h3, if_true]
      rw [List.getElem?_append_left (by simpa using h5)]
      simp [List.getElem?_range h5, inputRef, h6]
  obtain ⟨hr, hg⟩ := hi
  rcases projText_cases (o := o) (run h) hn exprs i with ⟨h1, -⟩ | ⟨h1, h2, h3, h4⟩ | ⟨h1, h2, e, h3, h4, h5⟩
  · exact absurd hr h1
  · obtain ⟨g1, g2⟩ := refCase i h1 h2
    exact ⟨.ref (.ofInt i), by rw [h3]; exact item_projRef i, g1, fun es => by rw [g2, h4]⟩
  · obtain ⟨hs, hb⟩ := hg e h1 h3
    rw [h4, h5]
    by_cases hsel : ∃ j, e = .selection (.field j none)
    · obtain ⟨j, rfl⟩ := hsel
      obtain ⟨g1, g2⟩ := refCase j (hb j rfl).1 (hb j rfl).2
      refine ⟨.ref (.ofInt j), ?_, g1, g2⟩
      have : (textExpr (run h) o (.selection (.field j none))).text = refText j := by
        simp [textExpr, textFieldRef, textRef, refText]
      rw [this]
      exact item_projRef j
    · obtain ⟨s, q1, q2⟩ := survivor hA hs
      have hst := survivor_starts hA hF hs
      refine ⟨.expr s, ⟨hst, fun rest hr => ?_⟩, ⟨e, q1⟩, fun es => by simp only [projItem, q1]⟩
      have hnone := read_dollar (o := o) hF (q2 [] ⟨NextNot.nil _, NextNot.nil _⟩) q1 (fun j hj => hsel ⟨j, hj⟩) rest
      rw [hst.skip] at hnone
      simp [pProjArg, hnone, q2 rest hr, mapFst]

include hA hF in
theorem project_kept {reg : Registry ExtArgs (List Nat)} (ho : o.showEmit = false) (kids : List (Rel × Nat)) (c : Option Common)
    (exprs : List Expr) (hn : Countable reg (kids.map (·.2)) (.project c exprs none)) :
    (LineBack ⟨run h, o, reg⟩ kids (.project c exprs none) → SurvivesLine (run h) o (kids.map (·.2)) (.project c exprs none)) ∧
      (SurvivesLine (run h) o (kids.map (·.2)) (.project c exprs none) → LineKept ⟨run h, o, reg⟩ kids (.project c exprs none)) := by
  have hn2 : ((kids.map (·.2)).sum + exprs.length) + (shown ((kids.map (·.2)).sum + exprs.length) c).length ≤ 2 ^ 31 := hn.2
  have hb : (textHeader o 0 (relHead ⟨run h, o, reg⟩ (kids.map fun k => some k.2) (.project c exprs none))).text =
      cs!"Project[" ++ (joinS cs!", " ((shown ((kids.map (·.2)).sum + exprs.length) c).map
        (projText (run h) o (kids.map (·.2)).sum exprs)) ++ cs!"]") := by
    rw [line_text]
    simp only [headBody, relHead, total_kids, proj_cols ho]
    rfl
  have hlen : ∀ (w : Nat) (l : List Expr), (projectColumns w l).length = w + l.length := by
    intro w l; simp [projectColumns]
  constructor
  · rintro ⟨line, rest, op', ins, w, h1, h2, h3⟩
    simp only at h1 h2
    rw [hb, pRelLine_project_eq] at h1
    unfold pProject at h1
    rw [lit_append] at h1
    simp only [Option.bind_eq_bind, Option.bind_some, Option.bind_eq_some_iff] at h1
    obtain ⟨s1, -, h5⟩ := h1
    cases h5
    simp only [convLine, standardAdv_nil, Res.bind, convBody] at h2
    obtain ⟨r, k1, h2⟩ := Res.bind_ok_iff.1 h2
    obtain ⟨⟨es, m⟩, k2, h2⟩ := Res.bind_ok_iff.1 h2
    cases h2
    obtain ⟨n, rfl⟩ := oneKid_ok k1
    simp only [OpEquiv, List.map_cons, List.map_nil, List.sum_cons, List.sum_nil, Nat.add_zero] at h3 k2 hn2
    obtain ⟨h6, h7, -⟩ := h3
    generalize hp : pSep spCommaSp pProjArg (joinS cs!", " ((shown (n + exprs.length) c).map (projText (run h) o n exprs)) ++ cs!"]") = q
      at k2
    obtain ⟨args, r1⟩ := q
    have hmem : ∀ a ∈ args, ∃ x r, pProjArg x = some (a, r) := by
      intro a ha
      unfold pSep at hp
      split at hp
      · next hq => subst hp; exact pSep1_mem hq a ha
      · cases hp; cases ha
    obtain ⟨g1, g2, g3⟩ := convProj_read args 0 es m k2 hmem
    have h8 := convProj_spec _ 0 es m k2 [] rfl
    simp only [List.append_nil] at h8
    have h9 : m.map (at? (projectColumns n es)) = args.map (projItem (run h) (projectColumns n es)) := h8
    unfold SameOutputs at h6
    rw [hlen, hlen] at h6
    have hm : shown (n + es.length) (mkCommon (makeEmit m (n + es.length))) = m := by
      rcases makeEmit_cases m (n + es.length) with he | he
      · apply shown_makeEmit
        have h10 := congrArg List.length h6
        have h11 : (shown (n + es.length) (mkCommon (makeEmit m (n + es.length)))).length = n + es.length := by
          rw [he]
          simp [shown, mapping, mkCommon, identity]
        rw [List.length_map, List.length_map, h11] at h10
        omega
      · rw [he]
        rfl
    rw [hm, h9] at h6
    have hgood := proj_args hA hF (by omega) g1 _ hp h6.symm
    refine ⟨rfl, by rw [h7]; rfl, fun i hi => ?_, fun i hi => ?_⟩
    · simp only [List.map_cons, List.map_nil, List.sum_cons, List.sum_nil, Nat.add_zero] at hi ⊢
      exact (hgood i hi).1
    · simp only [List.map_cons, List.map_nil, List.sum_cons, List.sum_nil, Nat.add_zero] at hi ⊢
      exact (hgood i hi).2
  · rintro ⟨hl, hh, hr, hg⟩
    obtain ⟨r, n, rfl⟩ : ∃ r n, kids = [(r, n)] := oneKid rfl hl
    simp only [List.map_cons, List.map_nil, List.sum_cons, List.sum_nil, Nat.add_zero] at hr hn2 hg hb
    have hcol : ∀ i : Int, ∃ a : SProj, i ∈ shown (n + exprs.length) c → Item ExprFollow pProjArg (projText (run h) o n exprs i) a ∧
        (match a with
          | .ref i => ∃ j, convIndex i = .ok j ∧ j < (n : Int)
          | .expr e => ∃ e', convExpr (run h) e = .ok e') ∧
        ∀ es, projItem (run h) (projectColumns n es) a = at? (projectColumns n exprs) i := by
      intro i
      by_cases hi : i ∈ shown (n + exprs.length) c
      · obtain ⟨a, ha⟩ := column_read hA hF (o := o) (h := h) (n := n) (by omega) (exprs := exprs) ⟨hr i hi, hg i hi⟩
        exact ⟨a, fun _ => ha⟩
      · exact ⟨.ref (.ofInt 0), fun hi' => absurd hi' hi⟩
    obtain ⟨pt, hpt⟩ : ∃ pt : Int → SProj, ∀ i ∈ shown (n + exprs.length) c,
        Item ExprFollow pProjArg (projText (run h) o n exprs i) (pt i) ∧
        (match pt i with
          | .ref i => ∃ j, convIndex i = .ok j ∧ j < (n : Int)
          | .expr e => ∃ e', convExpr (run h) e = .ok e') ∧
        ∀ es, projItem (run h) (projectColumns n es) (pt i) = at? (projectColumns n exprs) i :=
      ⟨fun i => Classical.choose (hcol i), fun i hi => Classical.choose_spec (hcol i) hi⟩
    obtain ⟨es, m, h3, h4, h5, -⟩ := convProj_ok (st := run h) (n := n) ((shown (n + exprs.length) c).map pt)
      (by
        intro x hx
        obtain ⟨i, hi, rfl⟩ := List.mem_map.1 hx
        exact (hpt i hi).2.1) 0
    have h6 := convProj_spec _ 0 es m h3 [] rfl
    simp only [List.append_nil] at h6
    have h7 : m.map (at? (projectColumns n es)) =
        ((shown (n + exprs.length) c).map pt).map (projItem (run h) (projectColumns n es)) := h6
    simp only [List.length_map] at h4 h5
    refine ⟨.project ((shown (n + exprs.length) c).map pt), [], .project (mkCommon (makeEmit m (n + es.length))) es none, [some r],
      m.length, by simp, by simp [outWidth, directWidth, common, h5], ?_, ?_, ?_⟩
    · simp only [List.map_cons, List.map_nil]
      rw [hb, pRelLine_project_eq]
      have := pProject_text (items := (shown (n + exprs.length) c).map fun i => (projText (run h) o n exprs i, pt i))
        (by
          intro x hx
          obtain ⟨i, hi, rfl⟩ := List.mem_map.1 hx
          exact (hpt i hi).1)
      simpa [Function.comp_def] using this
    · simp [convLine, standardAdv_nil, Res.bind, convBody, oneChild, h3]
    · simp only [OpEquiv, SameOutputs, List.map_cons, List.map_nil, List.sum_cons, List.sum_nil, Nat.add_zero]
      refine ⟨?_, hh, trivial⟩
      rw [hlen, hlen, shown_makeEmit (by omega), h7, List.map_map]
      apply List.map_congr_left
      intro i hi
      exact ((hpt i hi).2.2 es).symm

include hA hF in
theorem project_exact {reg : Registry ExtArgs (List Nat)} (ho : o.showEmit = false) (kids : List (Rel × Nat)) (c : Option Common)
    (exprs : List Expr) (hn : Countable reg (kids.map (·.2)) (.project c exprs none)) :
    LineBack ⟨run h, o, reg⟩ kids (.project c exprs none) ↔ SurvivesLine (run h) o (kids.map (·.2)) (.project c exprs none) :=
  ⟨(project_kept hA hF ho kids c exprs hn).1, fun hs => kept_back ((project_kept hA hF ho kids c exprs hn).2 hs)⟩

end
end Verif
