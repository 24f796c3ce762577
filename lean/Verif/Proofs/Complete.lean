import Verif.Spec.Complete
import Verif.Proofs.TreeText
import Verif.Proofs.PlanText
/-!
# Nothing is reported exactly for complete plans
-/

namespace Verif
open StoreSpec TextSpec RelSpec PlanSpec

set_option autoImplicit false

variable [UTab] [FTab]

/-! ## Columns -/

/-- Printed columns and the conditions under which each is written without an error. -/
def Written (cols : List Out) (ps : List Prop) : Prop :=
  ∃ l : List (Out × Prop), cols = l.map (·.1) ∧ ps = l.map (·.2) ∧ ∀ q ∈ l, (q.1.errs = [] ↔ q.2)

omit [UTab] [FTab] in
theorem Written.append {a b : List Out} {p q : List Prop} (h : Written a p) (h' : Written b q) : Written (a ++ b) (p ++ q) := by
  obtain ⟨l, rfl, rfl, h⟩ := h
  obtain ⟨m, rfl, rfl, h'⟩ := h'
  refine ⟨l ++ m, by simp, by simp, fun x hx => ?_⟩
  rcases List.mem_append.1 hx with hx | hx
  · exact h x hx
  · exact h' x hx

omit [UTab] [FTab] in
theorem Written.map {α : Type} (l : List α) (f : α → Out) (g : α → Prop) (h : ∀ a ∈ l, ((f a).errs = [] ↔ g a)) :
    Written (l.map f) (l.map g) := by
  refine ⟨l.map fun a => (f a, g a), by simp, by simp, fun x hx => ?_⟩
  obtain ⟨a, ha, rfl⟩ := List.mem_map.1 hx
  exact h a ha

omit [UTab] [FTab] in
theorem Written.length {a : List Out} {p : List Prop} (h : Written a p) : a.length = p.length := by
  obtain ⟨l, rfl, rfl, _⟩ := h
  simp

omit [UTab] [FTab] in
theorem Written.all {a : List Out} {p : List Prop} (h : Written a p) : a.flatMap Out.errs = [] ↔ ∀ x ∈ p, x := by
  obtain ⟨l, rfl, rfl, h⟩ := h
  simp only [List.flatMap_map, List.flatMap_eq_nil_iff, List.mem_map]
  constructor
  · rintro h' x ⟨q, hq, rfl⟩
    exact (h q hq).1 (h' q hq)
  · intro h' q hq
    exact (h q hq).2 (h' q.2 ⟨q, hq, rfl⟩)

omit [UTab] [FTab] in
theorem Written.at {a : List Out} {p : List Prop} (h : Written a p) (i : Nat) (n : Str) :
    (Out.expect n a[i]?).errs = [] ↔ ∃ x, p[i]? = some x ∧ x := by
  obtain ⟨l, rfl, rfl, h⟩ := h
  simp only [List.getElem?_map]
  cases hi : l[i]? with
  | none => simp [Out.expect]
  | some q =>
    have := h q (List.mem_of_getElem? hi)
    exact ⟨fun h' => ⟨q.2, rfl, this.1 h'⟩, fun ⟨x, hx, h'⟩ => this.2 (by
      have : q.2 = x := Option.some.inj hx
      rw [this]; exact h')⟩

omit [UTab] [FTab] in
theorem Written.emitted {a : List Out} {p : List Prop} (h : Written a p) (m : List Int) (n : Str) :
    (m.map fun i => Out.expect n (getCol a i)).flatMap Out.errs = [] ↔ ∀ i ∈ m, 0 ≤ i ∧ ∃ x, p[i.toNat]? = some x ∧ x := by
  simp only [List.flatMap_map, List.flatMap_eq_nil_iff]
  refine forall_congr' fun i => imp_congr_right fun _ => ?_
  unfold getCol
  by_cases hi : i < 0
  · simp [hi, Out.expect, Int.not_le.2 hi]
  · simp only [if_neg hi, h.at]
    simp [Int.not_lt.1 hi]

omit [UTab] [FTab] in
theorem errs_textRef (i : Int) : (textRef i).errs = [] := by simp [textRef]

omit [UTab] [FTab] in
theorem Written.refs (n : Nat) : Written (references n) (refColumns n) := by
  have h := Written.map (List.range n) (fun (i : Nat) => textRef (wrap32 i)) (fun _ => True) (fun a _ => by simp [errs_textRef])
  have : refColumns n = (List.range n).map fun _ => True := by
    rw [List.map_const', List.length_range]; rfl
  rw [this]; exact h

omit [UTab] [FTab] in
theorem textTyReq_errs {st : Store} (hst : st.Ordered) (o : Opts) (t : Option Ty) :
    (textTyReq st o t).errs = [] ↔ CompleteTyOpt st t := by
  cases t with
  | none => simp [textTyReq, CompleteTyOpt]
  | some t => rw [textTyReq, CompleteTyOpt]; exact textTy_errs hst o t

omit [UTab] [FTab] in
theorem zipFields_range : ∀ (ns : List Str) (ts : List Ty),
    zipFields ns ts = (List.range (max ns.length ts.length)).map fun (i : Nat) => (ns[i]?, ts[i]?)
  | [], ts => by
    rw [zipFields]
    apply List.ext_getElem? ; intro i
    simp only [List.getElem?_map, List.length_nil, Nat.zero_max]
    by_cases hi : i < ts.length
    · simp [hi]
    · simp [hi]
  | n :: ns, [] => by
    rw [zipFields, zipFields_range ns []]
    simp [List.range_succ_eq_map, Function.comp_def]
  | n :: ns, t :: ts => by
    rw [zipFields, zipFields_range ns ts]
    simp [List.range_succ_eq_map, Function.comp_def]

theorem Written.schema {st : Store} (hst : st.Ordered) (o : Opts) (s : Option NamedStruct) :
    Written (readColumns st o s) (schemaColumns st s) := by
  cases s with
  | none => exact ⟨[(.fail cs!"ReadRel", False)], rfl, rfl, by simp⟩
  | some s =>
    have ht : readColumns st o (some s) = (zipFields s.names (typesOf s)).map fun f => textField st o f.1 f.2 := by
      obtain ⟨ns, str⟩ := s
      cases str <;> rfl
    simp only [ht, schemaColumns, zipFields_range, List.map_map]
    refine Written.map _ _ _ fun i _ => ?_
    simp only [Function.comp, textField, Out.errs_append, Out.errs_s, List.append_nil, List.append_eq_nil_iff, textTyReq_errs hst]
    refine and_congr ?_ ?_
    · cases h : s.names[i]? with
      | none => simpa [Out.expect] using h
      | some n => simpa [Out.expect] using lt_of_getElem?_some h
    · cases h : (typesOf s)[i]? <;> simp [CompleteTyOpt]

omit [UTab] [FTab] in
theorem firstSeen_eq : ∀ (l seen : List Expr), firstSeen seen l = (l.filter fun e => !decide (e ∈ seen)).eraseDups
  | [], seen => by simp [firstSeen]
  | e :: l, seen => by
    rw [firstSeen]
    by_cases h : e ∈ seen
    · rw [if_pos h, firstSeen_eq l seen]; simp [h]
    · rw [if_neg h, firstSeen_eq l (seen ++ [e])]
      simp only [List.filter_cons, h, decide_false, Bool.not_false, if_true, List.eraseDups_cons, List.filter_filter]
      congr 3
      funext x
      by_cases h1 : x ∈ seen <;> by_cases h2 : x = e <;> simp [h1, h2]

theorem Written.exprs {st : Store} (hst : st.Ordered) (o : Opts) (l : List Expr) :
    Written (l.map (textExpr st o)) (l.map (CompleteExpr st)) :=
  .map _ _ _ fun e _ => textExpr_errs hst o e

omit [UTab] [FTab] in
theorem usesDeprecated_cases (g : List Expr) (gs : List Grouping) :
    (usesDeprecated g gs = true ∧ groupKeys g gs = (gs.flatMap (·.exprs)).eraseDups ∧
      ∀ st, (SetsComplete st g gs ↔ ∀ h ∈ gs, ∀ e ∈ h.exprs, CompleteExpr st e)) ∨
    (usesDeprecated g gs = false ∧ groupKeys g gs = g ∧
      ∀ st, (SetsComplete st g gs ↔ ∀ h ∈ gs, ∀ i ∈ h.refs, ∃ e, g[i]? = some e ∧ CompleteExpr st e)) := by
  cases g with
  | cons a l => exact .inr ⟨rfl, rfl, fun st => Iff.rfl⟩
  | nil =>
    cases gs with
    | nil => exact .inr ⟨rfl, rfl, fun st => Iff.rfl⟩
    | cons g gs =>
      by_cases h : g.exprs = []
      · refine .inr ⟨by simp [usesDeprecated, h], by simp [groupKeys, h], fun st => ?_⟩
        have he : ∀ x ∈ g :: gs, x.refs = [] ↔ ∀ i ∈ x.refs, ∃ e, ([] : List Expr)[i]? = some e ∧ CompleteExpr st e := by
          intro x _
          simp [List.eq_nil_iff_forall_not_mem]
        simp only [SetsComplete, h, ne_eq, not_true, if_false]
        exact forall_congr' fun x => ⟨fun hh hx => (he x hx).1 (hh hx), fun hh hx => (he x hx).2 (hh hx)⟩
      · refine .inl ⟨by simp [usesDeprecated, h], by simp [groupKeys, h], fun st => by simp [SetsComplete, h]⟩

theorem Written.keys {st : Store} (hst : st.Ordered) (o : Opts) (g : List Expr) (gs : List Grouping) :
    Written (groupingValues st o g gs).1 ((groupKeys g gs).map (CompleteExpr st)) := by
  rcases usesDeprecated_cases g gs with ⟨h1, h2, _⟩ | ⟨h1, h2, _⟩
  · simp only [groupingValues, h1, if_true, h2, firstSeen_eq, List.flatMap_def]
    have : (List.map (fun x => x.exprs) gs).flatten.filter (fun e => !decide (e ∈ ([] : List Expr))) = (List.map (fun x => x.exprs) gs).flatten :=
      List.filter_eq_self.2 (by simp)
    rw [this]
    exact .exprs hst o _
  · simp only [groupingValues, h1, h2]
    exact .exprs hst o _

theorem textAggFn_errs {st : Store} (hst : st.Ordered) (o : Opts) (a : AggFn) :
    (textAggFn st o a).errs = [] ↔ CompleteExpr st (aggCall a) := by
  rw [← textExpr_errs hst o (aggCall a)]
  simp only [aggCall, textExpr, textAggFn]

omit [UTab] [FTab] in
theorem inputTotal_eq (ws : List (Option Nat)) : inputTotal ws = totalWidth ws := by
  unfold inputTotal totalWidth
  induction ws with
  | nil => rfl
  | cons w ws ih => cases w <;> simp_all

omit [UTab] [FTab] in
theorem inputWidth_eq (ws : List (Option Nat)) (i : Nat) : inputWidth ws i = widthAt ws i := by
  unfold inputWidth widthAt
  rw [List.getD_eq_getElem?_getD]
  cases ws[i]? <;> simp

omit [UTab] [FTab] in
theorem joinCount_eq (t : EnumVal JoinType) (l r : Nat) : joinCount t l r = joinWidth t.joinType l r := by
  cases t with
  | unknown i => rfl
  | known t => exact joinColumns_eq t l r

theorem relHead_written {env : Env} (hst : env.st.Ordered) (ws : List (Option Nat)) (op : RelOp) :
    Written (relHead env ws op).columns (directColumns env ws op) := by
  cases op with
  | read c s f t a r => cases t <;> exact .schema hst env.o s
  | filter c e a => simp only [directColumns, relHead, inputTotal_eq]; exact .refs _
  | project c es a => simp only [directColumns, relHead, inputTotal_eq]; exact (Written.refs _).append (.exprs hst _ _)
  | aggregate c g gs ms a =>
    simp only [directColumns, relHead, headAggregate]
    refine (Written.keys hst env.o g gs).append ?_
    have : (ms.filterMap fun m => m.fn.map (textAggFn env.st env.o)) = (ms.filterMap (·.fn)).map (textAggFn env.st env.o) := by
      rw [List.map_filterMap]
    rw [this]
    exact .map _ _ _ fun a _ => textAggFn_errs hst env.o a
  | sort c l a => simp only [directColumns, relHead, inputTotal_eq]; exact .refs _
  | fetch c l o a => simp only [directColumns, relHead, inputTotal_eq]; exact .refs _
  | join c t e p a => simp only [directColumns, relHead, inputWidth_eq, joinCount_eq]; exact .refs _
  | set c t a =>
    have : (if ws = [] then 0 else totalWidth ws / ws.length) = inputTotal ws / ws.length := by
      rw [inputTotal_eq]
      split
      · rename_i h; simp [h]
      · rfl
    simp only [directColumns, relHead, this]; exact .refs _
  | cross c a => simp only [directColumns, relHead, inputTotal_eq]; exact .refs _
  | ext k c d =>
    cases d with
    | none => exact ⟨[(.fail cs!"extension", False)], rfl, rfl, by simp⟩
    | some d =>
      simp only [directColumns, relHead, headExt, decodeRel]
      cases env.reg.decode .relation d (ws.filterMap id) with
      | error e => exact ⟨[(.fail cs!"extension", False)], rfl, rfl, by simp⟩
      | ok x => exact .map _ _ _ fun c _ => textExtColumn_errs hst env.o c
  | other r => exact ⟨[], rfl, rfl, by simp⟩

theorem relHead_emit (env : Env) (ws : List (Option Nat)) (op : RelOp) :
    opMapping op = match (relHead env ws op).emit with | some (.emit m) => some m | _ => none := by
  cases op with
  | read c s f t a r => cases t <;> rfl
  | ext k c d =>
    simp only [opMapping, relHead, headExt]
    split
    · rename_i h; split at h <;> simp at h
    · rfl
  | other r => rfl
  | _ => rfl

theorem relHead_emitted {env : Env} (hst : env.st.Ordered) (ws : List (Option Nat)) (op : RelOp) :
    (relHead env ws op).emitted = ((opMapping op).map (·.length)).getD (directColumns env ws op).length := by
  rw [relHead_emit env ws op, ← (relHead_written hst ws op).length]
  unfold Head.emitted
  cases (relHead env ws op).emit with
  | none => rfl
  | some e => cases e <;> rfl

mutual
theorem relWidth_written {env : Env} (hst : env.st.Ordered) : (r : Rel) → relWidth env r = writtenWidth env r
  | .node op ins => by rw [relWidth, writtenWidth, inputWidths_written hst ins, relHead_emitted hst]
theorem inputWidths_written {env : Env} (hst : env.st.Ordered) : (l : List (Option Rel)) → inputWidths env l = writtenWidths env l
  | [] => by rw [inputWidths, writtenWidths]
  | none :: l => by rw [inputWidths, writtenWidths, inputWidths_written hst l]
  | some r :: l => by rw [inputWidths, writtenWidths, inputWidths_written hst l, relWidth_written hst r]
end

/-! ## Headers -/

omit [UTab] [FTab] in
theorem textRows_errs (pre : Str) (more : Bool) : ∀ l : List Out, (textRows pre more l).errs = l.flatMap Out.errs
  | [] => rfl
  | [r] => by simp [textRows]
  | r :: x :: l => by simp [textRows, textRows_errs pre more (x :: l)]

/-- The arguments of a header. -/
def argOuts : HeadArgs → List Out
  | .none => []
  | .inline pos named => pos ++ named
  | .rows rows named => rows ++ named

/-- The columns a header shows. -/
def colOuts (o : Opts) (h : Head) : List Out := if h.explicit then h.columns else implicitCols o h.columns h.emit

omit [UTab] [FTab] in
theorem textOutput_errs (o : Opts) (h : Head) : (textOutput o h).errs = (colOuts o h).flatMap Out.errs := by
  unfold textOutput colOuts
  have : (textEmitSuffix h.emit).errs = [] := by
    unfold textEmitSuffix
    split
    · simp [Out.errs_sep, List.flatMap_map, errs_textRef]
    · rfl
  split <;> simp [Out.errs_sep, this]

omit [UTab] [FTab] in
theorem textHeader_errs (o : Opts) (lvl : Nat) (h : Head) (hx : h.args = .none → h.explicit = false) :
    (textHeader o lvl h).errs = [] ↔ h.name.errs = [] ∧ (∀ a ∈ argOuts h.args, a.errs = []) ∧
      (colOuts o h).flatMap Out.errs = [] := by
  unfold textHeader
  cases ha : h.args with
  | none => simp [Out.errs_sep, argOuts, colOuts, hx ha]
  | inline pos named => simp [textArgList_errs, textOutput_errs, argOuts, or_imp, forall_and, and_assoc]
  | rows rows named => simp [textRows_errs, textOutput_errs, argOuts, or_imp, forall_and, and_assoc]

theorem relHead_explicit (env : Env) (ws : List (Option Nat)) (op : RelOp) :
    (relHead env ws op).explicit = (namedRead op && (opMapping op).isSome) := by
  cases op with
  | read c s f t a r =>
    cases t with
    | named n k =>
      simp only [relHead, headRead, namedRead, Bool.true_and, opMapping, mapping, common, getEmit]
      cases c.bind (·.emit) with
      | none => rfl
      | some e => cases e <;> rfl
    | _ => rfl
  | ext k c d =>
    simp only [relHead, headExt]
    split <;> rfl
  | _ => rfl

theorem relHead_args_explicit (env : Env) (ws : List (Option Nat)) (op : RelOp) (h : (relHead env ws op).args = .none) :
    (relHead env ws op).explicit = false := by
  rw [relHead_explicit]
  cases op with
  | read c s f t a r =>
    cases t with
    | named n k => simp [relHead, headRead] at h
    | _ => rfl
  | _ => rfl

theorem columns_errs {env : Env} (hst : env.st.Ordered) (ws : List (Option Nat)) (op : RelOp) :
    (colOuts env.o (relHead env ws op)).flatMap Out.errs = [] ↔ ColumnsShown env.o op (directColumns env ws op) := by
  have hw := relHead_written hst ws op
  have he := relHead_emit env ws op
  have hx := relHead_explicit env ws op
  unfold colOuts ColumnsShown
  cases hm : opMapping op with
  | none =>
    rw [hm] at he hx
    have : (relHead env ws op).explicit = false := by simp [hx]
    simp only [this]
    have hc : implicitCols env.o (relHead env ws op).columns (relHead env ws op).emit = (relHead env ws op).columns := by
      unfold implicitCols
      split
      · rfl
      · split
        · rename_i h; simp [h] at he
        · rfl
        · rfl
    simp only [Bool.false_eq_true, if_false]
    rw [hc]
    exact hw.all
  | some m =>
    rw [hm] at he hx
    have hem : (relHead env ws op).emit = some (.emit m) := by
      split at he
      · rename_i h; rw [h]; simpa using he.symm
      · simp at he
    have hx' : (relHead env ws op).explicit = namedRead op := by simp [hx]
    simp only [hx', hem, implicitCols]
    cases h1 : namedRead op <;> cases h2 : env.o.showEmit <;> simp only [Bool.false_eq_true, if_false, if_true, Bool.or_true, Bool.or_false, Bool.or_self]
    · exact hw.emitted m _
    · exact hw.all
    · exact hw.all
    · exact hw.all

/-! ## Addenda -/

theorem textAddendum_errs {env : Env} (hst : env.st.Ordered) (k : AddKind) (d : AnyMsg) :
    (textAddendum env.st env.o k (env.reg.decode k.ns d [])).errs = [] ↔ PayloadComplete env k d := by
  unfold textAddendum PayloadComplete
  cases env.reg.decode k.ns d [] with
  | error e => simp
  | ok x =>
    obtain ⟨name, args⟩ := x
    by_cases hc : args.columns = []
    · simp only [hc, if_true, Out.errs_append, Out.errs_s, List.nil_append, List.append_nil, textExtArgs_errs hst]
      exact ⟨fun h => ⟨name, args, rfl, hc, h⟩, fun ⟨n, a, h, _, h'⟩ => by cases h; exact h'⟩
    · simp only [hc, if_false]
      exact ⟨fun h => by simp at h, fun ⟨n, a, h, h', _⟩ => by cases h; exact absurd h' hc⟩

theorem advAddenda_errs {env : Env} (hst : env.st.Ordered) (a : Option AdvExt) :
    (∀ x ∈ advAddenda env a, x.errs = []) ↔ AdvComplete env a := by
  have h1 := textAddendum_errs hst (k := .enh)
  have h2 := textAddendum_errs hst (k := .opt)
  simp only [AddKind.ns] at h1 h2
  cases a with
  | none => simp [advAddenda, AdvComplete, payloads]
  | some a =>
    obtain ⟨e, l⟩ := a
    cases e <;> simp [advAddenda, AdvComplete, payloads, h1, h2]

/-! ## Arguments -/

omit [UTab] [FTab] in
theorem expect_errs {α : Type} (n : Str) (f : α → Out) (P : α → Prop) (h : ∀ a, ((f a).errs = [] ↔ P a)) (x : Option α) :
    (Out.expect n (x.map f)).errs = [] ↔ ∃ a, x = some a ∧ P a := by
  cases x <;> simp [Out.expect, h]

theorem expectExpr_errs {st : Store} (hst : st.Ordered) (o : Opts) (n : Str) (x : Option Expr) :
    (Out.expect n (x.map (textExpr st o))).errs = [] ↔ CompleteExprOpt st x := by
  rw [expect_errs n _ _ (textExpr_errs hst o)]
  cases x <;> simp [CompleteExprOpt]

omit [UTab] [FTab] in
theorem textTuple_errs (l : List Out) : (textTuple l).errs = l.flatMap Out.errs := by
  simp [textTuple, Out.errs_sep]

omit [UTab] [FTab] in
theorem textJoinType_errs (t : EnumVal JoinType) : (textJoinType t).errs = [] ↔ ∃ x, t = .known x ∧ x ≠ .unspecified := by
  cases t with
  | unknown i => simp [textJoinType]
  | known t => cases t <;> simp [textJoinType, textVariant, JoinType.spell]

omit [UTab] [FTab] in
theorem textSetOp_errs (t : EnumVal SetOp) : (textSetOp t).errs = [] ↔ ∃ x, t = .known x ∧ x ≠ .unspecified := by
  cases t with
  | unknown i => simp [textSetOp]
  | known t => cases t <;> simp [textSetOp, textVariant, SetOp.spell]

omit [UTab] [FTab] in
theorem textSortKind_errs (k : SortKind) : (textSortKind k).errs = [] ↔ ∃ d, k = .direction (.known d) ∧ d ≠ .unspecified := by
  cases k with
  | function f => simp [textSortKind]
  | direction d =>
    cases d with
    | unknown i => simp [textSortKind]
    | known d => cases d <;> simp [textSortKind, textVariant, SortDir.spell]

theorem textSortField_errs {st : Store} (hst : st.Ordered) (o : Opts) (f : SortField) :
    (textSortField st o f).errs = [] ↔ CompleteExprOpt st f.expr ∧
      ∃ d, f.kind = some (.direction (.known d)) ∧ d ≠ .unspecified := by
  unfold textSortField
  rw [textTuple_errs]
  simp only [List.flatMap_cons, List.flatMap_nil, List.append_nil, List.append_eq_nil_iff, expectExpr_errs hst]
  refine and_congr_right fun _ => ?_
  rw [expect_errs _ _ _ textSortKind_errs]
  constructor
  · rintro ⟨a, h, d, rfl, hd⟩; exact ⟨d, h, hd⟩
  · rintro ⟨d, h, hd⟩; exact ⟨_, h, d, rfl, hd⟩

theorem textCount_errs {st : Store} (hst : st.Ordered) (o : Opts) (c : Count) :
    (textCount st o c).errs = [] ↔ CountComplete st c := by
  cases c with
  | deprecated i => simp [textCount, CountComplete]
  | expr e => simpa [textCount, CountComplete] using textExpr_errs hst o e

omit [UTab] [FTab] in
theorem textNamedArg_errs (n : Str) (v : Out) : (textNamedArg n v).errs = v.errs := by simp [textNamedArg]

omit [UTab] [FTab] in
theorem groupingArgs_errs (sets : List (List Out)) : (∀ a ∈ groupingArgs sets, a.errs = []) ↔ ∀ g ∈ sets, ∀ a ∈ g, a.errs = [] := by
  have hone : ∀ g : List Out, (if g = [] then Out.s cs!"_" else textTuple g).errs = [] ↔ ∀ a ∈ g, a.errs = [] := by
    intro g
    split
    · rename_i h; simp [h]
    · simp [textTuple_errs]
  unfold groupingArgs
  split
  · rename_i g
    split
    · rename_i h; simp [h]
    · simp
  · simp [hone]

theorem groupingValues_errs {st : Store} (hst : st.Ordered) (o : Opts) (g : List Expr) (gs : List Grouping) :
    (∀ s ∈ (groupingValues st o g gs).2, ∀ a ∈ s, a.errs = []) ↔ SetsComplete st g gs := by
  rcases usesDeprecated_cases g gs with ⟨h1, _, h3⟩ | ⟨h1, _, h3⟩
  · simp [groupingValues, h1, h3, textExpr_errs hst]
  · rw [h3]
    have he : ∀ i : Nat, (Out.expect cs!"AggregateRel" (g[i]?.map (textExpr st o))).errs = [] ↔ ∃ e, g[i]? = some e ∧ CompleteExpr st e :=
      fun i => expect_errs _ _ _ (textExpr_errs hst o) _
    simp only [groupingValues, h1, Bool.false_eq_true, if_false]
    split
    · rename_i h; simp [h]
    · simp [he]

theorem arguments_errs {env : Env} (hst : env.st.Ordered) (ws : List (Option Nat)) (op : RelOp) :
    (((relHead env ws op).name.errs = [] ∧ (∀ a ∈ argOuts (relHead env ws op).args, a.errs = []) ∧
      ColumnsShown env.o op (directColumns env ws op)) ∧ ∀ a ∈ (relHead env ws op).addenda, a.errs = []) ↔
    ArgumentsComplete env ws op ∧ ColumnsShown env.o op (directColumns env ws op) := by
  have hexp := expectExpr_errs hst env.o
  cases op with
  | read c s f t a r =>
    have ha := advAddenda_errs hst a
    cases t with
    | named n k =>
      simp [relHead, headRead, argOuts, ArgumentsComplete, ha, Out.errs_sep, List.flatMap_map, and_comm]
    | «virtual» rows k =>
      have hargs : (∀ x ∈ argOuts (relHead env ws (.read c s f (.virtual rows k) a r)).args, x.errs = []) ↔
          (∀ r ∈ rows, ∀ e ∈ r, CompleteExpr env.st e) ∧ ∀ e, f = some e → CompleteExpr env.st e := by
        have hn : (∀ x ∈ f.toList.map fun e => textNamedArg cs!"filter" (textExpr env.st env.o e), x.errs = []) ↔
            ∀ e, f = some e → CompleteExpr env.st e := by
          simp [textNamedArg_errs, textExpr_errs hst]
        have hp : (∀ x ∈ rows.map fun r => textTuple (r.map (textExpr env.st env.o)), x.errs = []) ↔
            ∀ r ∈ rows, ∀ e ∈ r, CompleteExpr env.st e := by
          simp [textTuple_errs, List.flatMap_map, textExpr_errs hst]
        rw [← hn, ← hp]
        simp only [relHead, headRead]
        generalize (f.toList.map fun e => textNamedArg cs!"filter" (textExpr env.st env.o e)) = nm
        generalize (rows.map fun r => textTuple (r.map (textExpr env.st env.o))) = ps
        have : ∀ x : List Out, x = (if ps = [] ∧ nm ≠ [] then [.s cs!"_"] else ps) →
            ((∀ y ∈ x ++ nm, y.errs = []) ↔ (∀ y ∈ ps, y.errs = []) ∧ ∀ y ∈ nm, y.errs = []) := by
          rintro x rfl
          split
          · rename_i h; simp [h.1]
          · simp [or_imp, forall_and]
        split <;> exact this _ rfl
      rw [hargs]
      simp [relHead, headRead, ArgumentsComplete, ha, and_comm, and_assoc, and_left_comm]
    | extension d =>
      have hd : (textAddendum env.st env.o .ext (decodeTable env.reg d)).errs = [] ↔ ∃ x, d = some x ∧ PayloadComplete env .ext x := by
        cases d with
        | none => simp [decodeTable, textAddendum]
        | some x => simpa [decodeTable, AddKind.ns] using textAddendum_errs hst .ext x
      simp [relHead, headRead, argOuts, ArgumentsComplete, ha, hd, and_comm, and_assoc, and_left_comm]
    | other => simp [relHead, headRead, argOuts, ArgumentsComplete]
  | filter c e a =>
    have ha := advAddenda_errs hst a
    simp [relHead, argOuts, ArgumentsComplete, ha, hexp, and_comm, and_assoc, and_left_comm]
  | project c es a =>
    have ha := advAddenda_errs hst a
    simp [relHead, argOuts, ArgumentsComplete, ha, and_comm]
  | aggregate c g gs ms a =>
    have ha := advAddenda_errs hst a
    have hg := groupingValues_errs hst env.o g gs
    simp [relHead, headAggregate, argOuts, ArgumentsComplete, ha, groupingArgs_errs, hg, and_comm, and_assoc, and_left_comm]
  | sort c l a =>
    have ha := advAddenda_errs hst a
    simp [relHead, argOuts, ArgumentsComplete, ha, textSortField_errs hst, and_comm, and_assoc, and_left_comm]
  | fetch c l o a =>
    have ha := advAddenda_errs hst a
    simp [relHead, argOuts, ArgumentsComplete, ha, textNamedArg_errs, textCount_errs hst, or_imp, forall_and, and_comm, and_assoc, and_left_comm]
  | join c t e p a =>
    have ha := advAddenda_errs hst a
    have ht := textJoinType_errs t
    simp only [relHead, argOuts, ArgumentsComplete, ha, List.cons_append, List.nil_append, List.forall_mem_cons, hexp, ht, Out.errs_s, true_and]
    simp [textNamedArg_errs, textExpr_errs hst, and_comm, and_assoc, and_left_comm]
  | set c t a =>
    have ha := advAddenda_errs hst a
    have ht := textSetOp_errs t
    simp only [relHead, argOuts, ArgumentsComplete, ha, List.append_nil, List.forall_mem_cons, ht, Out.errs_s, true_and]
    simp [and_comm, and_assoc, and_left_comm]
  | cross c a =>
    have ha := advAddenda_errs hst a
    simp [relHead, argOuts, ArgumentsComplete, ha, and_comm]
  | ext k c d =>
    cases d with
    | none =>
      have hno : ¬ ColumnsShown env.o (.ext k c none) (directColumns env ws (.ext k c none)) := fun h => h False (by simp [directColumns])
      exact ⟨fun h => absurd h.1.2.2 hno, fun h => absurd h.2 hno⟩
    | some d =>
      simp only [relHead, headExt, decodeRel, ColumnsShown, opMapping, directColumns, ArgumentsComplete]
      cases hd : env.reg.decode .relation d (ws.filterMap id) with
      | error e =>
        have hno : ¬ ∀ p ∈ [False], p := fun h => h False (by simp)
        exact ⟨fun h => absurd h.1.2.2 hno, fun h => absurd h.2 hno⟩
      | ok x =>
        obtain ⟨name, args⟩ := x
        have h1 := textExtValues_errs hst env.o args.positional
        have h2 : (∀ x ∈ args.named.map (textNamed env.st env.o), x.errs = []) ↔ ∀ p ∈ args.named, CompleteValue env.st p.2 := by
          simp only [List.forall_mem_map, textNamed, Out.errs_append, Out.errs_s, List.nil_append]
          exact forall_congr' fun p => imp_congr_right fun _ => textExtValue_errs hst env.o p.2
        have h3 : (∀ a ∈ argOuts (.inline (textExtValues env.st env.o args.positional) (args.named.map (textNamed env.st env.o))), a.errs = []) ↔
            CompleteValues env.st args.positional ∧ ∀ p ∈ args.named, CompleteValue env.st p.2 := by
          rw [← h1, ← h2]
          simp only [argOuts, List.mem_append, or_imp, forall_and, List.flatMap_eq_nil_iff]
        simp only [h3, Out.errs_s, true_and, List.not_mem_nil, false_imp_iff, implies_true, and_true]
        refine and_congr_left fun _ => ?_
        exact ⟨fun h => ⟨d, name, args, rfl, hd, h.1, h.2⟩, fun ⟨x, n, b, hx, hb, h⟩ => by
          cases hx; rw [hd] at hb; cases hb; exact h⟩
  | other r => simp [relHead, ArgumentsComplete]

/-! ## Trees -/

omit [UTab] [FTab] in
theorem textAddenda_errs (pre : Str) : ∀ l : List Out, (textAddenda pre l).errs = [] ↔ ∀ a ∈ l, a.errs = []
  | [] => by simp [textAddenda]
  | a :: l => by simp [textAddenda, textAddenda_errs pre l]

omit [UTab] [FTab] in
theorem keepsInputs_iff (op : RelOp) : op.keepsInputs = true ↔ HasInputs op := by
  cases op <;> simp [RelOp.keepsInputs, HasInputs]

mutual
theorem textRel_errs {env : Env} (hst : env.st.Ordered) (lvl : Nat) : (r : Rel) →
    ((textRel env lvl r).errs = [] ↔ CompleteRel env r)
  | .node op ins => by
    have hi := textInputs_errs hst (lvl + 1) ins
    rw [textRel, CompleteRel, inputWidths_written hst]
    simp only [Out.errs_append, List.append_eq_nil_iff, textAddenda_errs,
      textHeader_errs _ _ _ (relHead_args_explicit env _ op), columns_errs hst]
    rw [arguments_errs hst, and_assoc]
    refine and_congr_right fun _ => and_congr_right fun _ => ?_
    rw [← keepsInputs_iff]
    cases op.keepsInputs <;> simp [hi]
theorem textInputs_errs {env : Env} (hst : env.st.Ordered) (lvl : Nat) : (l : List (Option Rel)) →
    ((textInputs env lvl l).errs = [] ↔ CompleteRels env l)
  | [] => by simp [textInputs, CompleteRels]
  | none :: l => by rw [textInputs, CompleteRels, textInputs_errs hst lvl l]
  | some r :: l => by
    have h1 := textRel_errs hst lvl r
    have h2 := textInputs_errs hst lvl l
    rw [textInputs, CompleteRels]
    simp [h1, h2]
end

theorem textPlanRel_errs {env : Env} (hst : env.st.Ordered) (r : PlanRel) :
    (textPlanRel env r).errs = [] ↔ CompleteTop env r := by
  cases r with
  | rel r => exact textRel_errs hst 0 r
  | root names input =>
    cases input with
    | none => simp [textPlanRel, CompleteTop]
    | some r => simpa [textPlanRel, CompleteTop] using textRel_errs hst 1 r
  | missing => simp [textPlanRel, CompleteTop]

theorem textPlanRels_errs {env : Env} (hst : env.st.Ordered) : ∀ l : List PlanRel,
    ((textPlanRels env l).errs = [] ↔ ∀ r ∈ l, CompleteTop env r)
  | [] => by simp [textPlanRels]
  | [r] => by simp [textPlanRels, textPlanRel_errs hst]
  | r :: x :: l => by simp [textPlanRels, textPlanRel_errs hst, textPlanRels_errs hst (x :: l)]

/-- Nothing is reported exactly for complete plans. -/
theorem textPlan_errs (reg : Registry ExtArgs (List Nat)) (o : Opts) (p : Plan) :
    (textPlan reg o p).errs = [] ↔ CompletePlan reg o p := by
  have hst : (run (history p)).Ordered := Store.ordered_run _
  have h := Store.fromExtensions_spec p.urns p.decls
  unfold textPlan CompletePlan
  simp only [Out.errs_append, Out.errs_s, List.append_nil, List.append_eq_nil_iff, List.map_eq_nil_iff]
  rw [plan_store, textPlanRels_errs hst]
  rw [h]
  rfl

end Verif
