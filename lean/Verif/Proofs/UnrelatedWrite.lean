import Verif.Proofs.Unrelated
/-!
# Writing with more declarations

Whatever is written without errors is written the same with a store in which every name that could be
shown still shows the same.
-/

namespace Verif

set_option autoImplicit false
set_option linter.unusedSectionVars false

/-- The second output is the first, if that has no errors. -/
def Out.Keeps (a b : Out) : Prop := a.errs = [] → b = a

/-- The same for each of several outputs. -/
inductive Out.KeepsL : List Out → List Out → Prop
  | nil : KeepsL [] []
  | cons {a b : Out} {l m : List Out} : a.Keeps b → KeepsL l m → KeepsL (a :: l) (b :: m)

namespace Out

theorem Keeps.refl (a : Out) : a.Keeps a := fun _ => rfl

theorem Keeps.append {a b c d : Out} (h : a.Keeps b) (h' : c.Keeps d) : (a ++ c).Keeps (b ++ d) := by
  intro he
  rw [errs_append, List.append_eq_nil_iff] at he
  rw [h he.1, h' he.2]

theorem Keeps.expect {n : Str} {f f' : Option Out} (h : ∀ a, f = some a → ∃ b, f' = some b ∧ a.Keeps b)
    : (Out.expect n f).Keeps (Out.expect n f') := by
  intro he
  cases f with
  | none => simp [Out.expect] at he
  | some a =>
    obtain ⟨b, hb, hk⟩ := h a rfl
    subst hb
    exact hk he

theorem Keeps.ite {c : Prop} [Decidable c] {a b a' b' : Out} (h : a.Keeps a') (h' : b.Keeps b') :
    (if c then a else b).Keeps (if c then a' else b') := by
  split
  · exact h
  · exact h'

theorem KeepsL.refl : (l : List Out) → KeepsL l l
  | [] => .nil
  | a :: l => .cons (.refl a) (refl l)

theorem KeepsL.append {a b c d : List Out} (h : KeepsL a b) (h' : KeepsL c d) : KeepsL (a ++ c) (b ++ d) := by
  induction h with
  | nil => exact h'
  | cons h _ ih => exact .cons h ih

theorem KeepsL.map {α : Type} {f f' : α → Out} (l : List α) (h : ∀ a, (f a).Keeps (f' a)) :
    KeepsL (l.map f) (l.map f') := by
  induction l with
  | nil => exact .nil
  | cons a l ih => exact .cons (h a) ih

theorem KeepsL.nil_iff {l m : List Out} (h : KeepsL l m) : l = [] ↔ m = [] := by
  cases h <;> simp

theorem KeepsL.length {l m : List Out} (h : KeepsL l m) : l.length = m.length := by
  induction h with
  | nil => rfl
  | cons _ _ ih => simp [ih]

theorem KeepsL.get {l m : List Out} (h : KeepsL l m) : ∀ (i : Nat) a, l[i]? = some a → ∃ b, m[i]? = some b ∧ a.Keeps b := by
  induction h with
  | nil => intro i a ha; simp at ha
  | cons hk _ ih =>
    intro i a ha
    cases i with
    | zero => simp only [List.getElem?_cons_zero, Option.some.injEq] at ha; subst ha; exact ⟨_, by simp, hk⟩
    | succ i => simp only [List.getElem?_cons_succ] at ha ⊢; exact ih i a ha

theorem KeepsL.sep {sp : Str} {l m : List Out} (h : KeepsL l m) : (Out.sep sp l).Keeps (Out.sep sp m) := by
  induction h with
  | nil => exact .refl _
  | cons hk ht ih =>
    cases ht with
    | nil => exact hk
    | cons h1 h2 => exact (hk.append (.refl _)).append ih

end Out

open Out (KeepsL)
open Out.Keeps (refl append)

/-- Every name that `st` can show, `st'` shows the same. -/
def Shows (st st' : Store) : Prop :=
  ∀ k a na, NamedAnchor.lookup st k a = some na → NamedAnchor.lookup st' k a = some na

section
variable {st st' : Store} (w : Shows st st') (o : Opts)
include w

theorem Shows.anchor (k : Kind) (a : Nat) : (textAnchor st o k a).Keeps (textAnchor st' o k a) := by
  intro h
  unfold textAnchor at h ⊢
  cases hl : NamedAnchor.lookup st k a with
  | none => rw [hl] at h; simp at h
  | some na => rw [w k a na hl]

theorem Shows.typeText {a b : Out} (h : a.Keeps b) (n : Nul) (v : Nat) {ps qs : List Out} (hp : KeepsL ps qs) :
    (textifyType st o a n v ps).Keeps (textifyType st' o b n v qs) := by
  refine append (append (append h (refl _)) ?_) ?_
  · exact .ite (refl _) (append (append (refl _) (w.anchor o _ _)) (refl _))
  · cases hp with
    | nil => exact refl _
    | cons h1 h2 => exact append (append (refl _) (KeepsL.cons h1 h2).sep) (refl _)

mutual
theorem Shows.ty : (t : Ty) → (textTy st o t).Keeps (textTy st' o t)
  | .missing => by simp only [textTy]; exact refl _
  | .simple .. => by simp only [textTy]; exact w.typeText o (refl _) _ _ (.refl _)
  | .intervalDay .. => by simp only [textTy]; exact w.typeText o (refl _) _ _ (.refl _)
  | .intervalCompound .. => by simp only [textTy]; exact w.typeText o (refl _) _ _ (.refl _)
  | .len .. => by simp only [textTy]; exact w.typeText o (refl _) _ _ (.refl _)
  | .decimal .. => by simp only [textTy]; exact w.typeText o (refl _) _ _ (.refl _)
  | .prec .. => by simp only [textTy]; exact w.typeText o (refl _) _ _ (.refl _)
  | .struct ts n v => by simp only [textTy]; exact w.typeText o (refl _) _ _ (Shows.tys ts)
  | .list t n v => by simp only [textTy]; exact w.typeText o (refl _) _ _ (.cons (Shows.tyOpt t) .nil)
  | .map a b n v => by
    simp only [textTy]
    exact w.typeText o (refl _) _ _ (.cons (Shows.tyOpt a) (.cons (Shows.tyOpt b) .nil))
  | .user ref ps n v => by simp only [textTy]; exact w.typeText o (w.anchor o _ _) _ _ (Shows.params ps)
  | .userRef ref => by simp only [textTy]; exact w.typeText o (w.anchor o _ _) _ _ .nil
  | .func => by simp only [textTy]; exact refl _
  | .alias => by simp only [textTy]; exact refl _
theorem Shows.tyOpt : (t : Option Ty) → (textTyOpt st o t).Keeps (textTyOpt st' o t)
  | none => by simp only [textTyOpt]; exact refl _
  | some t => by simp only [textTyOpt]; exact Shows.ty t
theorem Shows.tys : (l : List Ty) → KeepsL (textTys st o l) (textTys st' o l)
  | [] => by simp only [textTys]; exact .nil
  | t :: l => by simp only [textTys]; exact .cons (Shows.ty t) (Shows.tys l)
theorem Shows.param : (p : Param) → (textParam st o p).Keeps (textParam st' o p)
  | .missing => by simp only [textParam]; exact refl _
  | .null => by simp only [textParam]; exact refl _
  | .bool true => by simp only [textParam]; exact refl _
  | .bool false => by simp only [textParam]; exact refl _
  | .int _ => by simp only [textParam]; exact refl _
  | .enum _ => by simp only [textParam]; exact refl _
  | .str _ => by simp only [textParam]; exact refl _
  | .ty t => by simp only [textParam]; exact Shows.ty t
theorem Shows.params : (l : List Param) → KeepsL (textParams st o l) (textParams st' o l)
  | [] => by simp only [textParams]; exact .nil
  | p :: l => by simp only [textParams]; exact .cons (Shows.param p) (Shows.params l)
end

theorem Shows.outType (t : Option Ty) : (textOutType st o t).Keeps (textOutType st' o t) := by
  cases t with
  | none => exact refl _
  | some t => exact append (refl _) (w.ty o t)

theorem Shows.tyReq (t : Option Ty) : (textTyReq st o t).Keeps (textTyReq st' o t) := by
  cases t with
  | none => exact refl _
  | some t => exact w.ty o t

theorem Shows.invocation (f : Nat) {l m : List Out} (opts : List Out) (h : KeepsL l m) :
    (textInvocation st o f l opts).Keeps (textInvocation st' o f m opts) := by
  unfold textInvocation
  simp only [h.nil_iff]
  exact append (append (append (append (append (w.anchor o _ _) (refl _)) h.sep) (refl _)) (refl _)) (refl _)

variable [UTab] [FTab]

theorem Shows.literal (l : Literal) : (textLit st o l).Keeps (textLit st' o l) := by
  unfold textLit
  split
  · exact refl _
  · exact append (refl _) (w.ty o _)
  · exact refl _

mutual
theorem Shows.expr : (e : Expr) → (textExpr st o e).Keeps (textExpr st' o e)
  | .missing => by simp only [textExpr]; exact refl _
  | .literal l => by simp only [textExpr]; exact w.literal o l
  | .selection _ => by simp only [textExpr]; exact refl _
  | .call f args opts out => by
    simp only [textExpr]
    exact append (w.invocation o f _ (Shows.args args)) (w.outType o out)
  | .cast input ty fb => by
    simp only [textExpr]
    exact append (append (append (append (refl _) (Shows.exprReq input)) (refl _)) (refl _)) (w.tyReq o ty)
  | .ifThen ifs els => by
    simp only [textExpr]
    exact append (append (append (append (refl _) (Shows.clauses ifs)) (refl _)) (Shows.exprReq els)) (refl _)
  | .other => by simp only [textExpr]; exact refl _
theorem Shows.exprReq : (e : Option Expr) → (textExprReq st o e).Keeps (textExprReq st' o e)
  | none => by simp only [textExprReq]; exact refl _
  | some e => by simp only [textExprReq]; exact Shows.expr e
theorem Shows.arg : (a : Arg) → (textArg st o a).Keeps (textArg st' o a)
  | .missing => by simp only [textArg]; exact refl _
  | .ty t => by simp only [textArg]; exact w.ty o t
  | .value e => by simp only [textArg]; exact Shows.expr e
  | .enum _ => by simp only [textArg]; exact refl _
theorem Shows.args : (l : List Arg) → KeepsL (textArgs st o l) (textArgs st' o l)
  | [] => by simp only [textArgs]; exact .nil
  | a :: l => by simp only [textArgs]; exact .cons (Shows.arg a) (Shows.args l)
theorem Shows.clauses : (l : List Clause) → (textClauses st o l).Keeps (textClauses st' o l)
  | [] => by simp only [textClauses]; exact refl _
  | .mk c t :: l => by
    simp only [textClauses]
    exact append (append (append (append (Shows.exprReq c) (refl _)) (Shows.exprReq t)) (refl _)) (Shows.clauses l)
end

theorem Shows.exprMap (n : Str) (e : Option Expr) :
    (Out.expect n (e.map (textExpr st o))).Keeps (Out.expect n (e.map (textExpr st' o))) := by
  cases e with
  | none => exact refl _
  | some e => exact w.expr o e

mutual
theorem Shows.extValue : (v : ExtValue) → (textExtValue st o v).Keeps (textExtValue st' o v)
  | .string _ => by simp only [textExtValue]; exact refl _
  | .integer _ => by simp only [textExtValue]; exact refl _
  | .float _ => by simp only [textExtValue]; exact refl _
  | .boolean _ => by simp only [textExtValue]; exact refl _
  | .null => by simp only [textExtValue]; exact refl _
  | .error _ => by simp only [textExtValue]; exact refl _
  | .expr e => by simp only [textExtValue]; exact w.expr o e
  | .enum _ => by simp only [textExtValue]; exact refl _
  | .tuple l => by simp only [textExtValue]; exact append (append (refl _) (Shows.tupleItems l)) (refl _)
theorem Shows.tupleItems : (l : List ExtValue) → (textTupleItems st o l).Keeps (textTupleItems st' o l)
  | [] => by simp only [textTupleItems]; exact refl _
  | [v] => by simp only [textTupleItems]; exact append (Shows.extValue v) (refl _)
  | v :: u :: l => by
    simp only [textTupleItems]
    exact append (append (Shows.extValue v) (refl _)) (Shows.extValues (u :: l)).sep
theorem Shows.extValues : (l : List ExtValue) → KeepsL (textExtValues st o l) (textExtValues st' o l)
  | [] => by simp only [textExtValues]; exact .nil
  | v :: l => by simp only [textExtValues]; exact .cons (Shows.extValue v) (Shows.extValues l)
end

theorem Shows.namedArg (a : Str × ExtValue) : (textNamed st o a).Keeps (textNamed st' o a) :=
  append (refl _) (w.extValue o _)

theorem Shows.extColumn (c : ExtColumn) : (textExtColumn st o c).Keeps (textExtColumn st' o c) := by
  cases c with
  | named n t => exact append (refl _) (w.ty o t)
  | expr e => exact w.expr o e

omit w [UTab] [FTab] in
theorem keeps_argList {a b c d : List Out} (h : KeepsL a b) (h' : KeepsL c d) :
    (textArgList a c).Keeps (textArgList b d) := by
  unfold textArgList
  simp only [h.nil_iff, h'.nil_iff]
  exact .ite (refl _) (h.append h').sep

theorem Shows.extArgs (a : ExtArgs) : (textExtArgs st o a).Keeps (textExtArgs st' o a) :=
  append (keeps_argList (w.extValues o _) (.map _ (w.namedArg o)))
    (.ite (refl _) (append (refl _) (KeepsL.map _ (w.extColumn o)).sep))

theorem Shows.addendum (k : AddKind) (d : Except ExtErr (Str × ExtArgs)) :
    (textAddendum st o k d).Keeps (textAddendum st' o k d) := by
  unfold textAddendum
  cases d with
  | error e => exact refl _
  | ok p => exact .ite (append (append (refl _) (w.extArgs o _)) (refl _)) (refl _)

end

/-! ## Relations -/

/-- `Keeps` for the arguments of a header. -/
inductive HeadArgs.Keeps : HeadArgs → HeadArgs → Prop
  | none : Keeps .none .none
  | inline {a b c d : List Out} : KeepsL a b → KeepsL c d → Keeps (.inline a c) (.inline b d)
  | rows {a b c d : List Out} : KeepsL a b → KeepsL c d → Keeps (.rows a c) (.rows b d)

/-- `Keeps` for headers. -/
structure Head.Keeps (h h' : Head) : Prop where
  name : h.name.Keeps h'.name
  args : h.args.Keeps h'.args
  columns : KeepsL h.columns h'.columns
  emit : h.emit = h'.emit
  explicit : h.explicit = h'.explicit
  addenda : KeepsL h.addenda h'.addenda

theorem Head.Keeps.emitted {h h' : Head} (k : h.Keeps h') : h.emitted = h'.emitted := by
  unfold Head.emitted
  rw [k.emit, k.columns.length]

theorem keeps_implicit (o : Opts) {l m : List Out} (h : KeepsL l m) (e : Option Emit) :
    KeepsL (implicitCols o l e) (implicitCols o m e) := by
  unfold implicitCols
  split
  · exact h
  · split
    · refine .map _ fun i => ?_
      refine .expect ?_
      intro a ha
      unfold getCol at ha ⊢
      split at ha
      · cases ha
      · rename_i hi
        rw [if_neg hi]
        exact h.get _ a ha
    · exact h
    · exact h

theorem keeps_output (o : Opts) {h h' : Head} (k : h.Keeps h') : (textOutput o h).Keeps (textOutput o h') := by
  unfold textOutput
  rw [← k.explicit, ← k.emit]
  exact .ite (append (append (refl _) k.columns.sep) (refl _)) (append (refl _) (keeps_implicit o k.columns _).sep)

theorem keeps_rows (pre : Str) (more : Bool) {l m : List Out} (h : KeepsL l m) :
    (textRows pre more l).Keeps (textRows pre more m) := by
  induction h with
  | nil => exact refl _
  | cons hk ht ih =>
    cases ht with
    | nil => exact append (append (refl _) hk) (refl _)
    | cons h1 h2 => exact append (append (append (refl _) hk) (refl _)) ih

theorem keeps_header (o : Opts) (lvl : Nat) {h h' : Head} (k : h.Keeps h') :
    (textHeader o lvl h).Keeps (textHeader o lvl h') := by
  have ho := keeps_output o k
  have hi := keeps_implicit o k.columns h.emit
  have hn := k.name
  have ha := k.args
  unfold textHeader
  rw [← k.emit]
  revert ha
  generalize h.args = x
  generalize h'.args = y
  intro ha
  cases ha with
  | none => exact append (append (append (append (refl _) hn) (refl _)) hi.sep) (refl _)
  | inline h1 h2 =>
    exact append (append (append (append (append (append (refl _) hn) (refl _)) (keeps_argList h1 h2)) (refl _)) ho) (refl _)
  | rows h1 h2 =>
    dsimp only
    simp only [ne_eq, h2.nil_iff]
    exact append (append (append (append (append (append (append (refl _) hn) (refl _)) (keeps_rows _ _ h1))
      (keeps_rows _ _ h2)) (refl _)) ho) (refl _)

theorem keeps_addenda (pre : Str) {l m : List Out} (h : KeepsL l m) : (textAddenda pre l).Keeps (textAddenda pre m) := by
  induction h with
  | nil => exact refl _
  | cons hk _ ih =>
    simp only [textAddenda]
    exact append (append (refl _) hk) ih

section
variable {st st' : Store} (w : Shows st st') (o : Opts) (reg : Registry ExtArgs (List Nat)) [UTab] [FTab]
include w

theorem Shows.adv (a : Option AdvExt) : KeepsL (advAddenda ⟨st, o, reg⟩ a) (advAddenda ⟨st', o, reg⟩ a) := by
  cases a with
  | none => exact .nil
  | some a => exact .append (.map _ fun d => w.addendum o _ _) (.map _ fun d => w.addendum o _ _)

omit [FTab] in
theorem Shows.readColumns (s : Option NamedStruct) : KeepsL (readColumns st o s) (Verif.readColumns st' o s) := by
  cases s with
  | none => exact .refl _
  | some s => exact .map _ fun f => append (refl _) (w.tyReq o f.2)

theorem Shows.count (c : Count) : (textCount st o c).Keeps (textCount st' o c) := by
  cases c with
  | deprecated i => exact refl _
  | expr e => exact w.expr o e

theorem Shows.headRead (common : Option Common) (schema : Option NamedStruct) (filter : Option Expr) (ty : ReadType)
    (adv : Option AdvExt) :
    (headRead ⟨st, o, reg⟩ common schema filter ty adv).Keeps (Verif.headRead ⟨st', o, reg⟩ common schema filter ty adv) := by
  have hc := w.readColumns o schema
  have ha := w.adv o reg adv
  cases ty with
  | named names x => exact ⟨refl _, .inline (.refl _) .nil, hc, rfl, rfl, ha⟩
  | «virtual» rows x =>
    have hn : KeepsL (filter.toList.map fun e => textNamedArg cs!"filter" (textExpr st o e))
        (filter.toList.map fun e => textNamedArg cs!"filter" (textExpr st' o e)) :=
      .map _ fun e => append (refl _) (w.expr o e)
    have hr : KeepsL (rows.map fun r => textTuple (r.map (textExpr st o))) (rows.map fun r => textTuple (r.map (textExpr st' o))) :=
      .map _ fun r => append (append (refl _) (KeepsL.map _ (w.expr o)).sep) (refl _)
    refine ⟨refl _, ?_, hc, rfl, rfl, ha⟩
    unfold Verif.headRead
    dsimp only
    have hp : KeepsL
        (if (rows.map fun r => textTuple (r.map (textExpr st o))) = [] ∧
            (filter.toList.map fun e => textNamedArg cs!"filter" (textExpr st o e)) ≠ [] then [.s cs!"_"]
          else rows.map fun r => textTuple (r.map (textExpr st o)))
        (if (rows.map fun r => textTuple (r.map (textExpr st' o))) = [] ∧
            (filter.toList.map fun e => textNamedArg cs!"filter" (textExpr st' o e)) ≠ [] then [.s cs!"_"]
          else rows.map fun r => textTuple (r.map (textExpr st' o))) := by
      simp only [ne_eq, hr.nil_iff, hn.nil_iff]
      split
      · exact .refl _
      · exact hr
    split
    · exact .rows hp hn
    · exact .inline hp hn
  | extension detail => exact ⟨refl _, .none, hc, rfl, rfl, .cons (w.addendum o _ _) ha⟩
  | other => exact ⟨refl _, .inline (.refl _) .nil, hc, rfl, rfl, ha⟩

/-- `KeepsL` for several lists. -/
inductive KeepsLL : List (List Out) → List (List Out) → Prop
  | nil : KeepsLL [] []
  | cons {a b : List Out} {l m : List (List Out)} : KeepsL a b → KeepsLL l m → KeepsLL (a :: l) (b :: m)

omit w [UTab] [FTab] in
theorem KeepsLL.map {α : Type} {f f' : α → List Out} (l : List α) (h : ∀ a, KeepsL (f a) (f' a)) :
    KeepsLL (l.map f) (l.map f') := by
  induction l with
  | nil => exact .nil
  | cons a l ih => exact .cons (h a) ih

omit w [UTab] [FTab] in
theorem KeepsLL.item {a b : List Out} (h : KeepsL a b) :
    (if a = [] then Out.s cs!"_" else textTuple a).Keeps (if b = [] then Out.s cs!"_" else textTuple b) := by
  simp only [h.nil_iff]
  exact .ite (refl _) (append (append (refl _) h.sep) (refl _))

omit w [UTab] [FTab] in
theorem KeepsLL.items {l m : List (List Out)} (h : KeepsLL l m) :
    KeepsL (l.map fun g => if g = [] then Out.s cs!"_" else textTuple g)
      (m.map fun g => if g = [] then Out.s cs!"_" else textTuple g) := by
  induction h with
  | nil => exact .nil
  | cons h _ ih => exact .cons (KeepsLL.item h) ih

omit w [UTab] [FTab] in
theorem KeepsLL.args {l m : List (List Out)} (h : KeepsLL l m) : KeepsL (groupingArgs l) (groupingArgs m) := by
  have hi := h.items
  cases h with
  | nil => exact hi
  | cons h1 h2 =>
    cases h2 with
    | nil =>
      unfold groupingArgs
      dsimp only
      simp only [h1.nil_iff]
      split
      · exact .refl _
      · exact h1
    | cons h2 h3 => exact hi

theorem Shows.grouping (g : List Expr) (gs : List Grouping) :
    KeepsL (groupingValues st o g gs).1 (groupingValues st' o g gs).1 ∧
      KeepsLL (groupingValues st o g gs).2 (groupingValues st' o g gs).2 := by
  unfold groupingValues
  split
  · exact ⟨.map _ (w.expr o), .map _ fun g => .map _ (w.expr o)⟩
  · refine ⟨.map _ (w.expr o), ?_⟩
    dsimp only
    split
    · exact .cons .nil .nil
    · exact .map _ fun x => .map _ fun i => w.exprMap o _ _

theorem Shows.aggFn (a : AggFn) : (textAggFn st o a).Keeps (textAggFn st' o a) :=
  append (w.invocation o _ _ (w.args o _)) (w.outType o _)

theorem Shows.measures (l : List Measure) :
    KeepsL (l.filterMap fun m => m.fn.map (textAggFn st o)) (l.filterMap fun m => m.fn.map (textAggFn st' o)) := by
  induction l with
  | nil => exact .nil
  | cons m l ih =>
    rw [List.filterMap_cons, List.filterMap_cons]
    cases m.fn with
    | none => exact ih
    | some a => exact .cons (w.aggFn o a) ih

theorem Shows.head (ws : List (Option Nat)) (op : RelOp) :
    (relHead ⟨st, o, reg⟩ ws op).Keeps (relHead ⟨st', o, reg⟩ ws op) := by
  cases op with
  | read common schema filter ty adv x => exact w.headRead o reg ..
  | filter common cond adv => exact ⟨refl _, .inline (.cons (w.exprMap o _ _) .nil) .nil, .refl _, rfl, rfl, w.adv o reg adv⟩
  | project common exprs adv => exact ⟨refl _, .none, .append (.refl _) (.map _ (w.expr o)), rfl, rfl, w.adv o reg adv⟩
  | aggregate common g gs ms adv =>
    exact ⟨refl _, .inline (w.grouping o g gs).2.args .nil, .append (w.grouping o g gs).1 (w.measures o ms), rfl, rfl,
      w.adv o reg adv⟩
  | sort common sorts adv =>
    exact ⟨refl _, .inline (.map _ fun f => append (append (refl _)
      (KeepsL.cons (w.exprMap o _ _) (.cons (refl _) .nil)).sep) (refl _)) .nil, .refl _, rfl, rfl, w.adv o reg adv⟩
  | fetch common count offset adv =>
    exact ⟨refl _, .inline .nil (.append (.map _ fun c => append (refl _) (w.count o c))
      (.map _ fun c => append (refl _) (w.count o c))), .refl _, rfl, rfl, w.adv o reg adv⟩
  | join common ty cond post adv =>
    exact ⟨refl _, .inline (.cons (refl _) (.cons (w.exprMap o _ _) .nil))
      (.map _ fun e => append (refl _) (w.expr o e)), .refl _, rfl, rfl, w.adv o reg adv⟩
  | set common x adv => exact ⟨refl _, .inline (.refl _) .nil, .refl _, rfl, rfl, w.adv o reg adv⟩
  | cross common adv => exact ⟨refl _, .none, .refl _, rfl, rfl, w.adv o reg adv⟩
  | ext kind x detail =>
    simp only [relHead, headExt]
    cases decodeRel reg (ws.filterMap id) detail with
    | error e => exact ⟨refl _, .none, .refl _, rfl, rfl, .nil⟩
    | ok p =>
      exact ⟨refl _, .inline (w.extValues o _) (.map _ (w.namedArg o)), .map _ (w.extColumn o), rfl, rfl, .nil⟩
  | other x => exact ⟨refl _, .none, .nil, rfl, rfl, .nil⟩

mutual
theorem Shows.width : (r : Rel) → relWidth ⟨st, o, reg⟩ r = relWidth ⟨st', o, reg⟩ r
  | .node op ins => by
    simp only [relWidth]
    rw [Shows.widths ins]
    exact (w.head o reg _ op).emitted
theorem Shows.widths : (l : List (Option Rel)) → inputWidths ⟨st, o, reg⟩ l = inputWidths ⟨st', o, reg⟩ l
  | [] => by simp only [inputWidths]
  | none :: l => by simp only [inputWidths]; rw [Shows.widths l]
  | some r :: l => by simp only [inputWidths]; rw [Shows.width r, Shows.widths l]
end

mutual
theorem Shows.rel : (lvl : Nat) → (r : Rel) → (textRel ⟨st, o, reg⟩ lvl r).Keeps (textRel ⟨st', o, reg⟩ lvl r)
  | lvl, .node op ins => by
    simp only [textRel]
    rw [w.widths o reg ins]
    have h := w.head o reg (inputWidths ⟨st', o, reg⟩ ins) op
    exact append (append (keeps_header o lvl h) (keeps_addenda _ h.addenda)) (.ite (Shows.inputs (lvl + 1) ins) (refl _))
theorem Shows.inputs : (lvl : Nat) → (l : List (Option Rel)) →
    (textInputs ⟨st, o, reg⟩ lvl l).Keeps (textInputs ⟨st', o, reg⟩ lvl l)
  | _, [] => by simp only [textInputs]; exact refl _
  | lvl, none :: l => by simp only [textInputs]; exact Shows.inputs lvl l
  | lvl, some r :: l => by
    simp only [textInputs]
    exact append (append (refl _) (Shows.rel lvl r)) (Shows.inputs lvl l)
end

theorem Shows.planRel (r : PlanRel) : (textPlanRel ⟨st, o, reg⟩ r).Keeps (textPlanRel ⟨st', o, reg⟩ r) := by
  cases r with
  | rel r => exact w.rel o reg 0 r
  | root names input =>
    cases input with
    | none => exact refl _
    | some r => exact append (refl _) (append (refl _) (w.rel o reg 1 r))
  | missing => exact refl _

theorem Shows.planRels : (l : List PlanRel) → (textPlanRels ⟨st, o, reg⟩ l).Keeps (textPlanRels ⟨st', o, reg⟩ l)
  | [] => refl _
  | [r] => w.planRel o reg r
  | r :: s :: l => append (append (w.planRel o reg r) (refl _)) (Shows.planRels (s :: l))

end

end Verif
