import Verif.Proofs.Unrelated
/-!
# Reading with more declarations

Whatever converts with a store converts to the same with a store in which every reference that resolved
still resolves to the same anchor.
-/

namespace Verif

set_option autoImplicit false
set_option linter.unusedSectionVars false

/-- The second result is that of the first, if that is a value. -/
def Res.Keeps {ε α : Type} (r r' : Res ε α) : Prop := ∀ y, r = .ok y → r' = .ok y

namespace Res.Keeps
variable {ε α β : Type}

theorem refl (r : Res ε α) : r.Keeps r := fun _ h => h

theorem bind {r r' : Res ε α} {f f' : α → Res ε β} (h : r.Keeps r') (hf : ∀ a, (f a).Keeps (f' a)) :
    (r.bind f).Keeps (r'.bind f') := by
  intro y hy
  cases r with
  | ok a => rw [h a rfl]; exact hf a y hy
  | err e => cases hy
  | panic => cases hy

theorem map {r r' : Res ε α} (f : α → β) (h : r.Keeps r') : (r.map f).Keeps (r'.map f) := by
  intro y hy
  cases r with
  | ok a => rw [h a rfl]; exact hy
  | err e => cases hy
  | panic => cases hy

theorem ofPlain {r r' : Res Err α} (h : r.Keeps r') : (Verif.plain r).Keeps (Verif.plain r') := by
  intro y hy
  cases r with
  | ok a => rw [h a rfl]; exact hy
  | err e => cases hy
  | panic => cases hy

theorem ofDrop {r r' : Res Err α} (h : r.Keeps r') : (Verif.dropPanics r).Keeps (Verif.dropPanics r') := by
  intro y hy
  cases r with
  | ok a => rw [h a rfl]; exact hy
  | err e => cases hy
  | panic => cases hy

theorem mapErr {δ : Type} {f : ε → δ} {r r' : Res ε α} (h : r.Keeps r') : (r.mapErr f).Keeps (r'.mapErr f) := by
  intro y hy
  cases r with
  | ok a => rw [h a rfl]; exact hy
  | err e => cases hy
  | panic => cases hy

theorem opt {f f' : α → Res Err β} (h : ∀ a, (f a).Keeps (f' a)) (x : Option α) : (convOpt f x).Keeps (convOpt f' x) := by
  cases x with
  | none => exact refl _
  | some a => exact bind (h a) fun _ => refl _

theorem optR {f f' : α → Res RErr β} (h : ∀ a, (f a).Keeps (f' a)) (x : Option α) :
    (convOptR f x).Keeps (convOptR f' x) := by
  cases x with
  | none => exact refl _
  | some a => exact bind (h a) fun _ => refl _

theorem ite {c : Prop} [Decidable c] {r r' q q' : Res ε α} (h : r.Keeps r') (h' : q.Keeps q') :
    (if c then r else q).Keeps (if c then r' else q') := by
  split
  · exact h
  · exact h'

end Res.Keeps

open Res.Keeps (refl bind ofPlain ofDrop)

/-- Every reference that resolves in `st` resolves to the same anchor in `st'`. -/
def Resolves (st st' : Store) : Prop :=
  ∀ k x nm a, st.getAndValidateAnchor k x nm = .ok a → st'.getAndValidateAnchor k x nm = .ok a

section
variable {st st' : Store} (w : Resolves st st')
include w

theorem Resolves.look (k : Kind) (x : Option Nat) (nm : Str) :
    (ofLookup (st.getAndValidateAnchor k x nm)).Keeps (ofLookup (st'.getAndValidateAnchor k x nm)) := by
  intro y hy
  cases h : st.getAndValidateAnchor k x nm with
  | error e => rw [h] at hy; cases hy
  | ok a => rw [h] at hy; rw [w k x nm a h]; exact hy

mutual
theorem Resolves.ty : (t : STy) → (convTy st t).Keeps (convTy st' t)
  | .simple .. => by simp only [convTy]; exact refl _
  | .list n t => by simp only [convTy]; exact bind (Resolves.ty t) fun _ => refl _
  | .map .. => by simp only [convTy]; exact refl _
  | .struct .. => by simp only [convTy]; exact refl _
  | .prec .. => by simp only [convTy]; exact refl _
  | .intervalDay .. => by simp only [convTy]; exact refl _
  | .user name a u n (some ps) => by
    simp only [convTy]
    exact bind (refl _) fun _ => bind (refl _) fun _ => bind (Resolves.params ps) fun _ => bind (w.look _ _ _) fun _ => refl _
  | .user name a u n none => by
    simp only [convTy]
    exact bind (refl _) fun _ => bind (refl _) fun _ => bind (refl _) fun _ => bind (w.look _ _ _) fun _ => refl _
theorem Resolves.param : (p : SParam) → (convParam st p).Keeps (convParam st' p)
  | .ty t => by simp only [convParam]; exact bind (Resolves.ty t) fun _ => refl _
  | .int _ => by simp only [convParam]; exact refl _
  | .name _ => by simp only [convParam]; exact refl _
theorem Resolves.params : (ps : List SParam) → (convParams st ps).Keeps (convParams st' ps)
  | [] => by simp only [convParams]; exact refl _
  | p :: ps => by
    simp only [convParams]
    intro y hy
    have h1 := Resolves.param p
    have h2 := Resolves.params ps
    unfold convCons at hy ⊢
    cases hp : convParam st p with
    | ok a => rw [hp] at hy; rw [h1 a hp]; exact h2.map _ y hy
    | err e => rw [hp] at hy; dsimp only at hy; split at hy <;> cases hy
    | panic => rw [hp] at hy; cases hy
end

variable [FTab]

theorem Resolves.literal (l : SLit) : (convLit st l).Keeps (convLit st' l) := by
  unfold convLit
  refine bind ?_ fun _ => refl _
  cases l.ty with
  | none => exact refl _
  | some t => exact (w.ty t).map _

mutual
theorem Resolves.expr : (e : SExpr) → (convExpr st e).Keeps (convExpr st' e)
  | .lit l => by simp only [convExpr]; exact bind (w.literal l) fun _ => refl _
  | .ref _ => by simp only [convExpr]; exact refl _
  | .call name a u args t => by
    simp only [convExpr]
    exact bind (refl _) fun _ => bind (refl _) fun _ => bind (Resolves.args args) fun _ => bind (w.ty t) fun _ =>
      bind (w.look _ _ _) fun _ => refl _
  | .cast e _ t => by
    simp only [convExpr]
    exact bind (Resolves.expr e) fun _ => bind (w.ty t) fun _ => refl _
  | .ifThen cs e => by
    simp only [convExpr]
    exact bind (Resolves.clauses cs) fun _ => bind (Resolves.expr e) fun _ => refl _
theorem Resolves.args : (l : List SExpr) → (convArgs st l).Keeps (convArgs st' l)
  | [] => by simp only [convArgs]; exact refl _
  | e :: l => by
    simp only [convArgs]
    exact bind (Resolves.expr e) fun _ => bind (Resolves.args l) fun _ => refl _
theorem Resolves.clauses : (l : List (SExpr × SExpr)) → (convClauses st l).Keeps (convClauses st' l)
  | [] => by simp only [convClauses]; exact refl _
  | (c, r) :: l => by
    have h1 := Resolves.expr c
    have h2 := Resolves.expr r
    have h3 := Resolves.clauses l
    simp only [convClauses]
    intro y hy
    cases hc : convExpr st c with
    | err e => rw [hc] at hy; cases hy
    | panic => rw [hc] at hy; cases hy
    | ok c =>
      rw [hc] at hy
      rw [h1 c hc]
      dsimp only at hy ⊢
      cases hr : convExpr st r with
      | err e => rw [hr] at hy; cases hy
      | panic => rw [hr] at hy; cases hy
      | ok r =>
        rw [hr] at hy
        rw [h2 r hr]
        exact h3.bind (fun _ => refl _) y hy
end

mutual
theorem Resolves.arg : (a : SArg) → (convArg st a).Keeps (convArg st' a)
  | .enum _ => by simp only [convArg]; exact refl _
  | .lit _ => by simp only [convArg]; exact refl _
  | .ref _ => by simp only [convArg]; exact refl _
  | .expr e => by simp only [convArg]; exact bind (w.expr e) fun _ => refl _
  | .tuple l => by simp only [convArg]; exact bind (Resolves.argList l) fun _ => refl _
theorem Resolves.argList : (l : List SArg) → (convArgList st l).Keeps (convArgList st' l)
  | [] => by simp only [convArgList]; exact refl _
  | a :: l => by
    simp only [convArgList]
    exact bind (Resolves.arg a) fun _ => bind (Resolves.argList l) fun _ => refl _
end

theorem Resolves.named (l : List (Str × SArg)) : ∀ acc, (convNamed st acc l).Keeps (convNamed st' acc l) := by
  induction l with
  | nil => intro acc; exact refl _
  | cons a l ih =>
    intro acc
    obtain ⟨k, a⟩ := a
    exact bind (w.arg a) fun v => ih _

theorem Resolves.extColumn (c : SCol) : (convExtColumn st c).Keeps (convExtColumn st' c) := by
  cases c with
  | named n t => exact bind (w.ty t) fun _ => refl _
  | ref i => exact refl _
  | expr e => exact bind (w.expr e) fun _ => refl _

theorem Resolves.extColumns (l : List SCol) : (convExtColumns st l).Keeps (convExtColumns st' l) := by
  induction l with
  | nil => exact refl _
  | cons c l ih => exact bind (w.extColumn c) fun _ => bind ih fun _ => refl _

theorem Resolves.extArgs (a : SArgs) (cols : List SCol) : (convExtArgs st a cols).Keeps (convExtArgs st' a cols) :=
  bind (w.argList _) fun _ => bind (w.named _ _) fun _ => bind (w.extColumns _) fun _ => refl _

omit [FTab] in
theorem Resolves.columns (l : List SColumn) : (convColumns st l).Keeps (convColumns st' l) := by
  induction l with
  | nil => exact refl _
  | cons c l ih =>
    obtain ⟨n, t⟩ := c
    exact bind (w.ty t) fun _ => bind ih fun _ => refl _

omit [FTab] in
theorem Resolves.output (out : SOutput) : (convOutput st out).Keeps (convOutput st' out) := by
  cases out with
  | implicit cols => exact bind (ofPlain (w.columns cols)) fun _ => refl _
  | direct cols suffix => exact bind (ofDrop (w.columns cols)) fun _ => refl _

theorem Resolves.exprs (l : List SExpr) : (convExprs st l).Keeps (convExprs st' l) := by
  induction l with
  | nil => exact refl _
  | cons e l ih => exact bind (w.expr e) fun _ => bind ih fun _ => refl _

theorem Resolves.exprLists (l : List (List SExpr)) : (convExprLists st l).Keeps (convExprLists st' l) := by
  induction l with
  | nil => exact refl _
  | cons e l ih => exact bind (w.exprs e) fun _ => bind ih fun _ => refl _

theorem Resolves.proj (n : Nat) (l : List SProj) : ∀ k, (convProj st n k l).Keeps (convProj st' n k l) := by
  induction l with
  | nil => intro k; exact refl _
  | cons p l ih =>
    intro k
    cases p with
    | ref i => exact bind (refl _) fun _ => bind (ih k) fun _ => refl _
    | expr e => exact bind (ofPlain (w.expr e)) fun _ => bind (ih (k + 1)) fun _ => refl _

theorem Resolves.outs (g : List Expr) (l : List SExpr) : ∀ k, (convOuts st g k l).Keeps (convOuts st' g k l) := by
  induction l with
  | nil => intro k; exact refl _
  | cons s l ih =>
    intro k
    simp only [convOuts]
    refine bind (ofPlain (w.expr s)) fun e => ?_
    cases posOf e g with
    | some i => exact bind (ih k) fun _ => refl _
    | none => exact .ite (bind (ih (k + 1)) fun _ => refl _) (refl _)

theorem Resolves.group (g : SGroup) : (convGroup st g).Keeps (convGroup st' g) := by
  cases g with
  | exprs l => exact bind (w.exprs l) fun _ => refl _
  | sets l => exact w.exprLists l

theorem Resolves.sortFields (l : List (SExpr × Str)) : (convSortFields st l).Keeps (convSortFields st' l) := by
  induction l with
  | nil => exact refl _
  | cons f l ih => exact bind (bind (ofDrop (w.expr f.1)) fun _ => refl _) fun _ => bind ih fun _ => refl _

theorem Resolves.fetchValue (v : SFetch) : (convFetchValue st v).Keeps (convFetchValue st' v) := by
  cases v with
  | int i => exact refl _
  | expr e => exact bind (ofPlain (w.expr e)) fun _ => refl _

theorem Resolves.body (adv : Option AdvExt) (kids : List Rel) (n : Nat) (l : SLine) :
    (convBody st adv kids n l).Keeps (convBody st' adv kids n l) := by
  cases l with
  | read table out =>
    exact .ite (refl _) (.ite (refl _) (bind (w.output out) fun _ => refl _))
  | readVirtual rows filter cols =>
    exact .ite (refl _) (bind (ofDrop (.opt w.expr filter)) fun _ =>
      bind (ofPlain (w.exprLists rows)) fun _ => bind (ofPlain (w.columns cols)) fun _ => refl _)
  | filter cond refs =>
    exact bind (refl _) fun _ => bind (ofDrop (w.expr cond)) fun _ => refl _
  | project args => exact bind (refl _) fun _ => bind (w.proj n args 0) fun _ => refl _
  | aggregate g outs =>
    exact bind (refl _) fun _ => bind (ofPlain (w.group g)) fun _ => bind (w.outs _ outs 0) fun _ => refl _
  | sort fields refs =>
    exact bind (refl _) fun _ => bind (w.sortFields fields) fun _ => refl _
  | fetch args refs =>
    exact bind (refl _) fun _ => .ite (refl _) (bind (refl _) fun _ => bind (.optR w.fetchValue _) fun _ =>
      bind (.optR w.fetchValue _) fun _ => refl _)
  | join ty cond post refs =>
    match kids with
    | [l, r] =>
      exact bind (refl _) fun _ => bind (ofDrop (w.expr cond)) fun _ =>
        bind (ofDrop (.opt w.expr post)) fun _ => refl _
    | [] => exact refl _
    | [_] => exact refl _
    | _ :: _ :: _ :: _ => exact refl _
  | cross refs => exact refl _
  | set op refs => exact refl _
  | readExt cols => exact refl _
  | ext kind name args cols => exact refl _
  | root names => exact refl _

theorem Resolves.addenda (l : List SAddendum) : (convAddenda st l).Keeps (convAddenda st' l) := by
  induction l with
  | nil => exact refl _
  | cons a l ih => exact bind (ofPlain (w.extArgs _ _)) fun _ => bind ih fun _ => refl _

theorem Resolves.line (reg : Registry ExtArgs (List Nat)) (as : List Addendum) (kids : List (Rel × Nat)) (l : SLine) :
    (convLine st reg as kids l).Keeps (convLine st' reg as kids l) := by
  cases l with
  | set op refs => exact refl _
  | readExt cols =>
    exact bind (refl _) fun _ => .ite (refl _) (.ite (refl _) (bind (ofPlain (w.columns cols)) fun _ => refl _))
  | ext kind name args cols =>
    exact .ite (refl _) (bind (ofPlain (w.extArgs args cols)) fun _ => refl _)
  | read table out => exact (refl _).bind fun _ => w.body _ _ _ _
  | readVirtual rows filter cols => exact (refl _).bind fun _ => w.body _ _ _ _
  | filter cond refs => exact (refl _).bind fun _ => w.body _ _ _ _
  | project args => exact (refl _).bind fun _ => w.body _ _ _ _
  | aggregate g outs => exact (refl _).bind fun _ => w.body _ _ _ _
  | sort fields refs => exact (refl _).bind fun _ => w.body _ _ _ _
  | fetch args refs => exact (refl _).bind fun _ => w.body _ _ _ _
  | join ty cond post refs => exact (refl _).bind fun _ => w.body _ _ _ _
  | cross refs => exact (refl _).bind fun _ => w.body _ _ _ _
  | root names => exact (refl _).bind fun _ => w.body _ _ _ _

mutual
theorem Resolves.node (reg : Registry ExtArgs (List Nat)) : (t : RNode SLine SAddendum) →
    (convNode st reg t).Keeps (convNode st' reg t)
  | .mk line as kids => by
    simp only [convNode]
    exact (Resolves.kids reg kids).bind fun _ => (w.addenda as).bind fun _ => w.line reg _ _ line
theorem Resolves.kids (reg : Registry ExtArgs (List Nat)) : (l : List (RNode SLine SAddendum)) →
    (convKids st reg l).Keeps (convKids st' reg l)
  | [] => by simp only [convKids]; exact refl _
  | k :: l => by
    simp only [convKids]
    exact bind (Resolves.node reg k) fun _ => bind (Resolves.kids reg l) fun _ => refl _
end

theorem Resolves.planRel (reg : Registry ExtArgs (List Nat)) (t : RNode SLine SAddendum) :
    (convPlanRel st reg t).Keeps (convPlanRel st' reg t) := by
  obtain ⟨line, as, kids⟩ := t
  have h := w.node reg (.mk line as kids)
  cases line with
  | root names =>
    simp only [convPlanRel]
    refine .ite (refl _) ?_
    match kids with
    | [k] => exact bind (w.node reg k) fun _ => refl _
    | [] => exact refl _
    | _ :: _ :: _ => exact refl _
  | read table out => exact bind h fun _ => refl _
  | readVirtual rows filter cols => exact bind h fun _ => refl _
  | readExt cols => exact bind h fun _ => refl _
  | ext kind name args cols => exact bind h fun _ => refl _
  | filter cond refs => exact bind h fun _ => refl _
  | project args => exact bind h fun _ => refl _
  | aggregate g outs => exact bind h fun _ => refl _
  | sort fields refs => exact bind h fun _ => refl _
  | fetch args refs => exact bind h fun _ => refl _
  | join ty cond post refs => exact bind h fun _ => refl _
  | cross refs => exact bind h fun _ => refl _
  | set op refs => exact bind h fun _ => refl _

theorem Resolves.planRels (reg : Registry ExtArgs (List Nat)) (l : List (RNode SLine SAddendum)) :
    (convPlanRels st reg l).Keeps (convPlanRels st' reg l) := by
  induction l with
  | nil => exact refl _
  | cons t l ih => exact bind (w.planRel reg t) fun _ => bind ih fun _ => refl _

end

end Verif
