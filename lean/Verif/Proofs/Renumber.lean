import Verif.Proofs.UnrelatedText
import Verif.Spec.Renumber
/-!
# Plans with other anchors are written alike
-/

namespace Verif

set_option autoImplicit false
set_option linter.unusedSectionVars false

open StoreSpec UnrelSpec RenumSpec
open Out (KeepsL)
open Out.Keeps (refl append)

/-! ## Nothing is confused -/

section
variable {r : Renum} (h : r.Sound)
include h

theorem RenumSpec.Renum.Sound.tvar {a b : Nat} (e : r.tvar a = r.tvar b) : a = b := h.inj _ _ _ e

theorem RenumSpec.Renum.Sound.zero (v : Nat) : r.tvar v = 0 ↔ v = 0 := by
  constructor
  · intro e
    exact h.inj .typeVariation v 0 (by rw [h.none]; exact e)
  · rintro rfl
    exact h.none

mutual
theorem renum_ty_inj : (a b : Ty) → r.ty a = r.ty b → a = b
  | .missing, b => by cases b <;> simp [Renum.ty]
  | .func, b => by cases b <;> simp [Renum.ty]
  | .alias, b => by cases b <;> simp [Renum.ty]
  | .simple .., b => by
    cases b <;> simp [Renum.ty]
    intro h1 h2 h3; exact ⟨h1, h2, h.tvar h3⟩
  | .intervalDay .., b => by
    cases b <;> simp [Renum.ty]
    intro h1 h2 h3; exact ⟨h1, h2, h.tvar h3⟩
  | .intervalCompound .., b => by
    cases b <;> simp [Renum.ty]
    intro h1 h2 h3; exact ⟨h1, h2, h.tvar h3⟩
  | .len .., b => by
    cases b <;> simp [Renum.ty]
    intro h1 h2 h3 h4; exact ⟨h1, h2, h3, h.tvar h4⟩
  | .decimal .., b => by
    cases b <;> simp [Renum.ty]
    intro h1 h2 h3 h4; exact ⟨h1, h2, h3, h.tvar h4⟩
  | .prec .., b => by
    cases b <;> simp [Renum.ty]
    intro h1 h2 h3 h4; exact ⟨h1, h2, h3, h.tvar h4⟩
  | .struct ts _ _, b => by
    cases b <;> simp [Renum.ty]
    intro h1 h2 h3; exact ⟨renum_tys_inj ts _ h1, h2, h.tvar h3⟩
  | .list t _ _, b => by
    cases b <;> simp [Renum.ty]
    intro h1 h2 h3; exact ⟨renum_tyOpt_inj t _ h1, h2, h.tvar h3⟩
  | .map x y _ _, b => by
    cases b <;> simp [Renum.ty]
    intro h1 h2 h3 h4; exact ⟨renum_tyOpt_inj x _ h1, renum_tyOpt_inj y _ h2, h3, h.tvar h4⟩
  | .user _ ps _ _, b => by
    cases b <;> simp [Renum.ty]
    intro h1 h2 h3 h4; exact ⟨h.inj _ _ _ h1, renum_params_inj ps _ h2, h3, h.tvar h4⟩
  | .userRef _, b => by
    cases b <;> simp [Renum.ty]
    intro h1; exact h.inj _ _ _ h1
theorem renum_tyOpt_inj : (a b : Option Ty) → r.tyOpt a = r.tyOpt b → a = b
  | none, b => by cases b <;> simp [Renum.tyOpt]
  | some t, b => by
    cases b <;> simp [Renum.tyOpt]
    exact renum_ty_inj t _
theorem renum_tys_inj : (a b : List Ty) → r.tys a = r.tys b → a = b
  | [], b => by cases b <;> simp [Renum.tys]
  | t :: l, b => by
    cases b <;> simp [Renum.tys]
    intro h1 h2; exact ⟨renum_ty_inj t _ h1, renum_tys_inj l _ h2⟩
theorem renum_param_inj : (a b : Param) → r.param a = r.param b → a = b
  | .missing, b => by cases b <;> simp [Renum.param]
  | .null, b => by cases b <;> simp [Renum.param]
  | .bool _, b => by cases b <;> simp [Renum.param]
  | .int _, b => by cases b <;> simp [Renum.param]
  | .enum _, b => by cases b <;> simp [Renum.param]
  | .str _, b => by cases b <;> simp [Renum.param]
  | .ty t, b => by
    cases b <;> simp [Renum.param]
    exact renum_ty_inj t _
theorem renum_params_inj : (a b : List Param) → r.params a = r.params b → a = b
  | [], b => by cases b <;> simp [Renum.params]
  | p :: l, b => by
    cases b <;> simp [Renum.params]
    intro h1 h2; exact ⟨renum_param_inj p _ h1, renum_params_inj l _ h2⟩
end

theorem renum_optTy_inj {a b : Option Ty} (e : a.map r.ty = b.map r.ty) : a = b := by
  cases a <;> cases b <;> simp at e ⊢
  exact renum_ty_inj h _ _ e

theorem renum_lit_inj (a b : Lit) (e : r.lit a = r.lit b) : a = b := by
  cases a <;> cases b <;> simp [Renum.lit] at e ⊢
  all_goals first
    | exact renum_ty_inj h _ _ e
    | exact e

theorem renum_literal_inj (a b : Literal) (e : r.literal a = r.literal b) : a = b := by
  obtain ⟨v, n, t⟩ := a
  obtain ⟨v', n', t'⟩ := b
  simp only [Renum.literal, Literal.mk.injEq] at e ⊢
  refine ⟨?_, e.2.1, h.tvar e.2.2⟩
  cases v <;> cases v' <;> simp at e ⊢
  exact renum_lit_inj h _ _ e.1

mutual
theorem renum_expr_inj : (a b : Expr) → r.expr a = r.expr b → a = b
  | .missing, b => by cases b <;> simp [Renum.expr]
  | .other, b => by cases b <;> simp [Renum.expr]
  | .selection _, b => by cases b <;> simp [Renum.expr]
  | .literal l, b => by
    cases b <;> simp [Renum.expr]
    exact renum_literal_inj h l _
  | .call _ as _ _, b => by
    cases b <;> simp [Renum.expr]
    intro h1 h2 h3 h4; exact ⟨h.inj _ _ _ h1, renum_args_inj as _ h2, h3, renum_optTy_inj h h4⟩
  | .cast x _ _, b => by
    cases b <;> simp [Renum.expr]
    intro h1 h2 h3; exact ⟨renum_exprOpt_inj x _ h1, renum_optTy_inj h h2, h3⟩
  | .ifThen cs x, b => by
    cases b <;> simp [Renum.expr]
    intro h1 h2; exact ⟨renum_clauses_inj cs _ h1, renum_exprOpt_inj x _ h2⟩
theorem renum_exprOpt_inj : (a b : Option Expr) → r.exprOpt a = r.exprOpt b → a = b
  | none, b => by cases b <;> simp [Renum.exprOpt]
  | some x, b => by
    cases b <;> simp [Renum.exprOpt]
    exact renum_expr_inj x _
theorem renum_arg_inj : (a b : Arg) → r.arg a = r.arg b → a = b
  | .missing, b => by cases b <;> simp [Renum.arg]
  | .ty t, b => by
    cases b <;> simp [Renum.arg]
    exact renum_ty_inj h t _
  | .value x, b => by
    cases b <;> simp [Renum.arg]
    exact renum_expr_inj x _
  | .enum _, b => by cases b <;> simp [Renum.arg]
theorem renum_args_inj : (a b : List Arg) → r.args a = r.args b → a = b
  | [], b => by cases b <;> simp [Renum.args]
  | x :: l, b => by
    cases b <;> simp [Renum.args]
    intro h1 h2; exact ⟨renum_arg_inj x _ h1, renum_args_inj l _ h2⟩
theorem renum_clauses_inj : (a b : List Clause) → r.clauses a = r.clauses b → a = b
  | [], b => by
    cases b with
    | nil => simp
    | cons c l => cases c; simp [Renum.clauses]
  | .mk c t :: l, b => by
    cases b with
    | nil => simp [Renum.clauses]
    | cons c' l' =>
      cases c'
      simp [Renum.clauses]
      intro h1 h2 h3
      exact ⟨⟨renum_exprOpt_inj c _ h1, renum_exprOpt_inj t _ h2⟩, renum_clauses_inj l _ h3⟩
end

theorem renum_firstSeen (seen l : List Expr) :
    firstSeen (seen.map r.expr) (l.map r.expr) = (firstSeen seen l).map r.expr := by
  induction l generalizing seen with
  | nil => rfl
  | cons e l ih =>
    have hm : r.expr e ∈ seen.map r.expr ↔ e ∈ seen := by
      constructor
      · intro hm
        obtain ⟨x, hx, hxe⟩ := List.mem_map.1 hm
        rw [← renum_expr_inj h _ _ hxe]
        exact hx
      · exact fun hm => List.mem_map_of_mem hm
    simp only [List.map_cons, firstSeen]
    by_cases he : e ∈ seen
    · rw [if_pos (hm.2 he), if_pos he]
      exact ih seen
    · rw [if_neg (fun x => he (hm.1 x)), if_neg he]
      have := ih (seen ++ [e])
      simp only [List.map_append, List.map_cons, List.map_nil] at this
      rw [this, List.map_cons]

end

/-! ## Types and expressions -/

/-- Every name that `st` can show, `st'` shows the same for the new number. -/
structure ShowsAs (st st' : Store) (o : Opts) (r : Renum) : Prop where
  sound : r.Sound
  anchor : ∀ k a, (textAnchor st o k a).Keeps (textAnchor st' o k (r.on k a))

section
variable {st st' : Store} {o : Opts} {r : Renum} (w : ShowsAs st st' o r)
include w

theorem ShowsAs.typeText {a b : Out} (h : a.Keeps b) (n : Nul) (v : Nat) {ps qs : List Out} (hp : KeepsL ps qs) :
    (textifyType st o a n v ps).Keeps (textifyType st' o b n (r.tvar v) qs) := by
  refine append (append (append h (refl _)) ?_) ?_
  · unfold textVariation
    simp only [w.sound.zero]
    exact .ite (refl _) (append (append (refl _) (w.anchor _ _)) (refl _))
  · cases hp with
    | nil => exact refl _
    | cons h1 h2 => exact append (append (refl _) (KeepsL.cons h1 h2).sep) (refl _)

mutual
theorem ShowsAs.ty : (t : Ty) → (textTy st o t).Keeps (textTy st' o (r.ty t))
  | .missing => by simp only [textTy, Renum.ty]; exact refl _
  | .simple .. => by simp only [textTy, Renum.ty]; exact w.typeText (refl _) _ _ (.refl _)
  | .intervalDay .. => by simp only [textTy, Renum.ty]; exact w.typeText (refl _) _ _ (.refl _)
  | .intervalCompound .. => by simp only [textTy, Renum.ty]; exact w.typeText (refl _) _ _ (.refl _)
  | .len .. => by simp only [textTy, Renum.ty]; exact w.typeText (refl _) _ _ (.refl _)
  | .decimal .. => by simp only [textTy, Renum.ty]; exact w.typeText (refl _) _ _ (.refl _)
  | .prec .. => by simp only [textTy, Renum.ty]; exact w.typeText (refl _) _ _ (.refl _)
  | .struct ts n v => by simp only [textTy, Renum.ty]; exact w.typeText (refl _) _ _ (ShowsAs.tys ts)
  | .list t n v => by simp only [textTy, Renum.ty]; exact w.typeText (refl _) _ _ (.cons (ShowsAs.tyOpt t) .nil)
  | .map a b n v => by
    simp only [textTy, Renum.ty]
    exact w.typeText (refl _) _ _ (.cons (ShowsAs.tyOpt a) (.cons (ShowsAs.tyOpt b) .nil))
  | .user ref ps n v => by simp only [textTy, Renum.ty]; exact w.typeText (w.anchor _ _) _ _ (ShowsAs.params ps)
  | .userRef ref => by
    simp only [textTy, Renum.ty]
    have := w.typeText (w.anchor .type ref) .required 0 .nil
    rw [(w.sound.zero 0).2 rfl] at this
    exact this
  | .func => by simp only [textTy, Renum.ty]; exact refl _
  | .alias => by simp only [textTy, Renum.ty]; exact refl _
theorem ShowsAs.tyOpt : (t : Option Ty) → (textTyOpt st o t).Keeps (textTyOpt st' o (r.tyOpt t))
  | none => by simp only [textTyOpt, Renum.tyOpt]; exact refl _
  | some t => by simp only [textTyOpt, Renum.tyOpt]; exact ShowsAs.ty t
theorem ShowsAs.tys : (l : List Ty) → KeepsL (textTys st o l) (textTys st' o (r.tys l))
  | [] => by simp only [textTys, Renum.tys]; exact .nil
  | t :: l => by simp only [textTys, Renum.tys]; exact .cons (ShowsAs.ty t) (ShowsAs.tys l)
theorem ShowsAs.param : (p : Param) → (textParam st o p).Keeps (textParam st' o (r.param p))
  | .missing => by simp only [textParam, Renum.param]; exact refl _
  | .null => by simp only [textParam, Renum.param]; exact refl _
  | .bool true => by simp only [textParam, Renum.param]; exact refl _
  | .bool false => by simp only [textParam, Renum.param]; exact refl _
  | .int _ => by simp only [textParam, Renum.param]; exact refl _
  | .enum _ => by simp only [textParam, Renum.param]; exact refl _
  | .str _ => by simp only [textParam, Renum.param]; exact refl _
  | .ty t => by simp only [textParam, Renum.param]; exact ShowsAs.ty t
theorem ShowsAs.params : (l : List Param) → KeepsL (textParams st o l) (textParams st' o (r.params l))
  | [] => by simp only [textParams, Renum.params]; exact .nil
  | p :: l => by simp only [textParams, Renum.params]; exact .cons (ShowsAs.param p) (ShowsAs.params l)
end

theorem ShowsAs.outType (t : Option Ty) : (textOutType st o t).Keeps (textOutType st' o (t.map r.ty)) := by
  cases t with
  | none => exact refl _
  | some t => exact append (refl _) (w.ty t)

theorem ShowsAs.tyReq (t : Option Ty) : (textTyReq st o t).Keeps (textTyReq st' o (t.map r.ty)) := by
  cases t with
  | none => exact refl _
  | some t => exact w.ty t

theorem ShowsAs.invocation (f : Nat) {l m : List Out} (opts : List Out) (h : KeepsL l m) :
    (textInvocation st o f l opts).Keeps (textInvocation st' o (r.on .function f) m opts) := by
  unfold textInvocation
  simp only [h.nil_iff]
  exact append (append (append (append (append (w.anchor _ _) (refl _)) h.sep) (refl _)) (refl _)) (refl _)

variable [UTab] [FTab]

theorem ShowsAs.literal (l : Literal) : (textLit st o l).Keeps (textLit st' o (r.literal l)) := by
  obtain ⟨v, n, t⟩ := l
  cases v with
  | none => exact refl _
  | some v =>
    cases v
    case null t => exact append (refl _) (w.ty t)
    all_goals exact refl _

mutual
theorem ShowsAs.expr : (e : Expr) → (textExpr st o e).Keeps (textExpr st' o (r.expr e))
  | .missing => by simp only [textExpr, Renum.expr]; exact refl _
  | .literal l => by simp only [textExpr, Renum.expr]; exact w.literal l
  | .selection _ => by simp only [textExpr, Renum.expr]; exact refl _
  | .call f args opts out => by
    simp only [textExpr, Renum.expr]
    exact append (w.invocation f _ (ShowsAs.args args)) (w.outType out)
  | .cast input ty fb => by
    simp only [textExpr, Renum.expr]
    exact append (append (append (append (refl _) (ShowsAs.exprReq input)) (refl _)) (refl _)) (w.tyReq ty)
  | .ifThen ifs els => by
    simp only [textExpr, Renum.expr]
    exact append (append (append (append (refl _) (ShowsAs.clauses ifs)) (refl _)) (ShowsAs.exprReq els)) (refl _)
  | .other => by simp only [textExpr, Renum.expr]; exact refl _
theorem ShowsAs.exprReq : (e : Option Expr) → (textExprReq st o e).Keeps (textExprReq st' o (r.exprOpt e))
  | none => by simp only [textExprReq, Renum.exprOpt]; exact refl _
  | some e => by simp only [textExprReq, Renum.exprOpt]; exact ShowsAs.expr e
theorem ShowsAs.arg : (a : Arg) → (textArg st o a).Keeps (textArg st' o (r.arg a))
  | .missing => by simp only [textArg, Renum.arg]; exact refl _
  | .ty t => by simp only [textArg, Renum.arg]; exact w.ty t
  | .value e => by simp only [textArg, Renum.arg]; exact ShowsAs.expr e
  | .enum _ => by simp only [textArg, Renum.arg]; exact refl _
theorem ShowsAs.args : (l : List Arg) → KeepsL (textArgs st o l) (textArgs st' o (r.args l))
  | [] => by simp only [textArgs, Renum.args]; exact .nil
  | a :: l => by simp only [textArgs, Renum.args]; exact .cons (ShowsAs.arg a) (ShowsAs.args l)
theorem ShowsAs.clauses : (l : List Clause) → (textClauses st o l).Keeps (textClauses st' o (r.clauses l))
  | [] => by simp only [textClauses, Renum.clauses]; exact refl _
  | .mk c t :: l => by
    simp only [textClauses, Renum.clauses]
    exact append (append (append (append (ShowsAs.exprReq c) (refl _)) (ShowsAs.exprReq t)) (refl _)) (ShowsAs.clauses l)
end

theorem ShowsAs.exprMap (n : Str) (e : Option Expr) :
    (Out.expect n (e.map (textExpr st o))).Keeps (Out.expect n ((e.map r.expr).map (textExpr st' o))) := by
  cases e with
  | none => exact refl _
  | some e => exact w.expr e

/-- `KeepsL` where the second list is about changed things. -/
theorem keepsL_map2 {α : Type} {f f' : α → Out} {g : α → α} (l : List α) (h : ∀ a, (f a).Keeps (f' (g a))) :
    KeepsL (l.map f) ((l.map g).map f') := by
  rw [List.map_map]
  exact .map l h

theorem keepsL_opt {α : Type} {f f' : α → Out} {g : α → α} (l : Option α) (h : ∀ a, (f a).Keeps (f' (g a))) :
    KeepsL (l.toList.map f) ((l.map g).toList.map f') := by
  cases l with
  | none => exact .nil
  | some a => exact .cons (h a) .nil

mutual
theorem ShowsAs.extValue : (v : ExtValue) → (textExtValue st o v).Keeps (textExtValue st' o (r.value v))
  | .string _ => by simp only [textExtValue, Renum.value]; exact refl _
  | .integer _ => by simp only [textExtValue, Renum.value]; exact refl _
  | .float _ => by simp only [textExtValue, Renum.value]; exact refl _
  | .boolean _ => by simp only [textExtValue, Renum.value]; exact refl _
  | .null => by simp only [textExtValue, Renum.value]; exact refl _
  | .error _ => by simp only [textExtValue, Renum.value]; exact refl _
  | .expr e => by simp only [textExtValue, Renum.value]; exact w.expr e
  | .enum _ => by simp only [textExtValue, Renum.value]; exact refl _
  | .tuple l => by
    simp only [textExtValue, Renum.value]; exact append (append (refl _) (ShowsAs.tupleItems l)) (refl _)
theorem ShowsAs.tupleItems : (l : List ExtValue) → (textTupleItems st o l).Keeps (textTupleItems st' o (r.values l))
  | [] => by simp only [textTupleItems, Renum.values]; exact refl _
  | [v] => by simp only [textTupleItems, Renum.values]; exact append (ShowsAs.extValue v) (refl _)
  | v :: u :: l => by
    have := (ShowsAs.extValues (u :: l)).sep (sp := cs!", ")
    simp only [textTupleItems, Renum.values] at this ⊢
    exact append (append (ShowsAs.extValue v) (refl _)) this
theorem ShowsAs.extValues : (l : List ExtValue) → KeepsL (textExtValues st o l) (textExtValues st' o (r.values l))
  | [] => by simp only [textExtValues, Renum.values]; exact .nil
  | v :: l => by simp only [textExtValues, Renum.values]; exact .cons (ShowsAs.extValue v) (ShowsAs.extValues l)
end

theorem ShowsAs.namedArgs (l : List (Str × ExtValue)) :
    KeepsL (l.map (textNamed st o)) ((l.map fun p => (p.1, r.value p.2)).map (textNamed st' o)) :=
  keepsL_map2 w l fun a => append (refl _) (w.extValue a.2)

theorem ShowsAs.extColumn (c : ExtColumn) : (textExtColumn st o c).Keeps (textExtColumn st' o (r.column c)) := by
  cases c with
  | named n t => exact append (refl _) (w.ty t)
  | expr e => exact w.expr e

theorem ShowsAs.extColumns (l : List ExtColumn) :
    KeepsL (l.map (textExtColumn st o)) ((l.map r.column).map (textExtColumn st' o)) :=
  keepsL_map2 w l w.extColumn

theorem ShowsAs.extArgs (a : ExtArgs) : (textExtArgs st o a).Keeps (textExtArgs st' o (r.extArgs a)) := by
  unfold textExtArgs
  simp only [Renum.extArgs, List.map_eq_nil_iff]
  exact append (keeps_argList (w.extValues _) (w.namedArgs _))
    (.ite (refl _) (append (refl _) (w.extColumns _).sep))

/-- Decoded with the new numbers. -/
def DecodedAs (r : Renum) (d d' : Except ExtErr (Str × ExtArgs)) : Prop :=
  match d with
  | .ok (n, a) => d' = .ok (n, r.extArgs a)
  | .error _ => ∃ e, d' = .error e

theorem ShowsAs.addendum (k : AddKind) {d d' : Except ExtErr (Str × ExtArgs)} (h : DecodedAs r d d') :
    (textAddendum st o k d).Keeps (textAddendum st' o k d') := by
  cases d with
  | error e =>
    obtain ⟨e', rfl⟩ := h
    exact refl _
  | ok p =>
    obtain ⟨n, a⟩ := p
    have h : d' = _ := h
    subst h
    unfold textAddendum
    simp only [Renum.extArgs, List.map_eq_nil_iff]
    exact .ite (append (append (refl _) (w.extArgs _)) (refl _)) (refl _)

end
end Verif
