import Verif.Proofs.NoNewline
import Verif.Proofs.Panics
import Verif.Proofs.Nested
import Verif.Proofs.ReparsePlan
import Verif.Spec.Raw
/-!
# Copied text without line ends leaves the lines as they are
-/

namespace Verif
open StoreSpec TextSpec RelSpec PlanSpec PanicSpec RawSpec

set_option autoImplicit false

/-- Text without line ends. -/
def Fl (x : Out) : Prop := Flat x.text

theorem Fl.s {t : Str} (h : Flat t) : Fl (.s t) := h

theorem Fl.app {a b : Out} (h : Fl a) (k : Fl b) : Fl (a ++ b) := (flat_append _ _).2 ⟨h, k⟩

theorem flat_errorNames : ∀ n ∈ errorNames, Flat n := by decide

theorem Fl.fail {n : Str} (h : n ∈ errorNames) : Fl (.fail n) := by
  have := flat_errorNames n h
  simp [Fl, this]

theorem Fl.sep {sp : Str} {l : List Out} (hs : Flat sp) (h : ∀ a ∈ l, Fl a) : Fl (Out.sep sp l) := flat_sep hs h

theorem Fl.expect {n : Str} {x : Option Out} (h : n ∈ errorNames) (hx : ∀ a, x = some a → Fl a) :
    Fl (.expect n x) := by
  cases x with
  | none => exact Fl.fail h
  | some a => exact hx a rfl

/-- Stored names and URNs without line ends. -/
structure FlatStore (st : Store) : Prop where
  urns : ∀ u ∈ st.urns, Flat u.2
  exts : ∀ e ∈ st.exts, Flat e.2.2

theorem OMap.mem_of_find? {κ α : Type} [Key κ] {m : OMap κ α} {k : κ} {v : α} (h : m.find? k = some v) :
    ∃ k', (k', v) ∈ m := by
  induction m with
  | nil => cases h
  | cons e m ih =>
    obtain ⟨k', v'⟩ := e
    unfold OMap.find? at h
    split at h
    · cases h; exact ⟨k', List.mem_cons_self⟩
    · obtain ⟨k'', h⟩ := ih h
      exact ⟨k'', List.mem_cons_of_mem _ h⟩

theorem flat_baseName {n : Str} (h : Flat n) : Flat (baseName n) := fun hm => h ((List.takeWhile_sublist _).subset hm)

theorem flat_lookup {st : Store} (hst : FlatStore st) {k : Kind} {a : Nat} {na : NamedAnchor}
    (h : NamedAnchor.lookup st k a = some na) : Flat na.name := by
  have key : ∀ k p, st.findByAnchor k a = .ok p → Flat p.2 := by
    intro k p hp
    unfold Store.findByAnchor at hp
    split at hp
    · rename_i q hq
      cases hp
      obtain ⟨k', hk⟩ := OMap.mem_of_find? hq
      exact hst.exts _ hk
    · cases hp
  unfold NamedAnchor.lookup at h
  split at h
  · split at h
    · rename_i r hr
      cases h
      unfold Store.lookupFunction at hr
      cases h1 : st.findByAnchor .function a with
      | error e => rw [h1] at hr; cases hr
      | ok p =>
        obtain ⟨u, n⟩ := p
        rw [h1] at hr
        have hn := key _ _ h1
        simp only [bind, Except.bind] at hr
        split at hr
        · cases hr
        · split at hr
          · cases hr
          · cases hr; exact hn
    · cases h
  · split at h
    · rename_i u n hn
      split at h <;> (cases h; exact key _ _ hn)
    · cases h

section
variable {st : Store} (hst : FlatStore st)
include hst

theorem fl_anchor (o : Opts) (k : Kind) (a : Nat) : Fl (textAnchor st o k a) := by
  unfold textAnchor
  split
  · rename_i na hn
    have := flat_lookup hst hn
    refine Fl.s ((flat_append _ _).2 ⟨?_, flat_showAnchor _⟩)
    unfold NamedAnchor.shownName
    simp only
    repeat' split
    all_goals first | exact this | exact flat_baseName this
  · refine (Fl.fail (by cases k <;> decide)).app (Fl.s ?_)
    split
    · exact flat_nil
    · simp [flat_dec]

theorem fl_textifyType (o : Opts) {name : Out} (n : Nul) (v : Nat) {ps : List Out}
    (hn : Fl name) (hp : ∀ p ∈ ps, Fl p) : Fl (textifyType st o name n v ps) := by
  refine ((hn.app (flat_textNul n)).app ?_).app (flat_paramList hp)
  unfold textVariation
  split
  · exact Fl.s flat_nil
  · exact ((Fl.s (by decide)).app (fl_anchor hst o _ _)).app (Fl.s (by decide))

omit hst in
theorem fl_intParam (i : Int) : Fl (textIntParam i) := flat_decInt i

mutual
theorem fl_ty (o : Opts) : (t : Ty) → (∀ s ∈ tyRaw t, Flat s) → Fl (textTy st o t)
  | .missing, _ => by rw [textTy]; exact Fl.fail (by decide)
  | .func, _ => by rw [textTy]; exact Fl.fail (by decide)
  | .alias, _ => by rw [textTy]; exact Fl.fail (by decide)
  | .simple k .., _ => by rw [textTy]; exact fl_textifyType hst o _ _ (Fl.s (by cases k <;> decide)) (by simp)
  | .intervalDay .., _ => by
    rw [textTy]; exact fl_textifyType hst o _ _ (Fl.s (by decide)) (by simp [fl_intParam])
  | .intervalCompound .., _ => by
    rw [textTy]; exact fl_textifyType hst o _ _ (Fl.s (by decide)) (by simp [fl_intParam])
  | .len k .., _ => by
    rw [textTy]; exact fl_textifyType hst o _ _ (Fl.s (by cases k <;> decide)) (by simp [fl_intParam])
  | .decimal .., _ => by
    rw [textTy]; exact fl_textifyType hst o _ _ (Fl.s (by decide)) (by simp [fl_intParam])
  | .prec k .., _ => by
    rw [textTy]; exact fl_textifyType hst o _ _ (Fl.s (by cases k <;> decide)) (by simp [fl_intParam])
  | .struct ts _ _, h => by
    rw [tyRaw] at h
    rw [textTy]; exact fl_textifyType hst o _ _ (Fl.s (by decide)) (fl_tys o ts h)
  | .list t _ _, h => by
    rw [tyRaw] at h
    rw [textTy]; exact fl_textifyType hst o _ _ (Fl.s (by decide)) (by simpa using fl_tyOpt o t h)
  | .map a b _ _, h => by
    rw [tyRaw] at h
    simp only [List.mem_append, or_imp, forall_and] at h
    have h1 := fl_tyOpt o a h.1
    have h2 := fl_tyOpt o b h.2
    rw [textTy]; exact fl_textifyType hst o _ _ (Fl.s (by decide)) (by simpa using ⟨h1, h2⟩)
  | .user r ps _ _, h => by
    rw [tyRaw] at h
    rw [textTy]; exact fl_textifyType hst o _ _ (fl_anchor hst o _ _) (fl_params o ps h)
  | .userRef r, _ => by
    rw [textTy]; exact fl_textifyType hst o _ _ (fl_anchor hst o _ _) (by simp)
theorem fl_tyOpt (o : Opts) : (t : Option Ty) → (∀ s ∈ tyOptRaw t, Flat s) → Fl (textTyOpt st o t)
  | none, _ => by rw [textTyOpt]; exact Fl.fail (by decide)
  | some t, h => by rw [textTyOpt]; rw [tyOptRaw] at h; exact fl_ty o t h
theorem fl_tys (o : Opts) : (l : List Ty) → (∀ s ∈ tysRaw l, Flat s) → ∀ p ∈ textTys st o l, Fl p
  | [], _ => by simp [textTys]
  | t :: l, h => by
    rw [tysRaw] at h
    simp only [List.mem_append, or_imp, forall_and] at h
    have h1 := fl_ty o t h.1
    have h2 := fl_tys o l h.2
    rw [textTys]
    simp only [List.mem_cons, forall_eq_or_imp]
    exact ⟨h1, h2⟩
theorem fl_params (o : Opts) : (l : List Param) → (∀ s ∈ paramsRaw l, Flat s) → ∀ p ∈ textParams st o l, Fl p
  | [], _ => by simp [textParams]
  | .enum s :: l, h => by
    rw [paramsRaw] at h
    simp only [List.mem_cons, forall_eq_or_imp] at h
    have h2 := fl_params o l h.2
    simp only [textParams, textParam, List.mem_cons, forall_eq_or_imp]
    exact ⟨Fl.s h.1, h2⟩
  | .str s :: l, h => by
    rw [paramsRaw] at h
    simp only [List.mem_cons, forall_eq_or_imp] at h
    have h2 := fl_params o l h.2
    simp only [textParams, textParam, List.mem_cons, forall_eq_or_imp]
    exact ⟨Fl.s h.1, h2⟩
  | .ty t :: l, h => by
    rw [paramsRaw] at h
    simp only [List.mem_append, or_imp, forall_and] at h
    have h1 := fl_ty o t h.1
    have h2 := fl_params o l h.2
    simp only [textParams, textParam, List.mem_cons, forall_eq_or_imp]
    exact ⟨h1, h2⟩
  | .missing :: l, h => by
    rw [paramsRaw] at h
    · have h2 := fl_params o l h
      simp only [textParams, textParam, List.mem_cons, forall_eq_or_imp]
      exact ⟨Fl.fail (by decide), h2⟩
    all_goals simp
  | .null :: l, h => by
    rw [paramsRaw] at h
    · have h2 := fl_params o l h
      simp only [textParams, textParam, List.mem_cons, forall_eq_or_imp]
      exact ⟨Fl.s (by decide), h2⟩
    all_goals simp
  | .bool b :: l, h => by
    rw [paramsRaw] at h
    · have h2 := fl_params o l h
      cases b <;>
      · simp only [textParams, textParam, List.mem_cons, forall_eq_or_imp]
        exact ⟨Fl.s (by decide), h2⟩
    all_goals simp
  | .int i :: l, h => by
    rw [paramsRaw] at h
    · have h2 := fl_params o l h
      simp only [textParams, textParam, List.mem_cons, forall_eq_or_imp]
      exact ⟨fl_intParam i, h2⟩
    all_goals simp
end

theorem fl_tyReq (o : Opts) (t : Option Ty) (h : ∀ s ∈ tyOptRaw t, Flat s) : Fl (textTyReq st o t) := by
  cases t with
  | none => exact Fl.fail (by decide)
  | some t => rw [tyOptRaw] at h; exact fl_ty hst o t h

theorem fl_outType (o : Opts) (t : Option Ty) (h : ∀ s ∈ tyOptRaw t, Flat s) : Fl (textOutType st o t) := by
  cases t with
  | none => exact Fl.fail (by decide)
  | some t => rw [tyOptRaw] at h; exact (Fl.s (by decide)).app (fl_ty hst o t h)

omit hst in
theorem flat_hex2 (n : Nat) : Flat (hex2 n) := by
  have h1 := hexChar_ne_nl (n / 16 % 16) (by omega)
  have h2 := hexChar_ne_nl (n % 16) (by omega)
  simp [hex2, h1, h2]

/-- Floats are written without line ends. -/
def FlatFloats [FTab] : Prop := ∀ b, Flat (FTab.show32 b) ∧ Flat (FTab.show64 b)

omit hst in
theorem fl_value [UTab] [FTab] (hf : FlatFloats) (o : Opts) (v : Lit) : Fl (textValue o v) := by
  unfold textValue
  split
  · rename_i b; cases b <;> exact Fl.s (by decide)
  · exact flat_decInt _
  · exact (hf _).1
  · exact (hf _).2
  · exact flat_showString _
  · rename_i bs
    unfold textBinary
    split
    · refine Fl.s ((flat_append _ _).2 ⟨by decide, fun h => ?_⟩)
      obtain ⟨n, _, hn⟩ := List.mem_flatMap.1 h
      exact flat_hex2 n hn
    · exact Fl.s (by decide)
  · split
    · exact flat_showString _
    · exact flat_nil
  · exact flat_precLit _ _
  · exact flat_precLit _ _
  · exact flat_interval _
  · exact flat_precLit _ _
  · exact flat_precLit _ _
  · exact Fl.s (by decide)
  · exact Fl.fail (by decide)

theorem fl_lit [UTab] [FTab] (hf : FlatFloats) (o : Opts) (l : Literal) (h : ∀ s ∈ litRaw l, Flat s) :
    Fl (textLit st o l) := by
  unfold litRaw at h
  unfold textLit
  split
  · exact Fl.fail (by decide)
  · rename_i t ht
    rw [ht] at h
    exact ((fl_value hf o _).app (Fl.s (by decide))).app (fl_ty hst o t h)
  · refine (fl_value hf o _).app ?_
    split
    · exact flat_suffix _ _
    · exact Fl.s flat_nil

omit hst in
theorem fl_behavior (i : Int) : Fl (textBehavior i) := by
  unfold textBehavior
  repeat' split
  all_goals first | exact Fl.s (by decide) | exact Fl.fail (by decide)

theorem fl_invocation (o : Opts) (f : Nat) {args : List Out} (opts : List FOption)
    (h : ∀ a ∈ args, Fl a) (k : ∀ s ∈ opts.flatMap (fun f => f.name :: f.prefs), Flat s) :
    Fl (textInvocation st o f args (opts.map textOption)) := by
  refine (((((fl_anchor hst o _ _).app (Fl.s (by decide))).app (Fl.sep (by decide) h)).app (Fl.s ?_)).app
    (Fl.sep (by decide) ?_)).app (Fl.s (by decide))
  · split <;> decide
  · intro a ha
    obtain ⟨x, hx, rfl⟩ := List.mem_map.1 ha
    have hk : ∀ s ∈ x.name :: x.prefs, Flat s := fun s hs => k s (List.mem_flatMap.2 ⟨x, hx, hs⟩)
    simp only [List.mem_cons, forall_eq_or_imp] at hk
    have := flat_joinS (sp := cs!", ") (by decide) hk.2
    exact Fl.s (by simp [hk.1, this])

mutual
theorem fl_expr [UTab] [FTab] (hf : FlatFloats) (o : Opts) : (e : Expr) →
    (∀ s ∈ exprRaw e, Flat s) → Fl (textExpr st o e)
  | .missing, _ => by rw [textExpr]; exact Fl.fail (by decide)
  | .other, _ => by rw [textExpr]; exact Fl.fail (by decide)
  | .literal l, h => by rw [textExpr]; rw [exprRaw] at h; exact fl_lit hst hf o l h
  | .selection f, _ => by
    rw [textExpr]
    cases f with
    | field i _ => exact flat_ref i
    | badReference => exact Fl.fail (by decide)
    | badSegment => exact Fl.fail (by decide)
  | .call f args opts t, h => by
    rw [exprRaw] at h
    simp only [List.mem_append, or_imp, forall_and] at h
    rw [textExpr]
    exact (fl_invocation hst o f opts (fl_args hf o args h.1.1) h.1.2).app (fl_outType hst o t h.2)
  | .cast e t fb, h => by
    rw [exprRaw] at h
    simp only [List.mem_append, or_imp, forall_and] at h
    rw [textExpr]
    exact ((((Fl.s (by decide)).app (fl_exprReq hf o e h.1)).app (Fl.s (by decide))).app (fl_behavior fb)).app
      (fl_tyReq hst o t h.2)
  | .ifThen cs e, h => by
    rw [exprRaw] at h
    simp only [List.mem_append, or_imp, forall_and] at h
    rw [textExpr]
    exact ((((Fl.s (by decide)).app (fl_clauses hf o cs h.1)).app (Fl.s (by decide))).app (fl_exprReq hf o e h.2)).app
      (Fl.s (by decide))
theorem fl_exprReq [UTab] [FTab] (hf : FlatFloats) (o : Opts) : (e : Option Expr) →
    (∀ s ∈ optRaw e, Flat s) → Fl (textExprReq st o e)
  | none, _ => by rw [textExprReq]; exact Fl.fail (by decide)
  | some e, h => by rw [textExprReq]; rw [optRaw] at h; exact fl_expr hf o e h
theorem fl_args [UTab] [FTab] (hf : FlatFloats) (o : Opts) : (l : List Arg) →
    (∀ s ∈ argsRaw l, Flat s) → ∀ a ∈ textArgs st o l, Fl a
  | [], _ => by simp [textArgs]
  | .missing :: l, h => by
    rw [argsRaw] at h
    · have h2 := fl_args hf o l h
      simp only [textArgs, textArg, List.mem_cons, forall_eq_or_imp]
      exact ⟨Fl.fail (by decide), h2⟩
    all_goals simp
  | .ty t :: l, h => by
    rw [argsRaw] at h
    simp only [List.mem_append, or_imp, forall_and] at h
    have h2 := fl_args hf o l h.2
    simp only [textArgs, textArg, List.mem_cons, forall_eq_or_imp]
    exact ⟨fl_ty hst o t h.1, h2⟩
  | .enum s :: l, h => by
    rw [argsRaw] at h
    · have h2 := fl_args hf o l h
      simp only [textArgs, textArg, List.mem_cons, forall_eq_or_imp]
      exact ⟨Fl.s ((flat_append _ _).2 ⟨by decide, flat_showName s⟩), h2⟩
    all_goals simp
  | .value e :: l, h => by
    rw [argsRaw] at h
    simp only [List.mem_append, or_imp, forall_and] at h
    have h1 := fl_expr hf o e h.1
    have h2 := fl_args hf o l h.2
    simp only [textArgs, textArg, List.mem_cons, forall_eq_or_imp]
    exact ⟨h1, h2⟩
theorem fl_clauses [UTab] [FTab] (hf : FlatFloats) (o : Opts) : (l : List Clause) →
    (∀ s ∈ clausesRaw l, Flat s) → Fl (textClauses st o l)
  | [], _ => by rw [textClauses]; exact Fl.s flat_nil
  | .mk c t :: l, h => by
    rw [clausesRaw] at h
    simp only [List.mem_append, or_imp, forall_and] at h
    have h1 := fl_exprReq hf o c h.1.1
    have h2 := fl_exprReq hf o t h.1.2
    have h3 := fl_clauses hf o l h.2
    rw [textClauses]
    exact (((h1.app (Fl.s (by decide))).app h2).app (Fl.s (by decide))).app h3
end

mutual
theorem fl_extValue [UTab] [FTab] (hf : FlatFloats) (o : Opts) : (v : ExtValue) →
    (∀ s ∈ valueRaw v, Flat s) → Fl (textExtValue st o v)
  | .string s, _ => by rw [textExtValue]; exact flat_showString s
  | .integer i, _ => by rw [textExtValue]; exact flat_decInt i
  | .float b, _ => by rw [textExtValue]; exact (hf b).2
  | .boolean b, _ => by rw [textExtValue]; cases b <;> exact Fl.s (by decide)
  | .null, _ => by rw [textExtValue]; exact Fl.s (by decide)
  | .enum e, h => by
    rw [valueRaw] at h
    rw [textExtValue]
    exact Fl.s ((flat_append _ _).2 ⟨by decide, h e (by simp)⟩)
  | .error _, _ => by rw [textExtValue]; exact Fl.fail (by decide)
  | .expr e, h => by rw [textExtValue]; rw [valueRaw] at h; exact fl_expr hst hf o e h
  | .tuple vs, h => by
    rw [valueRaw] at h
    have h1 := fl_extValues hf o vs h
    rw [textExtValue]
    refine ((Fl.s (by decide)).app ?_).app (Fl.s (by decide))
    match vs, h1 with
    | [], _ => rw [textTupleItems]; exact Fl.s flat_nil
    | [v], h1 =>
      rw [textTupleItems]
      exact (h1 _ (by simp [textExtValues])).app (Fl.s (by decide))
    | v :: w :: l, h1 =>
      rw [textTupleItems]
      refine ((h1 _ (by rw [textExtValues]; exact List.mem_cons_self)).app (Fl.s (by decide))).app
        (Fl.sep (by decide) fun a ha => h1 a ?_)
      rw [textExtValues]
      exact List.mem_cons_of_mem _ ha
theorem fl_extValues [UTab] [FTab] (hf : FlatFloats) (o : Opts) : (l : List ExtValue) →
    (∀ s ∈ valuesRaw l, Flat s) → ∀ a ∈ textExtValues st o l, Fl a
  | [], _ => by simp [textExtValues]
  | v :: l, h => by
    rw [valuesRaw] at h
    simp only [List.mem_append, or_imp, forall_and] at h
    have h1 := fl_extValue hf o v h.1
    have h2 := fl_extValues hf o l h.2
    simp only [textExtValues, List.mem_cons, forall_eq_or_imp]
    exact ⟨h1, h2⟩
end

theorem fl_extNamed [UTab] [FTab] (hf : FlatFloats) (o : Opts) (l : List (Str × ExtValue))
    (h : ∀ s ∈ l.flatMap (fun p => p.1 :: valueRaw p.2), Flat s) : ∀ a ∈ l.map (textNamed st o), Fl a := by
  intro a ha
  obtain ⟨p, hp, rfl⟩ := List.mem_map.1 ha
  have hk : ∀ s ∈ p.1 :: valueRaw p.2, Flat s := fun s hs => h s (List.mem_flatMap.2 ⟨p, hp, hs⟩)
  simp only [List.mem_cons, forall_eq_or_imp] at hk
  exact (Fl.s ((flat_append _ _).2 ⟨hk.1, by decide⟩)).app (fl_extValue hst hf o p.2 hk.2)

theorem fl_extColumns [UTab] [FTab] (hf : FlatFloats) (o : Opts) (l : List ExtColumn)
    (h : ∀ s ∈ l.flatMap columnRaw, Flat s) : ∀ a ∈ l.map (textExtColumn st o), Fl a := by
  intro a ha
  obtain ⟨c, hc, rfl⟩ := List.mem_map.1 ha
  have hk : ∀ s ∈ columnRaw c, Flat s := fun s hs => h s (List.mem_flatMap.2 ⟨c, hc, hs⟩)
  cases c with
  | named n t => exact (Fl.s ((flat_append _ _).2 ⟨flat_showName n, by decide⟩)).app (fl_ty hst o t hk)
  | expr e => exact fl_expr hst hf o e hk

theorem fl_extArgs [UTab] [FTab] (hf : FlatFloats) (o : Opts) (a : ExtArgs)
    (h : ∀ s ∈ extArgsRaw a, Flat s) : Fl (textExtArgs st o a) := by
  unfold extArgsRaw at h
  simp only [List.mem_append, or_imp, forall_and] at h
  unfold textExtArgs
  refine Fl.app (flat_argList (fl_extValues hst hf o _ h.1.1) (fl_extNamed hst hf o _ h.1.2)) ?_
  split
  · exact Fl.s flat_nil
  · exact (Fl.s (by decide)).app (Fl.sep (by decide) (fl_extColumns hst hf o _ h.2))

end

section
variable [UTab] [FTab] (hf : FlatFloats) {env : Env} (hst : FlatStore env.st)
include hf hst

theorem fl_addendum (k : AddKind) (n : Ns) (d : AnyMsg) (h : ∀ s ∈ payloadRaw env.reg n [] d, Flat s) :
    Fl (textAddendum env.st env.o k (env.reg.decode n d [])) := by
  unfold payloadRaw at h
  unfold textAddendum
  cases hd : env.reg.decode n d [] with
  | error e =>
    refine ((Fl.s ?_).app (Fl.fail (by decide))).app (Fl.s (by decide))
    cases k <;> decide
  | ok r =>
    obtain ⟨name, a⟩ := r
    rw [hd] at h
    simp only [List.mem_cons, forall_eq_or_imp] at h ⊢
    have hk : Flat (cs!"+ " ++ k.spell ++ cs!":") := by cases k <;> decide
    split
    · refine ((Fl.s ?_).app (fl_extArgs hst hf _ a h.2)).app (Fl.s (by decide))
      exact (flat_append _ _).2 ⟨(flat_append _ _).2 ⟨hk, h.1⟩, by decide⟩
    · refine ((Fl.s ?_).app (Fl.fail (by decide))).app (Fl.s (by decide))
      cases k <;> decide

theorem fl_adv (a : Option AdvExt) (h : ∀ s ∈ advRaw env a, Flat s) : ∀ x ∈ advAddenda env a, Fl x := by
  cases a with
  | none => simp [advAddenda]
  | some a =>
    unfold advRaw at h
    simp only [List.mem_append, or_imp, forall_and, payloads] at h
    simp only [advAddenda, List.mem_append]
    rintro x (hx | hx)
    · obtain ⟨d, hd, rfl⟩ := List.mem_map.1 hx
      exact fl_addendum hf hst _ _ d fun e he => h.1 e (List.mem_flatMap.2 ⟨d, hd, he⟩)
    · obtain ⟨d, hd, rfl⟩ := List.mem_map.1 hx
      exact fl_addendum hf hst _ _ d fun e he => h.2 e (List.mem_flatMap.2 ⟨d, hd, he⟩)

/-! ## Headers -/

/-- All parts of a header are on one line each. -/
def FlHead (h : Head) : Prop :=
  Fl h.name ∧ (∀ a ∈ h.args.outs, Fl a) ∧ (∀ a ∈ h.columns, Fl a) ∧ ∀ a ∈ h.addenda, Fl a

omit [UTab] [FTab] hf hst in
theorem fl_implicit (o : Opts) {cols : List Out} (e : Option Emit) (h : ∀ a ∈ cols, Fl a) :
    ∀ a ∈ implicitCols o cols e, Fl a := by
  unfold implicitCols
  split
  · exact h
  · split
    · intro a ha
      obtain ⟨i, _, rfl⟩ := List.mem_map.1 ha
      refine Fl.expect (by decide) fun x hx => ?_
      unfold getCol at hx
      split at hx
      · cases hx
      · exact h x (List.mem_of_getElem? hx)
    · exact h
    · exact h

omit [UTab] [FTab] hf hst in
theorem fl_refs (m : List Int) : ∀ a ∈ m.map textRef, Fl a := by
  intro a ha
  obtain ⟨i, _, rfl⟩ := List.mem_map.1 ha
  exact flat_ref i

omit [UTab] [FTab] hf hst in
theorem fl_output (o : Opts) {h : Head} (k : FlHead h) : Fl (textOutput o h) := by
  unfold textOutput
  split
  · refine ((Fl.s (by decide)).app (Fl.sep (by decide) k.2.2.1)).app ?_
    unfold textEmitSuffix
    split
    · exact (Fl.s (by decide)).app (Fl.sep (by decide) (fl_refs _))
    · exact Fl.s flat_nil
  · exact (Fl.s (by decide)).app (Fl.sep (by decide) (fl_implicit o _ k.2.2.1))

omit [UTab] [FTab] hf hst in
theorem fl_references (n : Nat) : ∀ a ∈ references n, Fl a := by
  intro a ha
  obtain ⟨i, _, rfl⟩ := List.mem_map.1 ha
  exact flat_ref _

omit [UTab] [FTab] hf hst in
theorem fl_variant {n : Str} (h : n ∈ errorNames) (x : Option Str) (hx : ∀ s, x = some s → Flat s) :
    Fl (textVariant n x) := by
  cases x with
  | none => exact Fl.fail h
  | some x => exact Fl.s ((flat_append _ _).2 ⟨by decide, hx x rfl⟩)

omit [UTab] [FTab] hf hst in
theorem mem_zipFields {n : Option Str} {t : Ty} : ∀ {ns : List Str} {ts : List Ty}, (n, some t) ∈ zipFields ns ts → t ∈ ts
  | [], ts, h => by
    rw [zipFields] at h
    obtain ⟨x, hx, he⟩ := List.mem_map.1 h
    cases he; exact hx
  | m :: ns, [], h => by
    rw [zipFields] at h
    rcases List.mem_cons.1 h with h | h
    · cases h
    · exact mem_zipFields h
  | m :: ns, u :: ts, h => by
    rw [zipFields] at h
    rcases List.mem_cons.1 h with h | h
    · cases h; exact List.mem_cons_self
    · exact List.mem_cons_of_mem _ (mem_zipFields h)

omit hf [FTab] in
theorem fl_readColumns (o : Opts) (s : Option NamedStruct) (h : ∀ x ∈ (schemaTypes s).flatMap tyRaw, Flat x) :
    ∀ a ∈ readColumns env.st o s, Fl a := by
  cases s with
  | none => simpa [readColumns] using Fl.fail (by decide)
  | some s =>
    intro a ha
    obtain ⟨f, hm, rfl⟩ := List.mem_map.1 ha
    obtain ⟨n, t⟩ := f
    refine (((Fl.expect (by decide) fun x hx => ?_).app (Fl.s (by decide))).app (fl_tyReq hst o _ ?_))
    · obtain ⟨n, _, rfl⟩ := Option.map_eq_some_iff.1 hx
      exact flat_showName n
    · cases t with
      | none => simp [tyOptRaw]
      | some t =>
        have := mem_zipFields hm
        intro x hx
        rw [tyOptRaw] at hx
        refine h x (List.mem_flatMap.2 ⟨t, ?_, hx⟩)
        obtain ⟨names, struct⟩ := s
        cases struct with
        | none => cases this
        | some t => exact this

omit [UTab] [FTab] hf hst in
theorem fl_tuple {l : List Out} (h : ∀ a ∈ l, Fl a) : Fl (textTuple l) :=
  ((Fl.s (by decide)).app (Fl.sep (by decide) h)).app (Fl.s (by decide))

theorem fl_exprs {o : Opts} {l : List Expr} (h : ∀ s ∈ l.flatMap exprRaw, Flat s) :
    ∀ a ∈ l.map (textExpr env.st o), Fl a := by
  intro a ha
  obtain ⟨e, he, rfl⟩ := List.mem_map.1 ha
  exact fl_expr hst hf o e fun s hs => h s (List.mem_flatMap.2 ⟨e, he, hs⟩)

theorem fl_expectExpr {o : Opts} {n : Str} (hn : n ∈ errorNames) {x : Option Expr}
    (h : ∀ s ∈ x.toList.flatMap exprRaw, Flat s) : Fl (.expect n (x.map (textExpr env.st o))) := by
  refine Fl.expect hn fun a ha => ?_
  obtain ⟨e, rfl, rfl⟩ := Option.map_eq_some_iff.1 ha
  exact fl_expr hst hf o e (by simpa using h)

omit [UTab] [FTab] hf hst in
theorem flatMap_flatMap_forall {α β : Type} {f : α → List β} {g : β → List Str} {l : List α}
    (h : ∀ s ∈ (l.flatMap f).flatMap g, Flat s) {a : α} (ha : a ∈ l) : ∀ s ∈ (f a).flatMap g, Flat s := by
  intro s hs
  obtain ⟨b, hb, hs⟩ := List.mem_flatMap.1 hs
  exact h s (List.mem_flatMap.2 ⟨b, List.mem_flatMap.2 ⟨a, ha, hb⟩, hs⟩)

/-- The header of a relation is on lines of its own. -/
theorem fl_relHead (ws : List (Option Nat)) (op : RelOp)
    (h : ∀ s ∈ opRaw env ws op, Flat s) : FlHead (relHead env ws op) := by
  cases op with
  | read c s f t a r =>
    simp only [opRaw, List.mem_append, or_imp, forall_and] at h
    have hc := fl_readColumns hst env.o s h.1.2
    have ha := fl_adv hf hst a h.1.1
    cases t with
    | named names r =>
      refine ⟨Fl.s (by decide), ?_, hc, ha⟩
      simp only [relHead, headRead, HeadArgs.outs, List.append_nil, List.mem_singleton, forall_eq]
      refine Fl.sep (by decide) fun a ha => ?_
      obtain ⟨n, _, rfl⟩ := List.mem_map.1 ha
      exact flat_showName n
    | virtual rows r =>
      have h2 := h.2
      simp only [List.mem_append, or_imp, forall_and] at h2
      refine ⟨Fl.s (by decide), ?_, hc, ha⟩
      have hp : ∀ x ∈ rows.map (fun r => textTuple (r.map (textExpr env.st env.o))), Fl x := by
        intro x hx
        obtain ⟨row, hr, rfl⟩ := List.mem_map.1 hx
        refine fl_tuple (fl_exprs hf hst fun s hs => h2.1 s ?_)
        obtain ⟨e, he, hs⟩ := List.mem_flatMap.1 hs
        exact List.mem_flatMap.2 ⟨e, List.mem_flatten.2 ⟨row, hr, he⟩, hs⟩
      have hn : ∀ x ∈ f.toList.map (fun e => textNamedArg cs!"filter" (textExpr env.st env.o e)), Fl x := by
        intro x hx
        obtain ⟨e, he, rfl⟩ := List.mem_map.1 hx
        exact (Fl.s (by decide)).app (fl_expr hst hf _ e fun s hs => h2.2 s (List.mem_flatMap.2 ⟨e, he, hs⟩))
      intro x hx
      simp only [relHead, headRead] at hx
      have : x ∈ (if rows.map (fun r => textTuple (r.map (textExpr env.st env.o))) = [] ∧
          f.toList.map (fun e => textNamedArg cs!"filter" (textExpr env.st env.o e)) ≠ [] then [Out.s cs!"_"]
          else rows.map (fun r => textTuple (r.map (textExpr env.st env.o)))) ++
          f.toList.map (fun e => textNamedArg cs!"filter" (textExpr env.st env.o e)) := by
        split at hx <;> exact hx
      rcases List.mem_append.1 this with hx | hx
      · split at hx
        · simp only [List.mem_singleton] at hx; subst hx; exact Fl.s (by decide)
        · exact hp x hx
      · exact hn x hx
    | extension d =>
      refine ⟨Fl.s (by decide), by simp [relHead, headRead, HeadArgs.outs], hc, ?_⟩
      intro x hx
      simp only [relHead, headRead, List.mem_cons] at hx
      rcases hx with rfl | hx
      · cases d with
        | none => exact ((Fl.s (by decide)).app (Fl.fail (by decide))).app (Fl.s (by decide))
        | some d => exact fl_addendum hf hst _ _ d (by simpa using h.2)
      · exact ha x hx
    | other =>
      refine ⟨Fl.s (by decide), ?_, hc, ha⟩
      simp only [relHead, headRead, HeadArgs.outs, List.append_nil, List.mem_singleton, forall_eq]
      exact Fl.fail (by decide)
  | filter c e a =>
    simp only [opRaw, List.mem_append, or_imp, forall_and] at h
    refine ⟨Fl.s (by decide), ?_, fl_references _, fl_adv hf hst a h.1⟩
    simp only [relHead, HeadArgs.outs, List.append_nil, List.mem_singleton, forall_eq]
    exact fl_expectExpr hf hst (by decide) h.2
  | project c es a =>
    simp only [opRaw, List.mem_append, or_imp, forall_and] at h
    refine ⟨Fl.s (by decide), by simp [relHead, HeadArgs.outs], ?_, fl_adv hf hst a h.1⟩
    intro x hx
    exact (List.mem_append.1 hx).elim (fl_references _ x) (fl_exprs hf hst h.2 x)
  | aggregate c g gs ms a =>
    simp only [opRaw, List.mem_append, or_imp, forall_and] at h
    obtain ⟨⟨⟨h1, h2⟩, h3⟩, h4⟩ := h
    have hv : (∀ x ∈ (groupingValues env.st env.o g gs).1, Fl x) ∧
        ∀ l ∈ (groupingValues env.st env.o g gs).2, ∀ x ∈ l, Fl x := by
      unfold groupingValues
      split
      · refine ⟨fl_exprs hf hst fun s hs => h3 s ?_, ?_⟩
        · obtain ⟨e, he, hs⟩ := List.mem_flatMap.1 hs
          have := firstSeen_subset he
          obtain ⟨l, hl, he⟩ := List.mem_flatten.1 this
          obtain ⟨y, hy, rfl⟩ := List.mem_map.1 hl
          exact List.mem_flatMap.2 ⟨e, List.mem_flatMap.2 ⟨y, hy, he⟩, hs⟩
        · intro l hl
          obtain ⟨y, hy, rfl⟩ := List.mem_map.1 hl
          exact fl_exprs hf hst (flatMap_flatMap_forall h3 hy)
      · refine ⟨fl_exprs hf hst h2, ?_⟩
        simp only
        split
        · simp
        · intro l hl
          obtain ⟨y, hy, rfl⟩ := List.mem_map.1 hl
          intro x hx
          obtain ⟨i, _, rfl⟩ := List.mem_map.1 hx
          refine Fl.expect (by decide) fun z hz => ?_
          obtain ⟨e, he, rfl⟩ := Option.map_eq_some_iff.1 hz
          exact fl_exprs hf hst h2 _ (List.mem_map.2 ⟨e, List.mem_of_getElem? he, rfl⟩)
    refine ⟨Fl.s (by decide), ?_, ?_, fl_adv hf hst a h1⟩
    · simp only [relHead, headAggregate, HeadArgs.outs, List.append_nil]
      intro x hx
      unfold groupingArgs at hx
      split at hx
      · rename_i y hy
        split at hx
        · simp only [List.mem_singleton] at hx; subst hx; exact Fl.s (by decide)
        · exact hv.2 y (by rw [hy]; simp) x hx
      · obtain ⟨y, hy, rfl⟩ := List.mem_map.1 hx
        split
        · exact Fl.s (by decide)
        · exact fl_tuple (hv.2 y hy)
    · intro x hx
      simp only [relHead, headAggregate] at hx
      rcases List.mem_append.1 hx with hx | hx
      · exact hv.1 x hx
      · obtain ⟨m, hm, hx⟩ := List.mem_filterMap.1 hx
        obtain ⟨f, hf', rfl⟩ := Option.map_eq_some_iff.1 hx
        have := fl_exprs hf hst (o := env.o) h4 _
          (List.mem_map.2 ⟨aggCall f, List.mem_map.2 ⟨f, List.mem_filterMap.2 ⟨m, hm, hf'⟩, rfl⟩, rfl⟩)
        rw [aggCall, textExpr] at this
        exact this
  | sort c l a =>
    simp only [opRaw, List.mem_append, or_imp, forall_and] at h
    refine ⟨Fl.s (by decide), ?_, fl_references _, fl_adv hf hst a h.1⟩
    simp only [relHead, HeadArgs.outs, List.append_nil]
    intro x hx
    obtain ⟨f, hm, rfl⟩ := List.mem_map.1 hx
    refine fl_tuple ?_
    simp only [List.mem_cons, List.not_mem_nil, or_false, forall_eq_or_imp, forall_eq]
    refine ⟨fl_expectExpr hf hst (by decide) fun s hs => h.2 s ?_, ?_⟩
    · obtain ⟨e, he, hs⟩ := List.mem_flatMap.1 hs
      exact List.mem_flatMap.2 ⟨e, List.mem_filterMap.2 ⟨f, hm, by simpa using he⟩, hs⟩
    refine Fl.expect (by decide) fun z hz => ?_
    obtain ⟨k, hk, rfl⟩ := Option.map_eq_some_iff.1 hz
    clear hk hz
    unfold textSortKind
    split
    · rename_i d
      exact fl_variant (by decide) _ (by cases d <;> simp [SortDir.spell])
    · exact Fl.fail (by decide)
    · exact Fl.fail (by decide)
  | fetch c l o a =>
    simp only [opRaw, List.mem_append, or_imp, forall_and] at h
    refine ⟨Fl.s (by decide), ?_, fl_references _, fl_adv hf hst a h.1.1⟩
    have hcount : ∀ c : Count, (∀ s ∈ (countExprs c).flatMap exprRaw, Flat s) → Fl (textCount env.st env.o c) := by
      intro c hc
      cases c with
      | deprecated i => exact flat_decInt i
      | expr e => exact fl_expr hst hf _ e (by simpa [countExprs] using hc)
    simp only [relHead, HeadArgs.outs, List.nil_append]
    intro x hx
    rcases List.mem_append.1 hx with hx | hx
    · obtain ⟨c, hc, rfl⟩ := List.mem_map.1 hx
      exact (Fl.s (by decide)).app (hcount c (flatMap_flatMap_forall h.1.2 hc))
    · obtain ⟨c, hc, rfl⟩ := List.mem_map.1 hx
      exact (Fl.s (by decide)).app (hcount c (flatMap_flatMap_forall h.2 hc))
  | join c t e p a =>
    simp only [opRaw, List.mem_append, or_imp, forall_and] at h
    refine ⟨Fl.s (by decide), ?_, fl_references _, fl_adv hf hst a h.1.1⟩
    simp only [relHead, HeadArgs.outs, List.mem_append, List.mem_cons, List.not_mem_nil, or_false]
    rintro x ((rfl | rfl) | hx)
    · unfold textJoinType
      split
      · rename_i d
        exact fl_variant (by decide) _ (by cases d <;> simp [JoinType.spell])
      · exact Fl.fail (by decide)
    · exact fl_expectExpr hf hst (by decide) h.1.2
    · obtain ⟨e, he, rfl⟩ := List.mem_map.1 hx
      exact (Fl.s (by decide)).app (fl_expr hst hf _ e fun s hs => h.2 s (List.mem_flatMap.2 ⟨e, he, hs⟩))
  | set c t a =>
    refine ⟨Fl.s (by decide), ?_, fl_references _, fl_adv hf hst a h⟩
    simp only [relHead, HeadArgs.outs, List.append_nil, List.mem_singleton, forall_eq]
    unfold textSetOp
    split
    · rename_i d
      exact fl_variant (by decide) _ (by cases d <;> simp [SetOp.spell])
    · exact Fl.fail (by decide)
  | cross c a => exact ⟨Fl.s (by decide), by simp [relHead, HeadArgs.outs], fl_references _, fl_adv hf hst a h⟩
  | ext k c d =>
    simp only [relHead, headExt]
    split
    · rename_i name args hd
      cases d with
      | none => cases hd
      | some d =>
        simp only [decodeRel] at hd
        simp only [opRaw, Option.toList_some, List.flatMap_cons, List.flatMap_nil, List.append_nil, payloadRaw, hd,
          extArgsRaw, List.mem_append, List.mem_cons, or_imp, forall_and, forall_eq] at h
        obtain ⟨h0, ⟨h1, h2⟩, h3⟩ := h
        refine ⟨Fl.s ((flat_append _ _).2 ⟨by cases k <;> decide, h0⟩), ?_, fl_extColumns hst hf _ _ h3, by simp⟩
        intro x hx
        exact (List.mem_append.1 hx).elim (fl_extValues hst hf _ _ h1 x) (fl_extNamed hst hf _ _ h2 x)
    · exact ⟨Fl.s (by cases k <;> decide), by simp [HeadArgs.outs], by simpa using Fl.fail (by decide), by simp⟩
  | other r => exact ⟨Fl.fail (by decide), by simp [relHead, HeadArgs.outs], by simp [relHead], by simp [relHead]⟩

end

end Verif
