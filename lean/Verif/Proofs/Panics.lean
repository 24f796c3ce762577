import Verif.Proofs.Complete
import Verif.Spec.Panics
/-!
# The errors of the formatter, one by one

`Only Q out`: all errors in `out` satisfy `Q`.
-/

namespace Verif
open StoreSpec TextSpec RelSpec PlanSpec PanicSpec

set_option autoImplicit false

/-- All errors satisfy `Q`. -/
def Only (Q : Str → Prop) (x : Out) : Prop := ∀ n ∈ x.errs, Q n

theorem Only.s {Q : Str → Prop} (t : Str) : Only Q (.s t) := by simp [Only]

theorem Only.app {Q : Str → Prop} {a b : Out} (h : Only Q a) (k : Only Q b) : Only Q (a ++ b) := by
  intro n hn
  rw [Out.errs_append, List.mem_append] at hn
  exact hn.elim (h n) (k n)

theorem Only.fail {Q : Str → Prop} {n : Str} (h : Q n) : Only Q (.fail n) := by simpa [Only] using h

theorem Only.sep {Q : Str → Prop} {sp : Str} {l : List Out} (h : ∀ a ∈ l, Only Q a) : Only Q (Out.sep sp l) := by
  intro n hn
  rw [Out.errs_sep, List.mem_flatMap] at hn
  obtain ⟨a, ha, hn⟩ := hn
  exact h a ha n hn

theorem Only.expect {Q : Str → Prop} {n : Str} {x : Option Out} (h : Q n) (hx : ∀ a, x = some a → Only Q a) :
    Only Q (.expect n x) := by
  cases x with
  | none => exact Only.fail h
  | some a => exact hx a rfl

section
variable {Q : Str → Prop} (hQ : ∀ n ∈ errorNames, Q n)
include hQ

theorem only_anchor (st : Store) (o : Opts) (k : Kind) (a : Nat) : Only Q (textAnchor st o k a) := by
  unfold textAnchor
  split
  · exact Only.s _
  · exact (Only.fail (hQ _ (by cases k <;> decide))).app (Only.s _)

theorem only_textifyType (st : Store) (o : Opts) {name : Out} (n : Nul) (v : Nat) {ps : List Out}
    (hn : Only Q name) (hp : ∀ p ∈ ps, Only Q p) : Only Q (textifyType st o name n v ps) := by
  refine ((hn.app ?_).app ?_).app ?_
  · cases n
    · simpa [textNul, Only] using hQ _ (by decide)
    · exact Only.s _
    · exact Only.s _
  · unfold textVariation
    split
    · exact Only.s _
    · exact ((Only.s _).app (only_anchor hQ st o _ _)).app (Only.s _)
  · unfold textParamList
    split
    · exact Only.s _
    · exact ((Only.s _).app (Only.sep hp)).app (Only.s _)

mutual
theorem only_ty (st : Store) (o : Opts) : (t : Ty) → Only Q (textTy st o t)
  | .missing => by rw [textTy]; exact Only.fail (hQ _ (by decide))
  | .func => by rw [textTy]; exact Only.fail (hQ _ (by decide))
  | .alias => by rw [textTy]; exact Only.fail (hQ _ (by decide))
  | .simple .. => by rw [textTy]; exact only_textifyType hQ st o _ _ (Only.s _) (by simp)
  | .intervalDay .. => by
    rw [textTy]; exact only_textifyType hQ st o _ _ (Only.s _) (by simp [textIntParam, Only.s])
  | .intervalCompound .. => by
    rw [textTy]; exact only_textifyType hQ st o _ _ (Only.s _) (by simp [textIntParam, Only.s])
  | .len .. => by
    rw [textTy]; exact only_textifyType hQ st o _ _ (Only.s _) (by simp [textIntParam, Only.s])
  | .decimal .. => by
    rw [textTy]; exact only_textifyType hQ st o _ _ (Only.s _) (by simp [textIntParam, Only.s])
  | .prec .. => by
    rw [textTy]; exact only_textifyType hQ st o _ _ (Only.s _) (by simp [textIntParam, Only.s])
  | .struct ts _ _ => by
    rw [textTy]; exact only_textifyType hQ st o _ _ (Only.s _) (only_tys st o ts)
  | .list t _ _ => by
    rw [textTy]; exact only_textifyType hQ st o _ _ (Only.s _) (by simpa using only_tyOpt st o t)
  | .map a b _ _ => by
    have h1 := only_tyOpt st o a
    have h2 := only_tyOpt st o b
    rw [textTy]; exact only_textifyType hQ st o _ _ (Only.s _) (by simpa using ⟨h1, h2⟩)
  | .user r ps _ _ => by
    rw [textTy]; exact only_textifyType hQ st o _ _ (only_anchor hQ st o _ _) (only_params st o ps)
  | .userRef r => by
    rw [textTy]; exact only_textifyType hQ st o _ _ (only_anchor hQ st o _ _) (by simp)
theorem only_tyOpt (st : Store) (o : Opts) : (t : Option Ty) → Only Q (textTyOpt st o t)
  | none => by rw [textTyOpt]; exact Only.fail (hQ _ (by decide))
  | some t => by rw [textTyOpt]; exact only_ty st o t
theorem only_tys (st : Store) (o : Opts) : (l : List Ty) → ∀ p ∈ textTys st o l, Only Q p
  | [] => by simp [textTys]
  | t :: l => by
    have h1 := only_ty st o t
    have h2 := only_tys st o l
    rw [textTys]
    simp only [List.mem_cons, forall_eq_or_imp]
    exact ⟨h1, h2⟩
theorem only_param (st : Store) (o : Opts) : (p : Param) → Only Q (textParam st o p)
  | .missing => by rw [textParam]; exact Only.fail (hQ _ (by decide))
  | .null => by rw [textParam]; exact Only.s _
  | .bool true => by rw [textParam]; exact Only.s _
  | .bool false => by rw [textParam]; exact Only.s _
  | .int i => by rw [textParam]; exact Only.s _
  | .enum i => by rw [textParam]; exact Only.s _
  | .str i => by rw [textParam]; exact Only.s _
  | .ty t => by rw [textParam]; exact only_ty st o t
theorem only_params (st : Store) (o : Opts) : (l : List Param) → ∀ p ∈ textParams st o l, Only Q p
  | [] => by simp [textParams]
  | t :: l => by
    have h1 := only_param st o t
    have h2 := only_params st o l
    rw [textParams]
    simp only [List.mem_cons, forall_eq_or_imp]
    exact ⟨h1, h2⟩
end

theorem only_litFail : Only Q litFail := Only.fail (hQ _ (by decide))

theorem only_precLit [UTab] (p : Int) (x : Option Str) : Only Q (textPrecLit p x) := by
  unfold textPrecLit
  split
  · intro n hn
    simp only at hn
    split at hn
    · simp only [List.mem_singleton] at hn; subst hn; exact hQ _ (by decide)
    · cases hn
  · exact only_litFail hQ

theorem only_range (c : Prop) [Decidable c] : Only Q ⟨[], if c then [cs!"LiteralType"] else []⟩ := by
  intro n hn
  simp only at hn
  split at hn
  · simp only [List.mem_singleton] at hn; subst hn; exact hQ _ (by decide)
  · cases hn

theorem only_interval [UTab] (i : Interval) : Only Q (textInterval i) := by
  unfold textInterval
  split
  · exact only_litFail hQ
  · simp only
    split
    · split
      · exact (only_range hQ _).app (only_litFail hQ)
      · exact ((only_range hQ _).app (only_range hQ _)).app (Only.s _)
    · exact (only_range hQ _).app (Only.s _)

/-- Of literals only dates panic. -/
theorem only_lit [UTab] [FTab] (st : Store) (o : Opts) (l : Literal)
    (h : ∀ d ∈ litDates l, ¬ DayExists d → Q panicMark) : Only Q (textLit st o l) := by
  unfold textLit
  split
  · exact Only.fail (hQ _ (by decide))
  · exact ((Only.s _).app (Only.s _)).app (only_ty hQ st o _)
  · rename_i v hv _
    refine Only.app ?_ ?_
    · unfold textValue
      split
      all_goals first
        | exact Only.s _
        | exact only_precLit hQ _ _
        | exact only_interval hQ _
        | exact only_litFail hQ
        | skip
      rename_i d hv
      split
      · exact Only.s _
      · rename_i hd
        intro n hn
        simp only [Out.panic, List.mem_singleton] at hn
        subst hn
        refine h d ?_ ?_
        · unfold litDates; rw [hv]; exact List.mem_singleton.2 rfl
        · intro hc
          have h1 : minDays = -96465292 := by decide +kernel
          have h2 : maxDays = 95026236 := by decide +kernel
          unfold dateText at hd
          unfold DayExists at hc
          rw [h1, h2, if_pos hc] at hd
          cases hd
    · split
      · intro n hn; rw [textSuffix_errs] at hn; cases hn
      · exact Only.s _

theorem only_outType (st : Store) (o : Opts) (t : Option Ty) : Only Q (textOutType st o t) := by
  cases t with
  | none => exact Only.fail (hQ _ (by decide))
  | some t => exact (Only.s _).app (only_ty hQ st o t)

theorem only_tyReq (st : Store) (o : Opts) (t : Option Ty) : Only Q (textTyReq st o t) := by
  cases t with
  | none => exact Only.fail (hQ _ (by decide))
  | some t => exact only_ty hQ st o t

theorem only_behavior (i : Int) : Only Q (textBehavior i) := by
  unfold textBehavior
  repeat' split
  all_goals first | exact Only.s _ | exact Only.fail (hQ _ (by decide))

theorem only_invocation (st : Store) (o : Opts) (f : Nat) {args : List Out} (opts : List FOption)
    (h : ∀ a ∈ args, Only Q a) : Only Q (textInvocation st o f args (opts.map textOption)) := by
  refine (((((only_anchor hQ st o _ _).app (Only.s _)).app (Only.sep h)).app (Only.s _)).app (Only.sep ?_)).app (Only.s _)
  intro a ha
  obtain ⟨x, _, rfl⟩ := List.mem_map.1 ha
  exact Only.s _

mutual
/-- Of expressions only their dates panic. -/
theorem only_expr [UTab] [FTab] (st : Store) (o : Opts) : (e : Expr) →
    (∀ d ∈ exprDates e, ¬ DayExists d → Q panicMark) → Only Q (textExpr st o e)
  | .missing, _ => by rw [textExpr]; exact Only.fail (hQ _ (by decide))
  | .other, _ => by rw [textExpr]; exact Only.fail (hQ _ (by decide))
  | .literal l, h => by rw [textExpr]; rw [exprDates] at h; exact only_lit hQ st o l h
  | .selection f, _ => by
    rw [textExpr]
    cases f with
    | field i _ => exact Only.s _
    | badReference => exact Only.fail (hQ _ (by decide))
    | badSegment => exact Only.fail (hQ _ (by decide))
  | .call f args opts t, h => by
    rw [exprDates] at h
    rw [textExpr]
    exact (only_invocation hQ st o f opts (only_args st o args h)).app (only_outType hQ st o t)
  | .cast e t fb, h => by
    rw [exprDates] at h
    rw [textExpr]
    exact ((((Only.s _).app (only_exprReq st o e h)).app (Only.s _)).app (only_behavior hQ fb)).app
      (only_tyReq hQ st o t)
  | .ifThen cs e, h => by
    rw [exprDates] at h
    simp only [List.mem_append, or_imp, forall_and] at h
    rw [textExpr]
    exact ((((Only.s _).app (only_clauses st o cs h.1)).app (Only.s _)).app (only_exprReq st o e h.2)).app (Only.s _)
theorem only_exprReq [UTab] [FTab] (st : Store) (o : Opts) : (e : Option Expr) →
    (∀ d ∈ optDates e, ¬ DayExists d → Q panicMark) → Only Q (textExprReq st o e)
  | none, _ => by rw [textExprReq]; exact Only.fail (hQ _ (by decide))
  | some e, h => by rw [textExprReq]; rw [optDates] at h; exact only_expr st o e h
theorem only_args [UTab] [FTab] (st : Store) (o : Opts) : (l : List Arg) →
    (∀ d ∈ argsDates l, ¬ DayExists d → Q panicMark) → ∀ a ∈ textArgs st o l, Only Q a
  | [], _ => by simp [textArgs]
  | .missing :: l, h => by
    rw [argsDates] at h
    have h2 := only_args st o l h
    simp only [textArgs, textArg, List.mem_cons, forall_eq_or_imp]
    exact ⟨Only.fail (hQ _ (by decide)), h2⟩
    all_goals simp
  | .ty t :: l, h => by
    rw [argsDates] at h
    have h2 := only_args st o l h
    simp only [textArgs, textArg, List.mem_cons, forall_eq_or_imp]
    exact ⟨only_ty hQ st o t, h2⟩
    all_goals simp
  | .enum s :: l, h => by
    rw [argsDates] at h
    have h2 := only_args st o l h
    simp only [textArgs, textArg, List.mem_cons, forall_eq_or_imp]
    exact ⟨Only.s _, h2⟩
    all_goals simp
  | .value e :: l, h => by
    rw [argsDates] at h
    simp only [List.mem_append, or_imp, forall_and] at h
    have h1 := only_expr st o e h.1
    have h2 := only_args st o l h.2
    simp only [textArgs, textArg, List.mem_cons, forall_eq_or_imp]
    exact ⟨h1, h2⟩
theorem only_clauses [UTab] [FTab] (st : Store) (o : Opts) : (l : List Clause) →
    (∀ d ∈ clausesDates l, ¬ DayExists d → Q panicMark) → Only Q (textClauses st o l)
  | [], _ => by rw [textClauses]; exact Only.s _
  | .mk c t :: l, h => by
    rw [clausesDates] at h
    simp only [List.mem_append, or_imp, forall_and] at h
    have h1 := only_exprReq st o c h.1.1
    have h2 := only_exprReq st o t h.1.2
    have h3 := only_clauses st o l h.2
    rw [textClauses]
    exact (((h1.app (Only.s _)).app h2).app (Only.s _)).app h3
end

mutual
theorem only_value [UTab] [FTab] (st : Store) (o : Opts) : (v : ExtValue) →
    (∀ e ∈ valueExprs v, Only Q (textExpr st o e)) → Only Q (textExtValue st o v)
  | .string _, _ => by rw [textExtValue]; exact Only.s _
  | .integer _, _ => by rw [textExtValue]; exact Only.s _
  | .float _, _ => by rw [textExtValue]; exact Only.s _
  | .boolean _, _ => by rw [textExtValue]; exact Only.s _
  | .null, _ => by rw [textExtValue]; exact Only.s _
  | .enum _, _ => by rw [textExtValue]; exact Only.s _
  | .error _, _ => by rw [textExtValue]; exact Only.fail (hQ _ (by decide))
  | .expr e, h => by rw [textExtValue]; exact h e (by simp [valueExprs])
  | .tuple vs, h => by
    rw [valueExprs] at h
    have h1 := only_values st o vs h
    rw [textExtValue]
    refine ((Only.s _).app ?_).app (Only.s _)
    match vs, h1 with
    | [], _ => rw [textTupleItems]; exact Only.s _
    | [v], h1 =>
      rw [textTupleItems]
      exact (h1 _ (by simp [textExtValues])).app (Only.s _)
    | v :: w :: l, h1 =>
      rw [textTupleItems]
      refine ((h1 _ (by rw [textExtValues]; exact List.mem_cons_self)).app (Only.s _)).app (Only.sep fun a ha => h1 a ?_)
      rw [textExtValues]
      exact List.mem_cons_of_mem _ ha
theorem only_values [UTab] [FTab] (st : Store) (o : Opts) : (l : List ExtValue) →
    (∀ e ∈ valuesExprs l, Only Q (textExpr st o e)) → ∀ a ∈ textExtValues st o l, Only Q a
  | [], _ => by simp [textExtValues]
  | v :: l, h => by
    rw [valuesExprs] at h
    simp only [List.mem_append, or_imp, forall_and] at h
    have h1 := only_value st o v h.1
    have h2 := only_values st o l h.2
    simp only [textExtValues, List.mem_cons, forall_eq_or_imp]
    exact ⟨h1, h2⟩
end

theorem only_named [UTab] [FTab] (st : Store) (o : Opts) (l : List (Str × ExtValue))
    (h : ∀ e ∈ l.flatMap (fun p => valueExprs p.2), Only Q (textExpr st o e)) : ∀ a ∈ l.map (textNamed st o), Only Q a := by
  intro a ha
  obtain ⟨p, hp, rfl⟩ := List.mem_map.1 ha
  exact (Only.s _).app (only_value hQ st o p.2 fun e he => h e (List.mem_flatMap.2 ⟨p, hp, he⟩))

theorem only_columns [UTab] [FTab] (st : Store) (o : Opts) (l : List ExtColumn)
    (h : ∀ e ∈ l.flatMap columnExprs, Only Q (textExpr st o e)) : ∀ a ∈ l.map (textExtColumn st o), Only Q a := by
  intro a ha
  obtain ⟨c, hc, rfl⟩ := List.mem_map.1 ha
  cases c with
  | named n t => exact (Only.s _).app (only_ty hQ st o t)
  | expr e => exact h e (List.mem_flatMap.2 ⟨_, hc, by simp [columnExprs]⟩)

omit hQ in
theorem only_argList {pos named : List Out} (h : ∀ a ∈ pos, Only Q a) (k : ∀ a ∈ named, Only Q a) :
    Only Q (textArgList pos named) := by
  unfold textArgList
  split
  · exact Only.s _
  · refine Only.sep fun a ha => ?_
    exact (List.mem_append.1 ha).elim (h a) (k a)

theorem only_extArgs [UTab] [FTab] (st : Store) (o : Opts) (a : ExtArgs)
    (h : ∀ e ∈ argsExprs a, Only Q (textExpr st o e)) : Only Q (textExtArgs st o a) := by
  unfold argsExprs at h
  simp only [List.mem_append, or_imp, forall_and] at h
  unfold textExtArgs
  refine (only_argList (only_values hQ st o _ h.1.1) (only_named hQ st o _ h.1.2)).app ?_
  split
  · exact Only.s _
  · exact (Only.s _).app (Only.sep (only_columns hQ st o _ h.2))

theorem only_addendum [UTab] [FTab] (env : Env) (k : AddKind) (n : Ns) (d : AnyMsg)
    (h : ∀ e ∈ payloadExprs env.reg n [] d, Only Q (textExpr env.st env.o e)) :
    Only Q (textAddendum env.st env.o k (env.reg.decode n d [])) := by
  unfold payloadExprs at h
  unfold textAddendum
  cases hd : env.reg.decode n d [] with
  | error e => exact ((Only.s _).app (Only.fail (hQ _ (by decide)))).app (Only.s _)
  | ok r =>
    obtain ⟨name, a⟩ := r
    rw [hd] at h
    simp only
    split
    · exact ((Only.s _).app (only_extArgs hQ _ _ a h)).app (Only.s _)
    · exact ((Only.s _).app (Only.fail (hQ _ (by decide)))).app (Only.s _)

theorem only_adv [UTab] [FTab] (env : Env) (a : Option AdvExt)
    (h : ∀ e ∈ advExprs env a, Only Q (textExpr env.st env.o e)) : ∀ x ∈ advAddenda env a, Only Q x := by
  cases a with
  | none => simp [advAddenda]
  | some a =>
    unfold advExprs at h
    simp only [List.mem_append, or_imp, forall_and, payloads] at h
    simp only [advAddenda, List.mem_append]
    rintro x (hx | hx)
    · obtain ⟨d, hd, rfl⟩ := List.mem_map.1 hx
      exact only_addendum hQ env _ _ d fun e he => h.1 e (List.mem_flatMap.2 ⟨d, hd, he⟩)
    · obtain ⟨d, hd, rfl⟩ := List.mem_map.1 hx
      exact only_addendum hQ env _ _ d fun e he => h.2 e (List.mem_flatMap.2 ⟨d, hd, he⟩)

/-! ## Headers -/

/-- The values of the arguments of a header. -/
def HeadArgs.outs : HeadArgs → List Out
  | .none => []
  | .inline a b => a ++ b
  | .rows a b => a ++ b

/-- All parts of a header. -/
def OnlyHead (Q : Str → Prop) (h : Head) : Prop :=
  Only Q h.name ∧ (∀ a ∈ h.args.outs, Only Q a) ∧ (∀ a ∈ h.columns, Only Q a) ∧ ∀ a ∈ h.addenda, Only Q a

theorem only_implicit (o : Opts) {cols : List Out} (e : Option Emit) (h : ∀ a ∈ cols, Only Q a) :
    ∀ a ∈ implicitCols o cols e, Only Q a := by
  unfold implicitCols
  split
  · exact h
  · split
    · intro a ha
      obtain ⟨i, _, rfl⟩ := List.mem_map.1 ha
      refine Only.expect (hQ _ (by decide)) fun x hx => ?_
      unfold getCol at hx
      split at hx
      · cases hx
      · exact h x (List.mem_of_getElem? hx)
    · exact h
    · exact h

omit hQ in
theorem only_refs (m : List Int) : ∀ a ∈ m.map textRef, Only Q a := by
  intro a ha
  obtain ⟨i, _, rfl⟩ := List.mem_map.1 ha
  exact Only.s _

theorem only_output (o : Opts) {h : Head} (k : OnlyHead Q h) : Only Q (textOutput o h) := by
  unfold textOutput
  split
  · refine ((Only.s _).app (Only.sep k.2.2.1)).app ?_
    unfold textEmitSuffix
    split
    · exact (Only.s _).app (Only.sep (only_refs _))
    · exact Only.s _
  · exact (Only.s _).app (Only.sep (only_implicit hQ o _ k.2.2.1))

omit hQ in
theorem only_rows (pre : Str) (more : Bool) : ∀ {l : List Out}, (∀ a ∈ l, Only Q a) → Only Q (textRows pre more l) := by
  intro l h n hn
  rw [textRows_errs, List.mem_flatMap] at hn
  obtain ⟨a, ha, hn⟩ := hn
  exact h a ha n hn

theorem only_header (o : Opts) (lvl : Nat) {h : Head} (k : OnlyHead Q h) : Only Q (textHeader o lvl h) := by
  have hargs := k.2.1
  unfold textHeader
  simp only
  split
  · exact ((((Only.s _).app k.1).app (Only.s _)).app (Only.sep (only_implicit hQ o _ k.2.2.1))).app (Only.s _)
  · rename_i pos named hh
    simp only [hh, HeadArgs.outs, List.mem_append, or_imp, forall_and] at hargs
    exact ((((((Only.s _).app k.1).app (Only.s _)).app (only_argList hargs.1 hargs.2)).app (Only.s _)).app
      (only_output hQ o k)).app (Only.s _)
  · rename_i pos named hh
    simp only [hh, HeadArgs.outs, List.mem_append, or_imp, forall_and] at hargs
    exact (((((((Only.s _).app k.1).app (Only.s _)).app (only_rows _ _ hargs.1)).app (only_rows _ _ hargs.2)).app
      (Only.s _)).app (only_output hQ o k)).app (Only.s _)

omit hQ in
theorem only_references (n : Nat) : ∀ a ∈ references n, Only Q a := by
  intro a ha
  obtain ⟨i, _, rfl⟩ := List.mem_map.1 ha
  exact Only.s _

theorem only_variant {n : Str} (h : n ∈ errorNames) (x : Option Str) : Only Q (textVariant n x) := by
  cases x with
  | none => exact Only.fail (hQ _ h)
  | some x => exact Only.s _

theorem only_readColumns [UTab] (st : Store) (o : Opts) (s : Option NamedStruct) : ∀ a ∈ readColumns st o s, Only Q a := by
  cases s with
  | none => simpa [readColumns] using Only.fail (hQ _ (by decide))
  | some s =>
    intro a ha
    obtain ⟨f, _, rfl⟩ := List.mem_map.1 ha
    refine (((Only.expect (hQ _ (by decide)) fun x hx => ?_).app (Only.s _)).app (only_tyReq hQ st o _))
    obtain ⟨n, _, rfl⟩ := Option.map_eq_some_iff.1 hx
    exact Only.s _

omit hQ in
theorem only_tuple {l : List Out} (h : ∀ a ∈ l, Only Q a) : Only Q (textTuple l) :=
  ((Only.s _).app (Only.sep h)).app (Only.s _)

omit hQ in
theorem only_exprs [UTab] [FTab] {st : Store} {o : Opts} {l : List Expr} (h : ∀ e ∈ l, Only Q (textExpr st o e)) :
    ∀ a ∈ l.map (textExpr st o), Only Q a := by
  intro a ha
  obtain ⟨e, he, rfl⟩ := List.mem_map.1 ha
  exact h e he

theorem only_expectExpr [UTab] [FTab] {st : Store} {o : Opts} {n : Str} (hn : n ∈ errorNames) {x : Option Expr}
    (h : ∀ e ∈ x.toList, Only Q (textExpr st o e)) : Only Q (.expect n (x.map (textExpr st o))) := by
  refine Only.expect (hQ _ hn) fun a ha => ?_
  obtain ⟨e, rfl, rfl⟩ := Option.map_eq_some_iff.1 ha
  exact h e (by simp)

omit hQ in
theorem firstSeen_subset {e : Expr} : ∀ {seen l : List Expr}, e ∈ firstSeen seen l → e ∈ l := by
  intro seen l
  induction l generalizing seen with
  | nil => intro h; simp [firstSeen] at h
  | cons a l ih =>
    intro h
    rw [firstSeen] at h
    split at h
    · exact List.mem_cons_of_mem _ (ih h)
    · rcases List.mem_cons.1 h with rfl | h
      · exact List.mem_cons_self
      · exact List.mem_cons_of_mem _ (ih h)

/-- The header of a relation, of which only expressions panic. -/
theorem only_relHead [UTab] [FTab] (env : Env) (ws : List (Option Nat)) (op : RelOp)
    (h : ∀ e ∈ opExprs env ws op, Only Q (textExpr env.st env.o e)) : OnlyHead Q (relHead env ws op) := by
  cases op with
  | read c s f t a r =>
    simp only [opExprs, List.mem_append, or_imp, forall_and] at h
    have hc := only_readColumns hQ env.st env.o s
    have ha := only_adv hQ env a h.1
    cases t with
    | named names r =>
      refine ⟨Only.s _, ?_, hc, ha⟩
      simp only [relHead, headRead, HeadArgs.outs, List.append_nil, List.mem_singleton, forall_eq]
      refine Only.sep fun a ha => ?_
      obtain ⟨n, _, rfl⟩ := List.mem_map.1 ha
      exact Only.s _
    | virtual rows r =>
      have h2 := h.2
      simp only [List.mem_append, or_imp, forall_and] at h2
      refine ⟨Only.s _, ?_, hc, ha⟩
      have hp : ∀ x ∈ rows.map (fun r => textTuple (r.map (textExpr env.st env.o))), Only Q x := by
        intro x hx
        obtain ⟨row, hr, rfl⟩ := List.mem_map.1 hx
        exact only_tuple (only_exprs fun e he => h2.1 e (List.mem_flatten.2 ⟨row, hr, he⟩))
      have hn : ∀ x ∈ f.toList.map (fun e => textNamedArg cs!"filter" (textExpr env.st env.o e)), Only Q x := by
        intro x hx
        obtain ⟨e, he, rfl⟩ := List.mem_map.1 hx
        exact (Only.s _).app (h2.2 e he)
      intro x hx
      simp only [relHead, headRead] at hx
      have : x ∈ (if rows.map (fun r => textTuple (r.map (textExpr env.st env.o))) = [] ∧
          f.toList.map (fun e => textNamedArg cs!"filter" (textExpr env.st env.o e)) ≠ [] then [Out.s cs!"_"]
          else rows.map (fun r => textTuple (r.map (textExpr env.st env.o)))) ++
          f.toList.map (fun e => textNamedArg cs!"filter" (textExpr env.st env.o e)) := by
        split at hx <;> exact hx
      rcases List.mem_append.1 this with hx | hx
      · split at hx
        · simp only [List.mem_singleton] at hx; subst hx; exact Only.s _
        · exact hp x hx
      · exact hn x hx
    | extension d =>
      refine ⟨Only.s _, by simp [relHead, headRead, HeadArgs.outs], hc, ?_⟩
      intro x hx
      simp only [relHead, headRead, List.mem_cons] at hx
      rcases hx with rfl | hx
      · cases d with
        | none => exact ((Only.s _).app (Only.fail (hQ _ (by decide)))).app (Only.s _)
        | some d => exact only_addendum hQ env _ _ d (by simpa using h.2)
      · exact ha x hx
    | other =>
      refine ⟨Only.s _, ?_, hc, ha⟩
      simp only [relHead, headRead, HeadArgs.outs, List.append_nil, List.mem_singleton, forall_eq]
      exact Only.fail (hQ _ (by decide))
  | filter c e a =>
    simp only [opExprs, List.mem_append, or_imp, forall_and] at h
    refine ⟨Only.s _, ?_, only_references _, only_adv hQ env a h.1⟩
    simp only [relHead, HeadArgs.outs, List.append_nil, List.mem_singleton, forall_eq]
    exact only_expectExpr hQ (by decide) h.2
  | project c es a =>
    simp only [opExprs, List.mem_append, or_imp, forall_and] at h
    refine ⟨Only.s _, by simp [relHead, HeadArgs.outs], ?_, only_adv hQ env a h.1⟩
    intro x hx
    exact (List.mem_append.1 hx).elim (only_references _ x) (only_exprs h.2 x)
  | aggregate c g gs ms a =>
    simp only [opExprs, List.mem_append, or_imp, forall_and] at h
    obtain ⟨⟨⟨h1, h2⟩, h3⟩, h4⟩ := h
    have hv : (∀ x ∈ (groupingValues env.st env.o g gs).1, Only Q x) ∧
        ∀ l ∈ (groupingValues env.st env.o g gs).2, ∀ x ∈ l, Only Q x := by
      unfold groupingValues
      split
      · refine ⟨only_exprs fun e he => h3 e ?_, ?_⟩
        · have := firstSeen_subset he
          obtain ⟨l, hl, he⟩ := List.mem_flatten.1 this
          obtain ⟨y, hy, rfl⟩ := List.mem_map.1 hl
          exact List.mem_flatMap.2 ⟨y, hy, he⟩
        · intro l hl
          obtain ⟨y, hy, rfl⟩ := List.mem_map.1 hl
          exact only_exprs fun e he => h3 e (List.mem_flatMap.2 ⟨y, hy, he⟩)
      · refine ⟨only_exprs h2, ?_⟩
        simp only
        split
        · simp
        · intro l hl
          obtain ⟨y, hy, rfl⟩ := List.mem_map.1 hl
          intro x hx
          obtain ⟨i, _, rfl⟩ := List.mem_map.1 hx
          refine Only.expect (hQ _ (by decide)) fun z hz => ?_
          obtain ⟨e, he, rfl⟩ := Option.map_eq_some_iff.1 hz
          exact h2 e (List.mem_of_getElem? he)
    refine ⟨Only.s _, ?_, ?_, only_adv hQ env a h1⟩
    · simp only [relHead, headAggregate, HeadArgs.outs, List.append_nil]
      intro x hx
      unfold groupingArgs at hx
      split at hx
      · rename_i y hy
        split at hx
        · simp only [List.mem_singleton] at hx; subst hx; exact Only.s _
        · exact hv.2 y (by rw [hy]; simp) x hx
      · obtain ⟨y, hy, rfl⟩ := List.mem_map.1 hx
        split
        · exact Only.s _
        · exact only_tuple (hv.2 y hy)
    · intro x hx
      simp only [relHead, headAggregate] at hx
      rcases List.mem_append.1 hx with hx | hx
      · exact hv.1 x hx
      · obtain ⟨m, hm, hx⟩ := List.mem_filterMap.1 hx
        obtain ⟨f, hf, rfl⟩ := Option.map_eq_some_iff.1 hx
        have := h4 (aggCall f) (List.mem_map.2 ⟨f, List.mem_filterMap.2 ⟨m, hm, hf⟩, rfl⟩)
        rw [aggCall, textExpr] at this
        exact this
  | sort c l a =>
    simp only [opExprs, List.mem_append, or_imp, forall_and] at h
    refine ⟨Only.s _, ?_, only_references _, only_adv hQ env a h.1⟩
    simp only [relHead, HeadArgs.outs, List.append_nil]
    intro x hx
    obtain ⟨f, hf, rfl⟩ := List.mem_map.1 hx
    refine only_tuple ?_
    simp only [List.mem_cons, List.not_mem_nil, or_false, forall_eq_or_imp, forall_eq]
    refine ⟨only_expectExpr hQ (by decide) fun e he => h.2 e (List.mem_filterMap.2 ⟨f, hf, by simpa using he⟩), ?_⟩
    refine Only.expect (hQ _ (by decide)) fun z hz => ?_
    obtain ⟨k, _, rfl⟩ := Option.map_eq_some_iff.1 hz
    unfold textSortKind
    split
    · exact only_variant hQ (by decide) _
    · exact Only.fail (hQ _ (by decide))
    · exact Only.fail (hQ _ (by decide))
  | fetch c l o a =>
    simp only [opExprs, List.mem_append, or_imp, forall_and] at h
    refine ⟨Only.s _, ?_, only_references _, only_adv hQ env a h.1.1⟩
    have hcount : ∀ c : Count, (∀ e ∈ countExprs c, Only Q (textExpr env.st env.o e)) → Only Q (textCount env.st env.o c) := by
      intro c hc
      cases c with
      | deprecated i => exact Only.s _
      | expr e => exact hc e (by simp [countExprs])
    simp only [relHead, HeadArgs.outs, List.nil_append]
    intro x hx
    rcases List.mem_append.1 hx with hx | hx
    · obtain ⟨c, hc, rfl⟩ := List.mem_map.1 hx
      exact (Only.s _).app (hcount c fun e he => h.1.2 e (List.mem_flatMap.2 ⟨c, hc, he⟩))
    · obtain ⟨c, hc, rfl⟩ := List.mem_map.1 hx
      exact (Only.s _).app (hcount c fun e he => h.2 e (List.mem_flatMap.2 ⟨c, hc, he⟩))
  | join c t e p a =>
    simp only [opExprs, List.mem_append, or_imp, forall_and] at h
    refine ⟨Only.s _, ?_, only_references _, only_adv hQ env a h.1.1⟩
    simp only [relHead, HeadArgs.outs, List.mem_append, List.mem_cons, List.not_mem_nil, or_false]
    rintro x ((rfl | rfl) | hx)
    · unfold textJoinType
      split
      · exact only_variant hQ (by decide) _
      · exact Only.fail (hQ _ (by decide))
    · exact only_expectExpr hQ (by decide) h.1.2
    · obtain ⟨e, he, rfl⟩ := List.mem_map.1 hx
      exact (Only.s _).app (h.2 e he)
  | set c t a =>
    refine ⟨Only.s _, ?_, only_references _, only_adv hQ env a h⟩
    simp only [relHead, HeadArgs.outs, List.append_nil, List.mem_singleton, forall_eq]
    unfold textSetOp
    split
    · exact only_variant hQ (by decide) _
    · exact Only.fail (hQ _ (by decide))
  | cross c a => exact ⟨Only.s _, by simp [relHead, HeadArgs.outs], only_references _, only_adv hQ env a h⟩
  | ext k c d =>
    simp only [relHead, headExt]
    split
    · rename_i name args hd
      cases d with
      | none => cases hd
      | some d =>
        simp only [decodeRel] at hd
        simp only [opExprs, Option.toList_some, List.flatMap_cons, List.flatMap_nil, List.append_nil, payloadExprs, hd,
          argsExprs, List.mem_append, or_imp, forall_and] at h
        refine ⟨Only.s _, ?_, only_columns hQ _ _ _ h.2, by simp⟩
        intro x hx
        exact (List.mem_append.1 hx).elim (only_values hQ _ _ _ h.1.1 x) (only_named hQ _ _ _ h.1.2 x)
    · exact ⟨Only.s _, by simp [HeadArgs.outs], by simpa using Only.fail (hQ _ (by decide)), by simp⟩
  | other r => exact ⟨Only.fail (hQ _ (by decide)), by simp [relHead, HeadArgs.outs], by simp [relHead], by simp [relHead]⟩

omit hQ in
theorem only_addenda (pre : Str) : ∀ {l : List Out}, (∀ a ∈ l, Only Q a) → Only Q (textAddenda pre l)
  | [], _ => Only.s _
  | a :: l, h => by
    rw [textAddenda]
    exact ((Only.s _).app (h a List.mem_cons_self)).app (only_addenda pre fun x hx => h x (List.mem_cons_of_mem _ hx))

mutual
theorem only_rel [UTab] [FTab] {env : Env} (hst : env.st.Ordered) (lvl : Nat) : (r : Rel) →
    (∀ e ∈ relExprs env r, Only Q (textExpr env.st env.o e)) → Only Q (textRel env lvl r)
  | .node op ins, h => by
    rw [relExprs] at h
    simp only [List.mem_append, or_imp, forall_and] at h
    have hi := only_inputs hst (lvl + 1) ins h.2
    have hh := only_relHead hQ env _ op h.1
    rw [textRel, inputWidths_written hst]
    refine ((only_header hQ _ lvl hh).app (only_addenda _ hh.2.2.2)).app ?_
    split
    · exact hi
    · exact Only.s _
theorem only_inputs [UTab] [FTab] {env : Env} (hst : env.st.Ordered) (lvl : Nat) : (l : List (Option Rel)) →
    (∀ e ∈ relsExprs env l, Only Q (textExpr env.st env.o e)) → Only Q (textInputs env lvl l)
  | [], _ => by rw [textInputs]; exact Only.s _
  | none :: l, h => by rw [textInputs]; rw [relsExprs] at h; exact only_inputs hst lvl l h
  | some r :: l, h => by
    rw [relsExprs] at h
    simp only [List.mem_append, or_imp, forall_and] at h
    have h1 := only_rel hst lvl r h.1
    have h2 := only_inputs hst lvl l h.2
    rw [textInputs]
    exact ((Only.s _).app h1).app h2
end

theorem only_top [UTab] [FTab] {env : Env} (hst : env.st.Ordered) (r : PlanRel)
    (h : ∀ e ∈ topExprs env r, Only Q (textExpr env.st env.o e)) : Only Q (textPlanRel env r) := by
  cases r with
  | rel r => exact only_rel hQ hst 0 r h
  | root names input =>
    cases input with
    | none => exact (Only.s _).app (Only.s _)
    | some r => exact (Only.s _).app ((Only.s _).app (only_rel hQ hst 1 r h))
  | missing => exact Only.fail (hQ _ (by decide))

theorem only_tops [UTab] [FTab] {env : Env} (hst : env.st.Ordered) : ∀ {l : List PlanRel},
    (∀ e ∈ l.flatMap (topExprs env), Only Q (textExpr env.st env.o e)) → Only Q (textPlanRels env l)
  | [], _ => Only.s _
  | [r], h => by rw [textPlanRels]; exact only_top hQ hst r (by simpa using h)
  | r :: x :: l, h => by
    rw [List.flatMap_cons] at h
    simp only [List.mem_append, or_imp, forall_and] at h
    rw [textPlanRels]
    exact ((only_top hQ hst r h.1).app (Only.s _)).app (only_tops hst h.2)

/-- A whole plan. -/
theorem only_plan [UTab] [FTab] (reg : Registry ExtArgs (List Nat)) (o : Opts) (p : Plan)
    (h : ∀ d ∈ planDates reg o p, ¬ DayExists d → Q panicMark) : Only Q (textPlan reg o p) := by
  have hst : (run (history p)).Ordered := Store.ordered_run _
  unfold textPlan
  simp only
  refine ((((((?_ : Only Q _).app (Only.s _)).app (Only.s _)).app (Only.s _)).app (Only.s _)).app ?_).app (Only.s _)
  · intro n hn
    obtain ⟨e, _, rfl⟩ := List.mem_map.1 hn
    refine hQ _ ?_
    cases e <;> (simp only [InsertError.token]; decide)
  · rw [plan_store]
    refine only_tops hQ hst fun e he => only_expr hQ _ _ e fun d hd => h d ?_
    exact List.mem_flatMap.2 ⟨e, he, hd⟩

end

/-! ## Dates that do not exist -/

mutual
theorem expr_panics [UTab] [FTab] (st : Store) (o : Opts) : (e : Expr) → ∀ d ∈ exprDates e, ¬ DayExists d →
    panicMark ∈ (textExpr st o e).errs
  | .missing, _, h, _ => by simp [exprDates] at h
  | .other, _, h, _ => by simp [exprDates] at h
  | .selection _, _, h, _ => by simp [exprDates] at h
  | .literal l, d, h, hd => by
    rw [exprDates] at h
    obtain ⟨v, n, t⟩ := l
    unfold litDates at h
    rw [textExpr]
    split at h
    · rename_i y hv
      simp only at hv
      subst hv
      simp only [List.mem_singleton] at h
      subst h
      have h1 : minDays = -96465292 := by decide +kernel
      have h2 : maxDays = 95026236 := by decide +kernel
      have : dateText d = none := by
        unfold dateText
        rw [h1, h2]
        exact if_neg hd
      simp [textLit, textValue, this, Out.panic]
    · cases h
  | .call f args opts t, d, h, hd => by
    rw [exprDates] at h
    have := args_panic st o args d h hd
    rw [textExpr]
    simp only [textInvocation, Out.errs_append, Out.errs_sep, List.mem_append]
    exact .inl (.inl (.inl (.inl (.inr this))))
  | .cast e t fb, d, h, hd => by
    rw [exprDates] at h
    have := opt_panics st o e d h hd
    rw [textExpr]
    simp only [Out.errs_append, List.mem_append]
    exact .inl (.inl (.inl (.inr this)))
  | .ifThen cs e, d, h, hd => by
    rw [exprDates] at h
    rw [textExpr]
    simp only [Out.errs_append, List.mem_append]
    rcases List.mem_append.1 h with h | h
    · exact .inl (.inl (.inl (.inr (clauses_panic st o cs d h hd))))
    · exact .inl (.inr (opt_panics st o e d h hd))
theorem opt_panics [UTab] [FTab] (st : Store) (o : Opts) : (e : Option Expr) → ∀ d ∈ optDates e, ¬ DayExists d →
    panicMark ∈ (textExprReq st o e).errs
  | none, _, h, _ => by simp [optDates] at h
  | some e, d, h, hd => by rw [optDates] at h; rw [textExprReq]; exact expr_panics st o e d h hd
theorem args_panic [UTab] [FTab] (st : Store) (o : Opts) : (l : List Arg) → ∀ d ∈ argsDates l, ¬ DayExists d →
    panicMark ∈ (textArgs st o l).flatMap Out.errs
  | [], _, h, _ => by simp [argsDates] at h
  | .missing :: l, d, h, hd => by
    rw [argsDates] at h
    · rw [textArgs, List.flatMap_cons, List.mem_append]; exact .inr (args_panic st o l d h hd)
    all_goals simp
  | .ty _ :: l, d, h, hd => by
    rw [argsDates] at h
    · rw [textArgs, List.flatMap_cons, List.mem_append]; exact .inr (args_panic st o l d h hd)
    all_goals simp
  | .enum _ :: l, d, h, hd => by
    rw [argsDates] at h
    · rw [textArgs, List.flatMap_cons, List.mem_append]; exact .inr (args_panic st o l d h hd)
    all_goals simp
  | .value e :: l, d, h, hd => by
    rw [argsDates] at h
    rw [textArgs, List.flatMap_cons, List.mem_append, textArg]
    exact (List.mem_append.1 h).imp (fun h => expr_panics st o e d h hd) fun h => args_panic st o l d h hd
theorem clauses_panic [UTab] [FTab] (st : Store) (o : Opts) : (l : List Clause) → ∀ d ∈ clausesDates l, ¬ DayExists d →
    panicMark ∈ (textClauses st o l).errs
  | [], _, h, _ => by simp [clausesDates] at h
  | .mk c t :: l, d, h, hd => by
    rw [clausesDates] at h
    rw [textClauses]
    simp only [Out.errs_append, List.mem_append]
    rcases List.mem_append.1 h with h | h
    · rcases List.mem_append.1 h with h | h
      · exact .inl (.inl (.inl (.inl (opt_panics st o c d h hd))))
      · exact .inl (.inl (.inr (opt_panics st o t d h hd)))
    · exact .inr (clauses_panic st o l d h hd)
end

end Verif
