import Verif.Spec.Scope
import Verif.Proofs.RelConv
/-!
# Conversion does not look at the numbers of references
-/

namespace Verif

set_option autoImplicit false

open ScopeSpec RelSpec

/-! ## Expressions with other references -/

section
variable {g : Int → Int} (hg : ∀ a b, g a = g b → a = b)
include hg

mutual
theorem moveExpr_inj : (a b : Expr) → moveExpr g a = moveExpr g b → a = b
  | .missing, b, h => by
    cases b <;> first | rfl | (simp only [moveExpr] at h; cases h) | skip
    rename_i s; cases s <;> (simp only [moveExpr] at h; cases h)
  | .literal l, b, h => by
    cases b <;> first | (simp only [moveExpr] at h; cases h; done) | (simp only [moveExpr] at h; cases h; rfl) | skip
    rename_i s; cases s <;> (simp only [moveExpr] at h; cases h)
  | .selection s, b, h => by
    cases b with
    | selection t =>
      cases s <;> cases t <;> simp only [moveExpr] at h <;> first | rfl | (cases h; done) | skip
      injection h with h; injection h with h1 h2
      rw [hg _ _ h1, h2]
    | _ => cases s <;> (simp only [moveExpr] at h; cases h)
  | .call f args os t, b, h => by
    cases b with
    | call f' args' os' t' =>
      simp only [moveExpr] at h
      injection h with h1 h2 h3 h4
      rw [h1, moveArgs_inj args args' h2, h3, h4]
    | selection s => cases s <;> (simp only [moveExpr] at h; cases h)
    | _ => simp only [moveExpr] at h; cases h
  | .cast e t fb, b, h => by
    cases b with
    | cast e' t' fb' =>
      simp only [moveExpr] at h
      injection h with h1 h2 h3
      rw [moveOpt_inj e e' h1, h2, h3]
    | selection s => cases s <;> (simp only [moveExpr] at h; cases h)
    | _ => simp only [moveExpr] at h; cases h
  | .ifThen cs e, b, h => by
    cases b with
    | ifThen cs' e' =>
      simp only [moveExpr] at h
      injection h with h1 h2
      rw [moveClauses_inj cs cs' h1, moveOpt_inj e e' h2]
    | selection s => cases s <;> (simp only [moveExpr] at h; cases h)
    | _ => simp only [moveExpr] at h; cases h
  | .other, b, h => by
    cases b <;> first | rfl | (simp only [moveExpr] at h; cases h) | skip
    rename_i s; cases s <;> (simp only [moveExpr] at h; cases h)
theorem moveOpt_inj : (a b : Option Expr) → moveOpt g a = moveOpt g b → a = b
  | none, none, _ => rfl
  | none, some _, h => by simp only [moveOpt] at h; cases h
  | some _, none, h => by simp only [moveOpt] at h; cases h
  | some a, some b, h => by
    simp only [moveOpt] at h
    injection h with h
    rw [moveExpr_inj a b h]
theorem moveArgs_inj : (a b : List Arg) → moveArgs g a = moveArgs g b → a = b
  | [], [], _ => rfl
  | [], y :: m, h => by cases y <;> (simp only [moveArgs] at h; cases h)
  | x :: l, [], h => by cases x <;> (simp only [moveArgs] at h; cases h)
  | .value e :: l, .value e' :: m, h => by
    simp only [moveArgs] at h
    injection h with h1 h2; injection h1 with h1
    rw [moveExpr_inj e e' h1, moveArgs_inj l m h2]
  | .value e :: l, .missing :: m, h => by simp only [moveArgs] at h; injection h with h; cases h
  | .value e :: l, .ty t :: m, h => by simp only [moveArgs] at h; injection h with h; cases h
  | .value e :: l, .enum s :: m, h => by simp only [moveArgs] at h; injection h with h; cases h
  | .missing :: l, y :: m, h => by
    cases y <;> simp only [moveArgs] at h <;> injection h with h1 h2 <;> first | (cases h1; done) | skip
    rw [moveArgs_inj l m h2]
  | .ty t :: l, y :: m, h => by
    cases y <;> simp only [moveArgs] at h <;> injection h with h1 h2 <;> first | (cases h1; done) | skip
    rw [h1, moveArgs_inj l m h2]
  | .enum s :: l, y :: m, h => by
    cases y <;> simp only [moveArgs] at h <;> injection h with h1 h2 <;> first | (cases h1; done) | skip
    rw [h1, moveArgs_inj l m h2]
theorem moveClauses_inj : (a b : List Clause) → moveClauses g a = moveClauses g b → a = b
  | [], [], _ => rfl
  | [], .mk _ _ :: m, h => by simp only [moveClauses] at h; cases h
  | .mk _ _ :: l, [], h => by simp only [moveClauses] at h; cases h
  | .mk c t :: l, .mk c' t' :: m, h => by
    simp only [moveClauses] at h
    injection h with h1 h2; injection h1 with h1 h3
    rw [moveOpt_inj c c' h1, moveOpt_inj t t' h3, moveClauses_inj l m h2]
end

end


/-! ## Two conversions that end alike -/

/-- Both succeed with related results, or both fail alike. -/
def Both {ε α β : Type} (R : α → β → Prop) : Res ε α → Res ε β → Prop
  | .ok a, .ok b => R a b
  | .err e, .err e' => e = e'
  | .panic, .panic => True
  | _, _ => False

namespace Both
variable {ε α β γ δ : Type} {R : α → β → Prop} {S : γ → δ → Prop}

theorem bind {x : Res ε α} {y : Res ε β} (h : Both R x y) {k : α → Res ε γ} {l : β → Res ε δ}
    (hk : ∀ a b, R a b → Both S (k a) (l b)) : Both S (x.bind k) (y.bind l) := by
  cases x <;> cases y <;> first | exact hk _ _ h | exact h | exact h.elim

theorem of_map {x : Res ε α} {y : Res ε β} {k : α → β} (h : y = x.map k) : Both (fun a b => b = k a) x y := by
  subst h; cases x <;> first | exact rfl | trivial

theorem imp {R' : α → β → Prop} {x : Res ε α} {y : Res ε β} (h : Both R x y) (hR : ∀ a b, R a b → R' a b) :
    Both R' x y := by
  cases x <;> cases y <;> first | exact hR _ _ h | exact h | exact h.elim

theorem refl {R : α → α → Prop} (hR : ∀ a, R a a) (x : Res ε α) : Both R x x := by
  cases x <;> first | exact hR _ | exact rfl | trivial

end Both

theorem Both.plain {α β : Type} {R : α → β → Prop} {x : Res Err α} {y : Res Err β} (h : Both R x y) :
    Both R (Verif.plain x) (Verif.plain y) := by
  cases x <;> cases y <;> first | exact h | exact h.elim | exact congrArg _ h

theorem Both.dropPanics {α β : Type} {R : α → β → Prop} {x : Res Err α} {y : Res Err β} (h : Both R x y) :
    Both R (Verif.dropPanics x) (Verif.dropPanics y) := by
  cases x <;> cases y <;> first | exact h | exact h.elim | trivial

section
variable [FTab] {f : IntTok → IntTok} {g : Int → Int} (h : Moves f g) (st : Store)
include h

omit [FTab] in
theorem convIndex_move (i : IntTok) : convIndex (f i) = (convIndex i).map g := by
  unfold convIndex
  rw [h.value]
  cases i.toI32 <;> rfl

mutual
theorem convExpr_move : (s : SExpr) → convExpr st (expr f s) = (convExpr st s).map (moveExpr g)
  | .lit l => by
    simp only [ScopeSpec.expr, convExpr]
    cases convLit st l <;> rfl
  | .ref i => by
    simp only [ScopeSpec.expr, convExpr, convIndex_move h]
    cases convIndex i <;> rfl
  | .call n a u args t => by
    simp only [ScopeSpec.expr, convExpr, convArgs_move args]
    cases unwrapU32 a <;> try rfl
    cases unwrapU32 u <;> try rfl
    cases convArgs st args <;> try rfl
    cases convTy st t <;> try rfl
    rename_i a _ _ _
    simp only [Res.bind, Res.map]
    cases ofLookup (st.getAndValidateAnchor .function a n) <;> rfl
  | .cast e fb t => by
    simp only [ScopeSpec.expr, convExpr, convExpr_move e]
    cases convExpr st e <;> try rfl
    cases convTy st t <;> rfl
  | .ifThen cs e => by
    simp only [ScopeSpec.expr, convExpr, convExpr_move e, convClauses_move cs]
    cases convClauses st cs <;> try rfl
    cases convExpr st e <;> rfl
theorem convArgs_move : (l : List SExpr) → convArgs st (exprs f l) = (convArgs st l).map (moveArgs g)
  | [] => rfl
  | e :: l => by
    simp only [ScopeSpec.exprs, convArgs, convExpr_move e, convArgs_move l]
    cases convExpr st e <;> try rfl
    cases convArgs st l <;> rfl
theorem convClauses_move : (l : List (SExpr × SExpr)) → convClauses st (clauses f l) = (convClauses st l).map (moveClauses g)
  | [] => rfl
  | (c, r) :: l => by
    simp only [ScopeSpec.clauses, convClauses, convExpr_move c, convExpr_move r, convClauses_move l]
    cases convExpr st c <;> try rfl
    cases convExpr st r <;> try rfl
    cases convClauses st l <;> rfl
end

theorem convExprs_move (l : List SExpr) : convExprs st (l.map (expr f)) = (convExprs st l).map (List.map (moveExpr g)) := by
  induction l with
  | nil => rfl
  | cons e l ih =>
    simp only [List.map_cons, convExprs, convExpr_move h, ih]
    cases convExpr st e <;> try rfl
    cases convExprs st l <;> rfl

theorem convExprLists_move (l : List (List SExpr)) :
    convExprLists st (l.map fun s => s.map (expr f)) = (convExprLists st l).map (List.map (List.map (moveExpr g))) := by
  induction l with
  | nil => rfl
  | cons e l ih =>
    simp only [List.map_cons, convExprLists, convExprs_move h, ih]
    cases convExprs st e <;> try rfl
    cases convExprLists st l <;> rfl

theorem convOpt_move (e : Option SExpr) :
    convOpt (convExpr st) (e.map (expr f)) = (convOpt (convExpr st) e).map (Option.map (moveExpr g)) := by
  cases e with
  | none => rfl
  | some e =>
    simp only [Option.map_some, convOpt, convExpr_move h]
    cases convExpr st e <;> rfl

omit [FTab] in
theorem convRefs_move (l : List IntTok) : convRefs (l.map f) = (convRefs l).map (List.map g) := by
  induction l with
  | nil => rfl
  | cons i l ih =>
    simp only [List.map_cons, convRefs, convIndex_move h, ih]
    cases convIndex i <;> try rfl
    cases convRefs l <;> rfl

omit [FTab] in
theorem convEmit_move (l : List IntTok) (n : Nat) :
    Both (fun a b => a.2 = b.2) (convEmit l n) (convEmit (l.map f) n) := by
  unfold convEmit
  refine (Both.of_map (convRefs_move h l)).bind fun a b hb => ?_
  subst hb
  exact (List.length_map _).symm

theorem convProj_move (n : Nat) (l : List SProj) : ∀ k, Both (fun a b => a.2.length = b.2.length)
    (convProj st n k l) (convProj st n k (l.map (proj f))) := by
  induction l with
  | nil => intro k; exact rfl
  | cons p l ih =>
    intro k
    cases p with
    | ref i =>
      simp only [List.map_cons, proj, convProj]
      refine (Both.of_map (convIndex_move h i)).plain.bind fun a b _ => (ih k).bind fun r q hr => ?_
      exact congrArg (· + 1) hr
    | expr e =>
      simp only [List.map_cons, proj, convProj]
      refine (Both.of_map (convExpr_move h st e)).plain.bind fun a b _ => (ih (k + 1)).bind fun r q hr => ?_
      exact congrArg (· + 1) hr

omit [FTab] in
theorem posOf_move (e : Expr) (l : List Expr) : posOf (moveExpr g e) (l.map (moveExpr g)) = posOf e l := by
  induction l with
  | nil => rfl
  | cons d l ih =>
    simp only [List.map_cons, posOf, ih]
    by_cases hd : d = e
    · simp [hd]
    · have : moveExpr g d ≠ moveExpr g e := fun x => hd (moveExpr_inj h.inj d e x)
      simp [hd, this]

omit [FTab] in
theorem internSet_move (l : List Expr) : ∀ es, (internSet (es.map (moveExpr g)) (l.map (moveExpr g))).2 =
    (internSet es l).2.map (moveExpr g) := by
  induction l with
  | nil => intro es; rfl
  | cons e l ih =>
    intro es
    simp only [List.map_cons, internSet, posOf_move h]
    cases posOf e es with
    | some i => exact ih es
    | none =>
      have := ih (es ++ [e])
      simpa using this

omit [FTab] in
theorem internSets_move (l : List (List Expr)) : ∀ es,
    (internSets (es.map (moveExpr g)) (l.map (List.map (moveExpr g)))).2 = (internSets es l).2.map (moveExpr g) := by
  induction l with
  | nil => intro es; rfl
  | cons s l ih =>
    intro es
    simp only [List.map_cons, internSets, internSet_move h]
    exact ih _

omit [FTab] h in
theorem isCall_move (s : SExpr) : (expr f s).isCall = s.isCall := by
  cases s <;> simp only [ScopeSpec.expr, SExpr.isCall]

theorem convOuts_move (es : List Expr) (l : List SExpr) : ∀ k, Both (fun a b => a.2.length = b.2.length)
    (convOuts st es k l) (convOuts st (es.map (moveExpr g)) k (l.map (expr f))) := by
  induction l with
  | nil => intro k; exact rfl
  | cons s l ih =>
    intro k
    simp only [List.map_cons, convOuts]
    refine (Both.of_map (convExpr_move h st s)).plain.bind fun a b hb => ?_
    subst hb
    rw [posOf_move h, isCall_move]
    cases posOf a es with
    | some i => exact (ih k).bind fun r q hr => congrArg (· + 1) hr
    | none =>
      simp only []
      split
      · rw [List.length_map]
        exact (ih (k + 1)).bind fun r q hr => congrArg (· + 1) hr
      · exact rfl

theorem convGroup_move (x : SGroup) : convGroup st (group f x) = (convGroup st x).map (List.map (List.map (moveExpr g))) := by
  cases x with
  | exprs l =>
    simp only [group, convGroup, convExprs_move h]
    cases convExprs st l <;> rfl
  | sets l => exact convExprLists_move h st l

theorem convSortFields_move (l : List (SExpr × Str)) :
    Both (fun _ _ => True) (convSortFields st l) (convSortFields st (l.map fun p => (expr f p.1, p.2))) := by
  induction l with
  | nil => trivial
  | cons x l ih =>
    simp only [List.map_cons, convSortFields]
    refine Both.bind (R := fun _ _ => True) ?_ fun _ _ _ => ih.bind fun _ _ _ => trivial
    unfold convSortField
    refine (Both.of_map (convExpr_move h st x.1)).dropPanics.bind fun a b hb => ?_
    dsimp only
    cases SortDir.ofName (trimAmp x.2)
    · exact rfl
    · trivial

omit [FTab] h in
theorem fetchArg_move (l : List (Str × SFetch)) (n : Str) :
    fetchArg (l.map fun p => (p.1, fetch f p.2)) n = (fetchArg l n).map (fetch f) := by
  induction l with
  | nil => rfl
  | cons x l ih =>
    obtain ⟨k, v⟩ := x
    simp only [List.map_cons, fetchArg]
    split
    · rfl
    · exact ih

theorem convFetch_move (x : Option SFetch) : Both (fun _ _ => True)
    (convOptR (convFetchValue st) x) (convOptR (convFetchValue st) (x.map (fetch f))) := by
  cases x with
  | none => trivial
  | some v =>
    simp only [Option.map_some, convOptR]
    refine Both.bind (R := fun _ _ => True) ?_ fun _ _ _ => trivial
    cases v with
    | int i => exact Both.refl (fun _ => trivial) _
    | expr e =>
      simp only [fetch, convFetchValue]
      exact (Both.of_map (convExpr_move h st e)).plain.bind fun _ _ _ => trivial

omit [FTab] in
theorem convOutput_move (o : SOutput) : Both (fun a b => a.2.2 = b.2.2) (convOutput st o) (convOutput st (output f o)) := by
  cases o with
  | implicit cols => exact Both.refl (R := fun a b => a.2.2 = b.2.2) (fun _ => rfl) (convOutput st (.implicit cols))
  | direct cols refs =>
    simp only [output, convOutput]
    refine (Both.refl (R := fun a b => a = b) (fun _ => rfl) _).bind fun a b hb => ?_
    subst hb
    cases refs with
    | none => exact rfl
    | some l =>
      refine (Both.of_map (convRefs_move h l)).bind fun m m' hm => ?_
      subst hm
      exact (List.length_map _).symm

omit [FTab] h in
theorem both_oneChild {kids kids' : List Rel} (hk : kids.length = kids'.length) :
    Both (fun _ _ => True) (oneChild kids) (oneChild kids') := by
  match kids, kids', hk with
  | [], [], _ => exact rfl
  | [_], [_], _ => trivial
  | _ :: _ :: _, _ :: _ :: _, _ => exact rfl

theorem convBody_move (adv : Option AdvExt) {kids kids' : List Rel} (hk : kids.length = kids'.length) (n : Nat) (l : SLine) :
    Both (fun a b => a.2 = b.2) (convBody st adv kids n l) (convBody st adv kids' n (line f l)) := by
  have hnil : (kids ≠ []) = (kids' ≠ []) := by
    cases kids <;> cases kids' <;> simp at hk ⊢
  cases l with
  | root ns => trivial
  | readExt cols => trivial
  | set op refs => trivial
  | ext k nm a cols => trivial
  | read t o =>
    simp only [line, convBody, hnil]
    split
    · exact rfl
    · split
      · exact rfl
      · exact (convOutput_move h st o).bind fun a b hb => hb
  | readVirtual rows c cols =>
    simp only [line, convBody, hnil]
    split
    · exact rfl
    · refine (Both.of_map (convOpt_move h st c)).dropPanics.bind fun _ _ _ => ?_
      refine (Both.of_map (convExprLists_move h st rows)).plain.bind fun _ _ _ => ?_
      refine (Both.refl (R := fun a b => a = b) (fun _ => rfl) _).bind fun a b hb => ?_
      subst hb
      exact rfl
  | filter c refs =>
    simp only [line, convBody]
    exact (both_oneChild hk).bind fun _ _ _ => (Both.of_map (convExpr_move h st c)).dropPanics.bind fun _ _ _ =>
      (convEmit_move h refs n).bind fun _ _ hb => hb
  | project items =>
    simp only [line, convBody]
    exact (both_oneChild hk).bind fun _ _ _ => (convProj_move h st n items 0).bind fun _ _ hb => hb
  | aggregate x outs =>
    simp only [line, convBody]
    refine (both_oneChild hk).bind fun _ _ _ => (Both.of_map (convGroup_move h st x)).plain.bind fun a b hb => ?_
    subst hb
    have := internSets_move h a []
    rw [List.map_nil] at this
    rw [this]
    exact (convOuts_move h st _ outs 0).bind fun _ _ hb => hb
  | sort l refs =>
    simp only [line, convBody]
    exact (both_oneChild hk).bind fun _ _ _ => (convSortFields_move h st l).bind fun _ _ _ =>
      (convEmit_move h refs n).bind fun _ _ hb => hb
  | fetch l refs =>
    simp only [line, convBody, List.map_map]
    refine (both_oneChild hk).bind fun _ _ _ => ?_
    have : (Prod.fst ∘ fun (p : Str × SFetch) => (p.1, ScopeSpec.fetch f p.2)) = Prod.fst := rfl
    rw [this]
    split
    · trivial
    · refine (convEmit_move h refs n).bind fun _ _ hb => ?_
      rw [fetchArg_move, fetchArg_move]
      exact (convFetch_move h st _).bind fun _ _ _ => (convFetch_move h st _).bind fun _ _ _ => hb
  | join t c p refs =>
    simp only [line, convBody]
    match kids, kids', hk with
    | [], [], _ => exact rfl
    | [_], [_], _ => exact rfl
    | [a, b], [a', b'], _ =>
      refine (Both.refl (R := fun a b => a = b) (fun _ => rfl) _).bind fun _ _ _ => ?_
      exact (Both.of_map (convExpr_move h st c)).dropPanics.bind fun _ _ _ =>
        (Both.of_map (convOpt_move h st p)).dropPanics.bind fun _ _ _ =>
          (convEmit_move h refs n).bind fun _ _ hb => hb
    | _ :: _ :: _ :: _, _ :: _ :: _ :: _, _ => exact rfl
  | cross refs =>
    simp only [line, convBody]
    match kids, kids', hk with
    | [], [], _ => exact rfl
    | [_], [_], _ => exact rfl
    | [a, b], [a', b'], _ => exact (convEmit_move h refs n).bind fun _ _ hb => hb
    | _ :: _ :: _ :: _, _ :: _ :: _ :: _, _ => exact rfl

theorem convLine_move (reg : Registry ExtArgs (List Nat)) (as : List Addendum) {kids kids' : List (Rel × Nat)}
    (hk : kids.map (·.2) = kids'.map (·.2)) (l : SLine) :
    Both (fun a b => a.2 = b.2) (convLine st reg as kids l) (convLine st reg as kids' (line f l)) := by
  have hlen : (kids.map (·.1)).length = (kids'.map (·.1)).length := by
    have := congrArg List.length hk
    simpa using this
  have hnil : (kids.map (·.1) ≠ []) = (kids'.map (·.1) ≠ []) := by
    cases kids <;> cases kids' <;> simp at hlen ⊢
  have body : ∀ m : SLine, Both (fun a b => a.2 = b.2)
      ((standardAdv reg as).bind fun adv => convBody st adv (kids.map (·.1)) (kids.map (·.2)).sum m)
      ((standardAdv reg as).bind fun adv => convBody st adv (kids'.map (·.1)) (kids'.map (·.2)).sum (line f m)) := by
    intro m
    refine (Both.refl (R := fun a b => a = b) (fun _ => rfl) _).bind fun a b hb => ?_
    subst hb
    rw [← hk]
    exact convBody_move h st a hlen _ m
  cases l with
  | set op refs =>
    simp only [line, convLine]
    refine (Both.refl (R := fun a b => a = b) (fun _ => rfl) _).bind fun a b hb => ?_
    subst hb
    unfold convSet
    rw [hlen, ← hk]
    split
    · exact rfl
    · cases kids.map (·.2) with
      | nil => trivial
      | cons w ws =>
        simp only []
        split
        · refine (Both.refl (R := fun a b => a = b) (fun _ => rfl) _).bind fun _ _ _ => ?_
          exact (convEmit_move h refs w).bind fun _ _ hb => hb
        · exact rfl
  | readExt cols =>
    simp only [line, convLine]
    refine (Both.refl (R := fun a b => a = b) (fun _ => rfl) _).bind fun a b hb => ?_
    subst hb
    unfold convReadExt
    simp only [hnil, ← hk]
    split
    · exact rfl
    · split
      · exact rfl
      · refine (Both.refl (R := fun a b => a = b) (fun _ => rfl) _).bind fun a b hb => ?_
        subst hb
        exact rfl
  | ext k nm a cols =>
    simp only [line, convLine]
    unfold convExtRel
    rw [hlen]
    split
    · exact rfl
    · refine (Both.refl (R := fun a b => a = b) (fun _ => rfl) _).bind fun a b hb => ?_
      subst hb
      split
      · refine (Both.refl (R := fun a b => a = b) (fun _ => rfl) _).bind fun _ _ _ => ?_
        exact rfl
      · exact rfl
  | root ns => exact body _
  | read t o => exact body _
  | readVirtual rows c cols => exact body _
  | filter c refs => exact body _
  | project items => exact body _
  | aggregate x outs => exact body _
  | sort l refs => exact body _
  | fetch l refs => exact body _
  | join t c p refs => exact body _
  | cross refs => exact body _

mutual
theorem convNode_move (reg : Registry ExtArgs (List Nat)) : (t : RNode SLine SAddendum) →
    Both (fun a b => a.2 = b.2) (convNode st reg t) (convNode st reg (tree f t))
  | .mk l as kids => by
    simp only [tree, convNode]
    refine (convKids_move reg kids).bind fun a b hb => ?_
    refine (Both.refl (R := fun a b => a = b) (fun _ => rfl) _).bind fun c d hd => ?_
    subst hd
    exact convLine_move h st reg c hb l
theorem convKids_move (reg : Registry ExtArgs (List Nat)) : (l : List (RNode SLine SAddendum)) →
    Both (fun a b => a.map (·.2) = b.map (·.2)) (convKids st reg l) (convKids st reg (trees f l))
  | [] => rfl
  | t :: l => by
    simp only [trees, convKids]
    refine (convNode_move reg t).bind fun a b hb => (convKids_move reg l).bind fun c d hd => ?_
    show List.map _ (a :: c) = List.map _ (b :: d)
    simp only [List.map_cons, hb, hd]
end

omit [FTab] h in
theorem trees_length (l : List (RNode SLine SAddendum)) : (trees f l).length = l.length := by
  induction l with
  | nil => rfl
  | cons t l ih => simp only [trees, List.length_cons, ih]

theorem convPlanRel_move (reg : Registry ExtArgs (List Nat)) (t : RNode SLine SAddendum) :
    Both (fun _ _ => True) (convPlanRel st reg t) (convPlanRel st reg (tree f t)) := by
  have rest : Both (fun _ _ => True) ((convNode st reg t).bind fun r => .ok (PlanRel.rel r.1))
      ((convNode st reg (tree f t)).bind fun r => .ok (PlanRel.rel r.1)) :=
    (convNode_move h st reg t).bind fun _ _ _ => trivial
  obtain ⟨l, as, kids⟩ := t
  cases l with
  | root ns =>
    simp only [tree, line, convPlanRel]
    split
    · exact rfl
    · match kids with
      | [] => exact rfl
      | [k] =>
        simp only [trees]
        exact (convNode_move h st reg k).bind fun _ _ _ => trivial
      | _ :: _ :: _ => exact rfl
  | _ => exact rest

theorem convPlanRels_move (reg : Registry ExtArgs (List Nat)) (l : List (RNode SLine SAddendum)) :
    Both (fun a b => a.length = b.length) (convPlanRels st reg l) (convPlanRels st reg (trees f l)) := by
  induction l with
  | nil => exact rfl
  | cons t l ih =>
    simp only [trees, convPlanRels]
    refine (convPlanRel_move h st reg t).bind fun _ _ _ => ih.bind fun a b hb => ?_
    exact congrArg (· + 1) hb

end

/-! ## Formatting -/

mutual
theorem completeExpr_move (g : Int → Int) (st : Store) : (e : Expr) → (CompleteExpr st (moveExpr g e) ↔ CompleteExpr st e)
  | .selection (.field i c) => by simp only [moveExpr, CompleteExpr]
  | .call f args os t => by simp only [moveExpr, CompleteExpr, completeArgs_move g st args]
  | .cast e t fb => by simp only [moveExpr, CompleteExpr, completeOpt_move g st e]
  | .ifThen cs e => by simp only [moveExpr, CompleteExpr, completeClauses_move g st cs, completeOpt_move g st e]
  | .missing => Iff.rfl
  | .literal l => Iff.rfl
  | .selection .badReference => Iff.rfl
  | .selection .badSegment => Iff.rfl
  | .other => Iff.rfl
theorem completeOpt_move (g : Int → Int) (st : Store) : (e : Option Expr) → (CompleteExprOpt st (moveOpt g e) ↔ CompleteExprOpt st e)
  | none => Iff.rfl
  | some e => by simp only [moveOpt, CompleteExprOpt, completeExpr_move g st e]
theorem completeArgs_move (g : Int → Int) (st : Store) : (l : List Arg) → (CompleteArgs st (moveArgs g l) ↔ CompleteArgs st l)
  | [] => Iff.rfl
  | .value e :: l => by simp only [moveArgs, CompleteArgs, CompleteArg, completeExpr_move g st e, completeArgs_move g st l]
  | .missing :: l => by simp only [moveArgs, CompleteArgs, completeArgs_move g st l]
  | .ty t :: l => by simp only [moveArgs, CompleteArgs, completeArgs_move g st l]
  | .enum t :: l => by simp only [moveArgs, CompleteArgs, completeArgs_move g st l]
theorem completeClauses_move (g : Int → Int) (st : Store) : (l : List Clause) →
    (CompleteClauses st (moveClauses g l) ↔ CompleteClauses st l)
  | [] => Iff.rfl
  | .mk c t :: l => by
    simp only [moveClauses, CompleteClauses, completeOpt_move g st c, completeOpt_move g st t, completeClauses_move g st l]
end

theorem completeRels_mem {env : Env} {r : Rel} : {l : List (Option Rel)} → CompleteRels env l → some r ∈ l → CompleteRel env r
  | [], _, h => by cases h
  | none :: l, hc, h => by
    rw [CompleteRels] at hc
    exact completeRels_mem hc (by simpa using h)
  | some s :: l, hc, h => by
    rw [CompleteRels] at hc
    rcases List.mem_cons.1 h with e | h
    · cases e; exact hc.1
    · exact completeRels_mem hc.2 h

/-- What is written below a relation with nothing to report has nothing to report. -/
theorem completeRel_shown {env : Env} {r s : Rel} (h : Shown r s) (hc : CompleteRel env r) : CompleteRel env s := by
  induction h with
  | here r => exact hc
  | step op ins r s hop hr hs ih =>
    rw [CompleteRel] at hc
    exact ih (completeRels_mem (hc.2.2 hop) hr)

end Verif
