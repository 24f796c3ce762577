import Verif.Proofs.Renumber
/-!
# Plans with other anchors are written alike: relations and stores
-/

namespace Verif

set_option autoImplicit false
set_option linter.unusedSectionVars false

open StoreSpec UnrelSpec RenumSpec
open Out (KeepsL)
open Out.Keeps (refl append)

section
variable {st st' : Store} {o : Opts} {r : Renum} (w : ShowsAs st st' o r) {reg : Registry ExtArgs (List Nat)}
  (hr : r.Respects reg) [UTab] [FTab]
include w

omit w [UTab] [FTab] in
include hr in
theorem RenumSpec.Renum.Respects.decoded (ns : Ns) (d : AnyMsg) (c : List Nat) :
    DecodedAs r (reg.decode ns d c) (reg.decode ns (r.msg d) c) := hr ns d c

include hr in
theorem ShowsAs.adv (a : Option AdvExt) :
    KeepsL (advAddenda ⟨st, o, reg⟩ a) (advAddenda ⟨st', o, reg⟩ (a.map r.adv)) := by
  cases a with
  | none => exact .nil
  | some a =>
    exact .append (keepsL_opt w _ fun d => w.addendum _ (hr.decoded _ _ _))
      (keepsL_map2 w _ fun d => w.addendum _ (hr.decoded _ _ _))

omit w [UTab] [FTab] in
theorem zipFields_renum (ns : List Str) (ts : List Ty) :
    zipFields ns (ts.map r.ty) = (zipFields ns ts).map fun f => (f.1, f.2.map r.ty) := by
  induction ns generalizing ts with
  | nil => simp [zipFields]
  | cons n ns ih =>
    cases ts with
    | nil =>
      exact congrArg (List.cons (some n, none)) (ih [])
    | cons t ts => simp [zipFields, ih]

omit [FTab] in
theorem ShowsAs.readColumns (s : Option NamedStruct) :
    KeepsL (readColumns st o s) (Verif.readColumns st' o (s.map r.schema)) := by
  cases s with
  | none => exact .refl _
  | some s =>
    obtain ⟨ns, t⟩ := s
    have hf : ∀ l, KeepsL ((zipFields ns l).map fun f => textField st o f.1 f.2)
        ((zipFields ns (l.map r.ty)).map fun f => textField st' o f.1 f.2) := by
      intro l
      rw [zipFields_renum, List.map_map]
      exact .map _ fun f => append (refl _) (w.tyReq f.2)
    cases t with
    | none => exact hf []
    | some t => exact hf t.types

theorem ShowsAs.count (c : Count) : (textCount st o c).Keeps (textCount st' o (r.count c)) := by
  cases c with
  | deprecated i => exact refl _
  | expr e => exact w.expr e

theorem ShowsAs.exprs (l : List Expr) : KeepsL (l.map (textExpr st o)) ((l.map r.expr).map (textExpr st' o)) :=
  keepsL_map2 w l w.expr

include hr in
theorem ShowsAs.headRead (common : Option Common) (schema : Option NamedStruct) (filter : Option Expr) (ty : ReadType)
    (adv : Option AdvExt) :
    (headRead ⟨st, o, reg⟩ common schema filter ty adv).Keeps
      (Verif.headRead ⟨st', o, reg⟩ common (schema.map r.schema) (filter.map r.expr) (r.readType ty) (adv.map r.adv)) := by
  have hc := w.readColumns schema
  have ha := w.adv hr adv
  cases ty with
  | named names x => exact ⟨refl _, .inline (.refl _) .nil, hc, rfl, rfl, ha⟩
  | «virtual» rows x =>
    have hn : KeepsL (filter.toList.map fun e => textNamedArg cs!"filter" (textExpr st o e))
        ((filter.map r.expr).toList.map fun e => textNamedArg cs!"filter" (textExpr st' o e)) :=
      keepsL_opt w _ fun e => append (refl _) (w.expr e)
    have hr : KeepsL (rows.map fun l => textTuple (l.map (textExpr st o)))
        ((rows.map fun l => l.map r.expr).map fun l => textTuple (l.map (textExpr st' o))) :=
      keepsL_map2 w _ fun l => append (append (refl _) (w.exprs l).sep) (refl _)
    refine ⟨refl _, ?_, hc, rfl, rfl, ha⟩
    unfold Verif.headRead
    simp only [Renum.readType, List.length_map]
    have hp : KeepsL
        (if (rows.map fun l => textTuple (l.map (textExpr st o))) = [] ∧
            (filter.toList.map fun e => textNamedArg cs!"filter" (textExpr st o e)) ≠ [] then [.s cs!"_"]
          else rows.map fun l => textTuple (l.map (textExpr st o)))
        (if ((rows.map fun l => l.map r.expr).map fun l => textTuple (l.map (textExpr st' o))) = [] ∧
            ((filter.map r.expr).toList.map fun e => textNamedArg cs!"filter" (textExpr st' o e)) ≠ [] then [.s cs!"_"]
          else (rows.map fun l => l.map r.expr).map fun l => textTuple (l.map (textExpr st' o))) := by
      simp only [ne_eq, hr.nil_iff, hn.nil_iff]
      split
      · exact .refl _
      · exact hr
    split
    · exact .rows hp hn
    · exact .inline hp hn
  | extension detail =>
    refine ⟨refl _, .none, hc, rfl, rfl, .cons (w.addendum _ ?_) ha⟩
    cases detail with
    | none => exact ⟨_, rfl⟩
    | some d => exact hr.decoded _ _ _
  | other => exact ⟨refl _, .inline (.refl _) .nil, hc, rfl, rfl, ha⟩

omit w [UTab] [FTab] in
theorem keepsLL_map2 {α : Type} {f f' : α → List Out} {g : α → α} (l : List α) (h : ∀ a, KeepsL (f a) (f' (g a))) :
    KeepsLL (l.map f) ((l.map g).map f') := by
  rw [List.map_map]
  exact .map l h

omit w [UTab] [FTab] in
theorem usesDeprecated_renum (g : List Expr) (gs : List Grouping) :
    usesDeprecated (g.map r.expr) (gs.map r.grouping) = usesDeprecated g gs := by
  cases g <;> cases gs <;> simp [usesDeprecated, Renum.grouping]

theorem ShowsAs.grouping (g : List Expr) (gs : List Grouping) :
    KeepsL (groupingValues st o g gs).1 (groupingValues st' o (g.map r.expr) (gs.map r.grouping)).1 ∧
      KeepsLL (groupingValues st o g gs).2 (groupingValues st' o (g.map r.expr) (gs.map r.grouping)).2 := by
  unfold groupingValues
  rw [usesDeprecated_renum]
  have hf : ((gs.map r.grouping).map (·.exprs)).flatten = ((gs.map (·.exprs)).flatten).map r.expr := by
    induction gs with
    | nil => rfl
    | cons x gs ih => simp only [List.map_cons, List.flatten_cons, List.map_append, ih]; rfl
  split
  · refine ⟨?_, keepsLL_map2 _ fun g => w.exprs _⟩
    have := renum_firstSeen w.sound [] (gs.map (·.exprs)).flatten
    dsimp only
    rw [hf]
    simp only [List.map_nil] at this
    rw [this]
    exact w.exprs _
  · refine ⟨w.exprs _, ?_⟩
    simp only [List.map_eq_nil_iff]
    split
    · exact .cons .nil .nil
    · refine keepsLL_map2 _ fun x => .map _ fun i => ?_
      rw [List.getElem?_map]
      exact w.exprMap _ _

theorem ShowsAs.aggFn (a : AggFn) : (textAggFn st o a).Keeps (textAggFn st' o (r.aggFn a)) :=
  append (w.invocation _ _ (w.args _)) (w.outType _)

theorem ShowsAs.measures (l : List Measure) :
    KeepsL (l.filterMap fun m => m.fn.map (textAggFn st o))
      ((l.map r.measure).filterMap fun m => m.fn.map (textAggFn st' o)) := by
  induction l with
  | nil => exact .nil
  | cons m l ih =>
    obtain ⟨f, x⟩ := m
    rw [List.map_cons, List.filterMap_cons, List.filterMap_cons]
    cases f with
    | none => exact ih
    | some a => exact .cons (w.aggFn a) ih

include hr in
theorem ShowsAs.head (ws : List (Option Nat)) (op : RelOp) :
    (relHead ⟨st, o, reg⟩ ws op).Keeps (relHead ⟨st', o, reg⟩ ws (r.op op)) := by
  cases op with
  | read common schema filter ty adv x => exact w.headRead hr ..
  | filter common cond adv =>
    exact ⟨refl _, .inline (.cons (w.exprMap _ _) .nil) .nil, .refl _, rfl, rfl, w.adv hr adv⟩
  | project common exprs adv =>
    exact ⟨refl _, .none, .append (.refl _) (w.exprs _), rfl, rfl, w.adv hr adv⟩
  | aggregate common g gs ms adv =>
    exact ⟨refl _, .inline (w.grouping g gs).2.args .nil, .append (w.grouping g gs).1 (w.measures ms), rfl, rfl,
      w.adv hr adv⟩
  | sort common sorts adv =>
    refine ⟨refl _, .inline (keepsL_map2 w _ fun f => append (append (refl _)
      (KeepsL.cons (w.exprMap _ _) (.cons ?_ .nil)).sep) (refl _)) .nil, .refl _, rfl, rfl, w.adv hr adv⟩
    obtain ⟨e, k⟩ := f
    cases k with
    | none => exact refl _
    | some k => cases k <;> exact refl _
  | fetch common count offset adv =>
    exact ⟨refl _, .inline .nil (.append (keepsL_opt w _ fun c => append (refl _) (w.count c))
      (keepsL_opt w _ fun c => append (refl _) (w.count c))), .refl _, rfl, rfl, w.adv hr adv⟩
  | join common ty cond post adv =>
    exact ⟨refl _, .inline (.cons (refl _) (.cons (w.exprMap _ _) .nil))
      (keepsL_opt w _ fun e => append (refl _) (w.expr e)), .refl _, rfl, rfl, w.adv hr adv⟩
  | set common x adv => exact ⟨refl _, .inline (.refl _) .nil, .refl _, rfl, rfl, w.adv hr adv⟩
  | cross common adv => exact ⟨refl _, .none, .refl _, rfl, rfl, w.adv hr adv⟩
  | ext kind x detail =>
    simp only [relHead, headExt, Renum.op]
    have hd : DecodedAs r (decodeRel reg (ws.filterMap id) detail) (decodeRel reg (ws.filterMap id) (detail.map r.msg)) := by
      cases detail with
      | none => exact ⟨_, rfl⟩
      | some d => exact hr.decoded _ _ _
    cases hx : decodeRel reg (ws.filterMap id) detail with
    | error e =>
      rw [hx] at hd
      obtain ⟨e', he⟩ := hd
      rw [he]
      exact ⟨refl _, .none, .refl _, rfl, rfl, .nil⟩
    | ok p =>
      obtain ⟨n, a⟩ := p
      rw [hx] at hd
      have hd : decodeRel reg (ws.filterMap id) (detail.map r.msg) = .ok (n, r.extArgs a) := hd
      rw [hd]
      exact ⟨refl _, .inline (w.extValues _) (w.namedArgs _), w.extColumns _, rfl, rfl, .nil⟩
  | other x => exact ⟨refl _, .none, .nil, rfl, rfl, .nil⟩

include hr in
mutual
theorem ShowsAs.width : (x : Rel) → relWidth ⟨st, o, reg⟩ x = relWidth ⟨st', o, reg⟩ (r.rel x)
  | .node op ins => by
    simp only [relWidth, Renum.rel]
    rw [ShowsAs.widths ins]
    exact (w.head hr _ op).emitted
theorem ShowsAs.widths : (l : List (Option Rel)) → inputWidths ⟨st, o, reg⟩ l = inputWidths ⟨st', o, reg⟩ (r.inputs l)
  | [] => by simp only [inputWidths, Renum.inputs]
  | none :: l => by simp only [inputWidths, Renum.inputs]; rw [ShowsAs.widths l]
  | some x :: l => by simp only [inputWidths, Renum.inputs]; rw [ShowsAs.width x, ShowsAs.widths l]
end

omit w [UTab] [FTab] in
theorem renum_keepsInputs (op : RelOp) : (r.op op).keepsInputs = op.keepsInputs := by cases op <;> rfl

include hr in
mutual
theorem ShowsAs.rel : (lvl : Nat) → (x : Rel) →
    (textRel ⟨st, o, reg⟩ lvl x).Keeps (textRel ⟨st', o, reg⟩ lvl (r.rel x))
  | lvl, .node op ins => by
    simp only [textRel, Renum.rel]
    rw [w.widths hr ins, renum_keepsInputs]
    have h := w.head hr (inputWidths ⟨st', o, reg⟩ (r.inputs ins)) op
    exact append (append (keeps_header o lvl h) (keeps_addenda _ h.addenda)) (.ite (ShowsAs.inputs (lvl + 1) ins) (refl _))
theorem ShowsAs.inputs : (lvl : Nat) → (l : List (Option Rel)) →
    (textInputs ⟨st, o, reg⟩ lvl l).Keeps (textInputs ⟨st', o, reg⟩ lvl (r.inputs l))
  | _, [] => by simp only [textInputs, Renum.inputs]; exact refl _
  | lvl, none :: l => by simp only [textInputs, Renum.inputs]; exact ShowsAs.inputs lvl l
  | lvl, some x :: l => by
    simp only [textInputs, Renum.inputs]
    exact append (append (refl _) (ShowsAs.rel lvl x)) (ShowsAs.inputs lvl l)
end

include hr in
theorem ShowsAs.planRel (x : PlanRel) :
    (textPlanRel ⟨st, o, reg⟩ x).Keeps (textPlanRel ⟨st', o, reg⟩ (r.planRel x)) := by
  cases x with
  | rel x => exact w.rel hr 0 x
  | root names input =>
    cases input with
    | none => exact refl _
    | some x => exact append (refl _) (append (refl _) (w.rel hr 1 x))
  | missing => exact refl _

include hr in
theorem ShowsAs.planRels : (l : List PlanRel) →
    (textPlanRels ⟨st, o, reg⟩ l).Keeps (textPlanRels ⟨st', o, reg⟩ (l.map r.planRel))
  | [] => refl _
  | [x] => w.planRel hr x
  | x :: y :: l => append (append (w.planRel hr x) (refl _)) (ShowsAs.planRels (y :: l))

end
end Verif
