import Verif.Proofs.OptErrs
import Verif.Proofs.Registry
import Verif.Spec.Registry
/-!
# More registrations

What was read or written with a registry is read or written the same after more registrations.
-/

namespace Verif
open StoreSpec TextSpec RelSpec PlanSpec

set_option autoImplicit false

/-- Every entry of `r` is in `r'`. -/
structure Registry.Within {A C : Type} (r r' : Registry A C) : Prop where
  handlers : ∀ k h, hGet r.handlers k = some h → hGet r'.handlers k = some h
  urls : ∀ k n, hGet r.urls k = some n → hGet r'.urls k = some n

theorem Registry.Within.refl {A C : Type} (r : Registry A C) : r.Within r := ⟨fun _ _ h => h, fun _ _ h => h⟩

theorem Registry.Within.trans {A C : Type} {r s t : Registry A C} (h : r.Within s) (k : s.Within t) : r.Within t :=
  ⟨fun a b e => k.handlers a b (h.handlers a b e), fun a b e => k.urls a b (h.urls a b e)⟩

theorem Registry.within_register {A C : Type} (r : Registry A C) (ns : Ns) (e : Ext A C) :
    r.Within (r.register ns e).1 := by
  unfold Registry.register
  split
  · exact .refl r
  · next hn =>
    have hh : ∀ k h, hGet r.handlers k = some h → hGet (hInsert r.handlers (ns, e.name) e.handler) k = some h := by
      intro k h hk
      rw [hGet_insert]
      split
      · next he => subst he; rw [hk] at hn; exact absurd rfl hn
      · exact hk
    split
    · next x hx =>
      split
      · exact .refl r
      · next hne =>
        refine ⟨hh, fun k n hk => ?_⟩
        rw [hGet_insert]
        split
        · next he =>
          subst he
          rw [hx] at hk
          cases hk
          exact congrArg some (Decidable.not_not.1 hne).symm
        · exact hk
    · next hx =>
      refine ⟨hh, fun k n hk => ?_⟩
      rw [hGet_insert]
      split
      · next he => subst he; rw [hx] at hk; cases hk
      · exact hk

theorem Registry.within_after {A C : Type} (h l : List (Ns × Ext A C)) :
    (registryAfter h).Within (registryAfter (h ++ l)) := by
  unfold registryAfter
  rw [List.foldl_append]
  generalize List.foldl (fun (r : Registry A C) (x : Ns × Ext A C) => (r.register x.1 x.2).1) {} h = r
  induction l generalizing r with
  | nil => exact .refl r
  | cons x l ih => exact (within_register r x.1 x.2).trans (ih _)

/-! ## Reading -/

/-- An error about something that is not registered. -/
def RErr.Unregistered : RErr → Prop
  | .unregistered _ => True
  | _ => False

/-- `y` is `x`, unless something was not registered. -/
def Firm {α : Type} (x y : Res RErr α) : Prop := (∀ e, x = .err e → ¬ e.Unregistered) → y = x

theorem Firm.refl {α : Type} (x : Res RErr α) : Firm x x := fun _ => rfl

theorem Firm.bind {α β : Type} {x y : Res RErr α} {f g : α → Res RErr β} (h : Firm x y) (k : ∀ a, Firm (f a) (g a)) :
    Firm (x.bind f) (y.bind g) := by
  intro hn
  cases x with
  | ok a =>
    rw [h (by intro e he; cases he)]
    exact k a hn
  | err e =>
    rw [h (fun d hd => by cases hd; exact hn e rfl)]
    rfl
  | panic =>
    rw [h (by intro e he; cases he)]
    rfl

variable {reg reg' : Registry ExtArgs (List Nat)} (hr : reg.Within reg')
include hr

theorem firm_parse (ns : Ns) (name : Str) (a : ExtArgs) :
    Firm (resolved name (reg.parse ns name a)) (resolved name (reg'.parse ns name a)) := by
  intro hn
  unfold Registry.parse at hn ⊢
  cases h : hGet reg.handlers (ns, name) with
  | none => rw [h] at hn; exact absurd trivial (hn _ rfl)
  | some x => rw [hr.handlers _ _ h]

theorem firm_loop (enh : Option AnyMsg) (opts : List AnyMsg) (l : List Addendum) :
    Firm (standardLoop reg enh opts l) (standardLoop reg' enh opts l) := by
  induction l generalizing enh opts with
  | nil => exact .refl _
  | cons a l ih =>
    unfold standardLoop
    split
    · split
      · exact .refl _
      · exact (firm_parse hr _ _ _).bind fun d => ih _ _
    · exact (firm_parse hr _ _ _).bind fun d => ih _ _
    · exact .refl _

theorem firm_adv (as : List Addendum) : Firm (standardAdv reg as) (standardAdv reg' as) :=
  (firm_loop hr _ _ _).bind fun _ => .refl _

theorem firm_readParts (as : List Addendum) : Firm (extReadParts reg as) (extReadParts reg' as) := by
  unfold extReadParts
  split
  · exact (firm_parse hr _ _ _).bind fun d => (firm_adv hr _).bind fun _ => .refl _
  · exact .refl _

theorem firm_line [FTab] (st : Store) (as : List Addendum) (kids : List (Rel × Nat)) (line : SLine) :
    Firm (convLine st reg as kids line) (convLine st reg' as kids line) := by
  unfold convLine
  split
  · exact (firm_adv hr _).bind fun _ => .refl _
  · exact (firm_readParts hr _).bind fun _ => .refl _
  · unfold convExtRel
    split
    · exact .refl _
    · refine (Firm.refl _).bind fun a => ?_
      split
      · exact (firm_parse hr _ _ _).bind fun _ => .refl _
      · exact .refl _
  · exact (firm_adv hr _).bind fun _ => .refl _

mutual
theorem firm_node [FTab] (st : Store) : (t : RNode SLine SAddendum) → Firm (convNode st reg t) (convNode st reg' t)
  | .mk line as kids => by
    rw [convNode, convNode]
    exact (firm_kids st kids).bind fun kids => (Firm.refl _).bind fun as => firm_line hr st as kids line
theorem firm_kids [FTab] (st : Store) : (l : List (RNode SLine SAddendum)) → Firm (convKids st reg l) (convKids st reg' l)
  | [] => by rw [convKids, convKids]; exact .refl _
  | k :: l => by
    rw [convKids, convKids]
    exact (firm_node st k).bind fun k => (firm_kids st l).bind fun l => .refl _
end

theorem firm_planRel [FTab] (st : Store) (t : RNode SLine SAddendum) :
    Firm (convPlanRel st reg t) (convPlanRel st reg' t) := by
  unfold convPlanRel
  split
  · split
    · exact .refl _
    · split
      · exact (firm_node hr st _).bind fun _ => .refl _
      · exact .refl _
  · exact (firm_node hr st _).bind fun _ => .refl _

theorem firm_planRels [FTab] (st : Store) : (l : List (RNode SLine SAddendum)) →
    Firm (convPlanRels st reg l) (convPlanRels st reg' l)
  | [] => .refl _
  | t :: l => by
    rw [convPlanRels, convPlanRels]
    exact (firm_planRel hr st t).bind fun r => (firm_planRels st l).bind fun l => .refl _

theorem firm_plan [FTab] (text : Str) (hn : ∀ e, parsePlan reg text = .err (.rel e) → ¬ e.Unregistered) :
    parsePlan reg' text = parsePlan reg text := by
  unfold parsePlan at hn ⊢
  cases hp : parseSections planLang text with
  | err e => rfl
  | panic => rfl
  | ok s =>
    rw [hp] at hn
    simp only [Res.mapErr, Res.bind, buildPlan] at hn ⊢
    rw [firm_planRels hr (s.ext : ExtState).store s.tree.finish]
    intro e he
    rw [he] at hn
    exact hn e rfl

/-! ## Writing -/

theorem grow_decode {ns : Ns} {d : AnyMsg} {ctx : List Nat} {x : Str × ExtArgs} (h : reg.decode ns d ctx = .ok x) :
    reg'.decode ns d ctx = .ok x := by
  unfold Registry.decode at h ⊢
  cases h1 : hGet reg.urls (ns, d.typeUrl) with
  | none => rw [h1] at h; cases h
  | some name =>
    rw [h1] at h
    rw [hr.urls _ _ h1]
    dsimp only at h ⊢
    cases h2 : hGet reg.handlers (ns, name) with
    | none => rw [h2] at h; cases h
    | some x => rw [h2] at h; rw [hr.handlers _ _ h2]; exact h

variable [UTab] [FTab]

omit hr in
theorem addendum_ok {st : Store} {o : Opts} {k : AddKind} {d : Except ExtErr (Str × ExtArgs)}
    (h : (textAddendum st o k d).errs = []) : ∃ x, d = .ok x := by
  cases d with
  | ok x => exact ⟨x, rfl⟩
  | error e => simp [textAddendum] at h

theorem grow_adv (st : Store) (o : Opts) (a : Option AdvExt) (h : ∀ x ∈ advAddenda ⟨st, o, reg⟩ a, x.errs = []) :
    advAddenda ⟨st, o, reg'⟩ a = advAddenda ⟨st, o, reg⟩ a := by
  cases a with
  | none => rfl
  | some a =>
    unfold advAddenda at h ⊢
    simp only [List.mem_append, List.mem_map, or_imp, forall_and] at h ⊢
    congr 1
    · refine List.map_congr_left fun d hd => ?_
      obtain ⟨x, hx⟩ := addendum_ok (h.1 _ ⟨d, hd, rfl⟩)
      rw [hx, grow_decode hr hx]
    · refine List.map_congr_left fun d hd => ?_
      obtain ⟨x, hx⟩ := addendum_ok (h.2 _ ⟨d, hd, rfl⟩)
      rw [hx, grow_decode hr hx]

theorem grow_head (st : Store) (o : Opts) (lvl : Nat) (ws : List (Option Nat)) (op : RelOp)
    (h : (textHeader o lvl (relHead ⟨st, o, reg⟩ ws op)).errs = [])
    (ha : ∀ x ∈ (relHead ⟨st, o, reg⟩ ws op).addenda, x.errs = []) :
    relHead ⟨st, o, reg'⟩ ws op = relHead ⟨st, o, reg⟩ ws op := by
  have adv := grow_adv hr st o
  cases op with
  | read common schema filter ty a r =>
    unfold relHead headRead at ha ⊢
    cases ty with
    | extension d =>
      simp only [List.mem_cons, forall_eq_or_imp] at ha
      dsimp only
      rw [adv _ ha.2]
      obtain ⟨x, hx⟩ := addendum_ok ha.1
      have : decodeTable reg' d = decodeTable reg d := by
        cases d with
        | none => rfl
        | some d => exact (grow_decode hr hx).trans hx.symm
      rw [this]
    | _ => dsimp only at ha ⊢; rw [adv _ ha]
  | ext kind common detail =>
    simp only [relHead, headExt] at h ⊢
    cases hd : decodeRel reg (ws.filterMap id) detail with
    | error e =>
      rw [hd] at h
      simp [textHeader, implicitCols, Out.sep] at h
    | ok x =>
      have : decodeRel reg' (ws.filterMap id) detail = .ok x := by
        cases detail with
        | none => cases hd
        | some d => exact grow_decode hr hd
      rw [this]
  | other r => rfl
  | aggregate c ge gs ms a =>
    simp only [relHead, headAggregate] at ha ⊢
    rw [adv _ ha]
  | _ => simp only [relHead] at ha ⊢; rw [adv _ ha]

omit hr in
theorem relHead_free (env : Env) (ws ws' : List (Option Nat)) (op : RelOp) (h : op.keepsInputs = false) :
    relHead env ws op = relHead env ws' op := by
  cases op <;> first | rfl | cases h

mutual
theorem grow_rel (st : Store) (o : Opts) (lvl : Nat) : (r : Rel) → (textRel ⟨st, o, reg⟩ lvl r).errs = [] →
    textRel ⟨st, o, reg'⟩ lvl r = textRel ⟨st, o, reg⟩ lvl r ∧ relWidth ⟨st, o, reg'⟩ r = relWidth ⟨st, o, reg⟩ r
  | .node op ins => by
    intro h
    rw [textRel] at h
    simp only [Out.errs_append, List.append_eq_nil_iff] at h
    obtain ⟨⟨h1, h2⟩, h3⟩ := h
    rw [addenda_errs, List.flatten_eq_nil_iff] at h2
    have h2' : ∀ x ∈ (relHead ⟨st, o, reg⟩ (inputWidths ⟨st, o, reg⟩ ins) op).addenda, x.errs = [] :=
      fun x hx => h2 _ (List.mem_map.2 ⟨x, hx, rfl⟩)
    have hh := grow_head hr st o lvl _ op h1 h2'
    rw [textRel, textRel, relWidth, relWidth]
    cases hk : op.keepsInputs with
    | false =>
      rw [relHead_free ⟨st, o, reg'⟩ (inputWidths ⟨st, o, reg'⟩ ins) (inputWidths ⟨st, o, reg⟩ ins) op hk, hh]
      exact ⟨rfl, rfl⟩
    | true =>
      rw [hk, if_pos rfl] at h3
      obtain ⟨i1, i2⟩ := grow_inputs st o (lvl + 1) ins h3
      rw [i2, hh, if_pos rfl, if_pos rfl, i1]
      exact ⟨rfl, rfl⟩
theorem grow_inputs (st : Store) (o : Opts) (lvl : Nat) : (l : List (Option Rel)) →
    (textInputs ⟨st, o, reg⟩ lvl l).errs = [] →
    textInputs ⟨st, o, reg'⟩ lvl l = textInputs ⟨st, o, reg⟩ lvl l ∧
      inputWidths ⟨st, o, reg'⟩ l = inputWidths ⟨st, o, reg⟩ l
  | [], _ => by simp only [textInputs, inputWidths, and_self]
  | none :: l, h => by
    rw [textInputs] at h
    obtain ⟨h1, h2⟩ := grow_inputs st o lvl l h
    simp only [textInputs, inputWidths, h1, h2, and_self]
  | some r :: l, h => by
    rw [textInputs] at h
    simp only [Out.errs_append, List.append_eq_nil_iff] at h
    obtain ⟨h1, h2⟩ := grow_inputs st o lvl l h.2
    obtain ⟨h3, h4⟩ := grow_rel st o lvl r h.1.2
    simp only [textInputs, inputWidths, h1, h2, h3, h4, and_self]
end

theorem grow_planRel (st : Store) (o : Opts) (r : PlanRel) (h : (textPlanRel ⟨st, o, reg⟩ r).errs = []) :
    textPlanRel ⟨st, o, reg'⟩ r = textPlanRel ⟨st, o, reg⟩ r := by
  cases r with
  | missing => rfl
  | rel r => exact (grow_rel hr st o 0 r h).1
  | root names input =>
    cases input with
    | none => rfl
    | some r =>
      simp only [textPlanRel, Out.errs_append, List.append_eq_nil_iff] at h ⊢
      rw [(grow_rel hr st o 1 r h.2.2).1]

theorem grow_planRels (st : Store) (o : Opts) : (l : List PlanRel) → (textPlanRels ⟨st, o, reg⟩ l).errs = [] →
    textPlanRels ⟨st, o, reg'⟩ l = textPlanRels ⟨st, o, reg⟩ l
  | [], _ => rfl
  | [r], h => grow_planRel hr st o r h
  | r :: s :: l, h => by
    rw [textPlanRels] at h
    simp only [Out.errs_append, List.append_eq_nil_iff] at h
    rw [textPlanRels, textPlanRels, grow_planRel hr st o r h.1.1, grow_planRels st o (s :: l) h.2]

theorem grow_plan (o : Opts) (p : Plan) (h : (textPlan reg o p).errs = []) : textPlan reg' o p = textPlan reg o p := by
  unfold textPlan at h ⊢
  simp only [Out.errs_append, List.append_eq_nil_iff] at h
  simp only
  rw [grow_planRels hr p.store o p.rels h.1.2]

end Verif
