import Verif.Proofs.Tokens
import Verif.Proofs.PlanText
/-!
# Failure tokens in formatted plans
-/

namespace Verif
open StoreSpec TextSpec TokenSpec PlanSpec

set_option autoImplicit false

/-! ### Relations -/

theorem told_variant {fail : Str} (hf : ∀ c ∈ fail, dull c = true ∧ c ≠ '}') {s : Option Str}
    (h : ∀ x, s = some x → ∀ c ∈ x, dull c = true) : Told (textVariant fail s) := by
  cases s with
  | none => exact told_fail hf
  | some x => exact told_s (silent_append (silent_dull (by decide)) (silent_dull (h x rfl)))

theorem told_joinType (t : EnumVal JoinType) : Told (textJoinType t) := by
  cases t with
  | unknown i => unfold textJoinType; token
  | known t => exact told_variant (by decide) (by cases t <;> simp [JoinType.spell] <;> decide)

theorem told_setOp (t : EnumVal SetOp) : Told (textSetOp t) := by
  cases t with
  | unknown i => unfold textSetOp; token
  | known t => exact told_variant (by decide) (by cases t <;> simp [SetOp.spell] <;> decide)

theorem told_sortKind (k : SortKind) : Told (textSortKind k) := by
  cases k with
  | function f => unfold textSortKind; token
  | direction d =>
    cases d with
    | unknown i => unfold textSortKind; token
    | known t => exact told_variant (by decide) (by cases t <;> simp [SortDir.spell] <;> decide)

theorem told_tuple {l : List Out} (h : ∀ x ∈ l, Told x) : Told (textTuple l) :=
  told_append (told_append (by fixed) (told_sep (silent_dull (by decide)) h)) (by fixed)

theorem told_optExpr [UTab] [FTab] (hf : InertFloats) {st : Store} (hs : InertStore st) (o : Opts) {n : Str}
    (hn : ∀ c ∈ n, dull c = true ∧ c ≠ '}') {e : Option Expr} (h : InertExprOpt e) :
    Told (.expect n (e.map (textExpr st o))) := by
  cases e with
  | none => exact told_fail hn
  | some e => exact told_textExpr hf hs o e (by simpa only [InertExprOpt] using h)

theorem told_sortField [UTab] [FTab] (hf : InertFloats) {st : Store} (hs : InertStore st) (o : Opts) {f : SortField}
    (h : InertExprOpt f.expr) : Told (textSortField st o f) := by
  refine told_tuple ?_
  simp only [List.mem_cons, List.not_mem_nil, or_false, forall_eq_or_imp, forall_eq]
  refine ⟨told_optExpr hf hs o (by decide) h, told_expect (by decide) fun y hy => ?_⟩
  obtain ⟨k, _, rfl⟩ := Option.map_eq_some_iff.1 hy
  exact told_sortKind k

theorem told_field [UTab] {st : Store} (hs : InertStore st) (o : Opts) (n : Option Str) {t : Option Ty}
    (h : InertTyOpt t) : Told (textField st o n t) := by
  refine told_append (told_append (told_expect (by decide) fun y hy => ?_) (by fixed)) ?_
  · obtain ⟨k, _, rfl⟩ := Option.map_eq_some_iff.1 hy
    exact told_s (silent_showName k)
  · cases t with
    | none => unfold textTyReq; token
    | some t => exact told_textTy hs o t (by simpa [InertTyOpt] using h)

theorem zipFields_inert : ∀ (ns : List Str) (ts : List Ty), InertTys ts → ∀ f ∈ zipFields ns ts, InertTyOpt f.2
  | [], [], _ => by simp [zipFields]
  | [], t :: ts, h => by
    have h : InertTy t ∧ InertTys ts := by simpa only [InertTys] using h
    have ih := zipFields_inert [] ts h.2
    simp only [zipFields] at ih
    simp only [zipFields, List.map_cons, List.mem_cons, forall_eq_or_imp]
    exact ⟨by simpa only [InertTyOpt] using h.1, ih⟩
  | n :: ns, [], h => by
    have ih := zipFields_inert ns [] h
    simp only [zipFields, List.mem_cons, forall_eq_or_imp]
    exact ⟨by simp [InertTyOpt], ih⟩
  | n :: ns, t :: ts, h => by
    have h : InertTy t ∧ InertTys ts := by simpa only [InertTys] using h
    have ih := zipFields_inert ns ts h.2
    simp only [zipFields, List.mem_cons, forall_eq_or_imp]
    exact ⟨by simpa only [InertTyOpt] using h.1, ih⟩

theorem told_readColumns [UTab] {st : Store} (hs : InertStore st) (o : Opts) {s : Option NamedStruct}
    (h : ∀ n, s = some n → ∀ x, n.struct = some x → InertTys x.types) : ∀ x ∈ readColumns st o s, Told x := by
  cases s with
  | none =>
    simp only [readColumns, List.mem_cons, List.not_mem_nil, or_false, forall_eq]
    token
  | some s =>
    intro x hx
    obtain ⟨f, hm, rfl⟩ := List.mem_map.1 hx
    refine told_field hs o f.1 (zipFields_inert s.names _ ?_ f hm)
    cases hst : s.struct with
    | none => simp [InertTys]
    | some t => exact h s rfl t hst

theorem told_references (n : Nat) : ∀ x ∈ references n, Told x := by
  intro x hx
  obtain ⟨i, _, rfl⟩ := List.mem_map.1 hx
  exact told_textRef _

theorem told_addendum [UTab] [FTab] (hf : InertFloats) {st : Store} (hs : InertStore st) (o : Opts) (k : AddKind)
    {d : Except ExtErr (Str × ExtArgs)} (h : ∀ name a, d = .ok (name, a) → InertDecoded name a) :
    Told (textAddendum st o k d) := by
  have hk : Silent (cs!"+ " ++ k.spell ++ cs!"[") := by cases k <;> exact silent_dull (by decide)
  unfold textAddendum
  split
  · exact told_append (told_append (told_s hk) (by token)) (by fixed)
  · rename_i name args
    have hd := h _ _ rfl
    split
    · refine told_append (told_append (told_s ?_) (told_extArgs hf hs o hd)) (by fixed)
      refine silent_append (silent_append ?_ (silent_inert hd.name)) (silent_dull (by decide))
      cases k <;> exact silent_dull (by decide)
    · exact told_append (told_append (told_s hk) (by token)) (by fixed)

theorem told_adv [UTab] [FTab] (hf : InertFloats) {env : Env} (hs : InertStore env.st) (hr : InertRegistry env.reg)
    (a : Option AdvExt) : ∀ x ∈ advAddenda env a, Told x := by
  cases a with
  | none => simp [advAddenda]
  | some a =>
    intro x hx
    rcases List.mem_append.1 hx with h | h
    · obtain ⟨d, _, rfl⟩ := List.mem_map.1 h
      exact told_addendum hf hs _ _ fun _ _ => hr _ _ _ _ _
    · obtain ⟨d, _, rfl⟩ := List.mem_map.1 h
      exact told_addendum hf hs _ _ fun _ _ => hr _ _ _ _ _

/-- All parts of a header are told. -/
structure ToldHead (h : Head) : Prop where
  name : Told h.name
  args : match h.args with
    | .none => True
    | .inline p n => (∀ x ∈ p, Told x) ∧ ∀ x ∈ n, Told x
    | .rows p n => (∀ x ∈ p, Told x) ∧ ∀ x ∈ n, Told x
  columns : ∀ x ∈ h.columns, Told x
  addenda : ∀ x ∈ h.addenda, Told x

theorem told_implicit {o : Opts} {cols : List Out} (h : ∀ x ∈ cols, Told x) (e : Option Emit) :
    ∀ x ∈ implicitCols o cols e, Told x := by
  unfold implicitCols
  split
  · exact h
  · split
    · intro x hx
      obtain ⟨i, _, rfl⟩ := List.mem_map.1 hx
      refine told_expect (by decide) fun y hy => ?_
      unfold getCol at hy
      split at hy
      · cases hy
      · exact h y (List.mem_of_getElem? hy)
    · exact h
    · exact h

theorem told_output {o : Opts} {h : Head} (hh : ∀ x ∈ h.columns, Told x) : Told (textOutput o h) := by
  unfold textOutput
  split
  · refine told_append (told_append (by fixed) (told_sep (silent_dull (by decide)) hh)) ?_
    unfold textEmitSuffix
    split
    · refine told_append (by fixed) (told_sep (silent_dull (by decide)) fun x hx => ?_)
      obtain ⟨i, _, rfl⟩ := List.mem_map.1 hx
      exact told_textRef i
    · fixed
  · exact told_append (by fixed) (told_sep (silent_dull (by decide)) (told_implicit hh _))

theorem silent_indent {o : Opts} (h : Silent o.indent) (lvl : Nat) : Silent (indentAt o lvl) := by
  unfold indentAt
  induction lvl with
  | zero => exact silent_nil
  | succ n ih =>
    rw [List.replicate_succ, List.flatten_cons]
    exact silent_append h ih

theorem told_rows {pre : Str} (hp : Silent pre) (more : Bool) {l : List Out} (h : ∀ x ∈ l, Told x) :
    Told (textRows pre more l) := by
  induction l with
  | nil => exact told_s silent_nil
  | cons a l ih =>
    cases l with
    | nil =>
      refine told_append (told_append (told_s (silent_append hp (silent_dull (by decide)))) (h a (by simp))) ?_
      split <;> fixed
    | cons b l =>
      exact told_append (told_append (told_append (told_s (silent_append hp (silent_dull (by decide)))) (h a (by simp)))
        (by fixed)) (ih fun x hx => h x (by simp [hx]))

theorem told_header {o : Opts} (hi : Silent o.indent) (lvl : Nat) {h : Head} (hh : ToldHead h) :
    Told (textHeader o lvl h) := by
  have ha := hh.args
  unfold textHeader
  dsimp only
  split
  · exact told_append (told_append (told_append (told_append (told_s (silent_indent hi _)) hh.name) (by fixed))
      (told_sep (silent_dull (by decide)) (told_implicit hh.columns _))) (by fixed)
  · rename_i p n he
    rw [he] at ha
    exact told_append (told_append (told_append (told_append (told_append (told_append (told_s (silent_indent hi _)) hh.name)
      (by fixed)) (told_argList ha.1 ha.2)) (by fixed)) (told_output hh.columns)) (by fixed)
  · rename_i p n he
    rw [he] at ha
    exact told_append (told_append (told_append (told_append (told_append (told_append (told_append
      (told_s (silent_indent hi _)) hh.name) (by fixed)) (told_rows (silent_indent hi _) _ ha.1))
      (told_rows (silent_indent hi _) _ ha.2)) (told_s (silent_append (silent_indent hi _) (silent_dull (by decide)))))
      (told_output hh.columns)) (by fixed)

theorem told_map {α : Type} {f : α → Out} {l : List α} (h : ∀ a ∈ l, Told (f a)) : ∀ x ∈ l.map f, Told x := by
  intro x hx
  obtain ⟨a, ha, rfl⟩ := List.mem_map.1 hx
  exact h a ha

theorem told_namedArg {n : Str} (hn : ∀ c ∈ n, dull c = true) {v : Out} (h : Told v) : Told (textNamedArg n v) :=
  told_append (told_s (silent_append (silent_dull hn) (silent_dull (by decide)))) h

theorem told_count [UTab] [FTab] (hf : InertFloats) {st : Store} (hs : InertStore st) (o : Opts) {c : Count}
    (h : ∀ e, c = .expr e → InertExpr e) : Told (textCount st o c) := by
  cases c with
  | deprecated i => exact told_s (silent_decInt i)
  | expr e => exact told_textExpr hf hs o e (h e rfl)

theorem firstSeen_mem (l : List Expr) : ∀ seen, ∀ e ∈ firstSeen seen l, e ∈ l := by
  induction l with
  | nil => simp [firstSeen]
  | cons a l ih =>
    intro seen e he
    unfold firstSeen at he
    split at he
    · exact List.mem_cons_of_mem _ (ih _ e he)
    · rcases List.mem_cons.1 he with rfl | he
      · simp
      · exact List.mem_cons_of_mem _ (ih _ e he)

theorem told_one {x : Out} (h : Told x) : ∀ y ∈ [x], Told y := by simpa using h

theorem told_none : ∀ y ∈ ([] : List Out), Told y := by simp

theorem told_groupingArgs {sets : List (List Out)} (h : ∀ g ∈ sets, ∀ x ∈ g, Told x) : ∀ x ∈ groupingArgs sets, Told x := by
  unfold groupingArgs
  split
  · rename_i g
    split
    · exact told_one (by fixed)
    · exact h g (by simp)
  · refine told_map fun g hg => ?_
    split
    · fixed
    · exact told_tuple (h g hg)

theorem toldHead_aggregate [UTab] [FTab] (hf : InertFloats) {env : Env} (hs : InertStore env.st)
    (hr : InertRegistry env.reg) (c : Option Common) {g : List Expr} {gs : List Grouping} {ms : List Measure}
    (a : Option AdvExt) (h1 : ∀ e ∈ g, InertExpr e) (h2 : ∀ x ∈ gs, ∀ e ∈ x.exprs, InertExpr e)
    (h3 : ∀ m ∈ ms, ∀ a, m.fn = some a → InertExpr (.call a.f a.args a.opts a.out)) :
    ToldHead (headAggregate env c g gs ms a) := by
  have hv : (∀ x ∈ (groupingValues env.st env.o g gs).1, Told x) ∧
      ∀ s ∈ (groupingValues env.st env.o g gs).2, ∀ x ∈ s, Told x := by
    unfold groupingValues
    split
    · constructor
      · refine told_map fun e he => told_textExpr hf hs _ e ?_
        obtain ⟨l, hl, he⟩ := List.mem_flatten.1 (firstSeen_mem _ _ e he)
        obtain ⟨x, hx, rfl⟩ := List.mem_map.1 hl
        exact h2 x hx e he
      · intro s hs'
        obtain ⟨x, hx, rfl⟩ := List.mem_map.1 hs'
        exact told_map fun e he => told_textExpr hf hs _ e (h2 x hx e he)
    · constructor
      · exact told_map fun e he => told_textExpr hf hs _ e (h1 e he)
      · dsimp only
        split
        · simp
        · intro s hs'
          obtain ⟨x, hx, rfl⟩ := List.mem_map.1 hs'
          refine told_map fun i _ => told_expect (by decide) fun y hy => ?_
          obtain ⟨e, he, rfl⟩ := Option.map_eq_some_iff.1 hy
          exact told_textExpr hf hs _ e (h1 e (List.mem_of_getElem? he))
  unfold headAggregate
  refine ⟨by fixed, ⟨told_groupingArgs hv.2, told_none⟩, ?_, told_adv hf hs hr _⟩
  intro x hx
  rcases List.mem_append.1 hx with hx | hx
  · exact hv.1 x hx
  · obtain ⟨m, hm, hx⟩ := List.mem_filterMap.1 hx
    obtain ⟨f, hfn, rfl⟩ := Option.map_eq_some_iff.1 hx
    have := told_textExpr hf hs env.o _ (h3 m hm f hfn)
    unfold textExpr at this
    exact this

theorem toldHead_read [UTab] [FTab] (hf : InertFloats) {env : Env} (hs : InertStore env.st)
    (hr : InertRegistry env.reg) (c : Option Common) {s : Option NamedStruct} {f : Option Expr} {t : ReadType}
    (a : Option AdvExt) (h1 : ∀ n, s = some n → ∀ x, n.struct = some x → InertTys x.types) (h2 : InertExprOpt f)
    (h3 : ∀ rows n, t = .virtual rows n → ∀ r ∈ rows, ∀ e ∈ r, InertExpr e) :
    ToldHead (headRead env c s f t a) := by
  have hc := told_readColumns hs env.o h1
  have ha := told_adv hf hs hr a
  unfold headRead
  cases t with
  | named names n =>
    refine ⟨by fixed, ⟨told_one ?_, told_none⟩, hc, ha⟩
    exact told_sep (silent_dull (by decide)) (told_map fun n _ => told_s (silent_showName n))
  | «virtual» rows n =>
    have hp : ∀ x ∈ rows.map fun r => textTuple (r.map (textExpr env.st env.o)), Told x :=
      told_map fun r hrow => told_tuple (told_map fun e he => told_textExpr hf hs _ e (h3 rows n rfl r hrow e he))
    have hn : ∀ x ∈ f.toList.map fun e => textNamedArg cs!"filter" (textExpr env.st env.o e), Told x := by
      refine told_map fun e he => told_namedArg (by decide) (told_textExpr hf hs _ e ?_)
      cases f with
      | none => simp at he
      | some f =>
        simp only [Option.toList_some, List.mem_cons, List.not_mem_nil, or_false] at he
        subst he
        simpa only [InertExprOpt] using h2
    refine ⟨by fixed, ?_, hc, ha⟩
    dsimp only
    split <;> rename_i he <;> split at he <;> cases he
    all_goals
      refine ⟨?_, hn⟩
      split
      · exact told_one (by fixed)
      · exact hp
  | extension d =>
    refine ⟨by fixed, trivial, hc, ?_⟩
    simp only [List.mem_cons, forall_eq_or_imp]
    refine ⟨told_addendum hf hs _ _ fun name x hd => ?_, ha⟩
    cases d with
    | none => cases hd
    | some d => exact hr _ _ _ _ _ hd
  | other => exact ⟨by fixed, ⟨told_one (by token), told_none⟩, hc, ha⟩

theorem told_optNamed {n : Str} (hn : ∀ c ∈ n, dull c = true) {α : Type} {f : α → Out} {x : Option α}
    (h : ∀ a, x = some a → Told (f a)) : ∀ y ∈ x.toList.map fun a => textNamedArg n (f a), Told y := by
  refine told_map fun a ha => told_namedArg hn (h a ?_)
  cases x with
  | none => simp at ha
  | some b => simp at ha; rw [ha]

theorem toldHead [UTab] [FTab] (hf : InertFloats) {env : Env} (hs : InertStore env.st) (hr : InertRegistry env.reg)
    (ws : List (Option Nat)) (op : RelOp) (h : InertOp op) : ToldHead (relHead env ws op) := by
  cases op with
  | read c s f t a r => exact toldHead_read hf hs hr c a h.1 h.2.1 h.2.2
  | filter c e a =>
    exact ⟨by fixed, ⟨told_one (told_optExpr hf hs _ (by decide) h), told_none⟩, told_references _, told_adv hf hs hr _⟩
  | project c es a =>
    refine ⟨by fixed, trivial, fun x hx => ?_, told_adv hf hs hr _⟩
    rcases List.mem_append.1 hx with hx | hx
    · exact told_references _ x hx
    · exact told_map (fun e he => told_textExpr hf hs _ e (h e he)) x hx
  | aggregate c g gs ms a => exact toldHead_aggregate hf hs hr c a h.1 h.2.1 h.2.2
  | sort c l a =>
    exact ⟨by fixed, ⟨told_map fun f hm => told_sortField hf hs _ (h f hm), told_none⟩, told_references _,
      told_adv hf hs hr _⟩
  | fetch c a b adv =>
    refine ⟨by fixed, ⟨told_none, fun x hx => ?_⟩, told_references _, told_adv hf hs hr _⟩
    rcases List.mem_append.1 hx with hx | hx
    · exact told_optNamed (by decide) (fun c hc => told_count hf hs _ fun e he => h.1 e (by rw [hc, he])) x hx
    · exact told_optNamed (by decide) (fun c hc => told_count hf hs _ fun e he => h.2 e (by rw [hc, he])) x hx
  | join c t e p a =>
    refine ⟨by fixed, ⟨?_, ?_⟩, told_references _, told_adv hf hs hr _⟩
    · simp only [List.mem_cons, List.not_mem_nil, or_false, forall_eq_or_imp, forall_eq]
      exact ⟨told_joinType t, told_optExpr hf hs _ (by decide) h.1⟩
    · refine told_optNamed (by decide) fun e he => told_textExpr hf hs _ e ?_
      have := h.2
      rw [he] at this
      simpa only [InertExprOpt] using this
  | set c t a => exact ⟨by fixed, ⟨told_one (told_setOp t), told_none⟩, told_references _, told_adv hf hs hr _⟩
  | cross c a => exact ⟨by fixed, trivial, told_references _, told_adv hf hs hr _⟩
  | ext k c d =>
    show ToldHead (headExt env k d _)
    unfold headExt
    split
    · rename_i name args hd
      have hd : InertDecoded name args := by
        cases d with
        | none => cases hd
        | some d => exact hr _ _ _ _ _ hd
      refine ⟨told_s ?_, ⟨told_extValues hf hs _ _ hd.positional, told_map fun p hp => told_named hf hs _ (hd.named p hp)⟩,
        told_map fun c hc => told_column hf hs _ (hd.columns c hc), told_none⟩
      refine silent_append (silent_append ?_ (silent_dull (by decide))) (silent_inert hd.name)
      cases k <;> exact silent_dull (by decide)
    · exact ⟨by cases k <;> fixed, trivial, told_one (by token), told_none⟩
  | other r => exact ⟨by unfold relHead; token, trivial, told_none, told_none⟩

theorem told_addenda {pre : Str} (hp : Silent pre) {l : List Out} (h : ∀ x ∈ l, Told x) : Told (textAddenda pre l) := by
  induction l with
  | nil => exact told_s silent_nil
  | cons a l ih =>
    exact told_append (told_append (told_s (silent_append (silent_dull (by decide)) hp)) (h a (by simp)))
      (ih fun x hx => h x (by simp [hx]))

mutual
theorem told_rel [UTab] [FTab] (hf : InertFloats) {env : Env} (hs : InertStore env.st) (hr : InertRegistry env.reg)
    (hi : Silent env.o.indent) : ∀ (lvl : Nat) (r : Rel), InertRel r → Told (textRel env lvl r)
  | lvl, .node op ins, h => by
    have h : InertOp op ∧ InertRels ins := by simpa only [InertRel] using h
    unfold textRel
    have hh := toldHead hf hs hr (inputWidths env ins) op h.1
    refine told_append (told_append (told_header hi _ hh) (told_addenda (silent_indent hi _) hh.addenda)) ?_
    split
    · exact told_inputs hf hs hr hi _ ins h.2
    · exact told_s silent_nil
theorem told_inputs [UTab] [FTab] (hf : InertFloats) {env : Env} (hs : InertStore env.st) (hr : InertRegistry env.reg)
    (hi : Silent env.o.indent) : ∀ (lvl : Nat) (l : List (Option Rel)), InertRels l → Told (textInputs env lvl l)
  | _, [], _ => by unfold textInputs; fixed
  | lvl, none :: l, h => by
    unfold textInputs
    exact told_inputs hf hs hr hi lvl l (by simpa only [InertRels] using h)
  | lvl, some r :: l, h => by
    have h : InertRel r ∧ InertRels l := by simpa only [InertRels] using h
    unfold textInputs
    exact told_append (told_append (by fixed) (told_rel hf hs hr hi lvl r h.1)) (told_inputs hf hs hr hi lvl l h.2)
end

theorem told_planRel [UTab] [FTab] (hf : InertFloats) {env : Env} (hs : InertStore env.st) (hr : InertRegistry env.reg)
    (hi : Silent env.o.indent) (r : PlanRel) (h : InertTop r) : Told (textPlanRel env r) := by
  cases r with
  | rel r => exact told_rel hf hs hr hi 0 r h
  | missing => unfold textPlanRel; token
  | root names input =>
    refine told_append (told_s (silent_append (silent_append (silent_dull (by decide))
      (silent_joinS (silent_dull (by decide)) fun x hx => ?_)) (silent_dull (by decide)))) ?_
    · obtain ⟨n, _, rfl⟩ := List.mem_map.1 hx
      exact silent_showName n
    · cases input with
      | none => exact told_s silent_nil
      | some r => exact told_append (by fixed) (told_rel hf hs hr hi 1 r h)

theorem told_planRels [UTab] [FTab] (hf : InertFloats) {env : Env} (hs : InertStore env.st) (hr : InertRegistry env.reg)
    (hi : Silent env.o.indent) {l : List PlanRel} (h : ∀ r ∈ l, InertTop r) : Told (textPlanRels env l) := by
  induction l with
  | nil => exact told_s silent_nil
  | cons a l ih =>
    cases l with
    | nil => exact told_planRel hf hs hr hi a (h a (by simp))
    | cons b l =>
      exact told_append (told_append (told_planRel hf hs hr hi a (h a (by simp))) (by fixed))
        (ih fun x hx => h x (by simp [hx]))

/-! ### Version and declarations -/

theorem silent_writeVersion {indent : Str} (hi : Silent indent) {v : Option Version}
    (h : ∀ x, v = some x → Inert (trim x.producer) ∧ Inert (trim x.gitHash)) : Silent (writeVersion indent v) := by
  cases v with
  | none => exact silent_nil
  | some v =>
    have hv := h v rfl
    unfold writeVersion
    dsimp only
    split
    · exact silent_nil
    · refine silent_append (silent_append (silent_append (silent_append (silent_append (silent_append (silent_append
        (silent_append (silent_append ?_ ?_) (silent_dec _)) ?_) (silent_dec _)) ?_) (silent_dec _)) ?_) ?_) ?_
      all_goals first | exact silent_dull (by decide) | skip
      · split
        · exact silent_nil
        · exact silent_append (silent_append (silent_append hi (silent_dull (by decide))) (silent_inert hv.1))
            (silent_dull (by decide))
      · split
        · exact silent_nil
        · exact silent_append (silent_append (silent_append hi (silent_dull (by decide))) (silent_inert hv.2))
            (silent_dull (by decide))

theorem silent_width3 (n : Nat) : Silent (width3 n) := by
  refine silent_append (silent_dull fun c hc => ?_) (silent_dec n)
  rw [(List.mem_replicate.1 hc).2]
  decide

theorem silent_flatMap {α : Type} {f : α → Str} {l : List α} (h : ∀ a ∈ l, Silent (f a)) : Silent (l.flatMap f) := by
  induction l with
  | nil => exact silent_nil
  | cons a l ih =>
    rw [List.flatMap_cons]
    exact silent_append (h a (by simp)) (ih fun b hb => h b (by simp [hb]))

theorem silent_writeKind {st : Store} {indent : Str} (hi : Silent indent) (h : ∀ e ∈ st.exts, Inert e.2.2) (k : Kind) :
    Silent (writeKind st indent k) := by
  unfold writeKind
  split
  · exact silent_nil
  · rename_i l hl
    refine silent_append (silent_append (by cases k <;> exact silent_dull (by decide)) (silent_dull (by decide)))
      (silent_flatMap fun e he => ?_)
    have hm : e ∈ st.exts := by
      have : e ∈ st.exts.filter fun e => e.1.2 == k := by simpa using he
      exact (List.mem_filter.1 this).1
    exact silent_append (silent_append (silent_append (silent_append (silent_append (silent_append (silent_append hi
      (silent_dull (by decide))) (silent_width3 _)) (silent_dull (by decide))) (silent_width3 _)) (silent_dull (by decide)))
      (silent_inert (h e hm))) (silent_dull (by decide))

theorem silent_writeExts {st : Store} {indent : Str} (hi : Silent indent) (hu : ∀ u ∈ st.urns, Inert u.2)
    (h : ∀ e ∈ st.exts, Inert e.2.2) : Silent (writeExts st indent) := by
  unfold writeExts
  split
  · exact silent_nil
  · refine silent_append (silent_append (silent_append (silent_append (silent_append (silent_dull (by decide))
      (silent_dull (by decide))) ?_) (silent_writeKind hi h _)) (silent_writeKind hi h _)) (silent_writeKind hi h _)
    split
    · exact silent_nil
    · refine silent_append (silent_append (silent_dull (by decide)) (silent_dull (by decide)))
        (silent_flatMap fun u hm => ?_)
      exact silent_append (silent_append (silent_append (silent_append (silent_append hi (silent_dull (by decide)))
        (silent_width3 _)) (silent_dull (by decide))) (silent_inert (hu u hm))) (silent_dull (by decide))

/-! ### Plans -/

/-- The errors of a plan that are reported while it is written, after those of its declarations. -/
theorem plan_tokens [UTab] [FTab] (hf : InertFloats) {reg : Registry ExtArgs (List Nat)} (hr : InertRegistry reg)
    (o : Opts) (hi : Inert o.indent) (p : Plan) (h : InertPlan p) :
    (tokens (textPlan reg o p).text).Sublist (textPlan reg o p).errs := by
  have hord : (run (history p)).Ordered := Store.ordered_run _
  have hst : p.store = run (history p) := by
    unfold Plan.store
    rw [Store.fromExtensions_spec]
    rfl
  have hs : InertStore p.store := by
    rw [hst]
    intro k a n hd
    obtain ⟨u, hu⟩ := hd
    rw [Store.findByAnchor_ok, (Store.run_spec _).2] at hu
    exact h.decls a k u n hu
  have he : ∀ e ∈ p.store.exts, Inert e.2.2 := by
    rw [hst]
    rintro ⟨⟨a, k⟩, u, n⟩ hm
    have := (OMap.find?_iff hord.2).2 hm
    rw [(Store.run_spec _).2] at this
    exact (h.decls a k u n this).1
  have hu : ∀ u ∈ p.store.urns, Inert u.2 := by
    rw [hst]
    rintro ⟨a, n⟩ hm
    have := (OMap.find?_iff hord.1).2 hm
    rw [(Store.run_spec _).1] at this
    exact h.urns a n this
  have hs' := silent_inert hi
  have key : Told (textPlan reg o p) := by
    unfold textPlan
    dsimp only
    refine told_append (told_append (told_append (told_append (told_append (told_append (told_silent silent_nil)
      (told_s (silent_writeVersion hs' h.version))) (told_s (silent_writeExts hs' hu he))) ?_) ?_)
      (told_planRels (env := ⟨p.store, o, reg⟩) hf hs hr hs' h.rels)) (by fixed)
    · split <;> fixed
    · fixed
  obtain ⟨ts, h1, h2⟩ := key
  have := h2 []
  rw [List.append_nil] at this
  rw [this]
  simpa [tokens, tokensFrom] using h1

end Verif
