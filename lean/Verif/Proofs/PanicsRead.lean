import Verif.Proofs.ReparsePlan
import Verif.Proofs.Panics
/-!
# Dates of plans that were read

The parser reads dates with `chrono`, so those it builds exist.
-/

namespace Verif
open StoreSpec TextSpec RelSpec PlanSpec PanicSpec

set_option autoImplicit false

/-- All dates of an expression exist. -/
def Dated (e : Expr) : Prop := ∀ d ∈ exprDates e, DayExists d

mutual
theorem dated_image {st : Store} : (e : Expr) → ExprImage st e → Dated e
  | .literal l, h => by
    unfold Dated
    rw [exprDates]
    rw [ExprImage] at h
    obtain ⟨-, v, hv, h⟩ := h
    intro d hd
    unfold litDates at hd
    rw [hv] at hd
    split at hd
    · rename_i hx
      cases hx
      rw [List.mem_singleton] at hd
      subst hd
      have h1 : minDays = -96465292 := by decide +kernel
      have h2 : maxDays = 95026236 := by decide +kernel
      simp only [h1, h2] at h
      exact h
    · cases hd
  | .selection _, _ => by intro d hd; simp [exprDates] at hd
  | .missing, _ => by intro d hd; simp [exprDates] at hd
  | .other, _ => by intro d hd; simp [exprDates] at hd
  | .call f args opts (some t), h => by
    unfold Dated
    rw [exprDates]
    rw [ExprImage] at h
    exact dated_imageArgs args h.2.2.1
  | .call f args opts none, h => by simp [ExprImage] at h
  | .cast (some e) (some t) fb, h => by
    unfold Dated
    rw [exprDates, optDates]
    rw [ExprImage] at h
    exact dated_image e h.2.1
  | .cast none _ _, h => by simp [ExprImage] at h
  | .cast (some _) none _, h => by simp [ExprImage] at h
  | .ifThen cs (some e), h => by
    unfold Dated
    rw [exprDates, optDates]
    rw [ExprImage] at h
    intro d hd
    exact (List.mem_append.1 hd).elim (dated_imageClauses cs h.1 d) (dated_image e h.2 d)
  | .ifThen _ none, h => by simp [ExprImage] at h
theorem dated_imageArgs {st : Store} : (l : List Arg) → ImageArgs st l → ∀ d ∈ argsDates l, DayExists d
  | [], _ => by simp [argsDates]
  | .value e :: l, h => by
    rw [ImageArgs] at h
    rw [argsDates]
    intro d hd
    exact (List.mem_append.1 hd).elim (dated_image e h.1 d) (dated_imageArgs l h.2 d)
  | .missing :: _, h => by simp [ImageArgs] at h
  | .ty _ :: _, h => by simp [ImageArgs] at h
  | .enum _ :: _, h => by simp [ImageArgs] at h
theorem dated_imageClauses {st : Store} : (l : List Clause) → ImageClauses st l → ∀ d ∈ clausesDates l, DayExists d
  | [], _ => by simp [clausesDates]
  | .mk (some c) (some r) :: l, h => by
    rw [ImageClauses] at h
    rw [clausesDates, optDates, optDates]
    intro d hd
    rcases List.mem_append.1 hd with hd | hd
    · exact (List.mem_append.1 hd).elim (dated_image c h.1 d) (dated_image r h.2.1 d)
    · exact dated_imageClauses l h.2.2 d hd
  | .mk none _ :: _, h => by simp [ImageClauses] at h
  | .mk (some _) none :: _, h => by simp [ImageClauses] at h
end

variable [UTab] [FTab]

omit [UTab] in
theorem dated_conv {st : Store} (hst : st.Ordered) {s : SExpr} {e : Expr} (h : convExpr st s = .ok e) : Dated e :=
  dated_image e (convExpr_image hst s e h)

omit [UTab] in
theorem dated_count {st : Store} (hst : st.Ordered) {v : Option SFetch} {c : Option Count}
    (h : convOptR (convFetchValue st) v = .ok c) : ∀ e ∈ c.toList.flatMap countExprs, Dated e := by
  cases v with
  | none => cases h; simp
  | some v =>
    obtain ⟨b, hb, h⟩ := Res.bind_ok_iff.1 h
    cases h
    intro e he
    simp only [Option.toList_some, List.flatMap_cons, List.flatMap_nil, List.append_nil] at he
    cases v with
    | int i =>
      simp only [convFetchValue] at hb
      split at hb
      · cases hb
      · split at hb
        · cases hb
        · cases hb
          simp only [countExprs, List.mem_singleton] at he
          subst he
          intro d hd
          simp [i64Expr, exprDates, litDates] at hd
    | expr s =>
      simp only [convFetchValue] at hb
      obtain ⟨x, hx, hb⟩ := Res.bind_ok_iff.1 hb
      cases hb
      simp only [countExprs, List.mem_singleton] at he
      subst he
      exact dated_conv hst (plain_ok.1 hx)

/-- What a handler explains has only dates that exist. -/
def DatedRegistry (reg : Registry ExtArgs (List Nat)) : Prop :=
  ∀ n ws d, ∀ e ∈ payloadExprs reg n ws d, Dated e

omit [UTab] [FTab] in
theorem dated_adv {env : Env} (hr : DatedRegistry env.reg) (a : Option AdvExt) : ∀ e ∈ advExprs env a, Dated e := by
  unfold advExprs
  intro e he
  rcases List.mem_append.1 he with he | he
  · obtain ⟨d, _, he⟩ := List.mem_flatMap.1 he
    exact hr _ _ _ e he
  · obtain ⟨d, _, he⟩ := List.mem_flatMap.1 he
    exact hr _ _ _ e he

omit [UTab] in
theorem dated_line {st : Store} {env : Env} (hst : st.Ordered) (hr : DatedRegistry env.reg) {as : List Addendum}
    {kids : List (Rel × Nat)} {line : SLine} {op : RelOp} {ins : List (Option Rel)} {w : Nat}
    (h : LineOk st env.reg as kids line (.node op ins, w)) (ws : List (Option Nat)) :
    ∀ e ∈ opExprs env ws op, Dated e := by
  generalize hq : (Rel.node op ins, w) = q at h
  cases h with
  | set o refs adv w' t m ha hk hw ht hm =>
    cases hq
    exact dated_adv hr _
  | readExt cols d adv cs he hk hc =>
    cases hq
    intro e he
    rcases List.mem_append.1 he with he | he
    · exact dated_adv hr _ e he
    · simp only [Option.toList_some, List.flatMap_cons, List.flatMap_nil, List.append_nil] at he
      exact hr _ _ _ e he
  | ext kind name args cols a d h1 h2 h3 h4 =>
    cases hq
    intro e he
    simp only [opExprs, Option.toList_some, List.flatMap_cons, List.flatMap_nil, List.append_nil] at he
    exact hr _ _ _ e he
  | body _ adv _ ha hb =>
    subst hq
    generalize hq : (Rel.node op ins, w) = q at hb
    generalize hks : kids.map (·.1) = ks at hb
    have hadv := dated_adv hr adv
    cases hb with
    | read table out cols e w' hn ho =>
      cases hq
      intro e he
      simp only [opExprs, List.append_nil] at he
      exact hadv e he
    | readVirtual rows f cols f' rs cs h1 h2 h3 =>
      cases hq
      intro e he
      simp only [opExprs, List.mem_append] at he
      rcases he with he | he | he
      · exact hadv e he
      · obtain ⟨r, hr, he⟩ := List.mem_flatten.1 he
        obtain ⟨s, -, hc⟩ := convExprLists_from h2 r hr e he
        exact dated_conv hst hc
      · obtain ⟨s, -, hc⟩ := convOpt_from h1 e (by simpa using he)
        exact dated_conv hst hc
    | filter cond refs r x m h1 h2 =>
      cases hq
      intro e he
      simp only [opExprs, List.mem_append, Option.toList_some, List.mem_singleton] at he
      rcases he with he | rfl
      · exact hadv e he
      · exact dated_conv hst h1
    | project args r es m h1 =>
      cases hq
      intro e he
      simp only [opExprs, List.mem_append] at he
      rcases he with he | he
      · exact hadv e he
      · obtain ⟨s, -, hc⟩ := convProj_from h1 e he
        exact dated_conv hst hc
    | aggregate group outs r sets ms m h1 h2 =>
      cases hq
      obtain ⟨-, ⟨more, hmore, hin⟩, -, hexprs⟩ := internSets_spec sets [] (by simp)
      rw [List.nil_append] at hmore
      intro e he
      simp only [opExprs, List.mem_append] at he
      rcases he with ((he | he) | he) | he
      · exact hadv e he
      · rw [hmore] at he
        obtain ⟨s, hs, he⟩ := hin e he
        obtain ⟨s', -, hc⟩ := convGroup_from h1 s hs e he
        exact dated_conv hst hc
      · obtain ⟨g, hg, he⟩ := List.mem_flatMap.1 he
        rw [hexprs g hg] at he
        cases he
      · obtain ⟨a, ha, rfl⟩ := List.mem_map.1 he
        obtain ⟨y, hy, hf⟩ := List.mem_filterMap.1 ha
        obtain ⟨s, -, x, hcall, hc, -, rfl⟩ := convOuts_from h2 y hy
        have := dated_conv hst hc
        cases x with
        | call f args opts t => cases hf; exact this
        | _ => cases hf
    | sort fields refs r fs m h1 h2 =>
      cases hq
      intro e he
      simp only [opExprs, List.mem_append] at he
      rcases he with he | he
      · exact hadv e he
      · obtain ⟨f, hf, he⟩ := List.mem_filterMap.1 he
        obtain ⟨s, -, hc⟩ := convSortFields_from h1 f hf
        unfold convSortField at hc
        obtain ⟨x, hx, hc⟩ := Res.bind_ok_iff.1 hc
        split at hc
        · cases hc
          cases he
          exact dated_conv hst (dropPanics_ok.1 hx)
        · cases hc
    | fetch args refs r l o m h0 h1 h2 h3 =>
      cases hq
      intro e he
      simp only [opExprs, List.mem_append] at he
      rcases he with (he | he) | he
      · exact hadv e he
      · exact dated_count hst h2 e he
      · exact dated_count hst h3 e he
    | join ty cond post refs l r t x p m h0 h1 h2 h3 =>
      cases hq
      intro e he
      simp only [opExprs, List.mem_append, Option.toList_some, List.mem_singleton] at he
      rcases he with (he | rfl) | he
      · exact hadv e he
      · exact dated_conv hst h1
      · obtain ⟨s, -, hc⟩ := convOpt_from h2 e (by simpa using he)
        exact dated_conv hst hc
    | cross refs l r m h1 =>
      cases hq
      exact hadv

omit [UTab] [FTab] in
theorem relsExprs_some (env : Env) : ∀ l : List Rel, relsExprs env (l.map some) = l.flatMap (relExprs env)
  | [] => by simp [relsExprs]
  | a :: l => by simp [relsExprs, relsExprs_some env l]

mutual
theorem dated_node {st : Store} {env : Env} (hst : st.Ordered) (hr : DatedRegistry env.reg) : (t : RNode SLine SAddendum) →
    ∀ r, convNode st env.reg t = .ok r → ∀ e ∈ relExprs env r.1, Dated e
  | .mk line as kids => by
    intro r h
    unfold convNode at h
    obtain ⟨ks, h1, h⟩ := Res.bind_ok_iff.1 h
    obtain ⟨as', h2, h⟩ := Res.bind_ok_iff.1 h
    have hk := dated_kids hst hr kids ks h1
    have hline := convLine_ok h
    obtain ⟨op, hx, -, -⟩ := hline.shape
    obtain ⟨r, w⟩ := r
    dsimp only at hx ⊢
    subst hx
    rw [relExprs]
    intro e he
    rcases List.mem_append.1 he with he | he
    · exact dated_line hst hr hline _ e he
    · rw [relsExprs_some] at he
      obtain ⟨k, hk', he⟩ := List.mem_flatMap.1 he
      obtain ⟨k', hk'', rfl⟩ := List.mem_map.1 hk'
      exact hk k' hk'' e he
theorem dated_kids {st : Store} {env : Env} (hst : st.Ordered) (hr : DatedRegistry env.reg) : (ts : List (RNode SLine SAddendum)) →
    ∀ r, convKids st env.reg ts = .ok r → ∀ k ∈ r, ∀ e ∈ relExprs env k.1, Dated e
  | [] => by intro r h; cases h; simp
  | t :: ts => by
    intro r h
    unfold convKids at h
    obtain ⟨k, h1, h⟩ := Res.bind_ok_iff.1 h
    obtain ⟨ks, h2, h⟩ := Res.bind_ok_iff.1 h
    cases h
    intro k' hk'
    rcases List.mem_cons.1 hk' with rfl | hk'
    · exact dated_node hst hr t _ h1
    · exact dated_kids hst hr ts ks h2 k' hk'
end

theorem dated_tops {st : Store} {env : Env} (hst : st.Ordered) (hr : DatedRegistry env.reg) (ts : List (RNode SLine SAddendum)) :
    ∀ {r : List PlanRel}, convPlanRels st env.reg ts = .ok r → ∀ x ∈ r, ∀ e ∈ topExprs env x, Dated e := by
  induction ts with
  | nil => intro r h x hx; cases h; cases hx
  | cons t ts ih =>
    intro r h x hx
    unfold convPlanRels at h
    obtain ⟨k, h1, h⟩ := Res.bind_ok_iff.1 h
    obtain ⟨ks, h2, h⟩ := Res.bind_ok_iff.1 h
    cases h
    rcases List.mem_cons.1 hx with rfl | hx
    · unfold convPlanRel at h1
      split at h1
      · split at h1
        · cases h1
        split at h1
        · obtain ⟨y, hy, h1⟩ := Res.bind_ok_iff.1 h1
          cases h1
          exact dated_node hst hr _ _ hy
        · cases h1
      · obtain ⟨y, hy, h1⟩ := Res.bind_ok_iff.1 h1
        cases h1
        exact dated_node hst hr _ _ hy
    · exact ih h2 x hx

/-- The dates of a plan that was read exist. -/
theorem dated_parse {reg : Registry ExtArgs (List Nat)} (hr : DatedRegistry reg) {text : Str} {p : Plan}
    (h : parsePlan reg text = .ok p) (o : Opts) : ∀ d ∈ planDates reg o p, DayExists d := by
  obtain ⟨ops, lines, tails, forest, -, -, -, -, -, -, hc, -, -⟩ := parsePlan_built h
  intro d hd
  obtain ⟨e, he, hd⟩ := List.mem_flatMap.1 hd
  obtain ⟨r, hrm, he⟩ := List.mem_flatMap.1 he
  exact dated_tops (env := ⟨_, o, reg⟩) (Store.ordered_run ops) hr forest hc r hrm e he d hd

end Verif
