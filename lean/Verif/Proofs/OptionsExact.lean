import Verif.Proofs.TreesExact
import Verif.Spec.Raw
/-!
# How what survives depends on the options
-/

namespace Verif

set_option autoImplicit false

open StoreSpec TextSpec RelSpec

theorem bareName_unique {n b b' : Str} (h : BareName n b) (h' : BareName n b') : b = b' := by
  obtain ⟨h1, h2⟩ := h
  obtain ⟨h1', h2'⟩ := h'
  have key : ∀ {x y s t : Str}, ':' ∉ x → ':' ∉ y → x ++ ':' :: s = y ++ ':' :: t → x = y := by
    intro x
    induction x with
    | nil =>
      intro y s t _ hy h
      cases y with
      | nil => rfl
      | cons c y =>
        simp only [List.nil_append, List.cons_append, List.cons.injEq] at h
        exact absurd (h.1 ▸ List.mem_cons_self ..) hy
    | cons a x ih =>
      intro y s t hx hy h
      cases y with
      | nil =>
        simp only [List.nil_append, List.cons_append, List.cons.injEq] at h
        exact absurd (h.1 ▸ List.mem_cons_self ..) hx
      | cons c y =>
        simp only [List.cons_append, List.cons.injEq] at h
        rw [h.1, ih (fun hm => hx (List.mem_cons_of_mem _ hm)) (fun hm => hy (List.mem_cons_of_mem _ hm)) h.2]
  rcases h2 with rfl | ⟨s, rfl⟩
  · rcases h2' with h | ⟨t, h⟩
    · exact h
    · rw [h] at h1
      simp at h1
  · rcases h2' with h | ⟨t, h⟩
    · rw [← h] at h1'
      simp at h1'
    · exact key h1 h1' h

theorem shownRef_default {st : Store} {v : Visibility} (hv : v ≠ .always) {ref : Nat} {k : Nat}
    (h : ∃ nm a, ShownRef st v ref nm a ∧ UsableRef st ref nm a ∧ (a = none → ¬ LooksBuiltIn nm k)) :
    ∃ nm a, ShownRef st .required ref nm a ∧ UsableRef st ref nm a ∧ (a = none → ¬ LooksBuiltIn nm k) := by
  cases v with
  | required => exact h
  | always => exact absurd rfl hv
  | never =>
    obtain ⟨nm, a, ⟨n, b, h1, h2, rfl, rfl⟩, hu, hl⟩ := h
    obtain ⟨u1, u2, u3, u4⟩ := hu
    have hn : n = nm := Store.declared_unique h1 u3
    subst hn
    exact ⟨n, none, ⟨n, n, h1, h2, rfl, .inr ⟨u4, rfl⟩⟩, ⟨u1, u2, u3, u4⟩, hl⟩

theorem shownFn_default {st : Store} {v : Visibility} (hv : v ≠ .always) {f : Nat}
    (h : ∃ nm a, ShownFn st v f nm a ∧ UsableFn st f nm a) :
    ∃ nm a, ShownFn st .required f nm a ∧ UsableFn st f nm a := by
  cases v with
  | required => exact h
  | always => exact absurd rfl hv
  | never =>
    obtain ⟨nm, a, ⟨n, b, h1, h2, rfl, rfl⟩, hu⟩ := h
    refine ⟨nm, none, ⟨n, nm, h1, h2, .inl ⟨?_, rfl, rfl⟩⟩, hu⟩
    rintro ⟨g, m, x, hg, hm, hx, hx'⟩
    have := bareName_unique h2 hx
    subst this
    exact hg (hu.2 g m hm (spelledBy_bare hx'))

/-- No declared type has, in any case, the name of a built-in type with parameters. -/
def NoBuiltIn (st : Store) : Prop := ∀ a n, Declared st .type a n → n.map toLower ∉ bracketWords

theorem shownRef_any {st : Store} (hc : NoBuiltIn st) {v : Visibility} {ref : Nat} {k : Nat}
    (h : ∃ nm a, ShownRef st v ref nm a ∧ UsableRef st ref nm a ∧ (a = none → ¬ LooksBuiltIn nm k)) :
    ∃ nm a, ShownRef st .required ref nm a ∧ UsableRef st ref nm a ∧ (a = none → ¬ LooksBuiltIn nm k) := by
  cases v with
  | required => exact h
  | never => exact shownRef_default (by decide) h
  | always =>
    obtain ⟨nm, a, ⟨n, b, h1, h2, rfl, rfl⟩, ⟨u1, u2, u3⟩, -⟩ := h
    have hb : b = nm := bareName_unique h2 ⟨ident_colon u1, .inl rfl⟩
    subst hb
    by_cases ht : Twin st .type ref b
    · exact ⟨b, some ref, ⟨b, b, h1, h2, rfl, .inl ⟨ht, rfl⟩⟩, ⟨u1, u2, u3⟩, by rintro ⟨⟩⟩
    · refine ⟨b, none, ⟨b, b, h1, h2, rfl, .inr ⟨ht, rfl⟩⟩, ⟨u1, u2, h1, ht⟩, fun _ hl => hc ref b h1 ?_⟩
      rcases hl with ⟨hl, -⟩ | ⟨hl, -⟩ | ⟨hl, -⟩ <;> rw [hl] <;> decide

theorem shownFn_any {st : Store} {v : Visibility} {f : Nat} (h : ∃ nm a, ShownFn st v f nm a ∧ UsableFn st f nm a) :
    ∃ nm a, ShownFn st .required f nm a ∧ UsableFn st f nm a := by
  cases v with
  | required => exact h
  | never => exact shownFn_default (by decide) h
  | always =>
    obtain ⟨nm, a, ⟨n, b, h1, h2, rfl, rfl⟩, u1, u2⟩ := h
    by_cases hr : Rival st f nm
    · by_cases ht : ':' ∈ nm ∧ ¬ Twin st .function f nm
      · refine ⟨nm, none, ⟨nm, b, h1, h2, .inr (.inl ⟨hr, ht.1, ht.2, rfl, rfl⟩)⟩, u1, ?_⟩
        intro g m hg hm
        rcases hm with rfl | ⟨hm, -⟩
        · exact Classical.byContradiction fun hne => ht.2 ⟨g, hne, hg⟩
        · exact absurd ht.1 hm
      · refine ⟨nm, some f, ⟨nm, b, h1, h2, .inr (.inr ⟨hr, ?_, rfl, rfl⟩)⟩, u1, u2⟩
        by_cases hcol : ':' ∈ nm
        · exact .inr (Classical.byContradiction fun h => ht ⟨hcol, h⟩)
        · exact .inl hcol
    · refine ⟨b, none, ⟨nm, b, h1, h2, .inl ⟨hr, rfl, rfl⟩⟩, ?_, ?_⟩
      · obtain ⟨b0, i0, hn⟩ := u1
        have hb0 : BareName nm b0 := by
          refine ⟨ident_colon i0, ?_⟩
          rcases hn with h | h | ⟨r, -, h⟩
          · exact .inl h
          · exact .inr ⟨[], h⟩
          · exact .inr ⟨r, h⟩
        rw [bareName_unique h2 hb0]
        exact ⟨b0, i0, .inl rfl⟩
      · intro g m hg hm
        refine Classical.byContradiction fun hne => hr ⟨g, m, b, hne, hg, h2, h2.1, ?_⟩
        rcases hm with h | ⟨-, h⟩
        · exact .inl h
        · exact .inr h

/-- Whatever words mean a type under `v`, some do under `v'`; the declarations may differ too. -/
def RefsKept (st st' : Store) (v v' : Visibility) : Prop := ∀ ref k,
  (∃ nm a, ShownRef st v ref nm a ∧ UsableRef st ref nm a ∧ (a = none → ¬ LooksBuiltIn nm k)) →
  ∃ nm a, ShownRef st' v' ref nm a ∧ UsableRef st' ref nm a ∧ (a = none → ¬ LooksBuiltIn nm k)

mutual
theorem survivesTy_lift {st st' : Store} {v v' : Visibility} (hv : RefsKept st st' v v') : (t : Ty) → SurvivesTy st v t → SurvivesTy st' v' t
  | .missing, h => by cases h
  | .simple _ _ _, h => h
  | .intervalDay (some _) _ _, h => h
  | .intervalDay none _ _, h => by cases h
  | .intervalCompound .., h => by cases h
  | .len .., h => by cases h
  | .decimal .., h => by cases h
  | .prec _ _ _ _, h => h
  | .struct .., h => by cases h
  | .list (some t) _ _, h => by
    rw [SurvivesTy] at h ⊢
    exact ⟨h.1, survivesTy_lift hv t h.2⟩
  | .list none _ _, h => by cases h
  | .map .., h => by cases h
  | .user ref ps n w, h => by
    rw [SurvivesTy] at h ⊢
    exact ⟨h.1, hv ref ps.length h.2.1, survivesParams_lift hv ps h.2.2⟩
  | .userRef .., h => by cases h
  | .func, h => by cases h
  | .alias, h => by cases h
theorem survivesParams_lift {st st' : Store} {v v' : Visibility} (hv : RefsKept st st' v v') : (ps : List Param) → SurvivesParams st v ps →
    SurvivesParams st' v' ps
  | [], _ => trivial
  | .ty t :: ps, h => by
    rw [SurvivesParams] at h ⊢
    exact ⟨survivesTy_lift hv t h.1, survivesParams_lift hv ps h.2⟩
  | .missing :: _, h => by cases h
  | .null :: _, h => by cases h
  | .bool _ :: _, h => by cases h
  | .int _ :: _, h => by cases h
  | .enum _ :: _, h => by cases h
  | .str _ :: _, h => by cases h
end

/-! ## What is copied does not depend on the options -/

open RawSpec

section
variable {st : Store} {o o' : Opts}

theorem directColumns_opts {reg : Registry ExtArgs (List Nat)} (ws : List (Option Nat)) (op : RelOp) :
    directColumns ⟨st, o, reg⟩ ws op = directColumns ⟨st, o', reg⟩ ws op := by
  cases op <;> rfl

mutual
theorem writtenWidth_opts {reg : Registry ExtArgs (List Nat)} : (r : Rel) →
    writtenWidth ⟨st, o, reg⟩ r = writtenWidth ⟨st, o', reg⟩ r
  | .node op ins => by
    rw [writtenWidth, writtenWidth, writtenWidths_opts ins, directColumns_opts]
theorem writtenWidths_opts {reg : Registry ExtArgs (List Nat)} : (l : List (Option Rel)) →
    writtenWidths ⟨st, o, reg⟩ l = writtenWidths ⟨st, o', reg⟩ l
  | [] => by rw [writtenWidths, writtenWidths]
  | none :: l => by rw [writtenWidths, writtenWidths, writtenWidths_opts l]
  | some r :: l => by rw [writtenWidths, writtenWidths, writtenWidths_opts l, writtenWidth_opts r]
end

theorem opRaw_opts {reg : Registry ExtArgs (List Nat)} (ws : List (Option Nat)) (op : RelOp) :
    opRaw ⟨st, o, reg⟩ ws op = opRaw ⟨st, o', reg⟩ ws op := by
  cases op <;> rfl

mutual
theorem relRaw_opts {reg : Registry ExtArgs (List Nat)} : (r : Rel) → relRaw ⟨st, o, reg⟩ r = relRaw ⟨st, o', reg⟩ r
  | .node op ins => by
    rw [relRaw, relRaw, writtenWidths_opts ins, relsRaw_opts ins, opRaw_opts]
theorem relsRaw_opts {reg : Registry ExtArgs (List Nat)} : (l : List (Option Rel)) →
    relsRaw ⟨st, o, reg⟩ l = relsRaw ⟨st, o', reg⟩ l
  | [] => by rw [relsRaw, relsRaw]
  | none :: l => by rw [relsRaw, relsRaw, relsRaw_opts l]
  | some r :: l => by rw [relsRaw, relsRaw, relsRaw_opts l, relRaw_opts r]
end

theorem planRaw_opts (reg : Registry ExtArgs (List Nat)) (o o' : Opts) (p : Plan) : planRaw reg o p = planRaw reg o' p := by
  unfold planRaw
  congr 1
  congr 1
  funext r
  cases r with
  | rel r => exact relRaw_opts r
  | root names r =>
    cases r with
    | none => rfl
    | some r => exact relRaw_opts r
  | missing => rfl

end

variable [UTab] [FTab] {st st' : Store} {o o' : Opts}

/-- Under the options `o'` and the declarations `st'` no less of the names of types and functions and of the types of literals survives than under `o` and `st`. -/
structure Keeps (st st' : Store) (o o' : Opts) : Prop where
  types : ∀ t, SurvivesTy st o.anchors t → SurvivesTy st' o'.anchors t
  functions : ∀ f, (∃ nm a, ShownFn st o.anchors f nm a ∧ UsableFn st f nm a) →
    ∃ nm a, ShownFn st' o'.anchors f nm a ∧ UsableFn st' f nm a
  never : o'.litTypes = .never → o.litTypes = .never
  always : o'.litTypes = .always → o.litTypes = .always

omit [UTab] [FTab] in
theorem keeps_default (ho : o.anchors ≠ .always) (ha : o'.anchors = .required) (hl : o'.litTypes = .required) : Keeps st st o o' :=
  ⟨fun t h => by rw [ha]; exact survivesTy_lift (fun _ _ => shownRef_default ho) t h, fun f h => by rw [ha]; exact shownFn_default ho h,
    fun h => (by rw [hl] at h; cases h), fun h => (by rw [hl] at h; cases h)⟩

omit [UTab] [FTab] in
theorem keeps_any (hc : NoBuiltIn st) (ha : o'.anchors = .required) (hl : o'.litTypes = .required) : Keeps st st o o' :=
  ⟨fun t h => by rw [ha]; exact survivesTy_lift (fun _ _ => shownRef_any hc) t h, fun f h => by rw [ha]; exact shownFn_any h,
    fun h => (by rw [hl] at h; cases h), fun h => (by rw [hl] at h; cases h)⟩

omit [UTab] [FTab] in
theorem keeps_same (ha : o.anchors = o'.anchors) (hl : o.litTypes = o'.litTypes) : Keeps st st o o' :=
  ⟨fun t h => by rw [← ha]; exact h, fun f h => by rw [← ha]; exact h, fun h => by rw [hl, h], fun h => by rw [hl, h]⟩

theorem survivesLit_keeps (hk : Keeps st st' o o') {l : Literal} (h : SurvivesLit st o l) :
    SurvivesLit st' o' l := by
  obtain ⟨h0, v, hv, h⟩ := h
  refine ⟨h0, v, hv, ?_⟩
  cases v with
  | null t =>
    dsimp only
    exact ⟨hk.types t h.1, h.2⟩
  | int k i => cases k <;> exact ⟨h.1, fun hx => h.2 (hk.never hx)⟩
  | prec k p v => cases k <;> exact ⟨h.1, fun hx => h.2 (hk.never hx)⟩
  | _ => exact ⟨h.1, fun hx => h.2 (hk.never hx)⟩

mutual
theorem survivesExpr_keeps (hk : Keeps st st' o o') : (e : Expr) → SurvivesExpr st o e → SurvivesExpr st' o' e
  | .missing, h => by cases h
  | .literal l, h => by
    rw [SurvivesExpr] at h ⊢
    exact survivesLit_keeps hk h
  | .selection (.field _ none), h => by
    rw [SurvivesExpr] at h ⊢
    exact h
  | .selection (.field _ (some _)), h => by simp [SurvivesExpr] at h
  | .selection .badReference, h => by cases h
  | .selection .badSegment, h => by cases h
  | .call f args opts (some t), h => by
    rw [SurvivesExpr] at h ⊢
    exact ⟨h.1, hk.functions f h.2.1, survivesArgs_keeps hk args h.2.2.1, hk.types t h.2.2.2⟩
  | .call _ _ _ none, h => by cases h
  | .cast (some e) (some t) fb, h => by
    rw [SurvivesExpr] at h ⊢
    exact ⟨h.1, survivesExpr_keeps hk e h.2.1, hk.types t h.2.2⟩
  | .cast none _ _, h => by cases h
  | .cast (some _) none _, h => by cases h
  | .ifThen ifs (some e), h => by
    rw [SurvivesExpr] at h ⊢
    exact ⟨h.1, survivesClauses_keeps hk ifs h.2.1, survivesExpr_keeps hk e h.2.2⟩
  | .ifThen _ none, h => by cases h
  | .other, h => by cases h
theorem survivesArgs_keeps (hk : Keeps st st' o o') : (l : List Arg) → SurvivesArgs st o l → SurvivesArgs st' o' l
  | [], _ => by rw [SurvivesArgs]; trivial
  | .value e :: l, h => by
    rw [SurvivesArgs] at h ⊢
    exact ⟨survivesExpr_keeps hk e h.1, survivesArgs_keeps hk l h.2⟩
  | .missing :: _, h => by cases h
  | .ty _ :: _, h => by cases h
  | .enum _ :: _, h => by cases h
theorem survivesClauses_keeps (hk : Keeps st st' o o') : (l : List Clause) → SurvivesClauses st o l →
    SurvivesClauses st' o' l
  | [], _ => by rw [SurvivesClauses]; trivial
  | .mk (some c) (some r) :: l, h => by
    rw [SurvivesClauses] at h ⊢
    exact ⟨survivesExpr_keeps hk c h.1, survivesExpr_keeps hk r h.2.1, survivesClauses_keeps hk l h.2.2⟩
  | .mk none _ :: _, h => by cases h
  | .mk (some _) none :: _, h => by cases h
end

theorem survivesCount_keeps (hk : Keeps st st' o o') {c : Count} (h : SurvivesCount st o c) :
    SurvivesCount st' o' c := by
  cases c with
  | deprecated i => exact h
  | expr e =>
    rcases h with ⟨h0, h⟩ | ⟨h, hn⟩
    · exact .inl ⟨fun hx => h0 (hk.always hx), h⟩
    · exact .inr ⟨survivesExpr_keeps hk e h, hn⟩

omit [FTab] in
theorem survivesColumns_keeps (hk : Keeps st st' o o') {s : Option NamedStruct}
    (h : SurvivesColumns st o s) : SurvivesColumns st' o' s := by
  obtain ⟨cols, h1, h2⟩ := h
  refine ⟨cols, h1, fun c hc => ⟨(h2 c hc).1, ?_⟩⟩
  exact hk.types _ (h2 c hc).2

theorem survivesLine_keeps (hk : Keeps st st' o o') {ws : List Nat} {op : RelOp}
    (h : SurvivesLine st o ws op) : SurvivesLine st' o' ws op := by
  have he := fun e (h : SurvivesExpr st o e) => survivesExpr_keeps (st := st) (st' := st') hk e h
  cases op with
  | read c schema filter ty adv rest =>
    cases ty with
    | named names k =>
      obtain ⟨h1, h2, h3, h4, h5, h6, h7, h8, h9⟩ := h
      exact ⟨h1, h2, h3, h4, h5, h6, h7, survivesColumns_keeps hk h8, h9⟩
    | «virtual» rows k =>
      obtain ⟨h1, h2, h3, h4, h5, h6, h7, h8⟩ := h
      exact ⟨h1, h2, h3, h4, h5, fun r hr e hm => he e (h6 r hr e hm), fun e hm => he e (h7 e hm),
        survivesColumns_keeps hk h8⟩
    | extension d => cases h
    | other => cases h
  | filter c cond adv =>
    obtain ⟨h1, h2, ⟨e, h3, h4⟩, h5⟩ := h
    exact ⟨h1, h2, ⟨e, h3, he e h4⟩, h5⟩
  | project c exprs adv =>
    obtain ⟨h1, h2, h3, h4⟩ := h
    exact ⟨h1, h2, h3, fun i hi e hl hx => ⟨he e (h4 i hi e hl hx).1, (h4 i hi e hl hx).2⟩⟩
  | aggregate => cases h
  | sort c sorts adv =>
    obtain ⟨h1, h2, h3, h4, h5⟩ := h
    refine ⟨h1, h2, h3, fun f hf => ?_, h5⟩
    obtain ⟨e, d, h6, h7, h8⟩ := h4 f hf
    exact ⟨e, d, h6, he e h7, h8⟩
  | fetch c count offset adv =>
    obtain ⟨h1, h2, h3, h4, h5⟩ := h
    exact ⟨h1, h2, fun x hx => survivesCount_keeps hk (h3 x hx), fun x hx => survivesCount_keeps hk (h4 x hx), h5⟩
  | join c ty cond post adv =>
    obtain ⟨h1, h2, h3, ⟨e, h4, h5⟩, h6⟩ := h
    exact ⟨h1, h2, h3, ⟨e, h4, he e h5⟩, fun x hx => he x (h6 x hx)⟩
  | set c t adv => exact h
  | cross c adv => exact h
  | ext => cases h
  | other => cases h

theorem survivesTree_keeps {reg : Registry ExtArgs (List Nat)} (hk : Keeps st st' o o') {r : Rel}
    (h : SurvivesTree ⟨st, o, reg⟩ r) : SurvivesTree ⟨st', o', reg⟩ r := by
  induction h with
  | node op inputs hl _ ih => exact .node op inputs (survivesLine_keeps hk hl) ih

theorem survivesTop_keeps {reg : Registry ExtArgs (List Nat)} (hk : Keeps st st' o o') {r : PlanRel}
    (h : SurvivesTop ⟨st, o, reg⟩ r) : SurvivesTop ⟨st', o', reg⟩ r := by
  cases r with
  | rel r => exact survivesTree_keeps hk h
  | root names r =>
    cases r with
    | none => cases h
    | some r => exact ⟨h.1, survivesTree_keeps hk h.2⟩
  | missing => cases h

end Verif
