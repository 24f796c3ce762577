import Verif.Spec.TidyShown
import Verif.Proofs.Tidy
import Verif.Proofs.TreesExact
/-!
# Relations that survive and leave nothing open are written without an error
-/

namespace Verif

set_option autoImplicit false

open StoreSpec TextSpec RelSpec PlanSpec

mutual
theorem completeTy_survives {st : Store} {v : Visibility} : (t : Ty) → SurvivesTy st v t → TidyTy t → CompleteTy st t
  | .missing, h, _ => by cases h
  | .simple _ _ _, h, ht => ⟨ht, .inl h⟩
  | .intervalDay (some _) _ _, h, ht => ⟨ht, .inl h.1⟩
  | .intervalDay none _ _, h, _ => by cases h
  | .intervalCompound .., h, _ => by cases h
  | .len .., h, _ => by cases h
  | .decimal .., h, _ => by cases h
  | .prec _ _ _ _, h, ht => ⟨ht, .inl h.1⟩
  | .struct .., h, _ => by cases h
  | .list (some t) _ _, h, ht => by
    rw [SurvivesTy] at h
    rw [TidyTy] at ht
    exact ⟨ht.1, .inl h.1, completeTy_survives t h.2 ht.2⟩
  | .list none _ _, h, _ => by cases h
  | .map .., h, _ => by cases h
  | .user ref ps n w, h, ht => by
    rw [SurvivesTy] at h
    rw [TidyTy] at ht
    obtain ⟨h1, ⟨nm, a, ⟨m, b, h2, -⟩, -⟩, h3⟩ := h
    exact ⟨⟨m, h2⟩, ht.1, .inl h1, completeParams_survives ps h3 ht.2⟩
  | .userRef .., h, _ => by cases h
  | .func, h, _ => by cases h
  | .alias, h, _ => by cases h
theorem completeParams_survives {st : Store} {v : Visibility} : (ps : List Param) → SurvivesParams st v ps → TidyParams ps →
    CompleteParams st ps
  | [], _, _ => trivial
  | .ty t :: ps, h, ht => by
    rw [SurvivesParams] at h
    rw [TidyParams] at ht
    exact ⟨completeTy_survives t h.1 ht.1, completeParams_survives ps h.2 ht.2⟩
  | .missing :: _, h, _ => by cases h
  | .null :: _, h, _ => by cases h
  | .bool _ :: _, h, _ => by cases h
  | .int _ :: _, h, _ => by cases h
  | .enum _ :: _, h, _ => by cases h
  | .str _ :: _, h, _ => by cases h
end

section
variable [UTab] [FTab]

theorem completeLit_survives {st : Store} {o : Opts} {l : Literal} (h : SurvivesLit st o l)
    (ht : ∀ v, l.value = some v → TidyLit v) : CompleteLit st l := by
  obtain ⟨h0, v, hv, h⟩ := h
  by_cases hn : ∃ t, v = .null t
  · obtain ⟨t, rfl⟩ := hn
    exact ⟨_, hv, completeTy_survives t h.1 (ht _ hv)⟩
  · refine completeLit_of_tidy ⟨h0, v, hv, ?_⟩ ht
    cases v with
    | null t => exact absurd ⟨t, rfl⟩ hn
    | _ => exact h.1

mutual
theorem completeExpr_survives {st : Store} {o : Opts} : (e : Expr) → SurvivesExpr st o e → TidyExpr e → CompleteExpr st e
  | .missing, h, _ => by cases h
  | .literal l, h, ht => completeLit_survives h ht
  | .selection (.field _ _), _, _ => trivial
  | .selection .badReference, h, _ => by cases h
  | .selection .badSegment, h, _ => by cases h
  | .call f args opts (some t), h, ht => by
    rw [SurvivesExpr] at h
    rw [TidyExpr] at ht
    obtain ⟨-, ⟨nm, a, ⟨n, b, h1, -⟩, -⟩, h2, h3⟩ := h
    exact ⟨⟨n, h1⟩, completeArgs_survives args h2 ht.1, completeTy_survives t h3 (ht.2 t rfl)⟩
  | .call _ _ _ none, h, _ => by cases h
  | .cast (some e) (some t) fb, h, ht => by
    rw [SurvivesExpr] at h
    rw [TidyExpr] at ht
    exact ⟨h.1, completeExpr_survives e h.2.1 ht.1, completeTy_survives t h.2.2 (ht.2 t rfl)⟩
  | .cast none _ _, h, _ => by cases h
  | .cast (some _) none _, h, _ => by cases h
  | .ifThen ifs (some e), h, ht => by
    rw [SurvivesExpr] at h
    rw [TidyExpr] at ht
    exact ⟨completeClauses_survives ifs h.2.1 ht.1, completeExpr_survives e h.2.2 ht.2⟩
  | .ifThen _ none, h, _ => by cases h
  | .other, h, _ => by cases h
theorem completeArgs_survives {st : Store} {o : Opts} : (l : List Arg) → SurvivesArgs st o l → TidyArgs l → CompleteArgs st l
  | [], _, _ => trivial
  | .value e :: l, h, ht => by
    rw [SurvivesArgs] at h
    rw [TidyArgs] at ht
    exact ⟨completeExpr_survives e h.1 ht.1, completeArgs_survives l h.2 ht.2⟩
  | .missing :: _, h, _ => by cases h
  | .ty _ :: _, h, _ => by cases h
  | .enum _ :: _, h, _ => by cases h
theorem completeClauses_survives {st : Store} {o : Opts} : (l : List Clause) → SurvivesClauses st o l → TidyClauses l →
    CompleteClauses st l
  | [], _, _ => trivial
  | .mk (some c) (some r) :: l, h, ht => by
    rw [SurvivesClauses] at h
    rw [TidyClauses] at ht
    exact ⟨completeExpr_survives c h.1 ht.1, completeExpr_survives r h.2.1 ht.2.1, completeClauses_survives l h.2.2 ht.2.2⟩
  | .mk none _ :: _, h, _ => by cases h
  | .mk (some _) none :: _, h, _ => by cases h
end

theorem count_survives {st : Store} {o : Opts} {c : Count} (h : SurvivesCount st o c) (ht : TidyCount c) : CountComplete st c := by
  cases c with
  | deprecated i => trivial
  | expr e =>
    rcases h with ⟨-, i, rfl, -⟩ | ⟨h, -⟩
    · exact ⟨_, rfl, trivial⟩
    · exact completeExpr_survives e h ht

omit [UTab] [FTab] in
theorem adv_none {env : Env} : AdvComplete env none := ⟨(by intro d hd; cases hd), (by intro d hd; cases hd)⟩

omit [UTab] [FTab] in
/-- Only the columns put out matter. -/
theorem columnsShown_among {o : Opts} (ho : o.showEmit = false) {op : RelOp} {c : Option Common} {cols : List Prop} {n : Nat}
    (hc : opMapping op = mapping c) (hr : RelSpec.namedRead op = false) (hn : cols.length = n) (ha : Among n (shown n c))
    (h : ∀ i ∈ shown n c, ∀ p, cols[i.toNat]? = some p → p) : ColumnsShown o op cols := by
  unfold ColumnsShown
  rw [hc]
  unfold shown at ha h
  cases hm : mapping c with
  | none =>
    rw [hm] at h
    intro p hp
    obtain ⟨i, hi, rfl⟩ := List.mem_iff_getElem.1 hp
    refine h (i : Int) ?_ _ (by simp [hi])
    simp only [Option.getD_none, identity, List.mem_map, List.mem_range]
    exact ⟨i, by omega, rfl⟩
  | some m =>
    rw [hm] at ha h
    simp only [ho, hr, Bool.or_self, Bool.false_eq_true, if_false]
    intro i hi
    obtain ⟨h1, h2⟩ := ha i hi
    have hlt : i.toNat < cols.length := by omega
    exact ⟨h1, cols[i.toNat], by simp, h i hi _ (by simp [hlt])⟩

omit [UTab] [FTab] in
theorem columnsShown_refs {o : Opts} (ho : o.showEmit = false) {op : RelOp} {c : Option Common} {n : Nat}
    (hc : opMapping op = mapping c) (hr : RelSpec.namedRead op = false) (ha : Among n (shown n c)) :
    ColumnsShown o op (refColumns n) :=
  columnsShown_among ho hc hr (by simp [refColumns]) ha fun _ _ p hp => refColumns_all n p (List.mem_of_getElem? hp)

omit [FTab] in
theorem schema_survives {st : Store} {o : Opts} {s : Option NamedStruct} (h : SurvivesColumns st o s)
    (ht : ∀ x, s = some x → ∀ y, x.struct = some y → ∀ t ∈ y.types, TidyTy t) : ∀ p ∈ schemaColumns st s, p := by
  obtain ⟨cols, rfl, hcols⟩ := h
  intro p hp
  simp only [schemaColumns, typesOf, List.mem_map, List.mem_range] at hp
  obtain ⟨i, hi, rfl⟩ := hp
  have hi : i < cols.length := by simpa using hi
  have hmem := List.getElem_mem hi
  refine ⟨by simpa using hi, cols[i].2, by simp [hi], ?_⟩
  exact completeTy_survives _ (hcols _ hmem).2 (ht _ rfl _ rfl _ (List.mem_map_of_mem hmem))

/-- One relation. -/
theorem op_survives {env : Env} (ho : env.o.showEmit = false) {ws : List Nat} {op : RelOp} (hd : Described op)
    (h : SurvivesLine env.st env.o ws op) (ht : ShownTidyOp env ws op) :
    ArgumentsComplete env (ws.map some) op ∧ ColumnsShown env.o op (directColumns env (ws.map some) op) := by
  cases op with
  | read c schema filter ty adv rest =>
    obtain ⟨t1, t2, -⟩ := ht
    cases ty with
    | named names k =>
      obtain ⟨-, -, -, -, -, -, -, hs, -⟩ := h
      have hd : adv = none := hd
      subst hd
      refine ⟨⟨adv_none, trivial⟩, columnsShown_all (schema_survives hs t1) fun m hm => .inr (.inl rfl)⟩
    | «virtual» rows k =>
      obtain ⟨-, -, -, -, hm, h1, h2, hs⟩ := h
      have hd : adv = none := hd
      subst hd
      refine ⟨⟨adv_none, fun r hr e he => completeExpr_survives e (h1 r hr e he) (t2.1 r hr e he), fun e he => ?_⟩,
        columnsShown_all (schema_survives hs t1) fun m hm' => ?_⟩
      · subst he
        exact completeExpr_survives e (h2 e rfl) t2.2
      · have hm' : mapping c = some m := hm'
        rw [hm] at hm'
        cases hm'
    | extension d => cases hd
    | other => cases hd
  | filter c cond adv =>
    obtain ⟨-, -, ⟨e, rfl, he⟩, hr⟩ := h
    have hd : adv = none := hd
    subst hd
    refine ⟨⟨adv_none, completeExpr_survives e he ht.1⟩, ?_⟩
    rw [directColumns, inputTotal_some]
    exact columnsShown_refs ho rfl rfl hr
  | project c exprs adv =>
    obtain ⟨-, -, hr, he⟩ := h
    have hd : adv = none := hd
    subst hd
    refine ⟨adv_none, ?_⟩
    rw [directColumns, inputTotal_some]
    refine columnsShown_among ho rfl rfl (by simp [refColumns]) hr fun i hi p hp => ?_
    have h0 := hr i hi
    by_cases hlt : i.toNat < ws.sum
    · rw [List.getElem?_append_left (by simpa [refColumns] using hlt)] at hp
      exact refColumns_all _ p (List.mem_of_getElem? hp)
    · rw [List.getElem?_append_right (by simp [refColumns]; omega)] at hp
      simp only [refColumns, List.length_replicate, List.getElem?_map, Option.map_eq_some_iff] at hp
      obtain ⟨e, he1, rfl⟩ := hp
      exact completeExpr_survives e (he i hi e (by omega) he1).1 (ht.1 i hi e (by omega) he1)
  | aggregate => cases hd
  | sort c sorts adv =>
    obtain ⟨-, -, -, hf, hr⟩ := h
    have hd : adv = none := hd
    subst hd
    refine ⟨⟨adv_none, ?_⟩, ?_⟩
    · intro f hf'
      obtain ⟨e, d, rfl, he, hd, -⟩ := hf f hf'
      exact ⟨completeExpr_survives e he (ht.1 _ hf'), d, rfl, hd⟩
    · rw [directColumns, inputTotal_some]
      exact columnsShown_refs ho rfl rfl hr
  | fetch c count offset adv =>
    obtain ⟨-, -, h1, h2, hr⟩ := h
    have hd : adv = none := hd
    subst hd
    refine ⟨⟨adv_none, fun x hx => count_survives (h1 x hx) (ht.1 x hx), fun x hx => count_survives (h2 x hx) (ht.2.1 x hx)⟩, ?_⟩
    rw [directColumns, inputTotal_some]
    exact columnsShown_refs ho rfl rfl hr
  | join c ty cond post adv =>
    obtain ⟨-, -, ⟨t, rfl, h1, hr, -⟩, ⟨e, rfl, he⟩, hpost⟩ := h
    have hd : adv = none := hd
    subst hd
    refine ⟨⟨adv_none, ⟨t, rfl, h1⟩, completeExpr_survives e he ht.1, ?_⟩, ?_⟩
    · intro x hx
      subst hx
      exact completeExpr_survives x (hpost x rfl) ht.2.1
    · rw [directColumns, inputWidth_some, inputWidth_some]
      exact columnsShown_refs ho rfl rfl hr
  | set c t adv =>
    obtain ⟨hl, -, h1, h2, hr⟩ := h
    have hd : adv = none := hd
    subst hd
    refine ⟨⟨adv_none, h1⟩, ?_⟩
    have : ws.sum / ws.length = ws.headD 0 := by
      rw [sum_of_same h2, Nat.mul_div_cancel_left _ (by omega)]
    rw [directColumns, inputTotal_some, List.length_map, this]
    exact columnsShown_refs ho rfl rfl hr
  | cross c adv =>
    obtain ⟨-, -, hr⟩ := h
    have hd : adv = none := hd
    subst hd
    refine ⟨adv_none, ?_⟩
    rw [directColumns, inputTotal_some]
    exact columnsShown_refs ho rfl rfl hr
  | ext => cases hd
  | other => cases hd

end

/-! ## And the other way round: what is complete leaves nothing open -/

mutual
theorem tidyTy_complete {st : Store} : (t : Ty) → CompleteTy st t → TidyTy t
  | .missing, _ => trivial
  | .simple _ _ _, h => h.1
  | .intervalDay _ _ _, h => h.1
  | .intervalCompound .., _ => trivial
  | .len .., _ => trivial
  | .decimal .., _ => trivial
  | .prec _ _ _ _, h => h.1
  | .struct .., _ => trivial
  | .list (some t) _ _, h => by
    rw [CompleteTy] at h
    exact ⟨h.1, tidyTy_complete t h.2.2⟩
  | .list none _ _, _ => trivial
  | .map .., _ => trivial
  | .user ref ps n w, h => by
    rw [CompleteTy] at h
    exact ⟨h.2.1, tidyParams_complete ps h.2.2.2⟩
  | .userRef .., _ => trivial
  | .func, _ => trivial
  | .alias, _ => trivial
theorem tidyParams_complete {st : Store} : (ps : List Param) → CompleteParams st ps → TidyParams ps
  | [], _ => trivial
  | .ty t :: ps, h => by
    rw [CompleteParams] at h
    exact ⟨tidyTy_complete t h.1, tidyParams_complete ps h.2⟩
  | .missing :: ps, h => tidyParams_complete ps h.2
  | .null :: ps, h => tidyParams_complete ps h.2
  | .bool _ :: ps, h => tidyParams_complete ps h.2
  | .int _ :: ps, h => tidyParams_complete ps h.2
  | .enum _ :: ps, h => tidyParams_complete ps h.2
  | .str _ :: ps, h => tidyParams_complete ps h.2
end

theorem tidyLit_complete {st : Store} {l : Literal} (h : CompleteLit st l) : ∀ v, l.value = some v → TidyLit v := by
  intro v hv
  obtain ⟨v', hv', h⟩ := h
  rw [hv] at hv'
  cases hv'
  cases v with
  | null t => exact tidyTy_complete t h
  | interval i => exact ⟨h.2.1, h.2.2.2.2, h.2.2.2.1⟩
  | _ => trivial

mutual
theorem tidyExpr_complete {st : Store} : (e : Expr) → CompleteExpr st e → TidyExpr e
  | .missing, _ => trivial
  | .literal l, h => by
    rw [CompleteExpr] at h
    rw [TidyExpr]
    exact tidyLit_complete h
  | .selection _, _ => trivial
  | .call f args opts t, h => by
    rw [CompleteExpr] at h
    rw [TidyExpr]
    refine ⟨tidyArgs_complete args h.2.1, ?_⟩
    rintro x rfl
    exact tidyTy_complete x h.2.2
  | .cast e t fb, h => by
    rw [CompleteExpr] at h
    rw [TidyExpr]
    refine ⟨tidyExprOpt_complete e h.2.1, ?_⟩
    rintro x rfl
    exact tidyTy_complete x h.2.2
  | .ifThen ifs e, h => by
    rw [CompleteExpr] at h
    rw [TidyExpr]
    exact ⟨tidyClauses_complete ifs h.1, tidyExprOpt_complete e h.2⟩
  | .other, _ => trivial
theorem tidyExprOpt_complete {st : Store} : (e : Option Expr) → CompleteExprOpt st e → TidyExprOpt e
  | none, _ => by rw [TidyExprOpt]; trivial
  | some e, h => by
    rw [CompleteExprOpt] at h
    rw [TidyExprOpt]
    exact tidyExpr_complete e h
theorem tidyArgs_complete {st : Store} : (l : List Arg) → CompleteArgs st l → TidyArgs l
  | [], _ => by rw [TidyArgs]; trivial
  | .value e :: l, h => by
    rw [CompleteArgs] at h
    rw [TidyArgs]
    exact ⟨tidyExpr_complete e h.1, tidyArgs_complete l h.2⟩
  | .missing :: l, h => by
    rw [CompleteArgs] at h
    exact tidyArgs_complete l h.2
  | .ty _ :: l, h => by
    rw [CompleteArgs] at h
    exact tidyArgs_complete l h.2
  | .enum _ :: l, h => by
    rw [CompleteArgs] at h
    exact tidyArgs_complete l h.2
theorem tidyClauses_complete {st : Store} : (l : List Clause) → CompleteClauses st l → TidyClauses l
  | [], _ => by rw [TidyClauses]; trivial
  | .mk c r :: l, h => by
    rw [CompleteClauses] at h
    rw [TidyClauses]
    exact ⟨tidyExprOpt_complete c h.1, tidyExprOpt_complete r h.2.1, tidyClauses_complete l h.2.2⟩
end

theorem tidyAdv_none {env : Env} : TidyAdv env none := by rintro x ⟨⟩

theorem tidyCount_complete {st : Store} {c : Count} (h : CountComplete st c) : TidyCount c := by
  cases c with
  | deprecated i => trivial
  | expr e => exact tidyExpr_complete e h

theorem tidy_schema {st : Store} {s : Option NamedStruct} (h : ∀ p ∈ schemaColumns st s, p) :
    ∀ x, s = some x → ∀ y, x.struct = some y → ∀ t ∈ y.types, TidyTy t := by
  rintro x rfl y hy t ht
  obtain ⟨i, hi, rfl⟩ := List.mem_iff_getElem.1 ht
  have hty : typesOf x = y.types := by simp [typesOf, hy]
  have := h _ (List.mem_map_of_mem (List.mem_range.2 (show i < max x.names.length (typesOf x).length by rw [hty]; omega)))
  obtain ⟨-, t', h1, h2⟩ := this
  rw [hty, List.getElem?_eq_getElem hi] at h1
  cases h1
  exact tidyTy_complete _ h2

section
variable [UTab] [FTab]

/-- One relation. -/
theorem op_tidy {env : Env} (ho : env.o.showEmit = false) {ws : List Nat} {op : RelOp} (hd : Described op)
    (h : SurvivesLine env.st env.o ws op) (h1 : ArgumentsComplete env (ws.map some) op)
    (h2 : ColumnsShown env.o op (directColumns env (ws.map some) op)) : ShownTidyOp env ws op := by
  cases op with
  | read c schema filter ty adv rest =>
    cases ty with
    | named names k =>
      have hd : adv = none := hd
      subst hd
      refine ⟨tidy_schema (st := env.st) ?_, trivial, tidyAdv_none⟩
      unfold ColumnsShown at h2
      simp only [RelSpec.namedRead, Bool.or_true, if_true] at h2
      split at h2 <;> exact h2
    | «virtual» rows k =>
      have hd : adv = none := hd
      subst hd
      refine ⟨tidy_schema (st := env.st) ?_, ⟨fun r hr e he => tidyExpr_complete e (h1.2.1 r hr e he), ?_⟩, tidyAdv_none⟩
      · have hm : opMapping (.read c schema filter (.virtual rows k) none rest) = none := h.2.2.2.2.1
        unfold ColumnsShown at h2
        rw [hm] at h2
        exact h2
      · cases filter with
        | none => rw [TidyExprOpt]; trivial
        | some e =>
          rw [TidyExprOpt]
          exact tidyExpr_complete e (h1.2.2 e rfl)
    | extension d => cases hd
    | other => cases hd
  | filter c cond adv =>
    have hd : adv = none := hd
    subst hd
    exact ⟨tidyExprOpt_complete cond h1.2, tidyAdv_none⟩
  | project c exprs adv =>
    have hd : adv = none := hd
    subst hd
    refine ⟨fun i hi e hle he => ?_, tidyAdv_none⟩
    rw [directColumns, inputTotal_some] at h2
    have hcol : (refColumns ws.sum ++ exprs.map (CompleteExpr env.st))[i.toNat]? = some (CompleteExpr env.st e) := by
      rw [List.getElem?_append_right (by simp [refColumns]; omega)]
      simp [refColumns, he]
    refine tidyExpr_complete (st := env.st) e ?_
    unfold ColumnsShown at h2
    have hm : opMapping (.project c exprs none) = mapping c := rfl
    rw [hm] at h2
    unfold shown at hi
    cases hmap : mapping c with
    | none =>
      rw [hmap] at h2
      exact h2 _ (List.mem_of_getElem? hcol)
    | some m =>
      rw [hmap] at h2 hi
      simp only [ho, RelSpec.namedRead, Bool.or_self, Bool.false_eq_true, if_false] at h2
      obtain ⟨-, p, h3, h4⟩ := h2 i hi
      rw [hcol] at h3
      cases h3
      exact h4
  | aggregate => cases hd
  | sort c sorts adv =>
    have hd : adv = none := hd
    subst hd
    exact ⟨fun f hf => tidyExprOpt_complete f.expr (h1.2 f hf).1, tidyAdv_none⟩
  | fetch c count offset adv =>
    have hd : adv = none := hd
    subst hd
    exact ⟨fun x hx => tidyCount_complete (h1.2.1 x hx), fun x hx => tidyCount_complete (h1.2.2 x hx), tidyAdv_none⟩
  | join c ty cond post adv =>
    have hd : adv = none := hd
    subst hd
    refine ⟨tidyExprOpt_complete cond h1.2.2.1, ?_, tidyAdv_none⟩
    cases post with
    | none => rw [TidyExprOpt]; trivial
    | some e =>
      rw [TidyExprOpt]
      exact tidyExpr_complete e (h1.2.2.2 e rfl)
  | set c t adv =>
    have hd : adv = none := hd
    subst hd
    exact tidyAdv_none
  | cross c adv =>
    have hd : adv = none := hd
    subst hd
    exact tidyAdv_none
  | ext => cases hd
  | other => cases hd

omit [UTab] [FTab] in
theorem completeRels_each {env : Env} : ∀ {l : List Rel}, CompleteRels env (l.map some) → ∀ r ∈ l, CompleteRel env r
  | [], _, r, hr => by cases hr
  | a :: l, h, r, hr => by
    rw [List.map_cons, CompleteRels] at h
    rcases List.mem_cons.1 hr with rfl | hr
    · exact h.1
    · exact completeRels_each h.2 r hr

/-- Reads that survive have no inputs. -/
theorem survives_inputs {st : Store} {o : Opts} {ws : List Nat} {op : RelOp} (h : SurvivesLine st o ws op) (hw : ws ≠ []) :
    HasInputs op := by
  cases op with
  | read c schema filter ty adv rest =>
    cases ty with
    | named names k => exact absurd h.1 hw
    | «virtual» rows k => exact absurd h.1 hw
    | extension d => cases h
    | other => cases h
  | other => cases h
  | _ => trivial

/-- A tree. -/
theorem tree_reported {env : Env} (hst : env.st.Ordered) (ho : env.o.showEmit = false) {r : Rel} (h : SurvivesTree env r) :
    relWidth env r = width env.reg r ∧ (DescribedTree env.reg r → (CompleteRel env r ↔ ShownTidyTree env r)) := by
  induction h with
  | node op inputs hl _ ih =>
    have hw : inputWidths env (inputs.map some) = (inputs.map (width env.reg)).map some :=
      inputWidths_rels inputs fun r hr => (ih r hr).1
    refine ⟨?_, ?_⟩
    · rw [relWidth, hw, emitted_survives hl, width, widths_some]
    · intro hd
      cases hd with
      | node _ _ hop _ hins =>
        rw [CompleteRel, ← inputWidths_written hst, hw]
        constructor
        · rintro ⟨h1, h2, h3⟩
          refine .node _ _ (by rw [widths_some]; exact op_tidy ho hop hl h1 h2) ?_
          intro r hr
          obtain ⟨r', hr', he⟩ := List.mem_map.1 hr
          cases he
          have hi : HasInputs op := survives_inputs hl (by
            intro hx
            rw [List.map_eq_nil_iff] at hx
            rw [hx] at hr'
            cases hr')
          exact ((ih r hr').2 (hins r hr)).1 (completeRels_each (h3 hi) r hr')
        · intro ht
          cases ht with
          | node _ _ ht hts =>
            rw [widths_some] at ht
            obtain ⟨h1, h2⟩ := op_survives ho hop hl ht
            exact ⟨h1, h2, fun _ => completeRels_of fun r hr =>
              ((ih r hr).2 (hins r (List.mem_map_of_mem hr))).2 (hts r (List.mem_map_of_mem hr))⟩

/-- A relation at the top. -/
theorem top_reported {env : Env} (hst : env.st.Ordered) (ho : env.o.showEmit = false) {r : PlanRel} (hd : DescribedTop env.reg r)
    (h : SurvivesTop env r) : CompleteTop env r ↔ ShownTidyTop env r := by
  cases r with
  | rel r => exact (tree_reported hst ho h).2 hd
  | root names r =>
    cases r with
    | none => cases h
    | some r => exact (tree_reported hst ho h.2).2 hd
  | missing => cases h

end

mutual
theorem shownTidy_tree {env : Env} : (r : Rel) → TidyRel env r → ShownTidyTree env r
  | .node op ins, h => by
    rw [TidyRel] at h
    refine .node _ _ ?_ (shownTidy_trees ins h.2)
    cases op with
    | project c es a => exact ⟨fun i _ e _ he => h.1.1 e (List.mem_of_getElem? he), h.1.2⟩
    | _ => exact h.1
theorem shownTidy_trees {env : Env} : (l : List (Option Rel)) → TidyRels env l → ∀ r, some r ∈ l → ShownTidyTree env r
  | [], _, r, hr => by cases hr
  | none :: l, h, r, hr => by
    rw [TidyRels] at h
    exact shownTidy_trees l h r (by simpa using hr)
  | some a :: l, h, r, hr => by
    rw [TidyRels] at h
    rcases List.mem_cons.1 hr with he | hr
    · cases he
      exact shownTidy_tree a h.1
    · exact shownTidy_trees l h.2 r hr
end

theorem shownTidy_top {env : Env} {r : PlanRel} (h : TidyTop env r) : ShownTidyTop env r := by
  cases r with
  | rel r => exact shownTidy_tree r h
  | root names r =>
    cases r with
    | none => trivial
    | some r => exact shownTidy_tree r h
  | missing => trivial

end Verif
