import Verif.Spec.Tidy
import Verif.Proofs.Complete
import Verif.Proofs.TreeText
import Verif.Proofs.ReparsePlan
/-!
# Plans with a faithful text that leave nothing open are written without an error
-/

namespace Verif

set_option autoImplicit false

open StoreSpec TextSpec RelSpec PlanSpec

mutual
theorem completeTy_of_tidy {st : Store} : (t : Ty) → Writable st t → TidyTy t → CompleteTy st t
  | .missing, h, _ => by cases h
  | .simple _ _ _, h, ht => ⟨ht, .inl h⟩
  | .intervalDay (some _) _ _, h, ht => ⟨ht, .inl h.1⟩
  | .intervalDay none _ _, h, _ => by cases h
  | .intervalCompound .., h, _ => by cases h
  | .len .., h, _ => by cases h
  | .decimal .., h, _ => by cases h
  | .prec _ _ _ _, h, ht => ⟨ht, .inl h.1⟩
  | .struct .., h, _ => by cases h
  | .list (some t) _ _, h, ht => by
    rw [Writable] at h
    rw [TidyTy] at ht
    exact ⟨ht.1, .inl h.1, completeTy_of_tidy t h.2 ht.2⟩
  | .list none _ _, h, _ => by cases h
  | .map .., h, _ => by cases h
  | .user ref ps n v, h, ht => by
    rw [Writable] at h
    rw [TidyTy] at ht
    obtain ⟨h1, -, ⟨m, h2, -⟩, h3⟩ := h
    exact ⟨⟨m, h2⟩, ht.1, .inl h1, completeParams_of_tidy ps h3 ht.2⟩
  | .userRef .., h, _ => by cases h
  | .func, h, _ => by cases h
  | .alias, h, _ => by cases h
theorem completeParams_of_tidy {st : Store} : (ps : List Param) → WritableParams st ps → TidyParams ps → CompleteParams st ps
  | [], _, _ => trivial
  | .ty t :: ps, h, ht => by
    rw [WritableParams] at h
    rw [TidyParams] at ht
    exact ⟨completeTy_of_tidy t h.1 ht.1, completeParams_of_tidy ps h.2 ht.2⟩
  | .missing :: _, h, _ => by cases h
  | .null :: _, h, _ => by cases h
  | .bool _ :: _, h, _ => by cases h
  | .int _ :: _, h, _ => by cases h
  | .enum _ :: _, h, _ => by cases h
  | .str _ :: _, h, _ => by cases h
end

variable [UTab] [FTab]

theorem completeLit_of_tidy {st : Store} {l : Literal} (h : Survives st l) (ht : ∀ v, l.value = some v → TidyLit v) :
    CompleteLit st l := by
  obtain ⟨-, v, hv, h⟩ := h
  have ht := ht v hv
  refine ⟨v, hv, ?_⟩
  cases v with
  | interval i =>
    obtain ⟨p, hp, h1, h2, -⟩ := h
    have hu : i.units = (p, i.sub) := by simp [Interval.units, hp]
    obtain ⟨h3, h4, h5⟩ := ht
    rw [hu] at h4 h5
    dsimp only
    rw [hu]
    exact ⟨h1, h3, h2, h5, h4⟩
  | prec k p v =>
    cases k with
    | time => exact h
    | timestamp => exact ⟨h.1, h.2.2⟩
    | timestampTz => exact ⟨h.1, h.2.2⟩
  | null t => exact completeTy_of_tidy t h.1 ht
  | timestamp us => exact h.2
  | date d => exact h
  | time us => exact h
  | other n => exact h
  | _ => trivial

mutual
theorem completeExpr_of_tidy {st : Store} : (e : Expr) → Faithful st e → TidyExpr e → CompleteExpr st e
  | .missing, h, _ => by cases h
  | .literal l, h, ht => completeLit_of_tidy h ht
  | .selection (.field _ _), _, _ => trivial
  | .selection .badReference, h, _ => by cases h
  | .selection .badSegment, h, _ => by cases h
  | .call f args opts (some t), h, ht => by
    rw [Faithful] at h
    rw [TidyExpr] at ht
    obtain ⟨-, -, ⟨n, h1, -⟩, h2, h3⟩ := h
    exact ⟨⟨n, h1⟩, completeArgs_of_tidy args h2 ht.1, completeTy_of_tidy t h3 (ht.2 t rfl)⟩
  | .call _ _ _ none, h, _ => by cases h
  | .cast (some e) (some t) fb, h, ht => by
    rw [Faithful] at h
    rw [TidyExpr] at ht
    exact ⟨h.1, completeExpr_of_tidy e h.2.1 ht.1, completeTy_of_tidy t h.2.2 (ht.2 t rfl)⟩
  | .cast none _ _, h, _ => by cases h
  | .cast (some _) none _, h, _ => by cases h
  | .ifThen ifs (some e), h, ht => by
    rw [Faithful] at h
    rw [TidyExpr] at ht
    exact ⟨completeClauses_of_tidy ifs h.2.1 ht.1, completeExpr_of_tidy e h.2.2 ht.2⟩
  | .ifThen _ none, h, _ => by cases h
  | .other, h, _ => by cases h
theorem completeArgs_of_tidy {st : Store} : (l : List Arg) → FaithfulArgs st l → TidyArgs l → CompleteArgs st l
  | [], _, _ => trivial
  | .value e :: l, h, ht => by
    rw [FaithfulArgs] at h
    rw [TidyArgs] at ht
    exact ⟨completeExpr_of_tidy e h.1 ht.1, completeArgs_of_tidy l h.2 ht.2⟩
  | .missing :: _, h, _ => by cases h
  | .ty _ :: _, h, _ => by cases h
  | .enum _ :: _, h, _ => by cases h
theorem completeClauses_of_tidy {st : Store} : (l : List Clause) → FaithfulClauses st l → TidyClauses l → CompleteClauses st l
  | [], _, _ => trivial
  | .mk (some c) (some r) :: l, h, ht => by
    rw [FaithfulClauses] at h
    rw [TidyClauses] at ht
    exact ⟨completeExpr_of_tidy c h.1 ht.1, completeExpr_of_tidy r h.2.1 ht.2.1, completeClauses_of_tidy l h.2.2 ht.2.2⟩
  | .mk none _ :: _, h, _ => by cases h
  | .mk (some _) none :: _, h, _ => by cases h
end

mutual
theorem completeValue_of_tidy {st : Store} {o : Opts} : (v : ExtValue) → ValueOk st o v → TidyValue v → CompleteValue st v
  | .string _, _, _ => trivial
  | .integer _, _, _ => trivial
  | .float _, _, _ => trivial
  | .boolean _, _, _ => trivial
  | .null, _, _ => trivial
  | .error _, h, _ => by cases h
  | .expr e, h, ht => by
    rw [ValueOk] at h
    rw [TidyValue] at ht
    exact completeExpr_of_tidy e h.1 ht
  | .enum _, _, _ => trivial
  | .tuple vs, h, ht => by
    rw [ValueOk] at h
    rw [TidyValue] at ht
    rw [CompleteValue]
    exact completeValues_of_tidy vs h ht
theorem completeValues_of_tidy {st : Store} {o : Opts} : (l : List ExtValue) → ValuesOk st o l → TidyValues l → CompleteValues st l
  | [], _, _ => trivial
  | v :: l, h, ht => by
    rw [ValuesOk] at h
    rw [TidyValues] at ht
    exact ⟨completeValue_of_tidy v h.1 ht.1, completeValues_of_tidy l h.2 ht.2⟩
end

theorem completeColumn_of_tidy {st : Store} {c : ExtColumn} (h : ColumnOk st c) (ht : TidyColumn c) : CompleteColumn st c := by
  cases c with
  | named n t => exact completeTy_of_tidy t h.2 ht
  | expr e => exact completeExpr_of_tidy e h.1 ht

theorem completeArgsExt_of_tidy {st : Store} {o : Opts} {a : ExtArgs} (h : ArgsOk st o a) (ht : TidyExtArgs a) :
    CompleteExtArgs st a :=
  ⟨completeValues_of_tidy _ h.1 ht.1, fun p hp => completeValue_of_tidy _ (h.2.1 p hp).2.2 (ht.2.1 p hp),
    fun c hc => completeColumn_of_tidy (h.2.2.2 c hc) (ht.2.2 c hc)⟩

theorem payload_of_tidy {env : Env} {k : AddKind} {d : AnyMsg} (h : AddendumOk env k d) (ht : TidyPayload env k d) :
    PayloadComplete env k d := by
  obtain ⟨name, args, h1, -, -, h2, h3⟩ := h
  exact ⟨name, args, h1, h2, completeArgsExt_of_tidy h3 (ht name args h1)⟩

theorem adv_of_tidy {env : Env} {a : Option AdvExt} (h : AdvOk env a) (ht : TidyAdv env a) : AdvComplete env a := by
  cases a with
  | none => exact ⟨(by intro d hd; cases hd), (by intro d hd; cases hd)⟩
  | some x =>
    obtain ⟨h1, h2⟩ := h x rfl
    obtain ⟨t1, t2⟩ := ht x rfl
    exact ⟨fun d hd => payload_of_tidy (h1 d hd) (t1 d hd), fun d hd => payload_of_tidy (h2 d hd) (t2 d hd)⟩

theorem count_of_tidy {st : Store} {o : Opts} {c : Count} (h : CountOk st o c) (ht : TidyCount c) : CountComplete st c := by
  cases c with
  | deprecated i => trivial
  | expr e =>
    rcases h with ⟨-, i, rfl, -⟩ | ⟨h, -⟩
    · exact ⟨_, rfl, trivial⟩
    · exact completeExpr_of_tidy e h ht

omit [UTab] [FTab] in
theorem columnsShown_all {o : Opts} {op : RelOp} {cols : List Prop} (h : ∀ p ∈ cols, p)
    (hm : ∀ m, opMapping op = some m → o.showEmit = true ∨ namedRead op = true ∨ InRange cols.length m) :
    ColumnsShown o op cols := by
  unfold ColumnsShown
  split
  · exact h
  · next m hm' =>
    split
    · exact h
    · next hne =>
      rcases hm m hm' with h1 | h1 | h1
      · simp [h1] at hne
      · simp [h1] at hne
      · intro i hi
        obtain ⟨h2, h3⟩ := h1.2 i hi
        have hlt : i.toNat < cols.length := by omega
        exact ⟨h2, cols[i.toNat], by simp, h _ (List.getElem_mem hlt)⟩

omit [UTab] [FTab] in
theorem inRange_shown {n : Nat} {c : Option Common} (h : InRange n (shown n c)) : ∀ m, mapping c = some m → InRange n m := by
  intro m hm
  unfold shown at h
  rwa [hm] at h

omit [UTab] [FTab] in
theorem refColumns_all (n : Nat) : ∀ p ∈ refColumns n, p := by
  intro p hp
  rw [(List.mem_replicate.1 hp).2]
  trivial

omit [UTab] [FTab] in
theorem inputTotal_some (ws : List Nat) : inputTotal (ws.map some) = ws.sum := by
  unfold inputTotal
  rw [List.map_map]
  exact congrArg List.sum (List.map_id ws)

omit [UTab] [FTab] in
theorem inputWidth_some (ws : List Nat) (i : Nat) : inputWidth (ws.map some) i = ws.getD i 0 := by
  unfold inputWidth
  simp only [List.getD_eq_getElem?_getD, List.getElem?_map]
  cases ws[i]? <;> rfl

omit [UTab] [FTab] in
theorem sum_of_same {ws : List Nat} {n : Nat} (h : ∀ w ∈ ws, w = n) : ws.sum = ws.length * n := by
  induction ws with
  | nil => simp
  | cons w ws ih =>
    rw [List.sum_cons, ih fun x hx => h x (by simp [hx]), h w (by simp), List.length_cons, Nat.succ_mul]
    omega

/-- One relation. -/
theorem op_of_tidy {env : Env} (ho : Readable env.o) {ws : List Nat} {op : RelOp} (har : Arity op ws.length)
    (h : OpOk env ws op) (ht : TidyOp env ws op) :
    ArgumentsComplete env (ws.map some) op ∧ ColumnsShown env.o op (directColumns env (ws.map some) op) := by
  cases op with
  | read c schema filter ty adv rest =>
    obtain ⟨-, -, ⟨cols, rfl, hcols⟩, hr, ha⟩ := h
    obtain ⟨t1, t2, t3⟩ := ht
    refine ⟨⟨adv_of_tidy ha t3, ?_⟩, ?_⟩
    · cases ty with
      | named names rest => trivial
      | «virtual» rows rest =>
        exact ⟨fun r hr' e he => completeExpr_of_tidy e (hr.2.1 r hr' e he) (t2.1 r hr' e he), fun e he => by
          subst he
          exact completeExpr_of_tidy e (hr.2.2.1 e rfl) t2.2⟩
      | extension d =>
        cases d with
        | none => cases hr
        | some d => exact ⟨d, rfl, payload_of_tidy hr.2.1 (t2 d rfl)⟩
      | other => cases hr
    · refine columnsShown_all ?_ ?_
      · intro p hp
        simp only [directColumns, schemaColumns, typesOf, List.mem_map, List.mem_range] at hp
        obtain ⟨i, hi, rfl⟩ := hp
        have hi : i < cols.length := by simpa using hi
        have hmem := List.getElem_mem hi
        refine ⟨by simpa using hi, cols[i].2, by simp [hi], ?_⟩
        exact completeTy_of_tidy _ (hcols _ hmem).2 (t1 _ rfl _ rfl _ (List.mem_map_of_mem hmem))
      · intro m hm
        cases ty with
        | named names rest => exact .inr (.inl rfl)
        | «virtual» rows rest =>
          have := hr.2.2.2
          have hm : mapping c = some m := hm
          rw [this] at hm
          cases hm
        | extension d =>
          cases d with
          | none => cases hr
          | some d =>
            have := hr.2.2
            have hm : mapping c = some m := hm
            rw [this] at hm
            cases hm
        | other => cases hr
  | filter c cond adv =>
    obtain ⟨-, ⟨e, rfl, he⟩, hr, ha⟩ := h
    refine ⟨⟨adv_of_tidy ha ht.2, completeExpr_of_tidy e he ht.1⟩, columnsShown_all (refColumns_all _) fun m hm => .inr (.inr ?_)⟩
    simpa [directColumns, refColumns, inputTotal_some] using inRange_shown hr m hm
  | project c exprs adv =>
    obtain ⟨-, he, hr, ha⟩ := h
    refine ⟨adv_of_tidy ha ht.2, columnsShown_all ?_ fun m hm => .inr (.inr ?_)⟩
    · intro p hp
      rcases List.mem_append.1 hp with hp | hp
      · exact refColumns_all _ p hp
      · obtain ⟨e, he', rfl⟩ := List.mem_map.1 hp
        exact completeExpr_of_tidy e (he e he').1 (ht.1 e he')
    · simpa [directColumns, refColumns, inputTotal_some] using inRange_shown hr m hm
  | aggregate c g gs ms adv =>
    obtain ⟨-, ⟨h1, h2, h3, -⟩, hr, ha⟩ := h
    obtain ⟨t1, t2, t3⟩ := ht
    have hkeys : groupKeys g gs = g := by
      unfold groupKeys
      split
      · next x l =>
        rw [if_neg]
        have := (h1 x (by simp)).1
        simp [this]
      · rfl
    have hfns : ∃ fs : List AggFn, ms.filterMap (·.fn) = fs ∧ fs.length = ms.length ∧
        ∀ a ∈ fs, CompleteExpr env.st (aggCall a) := by
      clear hr har
      induction ms with
      | nil => exact ⟨[], rfl, rfl, by simp⟩
      | cons m ms ih =>
        obtain ⟨fs, i1, i2, i3⟩ := ih (fun m hm => h3 m (by simp [hm])) (fun m hm => t2 m (by simp [hm]))
        obtain ⟨f, args, t, rfl, hf⟩ := h3 m (by simp)
        refine ⟨⟨f, args, [], some t, 0⟩ :: fs, by simp [i1], by simp [i2], ?_⟩
        intro a ha
        rcases List.mem_cons.1 ha with rfl | ha
        · exact completeExpr_of_tidy _ hf (t2 _ (List.mem_cons_self ..) _ rfl)
        · exact i3 a ha
    obtain ⟨fs, f1, f2, f3⟩ := hfns
    refine ⟨⟨adv_of_tidy ha t3, ?_⟩, columnsShown_all ?_ fun m hm => .inr (.inr ?_)⟩
    · unfold SetsComplete
      split
      · next x l =>
        rw [if_neg (by have := (h1 x (by simp)).1; simp [this])]
        intro y hy
        cases hrf : y.refs with
        | nil => rfl
        | cons i _ =>
          have := (h1 y hy).2 i (by simp [hrf])
          simp at this
      · intro y hy i hi
        have hlt := (h1 y hy).2 i hi
        exact ⟨g[i], by simp [hlt], completeExpr_of_tidy _ (h2 _ (List.getElem_mem hlt)) (t1 _ (List.getElem_mem hlt))⟩
    · intro p hp
      simp only [directColumns, hkeys, f1] at hp
      rcases List.mem_append.1 hp with hp | hp
      · obtain ⟨e, he', rfl⟩ := List.mem_map.1 hp
        exact completeExpr_of_tidy e (h2 e he') (t1 e he')
      · obtain ⟨a, ha', rfl⟩ := List.mem_map.1 hp
        exact f3 a ha'
    · simpa [directColumns, hkeys, f1, f2] using inRange_shown hr m hm
  | sort c sorts adv =>
    obtain ⟨-, -, hf, hr, ha⟩ := h
    refine ⟨⟨adv_of_tidy ha ht.2, ?_⟩, columnsShown_all (refColumns_all _) fun m hm => .inr (.inr ?_)⟩
    · intro f hf'
      obtain ⟨e, d, rfl, he, hd, -⟩ := hf f hf'
      exact ⟨completeExpr_of_tidy e he (ht.1 _ hf'), d, rfl, hd⟩
    · simpa [directColumns, refColumns, inputTotal_some] using inRange_shown hr m hm
  | fetch c count offset adv =>
    obtain ⟨-, h1, h2, hr, ha⟩ := h
    refine ⟨⟨adv_of_tidy ha ht.2.2, fun x hx => count_of_tidy (h1 x hx) (ht.1 x hx),
      fun x hx => count_of_tidy (h2 x hx) (ht.2.1 x hx)⟩, columnsShown_all (refColumns_all _) fun m hm => .inr (.inr ?_)⟩
    simpa [directColumns, refColumns, inputTotal_some] using inRange_shown hr m hm
  | join c ty cond post adv =>
    obtain ⟨-, ⟨t, rfl, h1, hr, -⟩, ⟨e, rfl, he⟩, hpost, ha⟩ := h
    refine ⟨⟨adv_of_tidy ha ht.2.2, ⟨t, rfl, h1⟩, completeExpr_of_tidy e he ht.1, ?_⟩,
      columnsShown_all (refColumns_all _) fun m hm => .inr (.inr ?_)⟩
    · intro x hx
      subst hx
      exact completeExpr_of_tidy x (hpost x rfl) ht.2.1
    · simpa [directColumns, refColumns, joinCount, inputWidth_some] using inRange_shown hr m hm
  | set c t adv =>
    obtain ⟨-, h1, h2, hr, ha⟩ := h
    refine ⟨⟨adv_of_tidy ha ht, h1⟩, columnsShown_all (refColumns_all _) fun m hm => .inr (.inr ?_)⟩
    have har : 2 ≤ ws.length := har
    have : ws.sum / ws.length = ws.headD 0 := by
      rw [sum_of_same h2, Nat.mul_div_cancel_left _ (by omega)]
    have h3 := inRange_shown hr m hm
    simp only [directColumns, refColumns, inputTotal_some, List.length_replicate, List.length_map, this]
    exact h3
  | cross c adv =>
    obtain ⟨-, hr, ha⟩ := h
    refine ⟨adv_of_tidy ha ht, columnsShown_all (refColumns_all _) fun m hm => .inr (.inr ?_)⟩
    simpa [directColumns, refColumns, inputTotal_some] using inRange_shown hr m hm
  | ext k c detail =>
    obtain ⟨-, hm, d, name, args, rfl, h1, -, -, h2⟩ := h
    have hid : (ws.map some).filterMap id = ws := by simp
    have hc := completeArgsExt_of_tidy h2 (ht d rfl name args h1)
    refine ⟨⟨d, name, args, rfl, by rw [hid]; exact h1, hc.1, hc.2.1⟩, columnsShown_all ?_ fun m hm => by cases hm⟩
    intro p hp
    simp only [directColumns, hid, h1] at hp
    obtain ⟨col, hcol, rfl⟩ := List.mem_map.1 hp
    exact hc.2.2 col hcol
  | other => cases h

omit [UTab] [FTab] in
theorem tidyRels_mem {env : Env} : ∀ {l : List Rel}, TidyRels env (l.map some) → ∀ r ∈ l, TidyRel env r
  | [], _, r, hr => by cases hr
  | a :: l, h, r, hr => by
    rw [List.map_cons, TidyRels] at h
    rcases List.mem_cons.1 hr with rfl | hr
    · exact h.1
    · exact tidyRels_mem h.2 r hr

omit [UTab] [FTab] in
theorem completeRels_of {env : Env} : ∀ {l : List Rel}, (∀ r ∈ l, CompleteRel env r) → CompleteRels env (l.map some)
  | [], _ => trivial
  | a :: l, h => ⟨h a (by simp), completeRels_of fun r hr => h r (by simp [hr])⟩

theorem rel_of_tidy (hA : AsciiPrintable) {env : Env} (hst : env.st.Ordered) (ho : Readable env.o) {r : Rel}
    (h : Supported env r) (ht : TidyRel env r) : CompleteRel env r := by
  induction h with
  | node op inputs hl hs hop ih =>
    rw [TidyRel, widths_some] at ht
    have hw : writtenWidths env (inputs.map some) = (inputs.map (width env.reg)).map some := by
      rw [← inputWidths_written hst]
      exact inputWidths_rels inputs fun r hr => by
        obtain ⟨node, r', h3⟩ := treeRT hA hst ho (hs r hr)
        exact h3.2.2.1
    obtain ⟨h1, h2⟩ := op_of_tidy ho (by simpa using hl) hop ht.1
    rw [CompleteRel, hw]
    exact ⟨h1, h2, fun _ => completeRels_of fun r hr => ih r hr (tidyRels_mem ht.2 r hr)⟩

/-- A plan with a faithful text that leaves nothing open has nothing to report. -/
theorem complete_of_tidy (hA : AsciiPrintable) {reg : Registry ExtArgs (List Nat)} {o : Opts} (ho : Readable o) {p : Plan}
    (h : PlanOk reg o p) (ht : TidyPlan reg o p) : CompletePlan reg o p := by
  refine ⟨h.accepted, fun r hr => ?_⟩
  have h1 := h.rels r hr
  have h2 := ht r hr
  have hst : (run (history p)).Ordered := Store.ordered_run _
  cases r with
  | rel r => exact rel_of_tidy hA (env := ⟨run (history p), o, reg⟩) hst ho h1 h2
  | root names r =>
    cases r with
    | none => trivial
    | some r => exact rel_of_tidy hA (env := ⟨run (history p), o, reg⟩) hst ho h1.2 h2
  | missing => cases h1

end Verif
