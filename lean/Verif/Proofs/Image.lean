import Verif.Spec.Image
import Verif.Proofs.ReparsePlan
import Verif.Proofs.SilentFix
/-!
# What the parser can ever build
-/

namespace Verif
open StoreSpec TextSpec RelSpec PlanSpec ImageSpec SilentSpec Grammar TreeSpec ChunkSpec SectionSpec

set_option autoImplicit false

theorem mapped_make {m : List Int} {n : Nat} : Mapped n (mkCommon (makeEmit m n)) m.length := by
  unfold makeEmit
  split
  · next h => exact .inl ⟨rfl, h.1⟩
  · next h =>
    refine .inr ⟨m, rfl, rfl, fun hn e => ?_⟩
    have := (makeEmit_direct_iff (m := m) hn).2 e
    unfold makeEmit at this
    rw [if_neg h] at this
    cases this

theorem indexed_emit {e : Emit} (h : ∀ m, e = .emit m → ∀ i ∈ m, InI32 i) : Indexed (mkCommon e) := by
  intro m hm
  unfold Plain mkCommon at hm
  simp only [Option.some.injEq, Common.mk.injEq, and_true] at hm
  exact h m hm

theorem indexed_make {m : List Int} {n : Nat} {l : List IntTok} (h : convRefs l = .ok m) :
    Indexed (mkCommon (makeEmit m n)) := by
  apply indexed_emit
  intro m' hm'
  rcases makeEmit_cases m n with h2 | h2 <;> rw [h2] at hm'
  · cases hm'
  · cases hm'
    exact convRefs_inI32 h

theorem resolveAddendum_image {reg : Registry ExtArgs (List Nat)} {a : Addendum} {d : AnyMsg}
    (h : resolveAddendum reg a = .ok d) : ∃ n args, reg.parse a.kind.ns n args = .ok d :=
  ⟨_, _, resolved_ok.1 h⟩

theorem standardLoop_image {reg : Registry ExtArgs (List Nat)} (as : List Addendum) :
    ∀ {enh : Option AnyMsg} {opts : List AnyMsg} {r : Option AnyMsg × List AnyMsg},
      standardLoop reg enh opts as = .ok r →
      (∀ d, enh = some d → ∃ n args, reg.parse .enhancement n args = .ok d) →
      (∀ d ∈ opts, ∃ n args, reg.parse .optimization n args = .ok d) →
      (∀ d, r.1 = some d → ∃ n args, reg.parse .enhancement n args = .ok d) ∧
      ∀ d ∈ r.2, ∃ n args, reg.parse .optimization n args = .ok d := by
  induction as with
  | nil => intro enh opts r h h1 h2; cases h; exact ⟨h1, h2⟩
  | cons a as ih =>
    intro enh opts r h h1 h2
    unfold standardLoop at h
    split at h
    · next hk =>
      split at h
      · cases h
      · obtain ⟨d, hd, h⟩ := Res.bind_ok_iff.1 h
        refine ih h ?_ h2
        intro d' hd'
        cases hd'
        have := resolveAddendum_image hd
        rw [hk] at this
        exact this
    · next hk =>
      obtain ⟨d, hd, h⟩ := Res.bind_ok_iff.1 h
      refine ih h h1 ?_
      intro d' hd'
      rcases List.mem_append.1 hd' with hd' | hd'
      · exact h2 d' hd'
      · rw [List.mem_singleton] at hd'
        subst hd'
        have := resolveAddendum_image hd
        rw [hk] at this
        exact this
    · cases h

theorem standardAdv_image {reg : Registry ExtArgs (List Nat)} {as : List Addendum} {a : Option AdvExt}
    (h : standardAdv reg as = .ok a) : AdvImage reg a := by
  unfold standardAdv at h
  obtain ⟨⟨enh, opts⟩, h1, h⟩ := Res.bind_ok_iff.1 h
  obtain ⟨k1, k2⟩ := standardLoop_image as h1 (by intro d hd; cases hd) (by intro d hd; cases hd)
  split at h
  · cases h; intro x hx; cases hx
  · next hne =>
    cases h
    intro x hx
    cases hx
    refine ⟨?_, k1, k2⟩
    by_cases he : enh = none
    · exact .inr fun ho => hne ⟨he, ho⟩
    · exact .inl he

theorem extReadParts_image {reg : Registry ExtArgs (List Nat)} {as : List Addendum} {d : AnyMsg} {a : Option AdvExt}
    (h : extReadParts reg as = .ok (d, a)) :
    AdvImage reg a ∧ ∃ n args, reg.parse .extensionTable n args = .ok d := by
  unfold extReadParts at h
  split at h
  · next x hx =>
    obtain ⟨d', h1, h⟩ := Res.bind_ok_iff.1 h
    obtain ⟨a', h2, h⟩ := Res.bind_ok_iff.1 h
    cases h
    refine ⟨standardAdv_image h2, ?_⟩
    have hm : x ∈ as.filter fun a => decide (a.kind = .ext) := by rw [hx]; simp
    have hk := (List.mem_filter.1 hm).2
    have := resolveAddendum_image h1
    rw [of_decide_eq_true hk] at this
    exact this
  · cases h

theorem schema_build {st : Store} (hst : st.Ordered) {cols : List SColumn} {cs : List (Str × Ty)}
    (h : convColumns st cols = .ok cs) : SchemaImage st (some (buildStruct cs)) cs.length := by
  refine ⟨_, _, rfl, by simp, by simp, ?_⟩
  intro t ht
  obtain ⟨c, hc, rfl⟩ := List.mem_map.1 ht
  obtain ⟨s, -, -, hs⟩ := convColumns_from h c hc
  exact convTy_image hst _ _ hs

theorem output_image {st : Store} (hst : st.Ordered) {out : SOutput} {cols : List (Str × Ty)} {e : Emit} {w : Nat}
    (h : convOutput st out = .ok (cols, e, w)) :
    SchemaImage st (some (buildStruct cols)) cols.length ∧ Indexed (mkCommon e) ∧
      ((Plain (mkCommon e) .direct ∧ w = cols.length) ∨ ∃ m, Plain (mkCommon e) (.emit m) ∧ w = m.length) := by
  cases out with
  | implicit cs =>
    simp only [convOutput, Res.bind_ok_iff, plain_ok] at h
    obtain ⟨c, h1, h⟩ := h
    cases h
    exact ⟨schema_build hst h1, indexed_emit (by intro m hm; cases hm), .inl ⟨rfl, rfl⟩⟩
  | direct cs suffix =>
    simp only [convOutput, Res.bind_ok_iff, dropPanics_ok] at h
    obtain ⟨c, h1, h⟩ := h
    cases suffix with
    | none =>
      cases h
      exact ⟨schema_build hst h1, indexed_emit (by intro m hm; cases hm), .inl ⟨rfl, rfl⟩⟩
    | some refs =>
      simp only [Res.bind_ok_iff] at h
      obtain ⟨m, h2, h⟩ := h
      cases h
      exact ⟨schema_build hst h1, indexed_emit (by intro m' hm'; cases hm'; exact convRefs_inI32 h2), .inr ⟨_, rfl, rfl⟩⟩

theorem sortName_cases {s : Str} {t : SortDir} (h : SortDir.ofName s = some t) :
    t ∈ [SortDir.ascNullsFirst, .ascNullsLast, .descNullsFirst, .descNullsLast] := by
  have := sortName_known h
  cases t <;> simp_all

section
variable [FTab]

theorem count_image {st : Store} (hst : st.Ordered) {v : Option SFetch} {c : Option Count}
    (h : convOptR (convFetchValue st) v = .ok c) : CountImage st c := by
  cases v with
  | none => cases h; intro x hx; cases hx
  | some v =>
    obtain ⟨b, hb, h⟩ := Res.bind_ok_iff.1 h
    cases h
    intro x hx
    cases hx
    cases v with
    | int i =>
      simp only [convFetchValue] at hb
      split at hb
      · cases hb
      · next j hj =>
        split at hb
        · cases hb
        · cases hb
          refine ⟨_, rfl, ?_⟩
          unfold i64Expr
          rw [ExprImage]
          refine ⟨rfl, _, rfl, ?_⟩
          unfold IntTok.toI64 at hj
          split at hj
          · next hb => cases hj; exact hb
          · cases hj
    | expr s =>
      simp only [convFetchValue] at hb
      obtain ⟨y, hy, hb⟩ := Res.bind_ok_iff.1 hb
      cases hb
      exact ⟨_, rfl, convExpr_image hst _ _ (plain_ok.1 hy)⟩

theorem convGroup_ne_nil {st : Store} {group : SGroup} {sets : List (List Expr)} {x : Str} (hx : GroupText group x)
    (h : convGroup st group = .ok sets) : sets ≠ [] := by
  cases hx with
  | exprs =>
    unfold convGroup at h
    obtain ⟨y, -, h⟩ := Res.bind_ok_iff.1 h
    cases h
    simp
  | sets hl =>
    cases hl
    unfold convGroup convExprLists at h
    obtain ⟨y, -, h⟩ := Res.bind_ok_iff.1 h
    obtain ⟨z, -, h⟩ := Res.bind_ok_iff.1 h
    cases h
    simp

omit [FTab] in
/-- Numbers below `n` count as used before. -/
theorem internSet_use (s : List Expr) : ∀ exprs : List Expr,
    (∀ a i b, (internSet exprs s).1 = a ++ i :: b → i < exprs.length ∨ i ∈ a ∨ ∀ j, j < exprs.length ∨ j ∈ a ↔ j < i) ∧
    ∀ j, j < exprs.length ∨ j ∈ (internSet exprs s).1 ↔ j < (internSet exprs s).2.length := by
  induction s with
  | nil => intro exprs; simp [internSet]
  | cons e l ih =>
    intro exprs
    unfold internSet
    split
    · next k hk =>
      have hlt : k < exprs.length := lt_of_getElem?_some (posOf_some hk)
      obtain ⟨h1, h2⟩ := ih exprs
      dsimp only
      constructor
      · intro a i b hab
        rcases List.cons_eq_append_iff.1 hab with ⟨rfl, hq⟩ | ⟨a', rfl, hq⟩
        · cases hq; exact .inl hlt
        · rcases h1 a' i b hq with h | h | h
          · exact .inl h
          · exact .inr (.inl (by simp [h]))
          · refine .inr (.inr fun j => ?_)
            rw [← h j, List.mem_cons]
            constructor
            · rintro (h | rfl | h)
              · exact .inl h
              · exact .inl hlt
              · exact .inr h
            · rintro (h | h)
              · exact .inl h
              · exact .inr (.inr h)
      · intro j
        rw [← h2 j, List.mem_cons]
        constructor
        · rintro (h | rfl | h)
          · exact .inl h
          · exact .inl hlt
          · exact .inr h
        · rintro (h | h)
          · exact .inl h
          · exact .inr (.inr h)
    · next hk =>
      obtain ⟨h1, h2⟩ := ih (exprs ++ [e])
      simp only [List.length_append, List.length_singleton] at h1 h2
      dsimp only
      constructor
      · intro a i b hab
        rcases List.cons_eq_append_iff.1 hab with ⟨rfl, hq⟩ | ⟨a', rfl, hq⟩
        · cases hq
          exact .inr (.inr fun j => by simp)
        · rcases h1 a' i b hq with h | h | h
          · rcases Nat.lt_or_ge i exprs.length with h' | h'
            · exact .inl h'
            · exact .inr (.inl (by have : i = exprs.length := by omega
                                   simp [this]))
          · exact .inr (.inl (by simp [h]))
          · refine .inr (.inr fun j => ?_)
            rw [← h j, List.mem_cons]
            constructor
            · rintro (h | rfl | h)
              · exact .inl (by omega)
              · exact .inl (by omega)
              · exact .inr h
            · rintro (h | h)
              · rcases Nat.lt_or_ge j exprs.length with h' | h'
                · exact .inl h'
                · exact .inr (.inl (by omega))
              · exact .inr (.inr h)
      · intro j
        rw [← h2 j, List.mem_cons]
        constructor
        · rintro (h | rfl | h)
          · exact .inl (by omega)
          · exact .inl (by omega)
          · exact .inr h
        · rintro (h | h)
          · rcases Nat.lt_or_ge j exprs.length with h' | h'
            · exact .inl h'
            · exact .inr (.inl (by omega))
          · exact .inr (.inr h)

omit [FTab] in
theorem internSets_use (sets : List (List Expr)) : ∀ exprs : List Expr,
    ∀ a i b, (internSets exprs sets).1.flatMap (·.refs) = a ++ i :: b →
      i < exprs.length ∨ i ∈ a ∨ ∀ j, j < exprs.length ∨ j ∈ a ↔ j < i := by
  induction sets with
  | nil => intro exprs a i b h; simp [internSets] at h
  | cons s l ih =>
    intro exprs a i b hab
    obtain ⟨h1, h2⟩ := internSet_use s exprs
    simp only [internSets, List.flatMap_cons] at hab
    rcases List.append_eq_append_iff.1 hab with ⟨a', rfl, hq⟩ | ⟨c, h, hq⟩
    · rcases ih _ a' i b hq with h | h | h
      · rcases (h2 i).2 h with h | h
        · exact .inl h
        · exact .inr (.inl (by simp [h]))
      · exact .inr (.inl (by simp [h]))
      · refine .inr (.inr fun j => ?_)
        rw [← h j, ← h2 j, List.mem_append, or_assoc]
    · cases c with
      | nil =>
        rw [List.append_nil] at h
        subst h
        rcases ih _ [] i b (by simpa using hq.symm) with h | h | h
        · rcases (h2 i).2 h with h | h
          · exact .inl h
          · exact .inr (.inl h)
        · cases h
        · refine .inr (.inr fun j => ?_)
          rw [← h j, ← h2 j]
          simp
      | cons d c =>
        simp only [List.cons_append, List.cons.injEq] at hq
        obtain ⟨rfl, -⟩ := hq
        exact h1 a i c h

omit [FTab] in
theorem firstUse_image (sets : List (List Expr)) : FirstUse ((internSets [] sets).1.flatMap (·.refs)) := by
  intro a i b h
  rcases internSets_use sets [] a i b h with h | h | h
  · cases h
  · exact .inl h
  · exact .inr fun j => by rw [← h j]; simp

theorem inTurn_conv {st : Store} {g : List Expr} {l : List SExpr} : ∀ {k : Nat} {ms : List Measure} {m : List Int},
    convOuts st g k l = .ok (ms, m) →
    m.filter (fun i => decide ((g.length : Int) ≤ i)) = (List.range' k ms.length).map fun i => ((g.length + i : Nat) : Int) := by
  induction l with
  | nil => intro k ms m h; cases h; rfl
  | cons s l ih =>
    intro k ms m h
    unfold convOuts at h
    obtain ⟨x, h1, h⟩ := Res.bind_ok_iff.1 h
    split at h
    · next i hi =>
      obtain ⟨y, h2, h⟩ := Res.bind_ok_iff.1 h
      cases h
      have hlt : i < g.length := lt_of_getElem?_some (posOf_some hi)
      rw [List.filter_cons_of_neg (by simp; omega), ih h2]
    · split at h
      · obtain ⟨y, h2, h⟩ := Res.bind_ok_iff.1 h
        cases h
        rw [List.filter_cons_of_pos (by simp; omega), ih h2]
        simp [List.range'_succ]
      · cases h

theorem inTurn_image {st : Store} {g : List Expr} {l : List SExpr} {ms : List Measure} {m : List Int} {n : Nat}
    (h : convOuts st g 0 l = .ok (ms, m)) : InTurn g.length ms.length (mkCommon (makeEmit m n)) := by
  intro m' hm'
  unfold Plain mkCommon at hm'
  rcases makeEmit_cases m n with h2 | h2 <;> rw [h2] at hm' <;> cases hm'
  rw [inTurn_conv h, List.range_eq_range']

theorem apart_image {st : Store} {g : List Expr} {l : List SExpr} {k : Nat} {ms : List Measure} {m : List Int}
    (h : convOuts st g k l = .ok (ms, m)) : ∀ x ∈ ms, ∀ f, x.fn = some f → .call f.f f.args f.opts f.out ∉ g := by
  intro x hx f hf
  obtain ⟨s, -, e, hcall, hc, hne, rfl⟩ := convOuts_from h x hx
  cases e with
  | call f' args opts out => cases hf; exact hne
  | _ => cases hf

theorem grouping_image {st : Store} (hst : st.Ordered) {group : SGroup} {sets : List (List Expr)}
    {x : Str} (hx : GroupText group x) (h : convGroup st group = .ok sets) :
    GroupingImage st (internSets [] sets).2 (internSets [] sets).1 := by
  obtain ⟨hnd, ⟨more, hmore, hin⟩, hset, hexprs⟩ := internSets_spec sets [] (by simp)
  rw [List.nil_append] at hmore
  refine ⟨hnd, ?_, ?_, ?_, fun h0 => convGroup_ne_nil hx h (List.map_eq_nil_iff.1 (by rw [← hset, h0]; rfl))⟩
  · intro e he
    rw [hmore] at he
    obtain ⟨row, hrow, her⟩ := hin e he
    obtain ⟨s, -, hc⟩ := convGroup_from h row hrow e her
    exact convExpr_image hst _ _ hc
  · intro g hg
    refine ⟨hexprs g hg, ?_⟩
    intro i hi
    have : setOf (internSets [] sets).2 g ∈ sets.map (·.map some) := by rw [← hset]; exact List.mem_map_of_mem hg
    obtain ⟨s, -, he⟩ := List.mem_map.1 this
    have hm : (internSets [] sets).2[i]? ∈ setOf (internSets [] sets).2 g := List.mem_map_of_mem hi
    rw [← he] at hm
    obtain ⟨e, -, hm⟩ := List.mem_map.1 hm
    exact lt_of_getElem?_some hm.symm
  · intro i hi
    have he : (internSets [] sets).2[i] ∈ more := by simpa only [hmore] using List.getElem_mem hi
    obtain ⟨row, hrow, her⟩ := hin _ he
    have hmem : row.map some ∈ (internSets [] sets).1.map (setOf (internSets [] sets).2) := by
      rw [hset]; exact List.mem_map.2 ⟨row, hrow, rfl⟩
    obtain ⟨g, hg, hge⟩ := List.mem_map.1 hmem
    refine ⟨g, hg, ?_⟩
    have hm : some ((internSets [] sets).2[i]) ∈ setOf (internSets [] sets).2 g := by
      rw [hge]; exact List.mem_map_of_mem her
    obtain ⟨j, hj, hje⟩ := List.mem_map.1 hm
    have hjl := lt_of_getElem?_some hje
    rw [List.getElem?_eq_getElem hjl, Option.some.injEq] at hje
    rwa [← (List.getElem_inj (h₀ := hjl) (h₁ := hi) hnd).1 hje]

theorem measure_image {st : Store} (hst : st.Ordered) {g : List Expr} {outs : List SExpr} {k : Nat} {ms : List Measure}
    {m : List Int} (h : convOuts st g k outs = .ok (ms, m)) : ∀ x ∈ ms, MeasureImage st x := by
  intro x hx
  obtain ⟨s, -, e, hcall, hc, -, rfl⟩ := convOuts_from h x hx
  have him := convExpr_image hst _ _ hc
  cases s with
  | call name a u args t =>
    simp only [convExpr, Res.bind_ok_iff] at hc
    obtain ⟨_, _, _, _, _, _, _, _, _, _, hc⟩ := hc
    cases hc
    exact ⟨_, _, _, rfl, him⟩
  | _ => cases hcall

/-- One relation that was built. -/
theorem line_image {st : Store} {reg : Registry ExtArgs (List Nat)} (hst : st.Ordered) {as : List Addendum}
    {kids : List (Rel × Nat)} {line : SLine} {op : RelOp} {ins : List (Option Rel)} {w : Nat} {x : Str}
    (hx : RelText line x) (h : LineOk st reg as kids line (.node op ins, w)) :
    OpImage st reg (kids.map (·.2)) w op := by
  generalize hq : (Rel.node op ins, w) = q at h
  have image : ∀ {s : SExpr} {e : Expr}, convExpr st s = .ok e → ExprImage st e := fun h => convExpr_image hst _ _ h
  cases h with
  | set o refs adv w' t m ha hk hw ht hm =>
    cases hq
    refine ⟨by simpa using hk, standardAdv_image ha, indexed_make hm, ⟨_, rfl, setName_known ht⟩, w', ?_, mapped_make⟩
    intro y hy
    obtain ⟨k, hk, rfl⟩ := List.mem_map.1 hy
    exact hw k hk
  | readExt cols d adv cs he hk hc =>
    cases hq
    obtain ⟨h1, n, args, h2⟩ := extReadParts_image he
    subst hk
    exact ⟨rfl, rfl, h1, _, schema_build hst hc, rfl, ⟨_, _, _, rfl, h2⟩, rfl, rfl⟩
  | ext kind name args cols a d h1 h2 h3 h4 =>
    cases hq
    refine ⟨?_, rfl, _, _, _, rfl, h4, rfl⟩
    cases kind <;> simp_all [ExtKind.arityOk]
  | body _ adv _ ha hb =>
    subst hq
    have hadv := standardAdv_image ha
    have hlen : kids.length = (kids.map (·.1)).length := by simp
    generalize hq : (Rel.node op ins, w) = q at hb
    generalize hks : kids.map (·.1) = ks at hb hlen
    cases hb with
    | read table out cols e w' hn ho =>
      cases hq
      have hk : kids = [] := by simpa using hlen
      subst hk
      obtain ⟨h1, h2, h3⟩ := output_image hst ho
      refine ⟨rfl, rfl, hadv, _, h1, ?_, rfl, rfl, h2, h3⟩
      cases hx with
      | read htab _ _ => exact sepBy_ne_nil htab
    | readVirtual rows f cols f' rs cs h1 h2 h3 =>
      cases hq
      have hk : kids = [] := by simpa using hlen
      subst hk
      refine ⟨rfl, rfl, hadv, _, schema_build hst h3, rfl, ?_, ?_, rfl, rfl⟩
      · intro e he
        obtain ⟨s, -, hc⟩ := convOpt_from h1 e he
        exact image hc
      · intro r hr e he
        obtain ⟨s, -, hc⟩ := convExprLists_from h2 r hr e he
        exact image hc
    | filter cond refs r x m h1 h2 =>
      cases hq
      exact ⟨by simpa using hlen, hadv, indexed_make h2, mapped_make, _, rfl, image h1⟩
    | project args r es m h1 =>
      cases hq
      refine ⟨by simpa using hlen, hadv, mapped_make, ?_, ?_⟩
      · intro e he
        obtain ⟨s, -, hc⟩ := convProj_from h1 e he
        exact image hc
      · intro e he i
        obtain ⟨s, hs, hc⟩ := convProj_from h1 e he
        cases hx with
        | project ha =>
          obtain ⟨z, hz⟩ := sep0_mem ha _ hs
          cases hz with
          | expr hn _ => exact not_selection hn hc _
    | aggregate group outs r sets ms m h1 h2 =>
      cases hq
      cases hx with
      | aggregate hg _ _ =>
        exact ⟨by simpa using hlen, hadv, mapped_make, grouping_image hst hg h1, measure_image hst h2,
          firstUse_image _, inTurn_image h2, apart_image h2⟩
    | sort fields refs r fs m h1 h2 =>
      cases hq
      refine ⟨by simpa using hlen, hadv, indexed_make h2, mapped_make, ?_⟩
      intro f hf
      obtain ⟨s, -, hc⟩ := convSortFields_from h1 f hf
      unfold convSortField at hc
      obtain ⟨y, hy, hc⟩ := Res.bind_ok_iff.1 hc
      split at hc
      · next hd =>
        cases hc
        exact ⟨_, _, rfl, image (dropPanics_ok.1 hy), sortName_cases hd⟩
      · cases hc
    | fetch args refs r l o m h0 h1 h2 h3 =>
      cases hq
      exact ⟨by simpa using hlen, hadv, indexed_make h1, mapped_make, count_image hst h2, count_image hst h3⟩
    | join ty cond post refs l r t x p m h0 h1 h2 h3 =>
      cases hq
      refine ⟨by simpa using hlen, hadv, indexed_make h3, mapped_make, ⟨_, rfl, joinName_known h0⟩, ⟨_, rfl, image h1⟩, ?_⟩
      intro e he
      obtain ⟨s, -, hc⟩ := convOpt_from h2 e he
      exact image hc
    | cross refs l r m h1 =>
      cases hq
      exact ⟨by simpa using hlen, hadv, indexed_make h1, mapped_make⟩

mutual
theorem node_image {st : Store} {reg : Registry ExtArgs (List Nat)} (hst : st.Ordered) (t : RNode SLine SAddendum) (d : Nat)
    {r : Rel × Nat} (hl : Lines (listing d t)) (h : convNode st reg t = .ok r) : RelImage st reg r.1 r.2 := by
  cases t with
  | mk line as kids =>
    unfold convNode at h
    have hmem : ∀ l, l ∈ listing d (.mk line as kids) ↔ l = (d, .relation line) ∨
        l ∈ as.map (fun a => (d + 1, LineNode.addendum a)) ∨ l ∈ listings (d + 1) kids := by
      intro l
      unfold listing
      simp only [List.cons_append, List.mem_cons, List.mem_append]
    obtain ⟨ks, h1, h⟩ := Res.bind_ok_iff.1 h
    obtain ⟨as', h2, h⟩ := Res.bind_ok_iff.1 h
    have hline := convLine_ok h
    obtain ⟨op, hx, har, -⟩ := hline.shape
    obtain ⟨⟨x, hx'⟩, -⟩ := hl _ ((hmem _).2 (.inl rfl))
    obtain ⟨r, w⟩ := r
    dsimp only at hx ⊢
    subst hx
    cases hx' with
    | relation hx' =>
      have h3 := kids_image hst kids (d + 1) (fun l hm => hl l ((hmem l).2 (.inr (.inr hm)))) h1
      have h4 := line_image hst hx' hline
      have := RelImage.node op ks w h3 h4
      rwa [show (ks.map (·.1)).map some = ks.map fun k => some k.1 by simp]
theorem kids_image {st : Store} {reg : Registry ExtArgs (List Nat)} (hst : st.Ordered) (ts : List (RNode SLine SAddendum))
    (d : Nat) {r : List (Rel × Nat)} (hl : Lines (listings d ts)) (h : convKids st reg ts = .ok r) :
    ∀ k ∈ r, RelImage st reg k.1 k.2 := by
  cases ts with
  | nil => cases h; intro k hk; cases hk
  | cons t ts =>
    have hmem : ∀ l, l ∈ listings d (t :: ts) ↔ l ∈ listing d t ∨ l ∈ listings d ts := by
      intro l
      conv => lhs; unfold listings
      rw [List.mem_append]
    unfold convKids at h
    obtain ⟨k, h1, h⟩ := Res.bind_ok_iff.1 h
    obtain ⟨ks, h2, h⟩ := Res.bind_ok_iff.1 h
    cases h
    intro k' hk'
    rcases List.mem_cons.1 hk' with rfl | hk'
    · exact node_image hst t d (fun l hm => hl l ((hmem l).2 (.inl hm))) h1
    · exact kids_image hst ts d (fun l hm => hl l ((hmem l).2 (.inr hm))) h2 k' hk'
end

theorem top_image {st : Store} {reg : Registry ExtArgs (List Nat)} (hst : st.Ordered) (t : RNode SLine SAddendum) {r : PlanRel}
    (hl : Lines (listing 0 t)) (h : convPlanRel st reg t = .ok r) : TopImage st reg r := by
  unfold convPlanRel at h
  split at h
  · next names as kids =>
    split at h
    · cases h
    split at h
    · next k =>
      obtain ⟨x, h1, h⟩ := Res.bind_ok_iff.1 h
      cases h
      have hmem : ∀ l, l ∈ listing 1 k → l ∈ listing 0 (.mk (.root names) as [k]) := by
        intro l hm
        unfold listing
        simp only [List.cons_append, List.mem_cons, List.mem_append, listings, List.append_nil]
        exact .inr (.inr hm)
      exact ⟨_, node_image hst k 1 (fun l hm => hl l (hmem l hm)) h1⟩
    · cases h
  · obtain ⟨x, h1, h⟩ := Res.bind_ok_iff.1 h
    cases h
    exact ⟨_, node_image hst t 0 hl h1⟩

theorem tops_image {st : Store} {reg : Registry ExtArgs (List Nat)} (hst : st.Ordered) (ts : List (RNode SLine SAddendum)) :
    ∀ {r : List PlanRel}, Lines (listings 0 ts) → convPlanRels st reg ts = .ok r → ∀ x ∈ r, TopImage st reg x := by
  induction ts with
  | nil => intro r _ h x hx; cases h; cases hx
  | cons t ts ih =>
    intro r hl h x hx
    have hmem : ∀ l, l ∈ listings 0 (t :: ts) ↔ l ∈ listing 0 t ∨ l ∈ listings 0 ts := by
      intro l
      conv => lhs; unfold listings
      rw [List.mem_append]
    unfold convPlanRels at h
    obtain ⟨k, h1, h⟩ := Res.bind_ok_iff.1 h
    obtain ⟨ks, h2, h⟩ := Res.bind_ok_iff.1 h
    cases h
    rcases List.mem_cons.1 hx with rfl | hx
    · exact top_image hst t (fun l hm => hl l ((hmem l).2 (.inl hm))) h1
    · exact ih (fun l hm => hl l ((hmem l).2 (.inr hm))) h2 x hx

/-- A plan that was read. -/
theorem plan_image {reg : Registry ExtArgs (List Nat)} {text : Str} {p : Plan} (h : parsePlan reg text = .ok p) :
    PlanImage reg p := by
  obtain ⟨ops, lines, tails, forest, hsays, ha, -, -, hnone, hlines, hc, hu, hd⟩ := parsePlan_built h
  obtain ⟨v, urns, decls, rels⟩ := p
  dsimp only at hu hd hc hsays hnone ⊢
  obtain ⟨blanks, r1, r2, r3, hphys, -, hv, hx, hpl⟩ := hsays
  have hflat : ∀ l ∈ r1, '\n' ∉ trimEnd l := fun l hl => physLines_flat (text := text) (by rw [hphys]; exact List.mem_append_right _ hl)
  have hflat2 : ∀ l ∈ r2, '\n' ∉ trimEnd l := by
    cases hv with
    | none => exact hflat
    | some _ _ _ _ => intro l hl; exact hflat l (by simp [hl])
  have hread : ∀ op ∈ ops, OpRead op := by
    cases hx with
    | none => intro op h; cases h
    | some _ hs => exact extSays_read hs fun l hl => hflat2 l (by simp [hl])
  have hsound := sound_of_read ha hread
  subst hu hd
  obtain ⟨g1, g2, -, -⟩ := history_export hsound v rels
  have hl : Lines lines := by
    cases hpl with
    | none => intro l hl; cases hl
    | some _ hsp => exact spelled_lines hsp
  rw [hlines] at hl
  refine ⟨g2, by rw [g1]; exact hsound, (Store.ordered_run ops).1, hnone, ?_⟩
  rw [g1]
  exact tops_image (Store.ordered_run ops) _ hl hc

end

/-! ## Nothing that formatting would leave out -/

theorem keptLiteral_image {st : Store} {l : Literal} (h : LitImage st l) : keptLiteral l = l := by
  obtain ⟨v, n, t⟩ := l
  obtain ⟨ht, v', hv, h⟩ := h
  dsimp only at ht hv
  subst ht hv
  unfold keptLiteral
  cases v' with
  | interval i =>
    obtain ⟨⟨p, -, hm, -⟩, -⟩ := h
    simp [keptInterval, hm]
  | null t => obtain ⟨-, hn⟩ := h; dsimp only at hn; subst hn; rfl
  | _ => rfl

mutual
theorem keptExpr_image {st : Store} : (e : Expr) → ExprImage st e → keptExpr e = e
  | .literal l, h => by rw [ExprImage] at h; rw [keptExpr, keptLiteral_image h]
  | .selection (.field i none), _ => rfl
  | .selection (.field i (some _)), h => by simp [ExprImage] at h
  | .selection .badReference, h => by simp [ExprImage] at h
  | .selection .badSegment, h => by simp [ExprImage] at h
  | .missing, _ => rfl
  | .other, _ => rfl
  | .call f args opts (some t), h => by
    rw [ExprImage] at h
    rw [keptExpr, keptArgs_image args h.2.2.1]
  | .call f args opts none, h => by simp [ExprImage] at h
  | .cast (some e) (some t) fb, h => by
    rw [ExprImage] at h
    rw [keptExpr, keptExprOpt, keptExpr_image e h.2.1]
  | .cast none _ _, h => by simp [ExprImage] at h
  | .cast (some _) none _, h => by simp [ExprImage] at h
  | .ifThen cs (some e), h => by
    rw [ExprImage] at h
    rw [keptExpr, keptExprOpt, keptExpr_image e h.2, keptClauses_image cs h.1]
  | .ifThen _ none, h => by simp [ExprImage] at h
theorem keptArgs_image {st : Store} : (l : List Arg) → ImageArgs st l → keptArgs l = l
  | [], _ => rfl
  | .value e :: l, h => by
    rw [ImageArgs] at h
    rw [keptArgs, keptExpr_image e h.1, keptArgs_image l h.2]
  | .missing :: _, h => by simp [ImageArgs] at h
  | .ty _ :: _, h => by simp [ImageArgs] at h
  | .enum _ :: _, h => by simp [ImageArgs] at h
theorem keptClauses_image {st : Store} : (l : List Clause) → ImageClauses st l → keptClauses l = l
  | [], _ => rfl
  | .mk (some c) (some r) :: l, h => by
    rw [ImageClauses] at h
    rw [keptClauses, keptExprOpt, keptExprOpt, keptExpr_image c h.1, keptExpr_image r h.2.1, keptClauses_image l h.2.2]
  | .mk none _ :: _, h => by simp [ImageClauses] at h
  | .mk (some _) none :: _, h => by simp [ImageClauses] at h
end

theorem keptCommon_plain {c : Option Common} {e : Emit} (h : Plain c e) : keptCommon c = c := by cases h; rfl

theorem keptCommon_mapped {c : Option Common} {n w : Nat} (h : Mapped n c w) : keptCommon c = c := by
  rcases h with ⟨h, -⟩ | ⟨m, h, -⟩ <;> exact keptCommon_plain h

theorem keptList_image {st : Store} {l : List Expr} (h : ∀ e ∈ l, ExprImage st e) : l.map keptExpr = l := by
  rw [List.map_congr_left fun e he => keptExpr_image e (h e he), List.map_id']

theorem keptOpt_image {st : Store} {e : Option Expr} (h : ∀ x, e = some x → ExprImage st x) : e.map keptExpr = e := by
  cases e with
  | none => rfl
  | some x => rw [Option.map_some, keptExpr_image x (h x rfl)]

theorem keptCount_image {st : Store} {c : Option Count} (h : CountImage st c) : c.map keptCount = c := by
  cases c with
  | none => rfl
  | some x =>
    obtain ⟨e, rfl, he⟩ := h x rfl
    rw [Option.map_some, keptCount, keptExpr_image e he]

theorem keptMeasures_image {st : Store} {ms : List Measure} (h : ∀ m ∈ ms, MeasureImage st m) :
    ms.filterMap keptMeasure = ms := by
  induction ms with
  | nil => rfl
  | cons m ms ih =>
    obtain ⟨f, args, t, rfl, he⟩ := h m (by simp)
    rw [ExprImage] at he
    rw [List.filterMap_cons, ih fun m hm => h m (by simp [hm])]
    simp [keptMeasure, keptArgs_image args he.2.2.1]

theorem keptOp_image {st : Store} {reg : Registry ExtArgs (List Nat)} {ws : List Nat} {w : Nat} {op : RelOp}
    (h : OpImage st reg ws w op) : keptOp op = op := by
  cases op with
  | read c s f t a rest =>
    obtain ⟨-, rfl, -, n, ⟨names, types, rfl, -⟩, h⟩ := h
    cases t with
    | named names rest =>
      obtain ⟨-, rfl, rfl, -, h⟩ := h
      have : keptCommon c = c := by
        rcases h with ⟨h, -⟩ | ⟨m, h, -⟩ <;> exact keptCommon_plain h
      simp [keptOp, this, keptSchema, keptFilter, keptRead]
    | virtual rows rest =>
      obtain ⟨rfl, h1, h2, h3, -⟩ := h
      have hrows : rows.map (·.map keptExpr) = rows := by
        rw [List.map_congr_left fun r hr => keptList_image (h2 r hr), List.map_id']
      simp only [keptOp, keptCommon_plain h3, keptSchema, keptFilter, keptRead, keptOpt_image h1, hrows, Option.map_some]
    | extension d =>
      obtain ⟨rfl, -, h3, -⟩ := h
      simp [keptOp, keptCommon_plain h3, keptSchema, keptFilter, keptRead]
    | other => exact h.elim
  | filter c e a =>
    obtain ⟨-, -, -, hc, x, rfl, hx⟩ := h
    rw [keptOp, keptCommon_mapped hc, Option.map_some, keptExpr_image x hx]
  | project c es a =>
    obtain ⟨-, -, hc, hx, -⟩ := h
    rw [keptOp, keptCommon_mapped hc, keptList_image hx]
  | aggregate c g gs ms a =>
    obtain ⟨-, -, hc, ⟨-, h1, h2, -⟩, h3, -⟩ := h
    rw [keptOp, keptCommon_mapped hc, keptMeasures_image h3, keptGrouping_plain g gs fun x hx => (h2 x hx).1]
    dsimp only
    rw [keptList_image h1, refs_only gs fun x hx => (h2 x hx).1]
  | sort c fs a =>
    obtain ⟨-, -, -, hc, h⟩ := h
    rw [keptOp, keptCommon_mapped hc]
    congr 1
    rw [List.map_congr_left (g := id) ?_, List.map_id]
    intro f hf
    obtain ⟨e, d, rfl, he, -⟩ := h f hf
    simp [keptExpr_image e he]
  | fetch c l o a =>
    obtain ⟨-, -, -, hc, h1, h2⟩ := h
    rw [keptOp, keptCommon_mapped hc, keptCount_image h1, keptCount_image h2]
  | join c t e p a =>
    obtain ⟨-, -, -, hc, -, ⟨x, rfl, hx⟩, hp⟩ := h
    rw [keptOp, keptCommon_mapped hc, Option.map_some, keptExpr_image x hx, keptOpt_image hp]
  | set c o a =>
    obtain ⟨-, -, -, -, n, -, hc⟩ := h
    rw [keptOp, keptCommon_mapped hc]
  | cross c a =>
    obtain ⟨-, -, -, hc⟩ := h
    rw [keptOp, keptCommon_mapped hc]
  | ext k c d =>
    obtain ⟨-, hc, -⟩ := h
    cases hc
    rfl
  | other n => exact h.elim

theorem keptRel_image {st : Store} {reg : Registry ExtArgs (List Nat)} {r : Rel} {w : Nat} (h : RelImage st reg r w) :
    keptRel r = r := by
  induction h with
  | node op kids w _ hop ih =>
    have e : kids.map (fun k => some k.1) = (kids.map (·.1)).map some := by simp
    rw [keptRel, keptOp_image hop, e, keptInputs_some, List.map_map, List.map_map]
    congr 1
    exact List.map_congr_left fun k hk => by simp [ih k hk]

theorem kept_image {reg : Registry ExtArgs (List Nat)} {p : Plan} (h : PlanImage reg p) : kept p = p := by
  obtain ⟨v, urns, decls, rels⟩ := p
  unfold kept
  dsimp only
  congr 1
  rw [List.map_congr_left (g := id) ?_, List.map_id]
  intro r hr
  have := h.rels r hr
  cases r with
  | rel r => obtain ⟨w, hw⟩ := this; rw [keptTop, keptRel_image hw]; rfl
  | root names r =>
    cases r with
    | none => exact this.elim
    | some r => obtain ⟨w, hw⟩ := this; rw [keptTop, Option.map_some, keptRel_image hw]; rfl
  | missing => exact this.elim

end Verif
