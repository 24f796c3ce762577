import Verif.Proofs.ReparseExpr
import Verif.Proofs.HazardsRel
/-!
# Relations that were read can be written
-/

namespace Verif

set_option autoImplicit false

open StoreSpec TextSpec RelSpec PlanSpec Grammar HazardSpec TreeSpec

/-! ## Lists of conversions -/

section
variable [FTab]

theorem convExprs_from {st : Store} {l : List SExpr} : ∀ {r : List Expr}, convExprs st l = .ok r →
    ∀ e ∈ r, ∃ s ∈ l, convExpr st s = .ok e := by
  induction l with
  | nil => intro r h; cases h; simp
  | cons s l ih =>
    intro r h e he
    unfold convExprs at h
    obtain ⟨x, h1, h⟩ := Res.bind_ok_iff.1 h
    obtain ⟨y, h2, h⟩ := Res.bind_ok_iff.1 h
    cases h
    rcases List.mem_cons.1 he with rfl | he
    · exact ⟨s, by simp, h1⟩
    · obtain ⟨s', hs, h3⟩ := ih h2 e he
      exact ⟨s', by simp [hs], h3⟩

theorem convExprLists_from {st : Store} {l : List (List SExpr)} : ∀ {r : List (List Expr)}, convExprLists st l = .ok r →
    ∀ row ∈ r, ∀ e ∈ row, ∃ s ∈ l.flatten, convExpr st s = .ok e := by
  induction l with
  | nil => intro r h; cases h; simp
  | cons s l ih =>
    intro r h row hrow e he
    unfold convExprLists at h
    obtain ⟨x, h1, h⟩ := Res.bind_ok_iff.1 h
    obtain ⟨y, h2, h⟩ := Res.bind_ok_iff.1 h
    cases h
    rw [List.flatten_cons]
    rcases List.mem_cons.1 hrow with rfl | hrow
    · obtain ⟨s', hs, h3⟩ := convExprs_from h1 e he
      exact ⟨s', List.mem_append_left _ hs, h3⟩
    · obtain ⟨s', hs, h3⟩ := ih h2 row hrow e he
      exact ⟨s', List.mem_append_right _ hs, h3⟩

theorem convGroup_from {st : Store} {g : SGroup} {r : List (List Expr)} (h : convGroup st g = .ok r) :
    ∀ row ∈ r, ∀ e ∈ row, ∃ s ∈ (groupLists g).flatten, convExpr st s = .ok e := by
  cases g with
  | exprs l =>
    unfold convGroup at h
    obtain ⟨x, h1, h⟩ := Res.bind_ok_iff.1 h
    cases h
    intro row hrow e he
    rw [List.mem_singleton] at hrow
    subst hrow
    simpa [groupLists] using convExprs_from h1 e he
  | sets l => exact convExprLists_from h

theorem convOpt_from {st : Store} {f : Option SExpr} {r : Option Expr} (h : convOpt (convExpr st) f = .ok r) :
    ∀ e, r = some e → ∃ s, f = some s ∧ convExpr st s = .ok e := by
  cases f with
  | none => cases h; simp
  | some s =>
    unfold convOpt at h
    obtain ⟨x, h1, h⟩ := Res.bind_ok_iff.1 h
    cases h
    intro e he
    cases he
    exact ⟨s, rfl, h1⟩

omit [FTab] in
theorem convColumns_from {st : Store} {l : List SColumn} : ∀ {r : List (Str × Ty)}, convColumns st l = .ok r →
    ∀ c ∈ r, ∃ s ∈ l, s.1 = c.1 ∧ convTy st s.2 = .ok c.2 := by
  induction l with
  | nil => intro r h; cases h; simp
  | cons s l ih =>
    obtain ⟨n, t⟩ := s
    intro r h c hc
    unfold convColumns at h
    obtain ⟨x, h1, h⟩ := Res.bind_ok_iff.1 h
    obtain ⟨y, h2, h⟩ := Res.bind_ok_iff.1 h
    cases h
    rcases List.mem_cons.1 hc with rfl | hc
    · exact ⟨(n, t), by simp, rfl, h1⟩
    · obtain ⟨s', hs, h3⟩ := ih h2 c hc
      exact ⟨s', by simp [hs], h3⟩

theorem convProj_from {st : Store} {n : Nat} {l : List SProj} : ∀ {k : Nat} {r : List Expr × List Int},
    convProj st n k l = .ok r → ∀ e ∈ r.1, ∃ s, SProj.expr s ∈ l ∧ convExpr st s = .ok e := by
  induction l with
  | nil => intro k r h; cases h; simp
  | cons s l ih =>
    intro k r h e he
    cases s with
    | ref i =>
      unfold convProj at h
      obtain ⟨x, h1, h⟩ := Res.bind_ok_iff.1 h
      obtain ⟨y, h2, h⟩ := Res.bind_ok_iff.1 h
      cases h
      obtain ⟨s', hs, h3⟩ := ih h2 e he
      exact ⟨s', by simp [hs], h3⟩
    | expr s =>
      unfold convProj at h
      obtain ⟨x, h1, h⟩ := Res.bind_ok_iff.1 h
      obtain ⟨y, h2, h⟩ := Res.bind_ok_iff.1 h
      cases h
      rcases List.mem_cons.1 he with rfl | he
      · exact ⟨s, by simp, plain_ok.1 h1⟩
      · obtain ⟨s', hs, h3⟩ := ih h2 e he
        exact ⟨s', by simp [hs], h3⟩

theorem convOuts_from {st : Store} {g : List Expr} {l : List SExpr} : ∀ {k : Nat} {r : List Measure × List Int},
    convOuts st g k l = .ok r → ∀ m ∈ r.1, ∃ s ∈ l, ∃ e, s.isCall = true ∧ convExpr st s = .ok e ∧ e ∉ g ∧ m = toMeasure e := by
  induction l with
  | nil => intro k r h; cases h; simp
  | cons s l ih =>
    intro k r h m hm
    unfold convOuts at h
    obtain ⟨x, h1, h⟩ := Res.bind_ok_iff.1 h
    split at h
    · obtain ⟨y, h2, h⟩ := Res.bind_ok_iff.1 h
      cases h
      obtain ⟨s', hs, h3⟩ := ih h2 m hm
      exact ⟨s', by simp [hs], h3⟩
    · next hpos =>
      split at h
      · next hc =>
        obtain ⟨y, h2, h⟩ := Res.bind_ok_iff.1 h
        cases h
        rcases List.mem_cons.1 hm with rfl | hm
        · exact ⟨s, by simp, x, hc, plain_ok.1 h1, posOf_none.1 hpos, rfl⟩
        · obtain ⟨s', hs, h3⟩ := ih h2 m hm
          exact ⟨s', by simp [hs], h3⟩
      · cases h

theorem convSortFields_from {st : Store} {l : List (SExpr × Str)} : ∀ {r : List SortField}, convSortFields st l = .ok r →
    ∀ f ∈ r, ∃ s ∈ l, convSortField st s = .ok f := by
  induction l with
  | nil => intro r h; cases h; simp
  | cons s l ih =>
    intro r h f hf
    unfold convSortFields at h
    obtain ⟨x, h1, h⟩ := Res.bind_ok_iff.1 h
    obtain ⟨y, h2, h⟩ := Res.bind_ok_iff.1 h
    cases h
    rcases List.mem_cons.1 hf with rfl | hf
    · exact ⟨s, by simp, h1⟩
    · obtain ⟨s', hs, h3⟩ := ih h2 f hf
      exact ⟨s', by simp [hs], h3⟩

/-- An expression that does not begin with a number is not a number. -/
theorem not_numeric {st : Store} {s : SExpr} {x : Str} {e : Expr} (hn : ∀ i y z, Grammar.IntText i y → x ≠ y ++ z)
    (hx : ExprText s x) (h : convExpr st s = .ok e) : ¬ Numeric e := by
  intro hnum
  cases hx with
  | ifThen =>
    rw [convExpr] at h
    obtain ⟨_, -, h⟩ := Res.bind_ok_iff.1 h
    obtain ⟨_, -, h⟩ := Res.bind_ok_iff.1 h
    cases h
    exact hnum
  | cast =>
    rw [convExpr] at h
    obtain ⟨_, -, h⟩ := Res.bind_ok_iff.1 h
    obtain ⟨_, -, h⟩ := Res.bind_ok_iff.1 h
    cases h
    exact hnum
  | call =>
    rw [convExpr] at h
    obtain ⟨_, -, h⟩ := Res.bind_ok_iff.1 h
    obtain ⟨_, -, h⟩ := Res.bind_ok_iff.1 h
    obtain ⟨_, -, h⟩ := Res.bind_ok_iff.1 h
    obtain ⟨_, -, h⟩ := Res.bind_ok_iff.1 h
    obtain ⟨_, -, h⟩ := Res.bind_ok_iff.1 h
    cases h
    exact hnum
  | ref =>
    rw [convExpr] at h
    obtain ⟨_, -, h⟩ := Res.bind_ok_iff.1 h
    cases h
    exact hnum
  | @lit l _ hl =>
    rw [convExpr] at h
    obtain ⟨l', h1, h⟩ := Res.bind_ok_iff.1 h
    cases h
    obtain ⟨v, ty⟩ := l
    obtain ⟨y, z, hy, -, rfl⟩ := hl
    unfold convLit at h1
    obtain ⟨t, -, h1⟩ := Res.bind_ok_iff.1 h1
    dsimp only at h1 hy
    cases hy with
    | int hi => exact hn _ _ _ hi rfl
    | @float x hf =>
      obtain ⟨m, n, sign, ds, fs, hsign, hds, -, rfl⟩ := hf
      rcases hsign with rfl | rfl
      · exact hn _ ds (['.'] ++ fs ++ z) (.pos hds) (by simp)
      · exact hn _ ('-' :: ds) (['.'] ++ fs ++ z) (.neg hds) (by simp)
    | true =>
      simp only [convValue, toBoolLit] at h1
      split at h1 <;> cases h1 <;> exact hnum
    | false =>
      simp only [convValue, toBoolLit] at h1
      split at h1 <;> cases h1 <;> exact hnum
    | null =>
      simp only [convValue, toNullLit] at h1
      split at h1 <;> cases h1
      exact hnum
    | str =>
      simp only [convValue, toStringLit] at h1
      split at h1
      · split at h1 <;> cases h1
        exact hnum
      · split at h1
        · obtain ⟨_, -, h1⟩ := Res.bind_ok_iff.1 h1
          cases h1
          exact hnum
        · cases h1
      all_goals first
        | (obtain ⟨_, -, h1⟩ := Res.bind_ok_iff.1 h1; cases h1; exact hnum)
        | (cases h1; exact hnum)

/-- Nothing but a reference is converted to a reference. -/
theorem not_selection {st : Store} {s : SExpr} {e : Expr} (hn : ∀ i, s ≠ .ref i) (h : convExpr st s = .ok e) :
    ∀ x, e ≠ .selection x := by
  intro x hx
  subst hx
  cases s with
  | ref i => exact hn i rfl
  | lit l =>
    rw [convExpr] at h
    obtain ⟨_, -, h⟩ := Res.bind_ok_iff.1 h
    cases h
  | ifThen =>
    rw [convExpr] at h
    obtain ⟨_, -, h⟩ := Res.bind_ok_iff.1 h
    obtain ⟨_, -, h⟩ := Res.bind_ok_iff.1 h
    cases h
  | cast =>
    rw [convExpr] at h
    obtain ⟨_, -, h⟩ := Res.bind_ok_iff.1 h
    obtain ⟨_, -, h⟩ := Res.bind_ok_iff.1 h
    cases h
  | call =>
    rw [convExpr] at h
    obtain ⟨_, -, h⟩ := Res.bind_ok_iff.1 h
    obtain ⟨_, -, h⟩ := Res.bind_ok_iff.1 h
    obtain ⟨_, -, h⟩ := Res.bind_ok_iff.1 h
    obtain ⟨_, -, h⟩ := Res.bind_ok_iff.1 h
    obtain ⟨_, -, h⟩ := Res.bind_ok_iff.1 h
    cases h

end

theorem ite_ne_of {α : Type} {c : Prop} [Decidable c] {a b x : Option α} (ha : a ≠ x) (hb : b ≠ x) :
    (if c then a else b) ≠ x := by
  split
  · exact ha
  · exact hb

theorem joinName_known {s : Str} {t : JoinType} (h : JoinType.ofName s = some t) : t ≠ .unspecified := by
  rintro rfl
  revert h
  unfold JoinType.ofName
  repeat' apply ite_ne_of
  all_goals simp

theorem setName_known {s : Str} {t : SetOp} (h : SetOp.ofName s = some t) : t ≠ .unspecified := by
  rintro rfl
  revert h
  unfold SetOp.ofName
  repeat' apply ite_ne_of
  all_goals simp

theorem sortName_known {s : Str} {t : SortDir} (h : SortDir.ofName s = some t) : t ≠ .unspecified ∧ t ≠ .clustered := by
  constructor
  · rintro rfl
    revert h
    unfold SortDir.ofName
    repeat' apply ite_ne_of
    all_goals simp
  · rintro rfl
    revert h
    unfold SortDir.ofName
    repeat' apply ite_ne_of
    all_goals simp

theorem mapping_make {m : List Int} {n : Nat} :
    mapping (mkCommon (makeEmit m n)) = none ∨ mapping (mkCommon (makeEmit m n)) = some m := by
  rcases makeEmit_cases m n with h | h
  · left; rw [h]; rfl
  · right; rw [h]; rfl

theorem convRefs_inI32 {l : List IntTok} : ∀ {m : List Int}, convRefs l = .ok m → ∀ i ∈ m, InI32 i := by
  induction l with
  | nil => intro m h; cases h; simp
  | cons a l ih =>
    intro m h i hi
    unfold convRefs at h
    obtain ⟨x, h1, h⟩ := Res.bind_ok_iff.1 h
    obtain ⟨y, h2, h⟩ := Res.bind_ok_iff.1 h
    cases h
    rcases List.mem_cons.1 hi with rfl | hi
    · exact convIndex_ok (plain_ok.1 h1)
    · exact ih h2 i hi

theorem sepBy_ne_nil {α : Type} {sep : Str → Prop} {G : α → Str → Prop} {l : List α} {x : Str} (h : SepBy sep G l x) :
    l ≠ [] := by
  cases h with
  | mk => simp

variable [UTab] [FTab]

omit [FTab] in
theorem columnsOk_build {st : Store} (hst : st.Ordered) (hs : Sound st) {cols : List SColumn} {cs : List (Str × Ty)}
    (h : convColumns st cols = .ok cs) (hp : PlainColumns st (some (buildStruct cs))) :
    ColumnsOk st (some (buildStruct cs)) := by
  obtain ⟨h1, h2⟩ := hp _ rfl
  refine ⟨cs, rfl, ?_⟩
  intro c hc
  obtain ⟨s, -, -, ht⟩ := convColumns_from h c hc
  exact ⟨h1 _ (List.mem_map_of_mem hc), writable_of_producible hst hs _ (convTy_image hst _ _ ht)
    (h2 _ rfl _ (List.mem_map_of_mem hc))⟩

theorem countOk_conv {env : Env} (hst : env.st.Ordered) (hs : Sound env.st) {v : SFetch} {x : Str} {c : Count}
    (hx : FetchValueText v x) (h : convFetchValue env.st v = .ok c) (hp : PlainCount env.st env.o c) :
    CountOk env.st env.o c := by
  cases hx with
  | @int i _ hi =>
    simp only [convFetchValue] at h
    split at h
    · cases h
    · next j hj =>
      split at h
      · cases h
      · next hneg =>
        cases h
        left
        refine ⟨hp.1 (by trivial), j, rfl, by omega, ?_⟩
        unfold IntTok.toI64 at hj
        split at hj
        · next hb => cases hj; exact hb.2
        · cases hj
  | expr hn he =>
    simp only [convFetchValue] at h
    obtain ⟨e, h1, h⟩ := Res.bind_ok_iff.1 h
    cases h
    right
    exact ⟨convExpr_faithful hst hs he (plain_ok.1 h1) hp.2, not_numeric hn he (plain_ok.1 h1)⟩

theorem aggregate_of_conv {st : Store} (hst : st.Ordered) (hs : Sound st) {group : SGroup} {outs : List SExpr}
    {x y : Str} (hg : GroupText group x) (ho : Sep0 SpComma ExprText outs y)
    {sets : List (List Expr)} {ms : List Measure} {m : List Int} (h1 : convGroup st group = .ok sets)
    (h2 : convOuts st (internSets [] sets).2 0 outs = .ok (ms, m))
    (p1 : ∀ e ∈ (internSets [] sets).2, PlainExpr st e) (p2 : ∀ m ∈ ms, ∀ e, callOf m = some e → PlainExpr st e)
    (p3 : ∀ e l, groupSets (internSets [] sets).2 (internSets [] sets).1 = [some e :: l] → ¬ IsCast e)
    (p4 : (internSets [] sets).2.length + ms.length + (shown ((internSets [] sets).2.length + ms.length)
      (mkCommon (makeEmit m ((internSets [] sets).2.length + ms.length)))).length ≤ 2 ^ 31) :
    AggregateOk st (mkCommon (makeEmit m ((internSets [] sets).2.length + ms.length))) (internSets [] sets).2
      (internSets [] sets).1 ms ∧
    InRange ((internSets [] sets).2.length + ms.length) (shown ((internSets [] sets).2.length + ms.length)
      (mkCommon (makeEmit m ((internSets [] sets).2.length + ms.length)))) := by
  obtain ⟨-, ⟨more, hmore, hin⟩, hset, hexprs⟩ := internSets_spec sets [] (by simp)
  rw [List.nil_append] at hmore
  have hset' : ∀ g ∈ (internSets [] sets).1, ∀ o ∈ setOf (internSets [] sets).2 g, ∃ e, o = some e ∧ e ∈ (internSets [] sets).2 := by
    intro g hgm o hom
    have : setOf (internSets [] sets).2 g ∈ sets.map (·.map some) := by rw [← hset]; exact List.mem_map_of_mem hgm
    obtain ⟨s, -, he⟩ := List.mem_map.1 this
    have hom' := hom
    rw [← he] at hom
    obtain ⟨e, -, rfl⟩ := List.mem_map.1 hom
    refine ⟨e, rfl, ?_⟩
    unfold setOf at hom'
    obtain ⟨i, -, hi⟩ := List.mem_map.1 hom'
    exact List.mem_of_getElem? hi
  have hgrouped : ∀ e, Grouped (internSets [] sets).2 (internSets [] sets).1 e → e ∈ (internSets [] sets).2 := by
    rintro e ⟨s, hsm, he⟩
    unfold groupSets at hsm
    split at hsm
    · rw [List.mem_singleton] at hsm
      subst hsm
      cases he
    · obtain ⟨g, hgm, rfl⟩ := List.mem_map.1 hsm
      obtain ⟨e', he', hm⟩ := hset' g hgm _ he
      cases he'
      exact hm
  have hback : ∀ e ∈ (internSets [] sets).2, Grouped (internSets [] sets).2 (internSets [] sets).1 e := by
    intro e he
    rw [hmore] at he
    obtain ⟨s, hsm, hes⟩ := hin e he
    have hmem : s.map some ∈ (internSets [] sets).1.map (setOf (internSets [] sets).2) := by
      rw [hset]; exact List.mem_map.2 ⟨s, hsm, rfl⟩
    refine ⟨s.map some, ?_, List.mem_map_of_mem hes⟩
    unfold groupSets
    split
    · next h0 => rw [h0] at hmem; cases hmem
    · exact hmem
  refine ⟨⟨?_, ?_, ?_, ?_, ?_, p3⟩, p4, ?_⟩
  · intro g hgm
    refine ⟨hexprs g hgm, ?_⟩
    intro i hi
    obtain ⟨e, he, -⟩ := hset' g hgm _ (List.mem_map_of_mem hi)
    exact lt_of_getElem?_some he
  · intro e he
    have he' := he
    rw [hmore] at he'
    obtain ⟨row, hrow, her⟩ := hin e he'
    obtain ⟨s, hsm, hc⟩ := convGroup_from h1 row hrow e her
    obtain ⟨z, hz⟩ := groupText_mem hg s hsm
    exact convExpr_faithful hst hs hz hc (p1 e he)
  · intro q hq
    obtain ⟨s, hsm, e, hcall, hc, -, rfl⟩ := convOuts_from h2 q hq
    have hpe := p2 _ hq e (isCall_conv hcall hc).1
    obtain ⟨z, hz⟩ := sep0_mem ho s hsm
    have hf := convExpr_faithful hst hs hz hc hpe
    cases s with
    | call name a u args t =>
      simp only [convExpr, Res.bind_ok_iff] at hc
      obtain ⟨_, _, _, _, _, _, _, _, _, _, hc⟩ := hc
      cases hc
      exact ⟨_, _, _, rfl, hf⟩
    | _ => cases hcall
  · intro i _ e he
    exact hback e (List.mem_of_getElem? he)
  · intro q hq e he hge
    obtain ⟨s, hsm, e', hcall, hc, hne, rfl⟩ := convOuts_from h2 q hq
    rw [(isCall_conv hcall hc).1] at he
    cases he
    exact hne (hgrouped e hge)
  · obtain ⟨es, -, -, -, hm⟩ := convOuts_spec outs 0 ms m h2
    have hm := hm [] rfl
    rw [List.nil_append] at hm
    intro i hi
    unfold shown at hi
    rcases mapping_make (m := m) (n := (internSets [] sets).2.length + ms.length) with hc | hc
    · rw [hc] at hi
      simp only [Option.getD_none, identity, List.mem_map, List.mem_range] at hi
      obtain ⟨j, hj, rfl⟩ := hi
      simp only [Int.ofNat_eq_natCast]
      omega
    · rw [hc] at hi
      simp only [Option.getD_some] at hi
      have : at? ((internSets [] sets).2.map some ++ ms.map callOf) i ∈ es.map fun e => some (some e) := by
        rw [← hm]; exact List.mem_map_of_mem hi
      obtain ⟨e, -, he⟩ := List.mem_map.1 this
      unfold at? at he
      split at he
      · next hpos =>
        have hlt := lt_of_getElem?_some he.symm
        simp only [List.length_append, List.length_map] at hlt
        omega
      · cases he

/-- A relation that was read has a faithful text if it is plain. -/
theorem opOk_of_line {env : Env} (hst : env.st.Ordered) (hs : Sound env.st) {as : List Addendum} {kids : List (Rel × Nat)}
    {line : SLine} {x : Str} {op : RelOp} {ins : List (Option Rel)} {w : Nat} (hx : RelText line x)
    (h : LineOk env.st env.reg as kids line (.node op ins, w)) {ws : List Nat} (hp : PlainOp env ws op) :
    OpOk env ws op := by
  generalize hq : (Rel.node op ins, w) = q at h
  cases h with
  | set o refs adv w' t m ha hk hw ht hm =>
    cases hq
    exact ⟨rfl, ⟨t, rfl, setName_known ht⟩, hp⟩
  | readExt cols d adv cs he hk hc =>
    cases hq
    exact ⟨rfl, rfl, columnsOk_build hst hs hc hp.1, ⟨rfl, hp.2.1 _ rfl, rfl⟩, hp.2.2⟩
  | ext kind name args cols a d h1 h2 h3 h4 =>
    cases hq
    obtain ⟨n, args, hd⟩ := hp d rfl
    exact ⟨rfl, rfl, d, n, args, rfl, hd⟩
  | body _ adv _ ha hb =>
    subst hq
    generalize hq : (Rel.node op ins, w) = q at hb
    generalize hks : kids.map (·.1) = ks at hb
    cases hb with
    | read table out cols e w' hn ho =>
      cases hq
      cases hx with
      | read htab _ hout =>
        have hmc : (∃ sc, convColumns env.st sc = .ok cols) ∧ ∀ m, mapping (mkCommon e) = some m → ∀ i ∈ m, InI32 i := by
          cases hout with
          | implicit _ _ =>
            simp only [convOutput] at ho
            obtain ⟨c, h1, h2⟩ := Res.bind_ok_iff.1 ho
            cases h2
            exact ⟨⟨_, plain_ok.1 h1⟩, by intro m hm; cases hm⟩
          | direct _ _ =>
            simp only [convOutput] at ho
            obtain ⟨c, h1, h2⟩ := Res.bind_ok_iff.1 ho
            cases h2
            exact ⟨⟨_, dropPanics_ok.1 h1⟩, by intro m hm; cases hm⟩
          | emit _ _ _ _ _ =>
            simp only [convOutput] at ho
            obtain ⟨c, h1, h2⟩ := Res.bind_ok_iff.1 ho
            obtain ⟨m, h3, h4⟩ := Res.bind_ok_iff.1 h2
            cases h4
            refine ⟨⟨_, dropPanics_ok.1 h1⟩, ?_⟩
            intro m' hm'
            cases hm'
            exact convRefs_inI32 h3
        obtain ⟨⟨sc, hsc⟩, hmc⟩ := hmc
        exact ⟨rfl, rfl, columnsOk_build hst hs hsc hp.1, ⟨sepBy_ne_nil htab, hp.2.1, rfl, rfl, hmc⟩, hp.2.2⟩
    | readVirtual rows f cols f' rs cs h1 h2 h3 =>
      cases hq
      cases hx with
      | readVirtual _ hrows hf _ _ hc _ =>
        obtain ⟨p1, p2⟩ := hp.2.1
        refine ⟨rfl, rfl, columnsOk_build hst hs h3 hp.1, ⟨rfl, ?_, ?_, rfl⟩, hp.2.2⟩
        · intro r hr e he
          obtain ⟨s, hsm, hcv⟩ := convExprLists_from h2 r hr e he
          obtain ⟨y, hy⟩ := rowsText_mem hrows s hsm
          exact convExpr_faithful hst hs hy hcv (p1 r hr e he)
        · intro e he
          obtain ⟨s, rfl, hcv⟩ := convOpt_from h1 e he
          cases hf with
          | some hf =>
            obtain ⟨_, _, _, y, _, _, _, hy, _⟩ := hf
            exact convExpr_faithful hst hs hy hcv (p2 e he)
    | filter cond refs r e m h1 h2 =>
      cases hq
      cases hx with
      | filter he _ _ => exact ⟨rfl, ⟨e, rfl, convExpr_faithful hst hs he h1 (hp.1 e rfl)⟩, hp.2⟩
    | project args r es m h1 =>
      cases hq
      cases hx with
      | project hargs =>
        refine ⟨rfl, ?_, hp.2⟩
        intro e he
        obtain ⟨s, hsm, hcv⟩ := convProj_from h1 e he
        obtain ⟨y, hy⟩ := sep0_mem hargs _ hsm
        cases hy with
        | expr hnr hy =>
          exact ⟨convExpr_faithful hst hs hy hcv (hp.1 e he), fun i hi => absurd hi (not_selection hnr hcv _)⟩
    | aggregate group outs r sets ms m h1 h2 =>
      cases hq
      cases hx with
      | aggregate hg _ ho =>
        obtain ⟨p1, p2, p3, p4, p5⟩ := hp
        obtain ⟨k1, k2⟩ := aggregate_of_conv hst hs hg ho h1 h2 p1 p2 p3 p4
        exact ⟨rfl, k1, k2, p5⟩
    | sort fields refs r fs m h1 h2 =>
      cases hq
      cases hx with
      | sort hf _ _ =>
        obtain ⟨p1, p2, p3⟩ := hp
        refine ⟨rfl, p1, ?_, p3⟩
        intro f hfm
        obtain ⟨s, hsm, hcv⟩ := convSortFields_from h1 f hfm
        obtain ⟨_, _, y, _, _, _, _, hy, _⟩ := sep0_mem hf s hsm
        unfold convSortField at hcv
        obtain ⟨e, he, hcv⟩ := Res.bind_ok_iff.1 hcv
        split at hcv
        · next d hd =>
          cases hcv
          obtain ⟨k1, k2⟩ := sortName_known hd
          exact ⟨e, d, rfl, convExpr_faithful hst hs hy (dropPanics_ok.1 he) (p2 _ hfm e rfl), k1, k2⟩
        · cases hcv
    | fetch args refs r l o m hd hm hl ho =>
      cases hq
      cases hx with
      | fetch ha _ _ =>
        obtain ⟨p1, p2, p3⟩ := hp
        have key : ∀ {n : Str} {c : Count}, convOptR (convFetchValue env.st) (fetchArg args n) = .ok (some c) →
            PlainCount env.st env.o c → CountOk env.st env.o c := by
          intro n c hc hpc
          cases hv : fetchArg args n with
          | none => rw [hv] at hc; cases hc
          | some v =>
            rw [hv] at hc
            unfold convOptR at hc
            obtain ⟨c', h1, h2⟩ := Res.bind_ok_iff.1 hc
            cases h2
            have hmem := (fetchArg_mem ((hasDup_iff _).1 hd) n v).1 hv
            cases ha with
            | empty => cases hmem
            | args ha =>
              obtain ⟨_, _, _, y, _, _, _, hvt, _⟩ := sepBy_mem ha _ hmem
              exact countOk_conv hst hs hvt h1 hpc
        refine ⟨rfl, ?_, ?_, p3⟩
        · intro c hc
          subst hc
          exact key hl (p1 c rfl)
        · intro c hc
          subst hc
          exact key ho (p2 c rfl)
    | join ty cond post refs l r t e p m h1 h2 h3 h4 =>
      cases hq
      cases hx with
      | join _ _ he hpo _ _ =>
        obtain ⟨p1, p2, p3, p4⟩ := hp
        obtain ⟨q1, q2, q3⟩ := p1 t rfl
        refine ⟨rfl, ⟨t, rfl, joinName_known h1, q1, q2, q3⟩, ⟨e, rfl, convExpr_faithful hst hs he h2 (p2 e rfl)⟩, ?_, p4⟩
        intro e' he'
        obtain ⟨s, rfl, hcv⟩ := convOpt_from h3 e' he'
        cases hpo with
        | some hf =>
          obtain ⟨_, _, _, y, _, _, _, hy, _⟩ := hf
          exact convExpr_faithful hst hs hy hcv (p3 e' he')
    | cross refs l r m h1 =>
      cases hq
      exact ⟨rfl, hp⟩

end Verif
