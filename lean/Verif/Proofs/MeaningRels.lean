import Verif.Proofs.Meaning
/-!
# Proofs: the meaning of relations
-/

namespace Verif

open StoreSpec Grammar MeaningSpec ImageSpec

set_option autoImplicit false

theorem plain_means {α : Type} {r : Res Err α} {a : α} : plain r = .ok a ↔ r = .ok a := by
  cases r <;> simp [plain]

theorem dropPanics_means {α : Type} {r : Res Err α} {a : α} : dropPanics r = .ok a ↔ r = .ok a := by
  cases r <;> simp [dropPanics]

theorem grammarName_means {α : Type} {r : Option α} {a : α} : grammarName r = .ok a ↔ r = some a := by
  cases r <;> simp [grammarName]

theorem resolved_means {name : Str} {r : Except ExtErr AnyMsg} {d : AnyMsg} : resolved name r = .ok d ↔ r = .ok d := by
  match r with
  | .ok x => simp [resolved]
  | .error e => cases e <;> simp [resolved]

theorem convOpt_means {α β : Type} {f : α → Res Err β} {R : α → β → Prop} (hf : ∀ a b, f a = .ok b ↔ R a b)
    {o : Option α} {b : Option β} : convOpt f o = .ok b ↔ Opt2 R o b := by
  cases o with
  | none =>
    rw [opt2_none]
    simp only [convOpt, Res.ok.injEq]
    exact eq_comm
  | some a =>
    rw [opt2_some]
    simp only [convOpt, Res.bind_ok_iff, hf]
    constructor
    · rintro ⟨x, h1, h2⟩; cases h2; exact ⟨x, rfl, h1⟩
    · rintro ⟨x, rfl, h1⟩; exact ⟨x, h1, rfl⟩

/-! ## Output mappings -/

theorem convRefs_means {refs : List IntTok} {m : List Int} : convRefs refs = .ok m ↔ All2 RefMeans refs m :=
  loop_means (f := fun i => plain (convIndex i)) (fun _ _ => plain_means.trans convIndex_means) (by rfl) (fun _ _ => by rfl) refs m

theorem countsFrom_means (k : Nat) (m : List Int) :
    countsFrom k m = true ↔ ∀ (i : Nat) (v : Int), m[i]? = some v → InI32 v ∧ 2 ^ 32 ∣ v - ((k + i : Nat) : Int) := by
  induction m generalizing k with
  | nil => simp [countsFrom]
  | cons v m ih =>
    rw [countsFrom, Bool.and_eq_true, decide_eq_true_eq, ih]
    constructor
    · rintro ⟨h1, h2⟩ i w hw
      cases i with
      | zero =>
        simp only [List.getElem?_cons_zero, Option.some.injEq] at hw
        subst hw
        exact wrap32_means.1 h1.symm
      | succ i =>
        rw [List.getElem?_cons_succ] at hw
        have := h2 i w hw
        rwa [show k + 1 + i = k + (i + 1) by omega] at this
    · intro h
      refine ⟨(wrap32_means.2 (h 0 v rfl)).symm, fun i w hw => ?_⟩
      have := h (i + 1) w (by simpa using hw)
      rwa [show k + 1 + i = k + (i + 1) by omega]

theorem makeEmit_means {m : List Int} {n : Nat} {c : Option Common} : mkCommon (makeEmit m n) = c ↔ Puts n m c := by
  have h : (m.length = n ∧ countsFrom 0 m = true) ↔ InOrder n m := by
    rw [countsFrom_means]
    simp [InOrder]
  unfold makeEmit Puts Plain mkCommon
  by_cases hd : InOrder n m
  · rw [if_pos (h.2 hd)]
    simp only [hd, true_and, not_true, false_and, or_false]
    exact eq_comm
  · rw [if_neg (fun g => hd (h.1 g))]
    simp only [hd, false_and, not_false_eq_true, true_and, false_or]
    exact eq_comm

theorem convEmit_means {refs : List IntTok} {n : Nat} {c : Option Common} {w : Nat} :
    convEmit refs n = .ok (c, w) ↔ RefsMean refs n c w := by
  unfold convEmit RefsMean
  simp only [Res.bind_ok_iff, convRefs_means, Res.ok.injEq, Prod.mk.injEq, makeEmit_means]
  constructor
  · rintro ⟨m, h1, h2, h3⟩; exact ⟨m, h1, h3.symm, h2⟩
  · rintro ⟨m, h1, h3, h2⟩; exact ⟨m, h1, h2, h3.symm⟩

/-! ## Columns -/

theorem convColumns_means {st : Store} (hst : st.Ordered) (cols : List SColumn) (r : List (Str × Ty)) :
    convColumns st cols = .ok r ↔ All2 (fun c t => c.1 = t.1 ∧ TyMeans st c.2 t.2) cols r := by
  refine loop_means (f := fun c => (convTy st c.2).bind fun t => .ok (c.1, t)) ?_ (by rfl) ?_ cols r
  · rintro ⟨n, s⟩ ⟨k, t⟩
    simp only [Res.bind_ok_iff, convTy_means hst, Res.ok.injEq, Prod.mk.injEq]
    constructor
    · rintro ⟨x, h1, rfl, rfl⟩; exact ⟨rfl, h1⟩
    · rintro ⟨rfl, h⟩; exact ⟨t, h, rfl, rfl⟩
  · rintro ⟨n, s⟩ l
    rw [convColumns]
    cases convTy st s <;> rfl

theorem schema_means {st : Store} (hst : st.Ordered) {cols : List SColumn} {s : Option NamedStruct} {n : Nat} :
    (∃ r, convColumns st cols = .ok r ∧ some (buildStruct r) = s ∧ r.length = n) ↔ SchemaMeans st cols s n := by
  simp only [convColumns_means hst]
  constructor
  · rintro ⟨r, h, rfl, rfl⟩
    refine ⟨r.map (·.2), ?_, by simp, ?_⟩
    · induction h with
      | nil => exact .nil
      | cons h1 _ ih => exact .cons h1.2 ih
    · have : cols.map (·.1) = r.map (·.1) := by
        induction h with
        | nil => rfl
        | cons h1 _ ih => simp only [List.map_cons, h1.1, ih]
      rw [this]; rfl
  · rintro ⟨types, h, rfl, rfl⟩
    refine ⟨(cols.map (·.1)).zip types, ?_, ?_, ?_⟩
    · induction h with
      | nil => exact .nil
      | cons h1 _ ih => exact .cons ⟨rfl, h1⟩ ih
    · have hl := all2_length h
      simp only [buildStruct]
      rw [List.map_fst_zip (by simp [hl]), List.map_snd_zip (by simp [hl])]
    · have hl := all2_length h
      simp [hl]

theorem convExprs_means [FTab] {st : Store} (hst : st.Ordered) (l : List SExpr) (es : List Expr) :
    convExprs st l = .ok es ↔ All2 (ExprMeans st) l es :=
  loop_means (convExpr_means hst) (by rfl) (fun _ _ => by rfl) l es

theorem convExprLists_means [FTab] {st : Store} (hst : st.Ordered) (l : List (List SExpr)) (es : List (List Expr)) :
    convExprLists st l = .ok es ↔ All2 (All2 (ExprMeans st)) l es :=
  loop_means (convExprs_means hst) (by rfl) (fun _ _ => by rfl) l es

theorem convGroup_means [FTab] {st : Store} (hst : st.Ordered) (g : SGroup) (sets : List (List Expr)) :
    convGroup st g = .ok sets ↔ SetsMean st g sets := by
  cases g with
  | exprs l =>
    simp only [convGroup, SetsMean, Res.bind_ok_iff, convExprs_means hst, Res.ok.injEq]
    constructor
    · rintro ⟨x, h1, h2⟩; exact ⟨x, h2.symm, h1⟩
    · rintro ⟨x, h2, h1⟩; exact ⟨x, h1, h2.symm⟩
  | sets l => exact convExprLists_means hst l sets

/-! ## Project -/

theorem convProj_means [FTab] {st : Store} (hst : st.Ordered) (n k : Nat) (l : List SProj) (es : List Expr) (m : List Int) :
    convProj st n k l = .ok (es, m) ↔ ProjMeans st (n + k) l es m := by
  induction l generalizing k es m with
  | nil =>
    simp only [convProj, Res.ok.injEq, Prod.mk.injEq]
    constructor
    · rintro ⟨rfl, rfl⟩; exact .nil
    · intro h; cases h; exact ⟨rfl, rfl⟩
  | cons a l ih =>
    cases a with
    | ref i =>
      simp only [convProj, Res.bind_ok_iff, plain_means, convIndex_means, Res.ok.injEq, Prod.mk.injEq]
      constructor
      · rintro ⟨j, h1, ⟨es', m'⟩, h2, rfl, rfl⟩
        exact .ref h1 ((ih _ _ _).1 h2)
      · intro h
        cases h with
        | ref h1 h2 => exact ⟨_, h1, (_, _), (ih _ _ _).2 h2, rfl, rfl⟩
    | expr s =>
      simp only [convProj, Res.bind_ok_iff, plain_means, convExpr_means hst, Res.ok.injEq, Prod.mk.injEq]
      constructor
      · rintro ⟨j, h1, ⟨es', m'⟩, h2, rfl, rfl⟩
        exact .expr h1 ((ih _ _ _).1 h2)
      · intro h
        cases h with
        | expr h1 h2 => exact ⟨_, h1, (_, _), (ih _ _ _).2 h2, rfl, rfl⟩

/-! ## Aggregate -/

theorem posOf_get {e : Expr} {g : List Expr} {i : Nat} (h : posOf e g = some i) : g[i]? = some e := by
  induction g generalizing i with
  | nil => cases h
  | cons d g ih =>
    rw [posOf] at h
    split at h
    · next hd => cases h; simp [hd]
    · obtain ⟨j, hj, rfl⟩ := Option.map_eq_some_iff.1 h
      simpa using ih hj

theorem posOf_absent {e : Expr} {g : List Expr} : posOf e g = none ↔ e ∉ g := by
  induction g with
  | nil => simp [posOf]
  | cons d g ih =>
    rw [posOf]
    split
    · next hd => simp [hd]
    · next hd => simp [ih, Ne.symm hd]

theorem posOf_means {e : Expr} {g : List Expr} (hg : g.Nodup) {i : Nat} : posOf e g = some i ↔ g[i]? = some e := by
  refine ⟨posOf_get, fun h => ?_⟩
  induction g generalizing i with
  | nil => simp at h
  | cons d g ih =>
    obtain ⟨h1, h2⟩ := List.nodup_cons.1 hg
    cases i with
    | zero => simp at h; simp [posOf, h]
    | succ i =>
      rw [List.getElem?_cons_succ] at h
      have : d ≠ e := by rintro rfl; exact h1 (List.mem_of_getElem? h)
      rw [posOf, if_neg this, ih h2 h]
      rfl

theorem posOf_append {e : Expr} {g h : List Expr} {i : Nat} (hi : posOf e g = some i) : posOf e (g ++ h) = some i := by
  induction g generalizing i with
  | nil => cases hi
  | cons d g ih =>
    rw [posOf] at hi
    rw [List.cons_append, posOf]
    split at hi
    · next hd => rw [if_pos hd]; exact hi
    · next hd =>
      obtain ⟨j, hj, rfl⟩ := Option.map_eq_some_iff.1 hi
      rw [if_neg hd, ih hj]
      rfl

/-- The expressions after more have been seen. -/
def seen (g l : List Expr) : List Expr := g ++ (firsts l).filter fun d => decide (d ∉ g)

theorem seen_cons_old {g : List Expr} {e : Expr} {l : List Expr} (h : e ∈ g) : seen g (e :: l) = seen g l := by
  have : ∀ d, (decide (d ≠ e) && decide (d ∉ g)) = decide (d ∉ g) := by
    intro d
    by_cases hd : d = e
    · subst hd; simp [h]
    · simp [hd]
  simp [seen, firsts, h, List.filter_filter]
  refine List.filter_congr fun d _ => ?_
  by_cases hd : d = e
  · subst hd; simp [h]
  · simp [hd]

theorem seen_cons_new {g : List Expr} {e : Expr} {l : List Expr} (h : e ∉ g) : seen g (e :: l) = seen (g ++ [e]) l := by
  simp [seen, firsts, h, List.filter_filter]

theorem seen_append (g l m : List Expr) : seen g (l ++ m) = seen (seen g l) m := by
  induction l generalizing g with
  | nil => simp [seen, firsts]
  | cons e l ih =>
    by_cases h : e ∈ g
    · rw [List.cons_append, seen_cons_old h, seen_cons_old h, ih]
    · rw [List.cons_append, seen_cons_new h, seen_cons_new h, ih]

theorem seen_nodup {g : List Expr} (hg : g.Nodup) (l : List Expr) : (seen g l).Nodup := by
  induction l generalizing g with
  | nil => simpa [seen, firsts] using hg
  | cons e l ih =>
    by_cases h : e ∈ g
    · rw [seen_cons_old h]; exact ih hg
    · rw [seen_cons_new h]
      refine ih (List.nodup_append.2 ⟨hg, by simp, ?_⟩)
      rintro a ha b hb rfl
      simp at hb
      exact h (hb ▸ ha)

theorem seen_nil (l : List Expr) : seen [] l = firsts l := by simp [seen]

theorem internSet_means (g l : List Expr) : (internSet g l).2 = seen g l ∧
    All2 (fun e i => posOf e (seen g l) = some i) l (internSet g l).1 := by
  induction l generalizing g with
  | nil => exact ⟨by simp [internSet, seen, firsts], .nil⟩
  | cons e l ih =>
    rw [internSet]
    cases hp : posOf e g with
    | some i =>
      have he : e ∈ g := List.mem_of_getElem? (posOf_get hp)
      rw [seen_cons_old he]
      exact ⟨(ih g).1, .cons (posOf_append hp) (ih g).2⟩
    | none =>
      have he := posOf_absent.1 hp
      rw [seen_cons_new he]
      refine ⟨(ih _).1, .cons (posOf_append ?_) (ih _).2⟩
      clear ih hp
      induction g with
      | nil => simp [posOf]
      | cons d g ih =>
        simp only [List.mem_cons, not_or] at he
        rw [List.cons_append, posOf, if_neg (Ne.symm he.1), ih he.2]
        rfl

theorem all2_mono {α β : Type} {R S : α → β → Prop} {l : List α} {m : List β} (h : All2 R l m)
    (hrs : ∀ a b, R a b → S a b) : All2 S l m := by
  induction h with
  | nil => exact .nil
  | cons h1 _ ih => exact .cons (hrs _ _ h1) ih

theorem all2_unique {α β : Type} {R : α → β → Prop} (hr : ∀ a b c, R a b → R a c → b = c) {l : List α} {m n : List β}
    (hm : All2 R l m) (hn : All2 R l n) : m = n := by
  induction hm generalizing n with
  | nil => cases hn; rfl
  | cons h1 _ ih =>
    cases hn with
    | cons h2 h3 => rw [hr _ _ _ h1 h2, ih h3]

theorem internSets_means (g : List Expr) (sets : List (List Expr)) : (internSets g sets).2 = seen g sets.flatten ∧
    All2 (fun s x => x.exprs = [] ∧ All2 (fun e i => posOf e (seen g sets.flatten) = some i) s x.refs) sets
      (internSets g sets).1 := by
  induction sets generalizing g with
  | nil => exact ⟨by simp [internSets, seen, firsts], .nil⟩
  | cons s l ih =>
    obtain ⟨h1, h2⟩ := internSet_means g s
    rw [internSets]
    simp only [List.flatten_cons, seen_append, h1]
    refine ⟨(ih _).1, .cons ⟨rfl, all2_mono h2 fun e i hi => ?_⟩ (ih _).2⟩
    rw [seen]
    exact posOf_append hi

theorem intern_means {sets : List (List Expr)} {g : List Expr} {gs : List Grouping} :
    internSets [] sets = (gs, g) ↔ g = firsts sets.flatten ∧ GroupsMean g sets gs := by
  obtain ⟨h1, h2⟩ := internSets_means [] sets
  rw [seen_nil] at h1 h2
  have hg : (firsts sets.flatten).Nodup := by rw [← seen_nil]; exact seen_nodup List.nodup_nil _
  have h3 : GroupsMean (firsts sets.flatten) sets (internSets [] sets).1 :=
    all2_mono h2 fun s x h => ⟨h.1, all2_mono h.2 fun e i => posOf_get⟩
  constructor
  · intro h
    rw [h] at h1 h3
    simp only at h1 h3
    subst h1
    exact ⟨rfl, h3⟩
  · rintro ⟨rfl, h⟩
    refine Prod.ext (all2_unique ?_ h3 h) h1
    rintro s ⟨a, _⟩ ⟨b, _⟩ ⟨rfl, ha⟩ ⟨rfl, hb⟩
    have : a = b := all2_unique (fun e i j hi hj => by
      have := (posOf_means hg).2 hi
      rw [(posOf_means hg).2 hj] at this
      exact (Option.some.inj this).symm) ha hb
    rw [this]

theorem convOuts_means [FTab] {st : Store} (hst : st.Ordered) {g : List Expr} (hg : g.Nodup) (k : Nat) (l : List SExpr)
    (ms : List Measure) (m : List Int) :
    convOuts st g k l = .ok (ms, m) ↔ OutsMean st g (g.length + k) l ms m := by
  induction l generalizing k ms m with
  | nil =>
    simp only [convOuts, Res.ok.injEq, Prod.mk.injEq]
    constructor
    · rintro ⟨rfl, rfl⟩; exact .nil
    · intro h; cases h; exact ⟨rfl, rfl⟩
  | cons s l ih =>
    rw [convOuts, Res.bind_ok_iff]
    simp only [plain_means]
    constructor
    · rintro ⟨e, h1, h⟩
      split at h
      · next i hi =>
        obtain ⟨⟨ms', m'⟩, h2, h3⟩ := Res.bind_ok_iff.1 h
        cases h3
        exact .group ((convExpr_means hst s e).1 h1) (posOf_get hi) ((ih _ _ _).1 h2)
      · next hi =>
        split at h
        · next hc =>
          obtain ⟨⟨ms', m'⟩, h2, h3⟩ := Res.bind_ok_iff.1 h
          cases h3
          have he := (convExpr_means hst s e).1 h1
          cases s with
          | call name a u ss ty =>
            cases he with
            | call g1 g2 g3 g4 g5 =>
              exact .measure (.call g1 g2 g3 g4 g5) (posOf_absent.1 hi) ((ih _ _ _).1 h2)
          | _ => cases hc
        · cases h
    · intro h
      cases h with
      | @group _ i _ e _ _ m' h1 h2 h3 =>
        refine ⟨e, (convExpr_means hst s e).2 h1, ?_⟩
        rw [(posOf_means hg).2 h2]
        exact Res.bind_ok_iff.2 ⟨(_, _), (ih _ _ _).2 h3, rfl⟩
      | @measure _ name a u ss ty f args out _ ms' m' h1 h2 h3 =>
        refine ⟨_, (convExpr_means hst _ _).2 h1, ?_⟩
        rw [posOf_absent.2 h2]
        exact Res.bind_ok_iff.2 ⟨(_, _), (ih _ _ _).2 h3, rfl⟩

/-! ## Words -/

theorem word_means {α : Type} {table : List (Str × α)} {f : Str → Option α} (hf : ∀ x a, f x = some a ↔ (x, a) ∈ table)
    (ht : ∀ p ∈ table, p.1.head? ≠ some '&') {s : Str} {a : α} : f (trimAmp s) = some a ↔ Word table s a := by
  rw [hf]
  constructor
  · intro h
    refine ⟨(s.takeWhile (· == '&')).length, trimAmp s, ?_, h⟩
    have : s.takeWhile (· == '&') = List.replicate (s.takeWhile (· == '&')).length '&' := by
      rw [List.eq_replicate_iff]
      refine ⟨rfl, fun c hc => ?_⟩
      clear h
      induction s with
      | nil => cases hc
      | cons d s ih =>
        rw [List.takeWhile_cons] at hc
        split at hc
        · next hd =>
          rcases List.mem_cons.1 hc with rfl | hc
          · simpa using hd
          · exact ih hc
        · cases hc
    rw [← this]
    exact (List.takeWhile_append_dropWhile).symm
  · rintro ⟨k, x, rfl, h⟩
    have hx := ht _ h
    have : trimAmp (List.replicate k '&' ++ x) = x := by
      unfold trimAmp
      induction k with
      | zero =>
        cases x with
        | nil => rfl
        | cons c x =>
          have : c ≠ '&' := by simpa using hx
          simp [this]
      | succ k ih =>
        rw [List.replicate_succ, List.cons_append, List.dropWhile_cons, if_pos (by rfl)]
        exact ih
    rw [this]
    exact h

theorem ite_some {α : Type} {c : Prop} [Decidable c] {a b : α} {o : Option α} :
    (if c then some a else o) = some b ↔ (c ∧ a = b) ∨ (¬ c ∧ o = some b) := by
  split <;> simp_all

theorem sortWords_means (x : Str) (a : SortDir) : SortDir.ofName x = some a ↔ (x, a) ∈ sortWords := by
  constructor
  · intro h
    unfold SortDir.ofName at h
    iterate 4
      rcases ite_some.1 h with ⟨rfl, rfl⟩ | ⟨_, h⟩
      · simp [sortWords]
    cases h
  · intro h
    simp only [sortWords, List.mem_cons, Prod.mk.injEq, List.not_mem_nil, or_false] at h
    rcases h with ⟨rfl, rfl⟩ | ⟨rfl, rfl⟩ | ⟨rfl, rfl⟩ | ⟨rfl, rfl⟩ <;> rfl

theorem joinWords_means (x : Str) (a : JoinType) : JoinType.ofName x = some a ↔ (x, a) ∈ joinWords := by
  constructor
  · intro h
    unfold JoinType.ofName at h
    iterate 12
      rcases ite_some.1 h with ⟨rfl, rfl⟩ | ⟨_, h⟩
      · simp [joinWords]
    cases h
  · intro h
    simp only [joinWords, List.mem_cons, Prod.mk.injEq, List.not_mem_nil, or_false] at h
    rcases h with ⟨rfl, rfl⟩ | ⟨rfl, rfl⟩ | ⟨rfl, rfl⟩ | ⟨rfl, rfl⟩ | ⟨rfl, rfl⟩ | ⟨rfl, rfl⟩ | ⟨rfl, rfl⟩ | ⟨rfl, rfl⟩ |
      ⟨rfl, rfl⟩ | ⟨rfl, rfl⟩ | ⟨rfl, rfl⟩ | ⟨rfl, rfl⟩ <;> rfl

theorem setWords_means (x : Str) (a : SetOp) : SetOp.ofName x = some a ↔ (x, a) ∈ setWords := by
  constructor
  · intro h
    unfold SetOp.ofName at h
    iterate 8
      rcases ite_some.1 h with ⟨rfl, rfl⟩ | ⟨_, h⟩
      · simp [setWords]
    cases h
  · intro h
    simp only [setWords, List.mem_cons, Prod.mk.injEq, List.not_mem_nil, or_false] at h
    rcases h with ⟨rfl, rfl⟩ | ⟨rfl, rfl⟩ | ⟨rfl, rfl⟩ | ⟨rfl, rfl⟩ | ⟨rfl, rfl⟩ | ⟨rfl, rfl⟩ | ⟨rfl, rfl⟩ | ⟨rfl, rfl⟩ <;>
      rfl

theorem sortWord_means {s : Str} {a : SortDir} : SortDir.ofName (trimAmp s) = some a ↔ Word sortWords s a :=
  word_means sortWords_means (by simp [sortWords])

theorem joinWord_means {s : Str} {a : JoinType} : JoinType.ofName (trimAmp s) = some a ↔ Word joinWords s a :=
  word_means joinWords_means (by simp [joinWords])

theorem setWord_means {s : Str} {a : SetOp} : SetOp.ofName (trimAmp s) = some a ↔ Word setWords s a :=
  word_means setWords_means (by simp [setWords])

theorem convSortFields_means [FTab] {st : Store} (hst : st.Ordered) (l : List (SExpr × Str)) (fs : List SortField) :
    convSortFields st l = .ok fs ↔ All2 (SortMeans st) l fs := by
  refine loop_means (f := convSortField st) ?_ (by rfl) (fun _ _ => by rfl) l fs
  intro s f
  unfold convSortField SortMeans
  simp only [Res.bind_ok_iff, dropPanics_means, convExpr_means hst, ← sortWord_means]
  constructor
  · rintro ⟨e, h1, h⟩
    split at h
    · next d hd => cases h; exact ⟨e, d, h1, hd, rfl⟩
    · cases h
  · rintro ⟨e, d, h1, h2, rfl⟩
    exact ⟨e, h1, by rw [h2]⟩

/-! ## Fetch -/

theorem hasDup_means (l : List Str) : hasDup l = true ↔ ¬ l.Nodup := by
  induction l with
  | nil => simp [hasDup]
  | cons a l ih =>
    rw [hasDup, Bool.or_eq_true, ih, decide_eq_true_eq, List.nodup_cons, Classical.not_and_iff_not_or_not,
      Classical.not_not]

theorem fetchArg_means {args : List (Str × SFetch)} (h : (args.map (·.1)).Nodup) (n : Str) (v : SFetch) :
    fetchArg args n = some v ↔ (n, v) ∈ args := by
  induction args with
  | nil => simp [fetchArg]
  | cons a l ih =>
    obtain ⟨k, w⟩ := a
    rw [List.map_cons, List.nodup_cons] at h
    rw [fetchArg]
    split
    · next hk =>
      subst hk
      simp only [Option.some.injEq, List.mem_cons, Prod.mk.injEq, true_and]
      constructor
      · rintro rfl; exact Or.inl rfl
      · rintro (rfl | hm)
        · rfl
        · exact absurd (List.mem_map_of_mem hm) h.1
    · next hk =>
      simp only [List.mem_cons, Prod.mk.injEq, Ne.symm hk, false_and, false_or]
      exact ih h.2

theorem fetchArg_none {args : List (Str × SFetch)} {n : Str} (h : fetchArg args n = none) : ∀ v, (n, v) ∉ args := by
  induction args with
  | nil => simp
  | cons a l ih =>
    obtain ⟨k, w⟩ := a
    rw [fetchArg] at h
    split at h
    · cases h
    · next hk =>
      intro v hv
      rcases List.mem_cons.1 hv with e | hv
      · cases e; exact hk rfl
      · exact ih h v hv

theorem convFetchValue_means [FTab] {st : Store} (hst : st.Ordered) (v : SFetch) (c : Count) :
    convFetchValue st v = .ok c ↔ CountMeans st v c := by
  cases v with
  | int i =>
    rw [convFetchValue]
    constructor
    · intro h
      split at h
      · cases h
      · next j hj =>
        obtain ⟨rfl, hj⟩ := toI64_means.1 hj
        split at h
        · cases h
        · next hn => cases h; exact .int (by omega) hj
    · intro h
      cases h with
      | int h1 h2 =>
        rw [toI64_means.2 ⟨rfl, h2⟩]
        simp only
        rw [if_neg (by omega)]
        rfl
  | expr s =>
    simp only [convFetchValue, Res.bind_ok_iff, plain_means, convExpr_means hst]
    constructor
    · rintro ⟨e, h1, h2⟩; cases h2; exact .expr h1
    · intro h; cases h with | expr h => exact ⟨_, h, rfl⟩

theorem limit_means [FTab] {st : Store} (hst : st.Ordered) {args : List (Str × SFetch)} (h : (args.map (·.1)).Nodup)
    {name : Str} {c : Option Count} :
    convOptR (convFetchValue st) (fetchArg args name) = .ok c ↔ LimitMeans st args name c := by
  cases hf : fetchArg args name with
  | none =>
    have hn := fetchArg_none hf
    simp only [convOptR, Res.ok.injEq, LimitMeans]
    constructor
    · rintro rfl; exact Or.inl ⟨rfl, hn⟩
    · rintro (⟨rfl, _⟩ | ⟨v, x, hv, _⟩)
      · rfl
      · exact absurd hv (hn v)
  | some v =>
    have hv := (fetchArg_means h name v).1 hf
    simp only [convOptR, Res.bind_ok_iff, convFetchValue_means hst, LimitMeans]
    constructor
    · rintro ⟨x, h1, h2⟩; cases h2; exact Or.inr ⟨v, x, hv, rfl, h1⟩
    · rintro (⟨rfl, hn⟩ | ⟨w, x, hw, rfl, hx⟩)
      · exact absurd hv (hn v)
      · have := (fetchArg_means h name w).2 hw
        rw [hf] at this
        cases this
        exact ⟨x, hx, rfl⟩

/-! ## Addenda -/

theorem convAddenda_means [FTab] {st : Store} (hst : st.Ordered) (l : List SAddendum) (as : List Addendum) :
    convAddenda st l = .ok as ↔ All2 (AddMeans st) l as := by
  refine loop_means (f := fun a => (plain (convExtArgs st a.args [])).bind fun args => .ok ⟨a.kind, a.name, args⟩) ?_
    (by rfl) ?_ l as
  · rintro s ⟨k, n, a⟩
    simp only [Res.bind_ok_iff, plain_means, convExtArgs_means hst, AddMeans, Res.ok.injEq, Addendum.mk.injEq]
    constructor
    · rintro ⟨x, h, rfl, rfl, rfl⟩; exact ⟨rfl, rfl, h⟩
    · rintro ⟨rfl, rfl, h⟩; exact ⟨_, h, rfl, rfl, rfl⟩
  · intro a l
    rw [convAddenda]
    cases plain (convExtArgs st a.args []) <;> rfl

theorem made_skip {reg : Registry ExtArgs (List Nat)} {k : AddKind} {ns : Ns} {a : Addendum} {as : List Addendum}
    {ds : List AnyMsg} (h : a.kind ≠ k) : Made reg k ns (a :: as) ds ↔ Made reg k ns as ds := by
  simp [Made, h]

theorem made_take {reg : Registry ExtArgs (List Nat)} {k : AddKind} {ns : Ns} {a : Addendum} {as : List Addendum}
    {ds : List AnyMsg} (h : a.kind = k) :
    Made reg k ns (a :: as) ds ↔ ∃ d ds', reg.parse ns a.name a.args = .ok d ∧ Made reg k ns as ds' ∧ ds = d :: ds' := by
  unfold Made
  rw [List.filter_cons, if_pos (by simpa using h), all2_cons_left]
  constructor
  · rintro ⟨d, ds', h1, h2, h3⟩; exact ⟨d, ds', h2, h3, h1⟩
  · rintro ⟨d, ds', h2, h3, h1⟩; exact ⟨d, ds', h1, h2, h3⟩

theorem standardLoop_means (reg : Registry ExtArgs (List Nat)) (as : List Addendum) (enh : Option AnyMsg)
    (opts : List AnyMsg) (r : Option AnyMsg × List AnyMsg) :
    standardLoop reg enh opts as = .ok r ↔ (∀ a ∈ as, a.kind ≠ .ext) ∧ ∃ es os, Made reg .enh .enhancement as es ∧
      Made reg .opt .optimization as os ∧ r.2 = opts ++ os ∧
      ((es = [] ∧ r.1 = enh) ∨ ∃ e, es = [e] ∧ enh = none ∧ r.1 = some e) := by
  obtain ⟨re, ro⟩ := r
  induction as generalizing enh opts with
  | nil =>
    simp only [standardLoop, Res.ok.injEq, Prod.mk.injEq]
    constructor
    · rintro ⟨rfl, rfl⟩
      exact ⟨by simp, [], [], .nil, .nil, by simp, Or.inl ⟨rfl, rfl⟩⟩
    · rintro ⟨-, es, os, h1, h2, h3, h4⟩
      cases h1; cases h2
      rcases h4 with ⟨_, h4⟩ | ⟨e, h4, _⟩
      · simp at h3; exact ⟨h4.symm, h3.symm⟩
      · cases h4
  | cons a as ih =>
    rw [standardLoop]
    have hne : (∀ b ∈ a :: as, b.kind ≠ .ext) ↔ a.kind ≠ .ext ∧ ∀ b ∈ as, b.kind ≠ .ext := by simp
    rw [hne]
    cases hk : a.kind with
    | ext => simp
    | enh =>
      have t1 := fun ds => made_take (reg := reg) (ns := .enhancement) (as := as) (ds := ds) hk
      have t2 := fun ds => made_skip (reg := reg) (ns := .optimization) (as := as) (ds := ds) (k := .opt) (a := a)
        (by rw [hk]; simp)
      simp only [t1, t2]
      constructor
      · intro h
        split at h
        · cases h
        · next he =>
          obtain ⟨d, hd, h⟩ := Res.bind_ok_iff.1 h
          rw [resolveAddendum, hk] at hd
          have hd := resolved_means.1 hd
          obtain ⟨g1, es, os, g2, g3, g4, g5⟩ := (ih _ _).1 h
          rcases g5 with ⟨rfl, g5⟩ | ⟨e, _, g5, _⟩
          · refine ⟨⟨by simp, g1⟩, [d], os, ⟨d, [], hd, g2, rfl⟩, g3, g4, Or.inr ⟨d, rfl, ?_, g5⟩⟩
            simpa using he
          · cases g5
      · rintro ⟨⟨-, g1⟩, es, os, ⟨d, ds, hd, g2, rfl⟩, g3, g4, g5⟩
        rcases g5 with ⟨g5, _⟩ | ⟨e, g5, rfl, g6⟩
        · cases g5
        · cases g5
          rw [if_neg (by simp)]
          refine Res.bind_ok_iff.2 ⟨d, ?_, (ih _ _).2 ⟨g1, [], os, g2, g3, g4, Or.inl ⟨rfl, g6⟩⟩⟩
          rw [resolveAddendum, hk]
          exact resolved_means.2 hd
    | opt =>
      have t1 := fun ds => made_take (reg := reg) (ns := .optimization) (as := as) (ds := ds) hk
      have t2 := fun ds => made_skip (reg := reg) (ns := .enhancement) (as := as) (ds := ds) (k := .enh) (a := a)
        (by rw [hk]; simp)
      simp only [t1, t2]
      constructor
      · intro h
        obtain ⟨d, hd, h⟩ := Res.bind_ok_iff.1 h
        rw [resolveAddendum, hk] at hd
        have hd := resolved_means.1 hd
        obtain ⟨g1, es, os, g2, g3, g4, g5⟩ := (ih _ _).1 h
        exact ⟨⟨by simp, g1⟩, es, d :: os, g2, ⟨d, os, hd, g3, rfl⟩, by simpa using g4, g5⟩
      · rintro ⟨⟨-, g1⟩, es, os, g2, ⟨d, ds, hd, g3, rfl⟩, g4, g5⟩
        refine Res.bind_ok_iff.2 ⟨d, ?_, (ih _ _).2 ⟨g1, es, ds, g2, g3, by simpa using g4, g5⟩⟩
        rw [resolveAddendum, hk]
        exact resolved_means.2 hd

theorem standardAdv_means (reg : Registry ExtArgs (List Nat)) (as : List Addendum) (adv : Option AdvExt) :
    standardAdv reg as = .ok adv ↔ (∀ a ∈ as, a.kind ≠ .ext) ∧ AdvMeans reg as adv := by
  unfold standardAdv AdvMeans
  simp only [Res.bind_ok_iff, standardLoop_means]
  constructor
  · rintro ⟨⟨re, ro⟩, ⟨h1, es, os, h2, h3, h4, h5⟩, h⟩
    refine ⟨h1, es, os, h2, h3, ?_⟩
    simp only [List.nil_append] at h4
    subst h4
    rcases h5 with ⟨rfl, rfl⟩ | ⟨e, rfl, _, rfl⟩
    · simp only [true_and] at h
      split at h
      · next ho => cases h; exact Or.inl ⟨rfl, ho, rfl⟩
      · next ho => cases h; exact Or.inr (Or.inl ⟨rfl, ho, rfl⟩)
    · simp at h
      exact Or.inr (Or.inr ⟨e, rfl, h.symm⟩)
  · rintro ⟨h1, es, os, h2, h3, h⟩
    rcases h with ⟨rfl, rfl, rfl⟩ | ⟨rfl, ho, rfl⟩ | ⟨e, rfl, rfl⟩
    · exact ⟨(none, []), ⟨h1, [], [], h2, h3, rfl, Or.inl ⟨rfl, rfl⟩⟩, rfl⟩
    · exact ⟨(none, os), ⟨h1, [], os, h2, h3, rfl, Or.inl ⟨rfl, rfl⟩⟩, by simp [ho]⟩
    · exact ⟨(some e, os), ⟨h1, [e], os, h2, h3, rfl, Or.inr ⟨e, rfl, by simp, rfl⟩⟩, by simp⟩

theorem made_filter {reg : Registry ExtArgs (List Nat)} {k : AddKind} {ns : Ns} {as : List Addendum} {ds : List AnyMsg}
    (hk : k ≠ .ext) : Made reg k ns (as.filter fun a => decide (a.kind ≠ .ext)) ds ↔ Made reg k ns as ds := by
  unfold Made
  rw [List.filter_filter]
  have : (fun a : Addendum => decide (a.kind = k) && decide (a.kind ≠ .ext)) = fun a => decide (a.kind = k) := by
    funext a
    by_cases h : a.kind = k
    · simp [h, hk]
    · simp [h]
  rw [this]

theorem extReadParts_means (reg : Registry ExtArgs (List Nat)) (as : List Addendum) (d : AnyMsg) (adv : Option AdvExt) :
    extReadParts reg as = .ok (d, adv) ↔ Made reg .ext .extensionTable as [d] ∧ AdvMeans reg as adv := by
  have hadv : AdvMeans reg (as.filter fun a => decide (a.kind ≠ .ext)) adv ↔ AdvMeans reg as adv := by
    unfold AdvMeans
    simp only [made_filter (show AddKind.enh ≠ .ext by simp), made_filter (show AddKind.opt ≠ .ext by simp)]
  have hst : standardAdv reg (as.filter fun a => decide (a.kind ≠ .ext)) = .ok adv ↔ AdvMeans reg as adv := by
    rw [standardAdv_means, hadv]
    simp only [and_iff_right_iff_imp]
    intro _ a ha
    simpa using (List.mem_filter.1 ha).2
  unfold extReadParts
  constructor
  · intro h
    split at h
    · next a ha =>
      obtain ⟨x, h1, h⟩ := Res.bind_ok_iff.1 h
      obtain ⟨y, h2, h⟩ := Res.bind_ok_iff.1 h
      cases h
      refine ⟨?_, hst.1 h2⟩
      unfold Made
      have hk : a.kind = .ext := by
        have : a ∈ as.filter fun a => decide (a.kind = .ext) := by rw [ha]; simp
        simpa using (List.mem_filter.1 this).2
      rw [ha]
      rw [resolveAddendum, hk] at h1
      exact .cons (resolved_means.1 h1) .nil
    · cases h
  · rintro ⟨h1, h2⟩
    unfold Made at h1
    generalize hf : as.filter (fun a => decide (a.kind = .ext)) = l at h1
    cases h1 with
    | @cons a _ _ _ h1 h3 =>
      cases h3
      have hk : a.kind = .ext := by
        have : a ∈ as.filter fun a => decide (a.kind = .ext) := by rw [hf]; simp
        simpa using (List.mem_filter.1 this).2
      refine Res.bind_ok_iff.2 ⟨d, ?_, Res.bind_ok_iff.2 ⟨adv, hst.2 h2, rfl⟩⟩
      rw [resolveAddendum, hk]
      exact resolved_means.2 h1

/-! ## Lines -/

theorem oneChild_means {kids : List (Rel × Nat)} {r : Rel} :
    oneChild (kids.map (·.1)) = .ok r ↔ ∃ n, kids = [(r, n)] := by
  match kids with
  | [] => simp [oneChild]
  | [(a, n)] => simp [oneChild]
  | _ :: _ :: _ => simp [oneChild]

theorem convBody_means [FTab] {st : Store} (hst : st.Ordered) (reg : Registry ExtArgs (List Nat)) (as : List Addendum)
    (kids : List (Rel × Nat)) (line : SLine) (r : Rel) (w : Nat) (hne : ∀ c, line ≠ .readExt c)
    (hns : ∀ o l, line ≠ .set o l) (hnx : ∀ k n a c, line ≠ .ext k n a c) :
    ((standardAdv reg as).bind fun adv => convBody st adv (kids.map (·.1)) (kids.map (·.2)).sum line) = .ok (r, w) ↔
      LineMeans st reg as line kids r w := by
  rw [Res.bind_ok_iff]
  simp only [standardAdv_means]
  cases line with
  | readExt c => exact absurd rfl (hne c)
  | set o l => exact absurd rfl (hns o l)
  | ext k n a c => exact absurd rfl (hnx k n a c)
  | root names =>
    constructor
    · rintro ⟨adv, _, h⟩; cases h
    · intro h; cases h
  | read table out =>
    constructor
    · rintro ⟨adv, ⟨h1, h2⟩, h⟩
      rw [convBody] at h
      split at h
      · cases h
      · next hk =>
        have hk : kids = [] := by simpa using hk
        subst hk
        split at h
        · cases h
        · obtain ⟨⟨cols, e, n⟩, h3, h⟩ := Res.bind_ok_iff.1 h
          cases h
          cases out with
          | implicit cs =>
            rw [convOutput, Res.bind_ok_iff] at h3
            obtain ⟨x, h3, h4⟩ := h3
            cases h4
            exact .readAll h1 h2 ((schema_means hst).1 ⟨_, plain_means.1 h3, rfl, rfl⟩) rfl (Or.inl rfl)
          | direct cs suffix =>
            rw [convOutput, Res.bind_ok_iff] at h3
            obtain ⟨x, h3, h4⟩ := h3
            cases suffix with
            | none =>
              cases h4
              exact .readAll h1 h2 ((schema_means hst).1 ⟨_, dropPanics_means.1 h3, rfl, rfl⟩) rfl (Or.inr rfl)
            | some refs =>
              obtain ⟨m, h5, h6⟩ := Res.bind_ok_iff.1 h4
              cases h6
              exact .readSome h1 h2 ((schema_means hst).1 ⟨_, dropPanics_means.1 h3, rfl, rfl⟩) (convRefs_means.1 h5) rfl
    · intro h
      cases h with
      | @readAll _ cols adv s n c out h1 h2 h3 h4 h5 =>
        obtain ⟨x, g1, rfl, rfl⟩ := (schema_means hst).2 h3
        refine ⟨adv, ⟨h1, h2⟩, ?_⟩
        rw [convBody, if_neg (by simp), if_neg (by simp), Res.bind_ok_iff]
        refine ⟨(x, .direct, x.length), ?_, ?_⟩
        · rcases h5 with rfl | rfl
          · rw [convOutput, Res.bind_ok_iff]
            exact ⟨x, plain_means.2 g1, rfl⟩
          · rw [convOutput, Res.bind_ok_iff]
            exact ⟨x, dropPanics_means.2 g1, rfl⟩
        · rw [h4]; rfl
      | @readSome _ cols refs m adv s n c h1 h2 h3 h4 h5 =>
        obtain ⟨x, g1, rfl, rfl⟩ := (schema_means hst).2 h3
        refine ⟨adv, ⟨h1, h2⟩, ?_⟩
        rw [convBody, if_neg (by simp), if_neg (by simp), Res.bind_ok_iff]
        refine ⟨(x, .emit m, m.length), ?_, ?_⟩
        · rw [convOutput, Res.bind_ok_iff]
          exact ⟨x, dropPanics_means.2 g1, Res.bind_ok_iff.2 ⟨m, convRefs_means.2 h4, rfl⟩⟩
        · rw [h5]; rfl
  | readVirtual rows filter cols =>
    constructor
    · rintro ⟨adv, ⟨h1, h2⟩, h⟩
      rw [convBody] at h
      split at h
      · cases h
      · next hk =>
        have hk : kids = [] := by simpa using hk
        subst hk
        simp only [Res.bind_ok_iff, plain_means, dropPanics_means] at h
        obtain ⟨f, h3, rs, h4, cs, h5, h⟩ := h
        cases h
        exact .readVirtual h1 h2 ((schema_means hst).1 ⟨_, h5, rfl, rfl⟩) ((convExprLists_means hst _ _).1 h4)
          ((convOpt_means (convExpr_means hst)).1 h3) rfl
    · intro h
      cases h with
      | readVirtual h1 h2 h3 h4 h5 h6 =>
        obtain ⟨x, g1, rfl, rfl⟩ := (schema_means hst).2 h3
        refine ⟨_, ⟨h1, h2⟩, ?_⟩
        rw [convBody, if_neg (by simp)]
        simp only [Res.bind_ok_iff, plain_means, dropPanics_means]
        exact ⟨_, (convOpt_means (convExpr_means hst)).2 h5, _, (convExprLists_means hst _ _).2 h4, x, g1, by rw [h6]; rfl⟩
  | filter cond refs =>
    constructor
    · rintro ⟨adv, ⟨h1, h2⟩, h⟩
      simp only [convBody, Res.bind_ok_iff, dropPanics_means, oneChild_means] at h
      obtain ⟨i, ⟨n, rfl⟩, e, h3, ⟨c, w'⟩, h4, h⟩ := h
      cases h
      refine .filter h1 h2 ((convExpr_means hst _ _).1 h3) ?_
      simpa using convEmit_means.1 h4
    · intro h
      cases h with
      | filter h1 h2 h3 h4 =>
        refine ⟨_, ⟨h1, h2⟩, ?_⟩
        simp only [convBody, Res.bind_ok_iff, dropPanics_means, oneChild_means]
        exact ⟨_, ⟨_, rfl⟩, _, (convExpr_means hst _ _).2 h3, (_, _), convEmit_means.2 (by simpa using h4), rfl⟩
  | project args =>
    constructor
    · rintro ⟨adv, ⟨h1, h2⟩, h⟩
      simp only [convBody, Res.bind_ok_iff, oneChild_means] at h
      obtain ⟨i, ⟨n, rfl⟩, ⟨es, m⟩, h3, h⟩ := h
      cases h
      have h3 := (convProj_means hst _ _ _ _ _).1 h3
      simp only [List.map_cons, List.map_nil, List.sum_cons, List.sum_nil, Nat.add_zero] at h3 ⊢
      exact .project h1 h2 h3 (makeEmit_means.1 rfl)
    · intro h
      cases h with
      | @project _ es m i n adv c h1 h2 h3 h4 =>
        refine ⟨_, ⟨h1, h2⟩, ?_⟩
        simp only [convBody, Res.bind_ok_iff, oneChild_means]
        refine ⟨_, ⟨_, rfl⟩, (es, m), (convProj_means hst _ _ _ _ _).2 (by simpa using h3), ?_⟩
        simp only [List.map_cons, List.map_nil, List.sum_cons, List.sum_nil, Nat.add_zero]
        rw [makeEmit_means.2 h4]
  | aggregate group outs =>
    constructor
    · rintro ⟨adv, ⟨h1, h2⟩, h⟩
      simp only [convBody, Res.bind_ok_iff, oneChild_means, plain_means] at h
      obtain ⟨i, ⟨n, rfl⟩, sets, h3, ⟨ms, m⟩, h4, h⟩ := h
      cases h
      generalize hi : internSets [] sets = q at *
      obtain ⟨gs, g⟩ := q
      obtain ⟨h5, h6⟩ := intern_means.1 hi
      have hg : g.Nodup := by rw [h5, ← seen_nil]; exact seen_nodup List.nodup_nil _
      exact .aggregate h1 h2 ((convGroup_means hst _ _).1 h3) h5 h6 ((convOuts_means hst hg _ _ _ _).1 h4)
        (makeEmit_means.1 rfl)
    · intro h
      cases h with
      | @aggregate _ sets g gs _ ms m i n adv c h1 h2 h3 h4 h5 h6 h7 =>
        have hi := intern_means.2 ⟨h4, h5⟩
        have hg : g.Nodup := by rw [h4, ← seen_nil]; exact seen_nodup List.nodup_nil _
        refine ⟨_, ⟨h1, h2⟩, ?_⟩
        simp only [convBody, Res.bind_ok_iff, oneChild_means, plain_means]
        refine ⟨_, ⟨_, rfl⟩, sets, (convGroup_means hst _ _).2 h3, (ms, m), ?_⟩
        rw [hi]
        exact ⟨(convOuts_means hst hg _ _ _ _).2 h6, by rw [makeEmit_means.2 h7]⟩
  | sort fields refs =>
    constructor
    · rintro ⟨adv, ⟨h1, h2⟩, h⟩
      simp only [convBody, Res.bind_ok_iff, oneChild_means] at h
      obtain ⟨i, ⟨n, rfl⟩, fs, h3, ⟨c, w'⟩, h4, h⟩ := h
      cases h
      refine .sort h1 h2 ((convSortFields_means hst _ _).1 h3) ?_
      simpa using convEmit_means.1 h4
    · intro h
      cases h with
      | sort h1 h2 h3 h4 =>
        refine ⟨_, ⟨h1, h2⟩, ?_⟩
        simp only [convBody, Res.bind_ok_iff, oneChild_means]
        exact ⟨_, ⟨_, rfl⟩, _, (convSortFields_means hst _ _).2 h3, (_, _), convEmit_means.2 (by simpa using h4), rfl⟩
  | fetch args refs =>
    constructor
    · rintro ⟨adv, ⟨h1, h2⟩, h⟩
      simp only [convBody, Res.bind_ok_iff, oneChild_means] at h
      obtain ⟨i, ⟨n, rfl⟩, h⟩ := h
      split at h
      · cases h
      · next hd =>
        have hd : (args.map (·.1)).Nodup := by
          rw [hasDup_means, Classical.not_not] at hd
          exact hd
        simp only [Res.bind_ok_iff] at h
        obtain ⟨⟨c, w'⟩, h3, l, h4, o, h5, h⟩ := h
        cases h
        refine .fetch h1 h2 hd ((limit_means hst hd).1 h4) ((limit_means hst hd).1 h5) ?_
        simpa using convEmit_means.1 h3
    · intro h
      cases h with
      | @fetch _ l o _ i n _ adv c h1 h2 h3 h4 h5 h6 =>
        refine ⟨_, ⟨h1, h2⟩, ?_⟩
        simp only [convBody, Res.bind_ok_iff, oneChild_means]
        refine ⟨_, ⟨_, rfl⟩, ?_⟩
        rw [if_neg (by rw [hasDup_means, Classical.not_not]; exact h3)]
        simp only [Res.bind_ok_iff]
        exact ⟨(_, _), convEmit_means.2 (by simpa using h6), _, (limit_means hst h3).2 h4, _, (limit_means hst h3).2 h5, rfl⟩
  | join ty cond post refs =>
    constructor
    · rintro ⟨adv, ⟨h1, h2⟩, h⟩
      rw [convBody.eq_def] at h
      dsimp only at h
      split at h
      · next l r hk =>
        obtain ⟨n, k, rfl⟩ : ∃ n k, kids = [(l, n), (r, k)] := by
          match kids, hk with
          | [(a, n), (b, k)], hk => cases hk; exact ⟨n, k, rfl⟩
        simp only [Res.bind_ok_iff, dropPanics_means, grammarName_means] at h
        obtain ⟨t, h3, e, h4, p, h5, ⟨c, w'⟩, h6, h⟩ := h
        cases h
        refine .join h1 h2 (joinWord_means.1 h3) ((convExpr_means hst _ _).1 h4)
          ((convOpt_means (convExpr_means hst)).1 h5) ?_
        simpa using convEmit_means.1 h6
      · cases h
    · intro h
      cases h with
      | join h1 h2 h3 h4 h5 h6 =>
        refine ⟨_, ⟨h1, h2⟩, ?_⟩
        rw [convBody.eq_def]
        simp only [List.map_cons, List.map_nil, Res.bind_ok_iff, dropPanics_means, grammarName_means]
        exact ⟨_, joinWord_means.2 h3, _, (convExpr_means hst _ _).2 h4, _, (convOpt_means (convExpr_means hst)).2 h5,
          (_, _), convEmit_means.2 (by simpa using h6), rfl⟩
  | cross refs =>
    constructor
    · rintro ⟨adv, ⟨h1, h2⟩, h⟩
      rw [convBody.eq_def] at h
      dsimp only at h
      split at h
      · next l r hk =>
        obtain ⟨n, k, rfl⟩ : ∃ n k, kids = [(l, n), (r, k)] := by
          match kids, hk with
          | [(a, n), (b, k)], hk => cases hk; exact ⟨n, k, rfl⟩
        obtain ⟨⟨c, w'⟩, h6, h⟩ := Res.bind_ok_iff.1 h
        cases h
        refine .cross h1 h2 ?_
        simpa using convEmit_means.1 h6
      · cases h
    · intro h
      cases h with
      | cross h1 h2 h6 =>
        refine ⟨_, ⟨h1, h2⟩, ?_⟩
        rw [convBody.eq_def]
        simp only [List.map_cons, List.map_nil, Res.bind_ok_iff]
        exact ⟨(_, _), convEmit_means.2 (by simpa using h6), rfl⟩

theorem convLine_means [FTab] {st : Store} (hst : st.Ordered) (reg : Registry ExtArgs (List Nat)) (as : List Addendum)
    (kids : List (Rel × Nat)) (line : SLine) (r : Rel) (w : Nat) :
    convLine st reg as kids line = .ok (r, w) ↔ LineMeans st reg as line kids r w := by
  have body := convBody_means hst reg as kids line r w
  cases line with
  | set op refs =>
    rw [convLine, Res.bind_ok_iff]
    simp only [standardAdv_means]
    constructor
    · rintro ⟨adv, ⟨h1, h2⟩, h⟩
      unfold convSet at h
      split at h
      · cases h
      · next hk =>
        cases kids with
        | nil => simp at hk
        | cons k l =>
          simp only [List.map_cons] at h
          split at h
          · next hw =>
            simp only [Res.bind_ok_iff, grammarName_means] at h
            obtain ⟨o, h3, ⟨c, w'⟩, h4, h⟩ := h
            cases h
            have := LineMeans.set (st := st) (reg := reg) (kids := k :: l) h1 h2 (by simpa using hk)
              (n := k.2) (by
                intro x hx
                rcases List.mem_cons.1 hx with rfl | hx
                · rfl
                · simp only [List.all_eq_true, List.mem_map] at hw
                  simpa using hw x.2 ⟨x, hx, rfl⟩)
              (setWord_means.1 h3) (convEmit_means.1 h4)
            simp only [List.map_cons, List.map_map]
            exact this
          · cases h
    · intro h
      cases h with
      | @set _ o _ _ n _ adv c h1 h2 h3 h4 h5 h6 =>
        refine ⟨_, ⟨h1, h2⟩, ?_⟩
        unfold convSet
        rw [if_neg (by simpa using h3)]
        cases kids with
        | nil => simp at h3
        | cons k l =>
          simp only [List.map_cons]
          rw [if_pos]
          · have hk := h4 k (by simp)
            simp only [Res.bind_ok_iff, grammarName_means]
            refine ⟨o, setWord_means.2 h5, (c, w), convEmit_means.2 (by rw [hk]; exact h6), ?_⟩
            simp
          · simp only [List.all_eq_true, List.mem_map]
            rintro x ⟨y, hy, rfl⟩
            rw [h4 y (by simp [hy]), h4 k (by simp)]
            simp
  | readExt cols =>
    rw [convLine, Res.bind_ok_iff]
    constructor
    · rintro ⟨⟨d, adv⟩, h1, h⟩
      obtain ⟨h1, h2⟩ := (extReadParts_means reg as d adv).1 h1
      rw [convReadExt] at h
      split at h
      · cases h
      · next hk =>
        have hk : kids = [] := by simpa using hk
        subst hk
        split at h
        · cases h
        · obtain ⟨x, h3, h⟩ := Res.bind_ok_iff.1 h
          cases h
          exact .readExt h1 h2 ((schema_means hst).1 ⟨x, plain_means.1 h3, rfl, rfl⟩) rfl
    · intro h
      cases h with
      | @readExt _ d adv s n c h1 h2 h3 h4 =>
        obtain ⟨x, g1, rfl, rfl⟩ := (schema_means hst).2 h3
        refine ⟨(d, adv), (extReadParts_means reg as d adv).2 ⟨h1, h2⟩, ?_⟩
        rw [convReadExt, if_neg (by simp), if_neg (by simp), Res.bind_ok_iff]
        exact ⟨x, plain_means.2 g1, by rw [h4]; rfl⟩
  | ext kind name args cols =>
    rw [convLine, convExtRel]
    have har : kind.arityOk (kids.map (·.1)).length = true ↔
        (kind = .leaf → kids.length = 0) ∧ (kind = .single → kids.length = 1) := by
      cases kind <;> simp [ExtKind.arityOk]
    constructor
    · intro h
      split at h
      · cases h
      · next ha =>
        have ha : as = [] := by simpa using ha
        obtain ⟨a, h1, h⟩ := Res.bind_ok_iff.1 h
        split at h
        · next hk =>
          obtain ⟨d, h2, h⟩ := Res.bind_ok_iff.1 h
          cases h
          obtain ⟨g1, g2⟩ := har.1 hk
          have := LineMeans.ext (st := st) (reg := reg) (c := mkCommon .direct) ha
            ((convExtArgs_means hst args cols a).1 (plain_means.1 h1)) g1 g2 (resolved_means.1 h2) rfl
          rw [List.map_map]
          exact this
        · cases h
    · intro h
      cases h with
      | @ext _ _ _ _ a d _ c h1 h2 h3 h4 h5 h6 =>
        rw [if_neg (by simpa using h1), Res.bind_ok_iff]
        refine ⟨a, plain_means.2 ((convExtArgs_means hst args cols a).2 h2), ?_⟩
        rw [if_pos (har.2 ⟨h3, h4⟩), Res.bind_ok_iff]
        refine ⟨d, resolved_means.2 h5, ?_⟩
        rw [h6]
        simp [mkCommon]
  | root names => exact body (by simp) (by simp) (by simp)
  | read table out => exact body (by simp) (by simp) (by simp)
  | readVirtual rows filter cols => exact body (by simp) (by simp) (by simp)
  | filter cond refs => exact body (by simp) (by simp) (by simp)
  | project args => exact body (by simp) (by simp) (by simp)
  | aggregate group outs => exact body (by simp) (by simp) (by simp)
  | sort fields refs => exact body (by simp) (by simp) (by simp)
  | fetch args refs => exact body (by simp) (by simp) (by simp)
  | join ty cond post refs => exact body (by simp) (by simp) (by simp)
  | cross refs => exact body (by simp) (by simp) (by simp)

/-! ## Trees -/

mutual
theorem convNode_means [FTab] {st : Store} (hst : st.Ordered) (reg : Registry ExtArgs (List Nat)) :
    (t : RNode SLine SAddendum) → (p : Rel × Nat) → (convNode st reg t = .ok p ↔ RelMeans st reg t p)
  | .mk line ss ts, (r, w) => by
    rw [convNode]
    simp only [Res.bind_ok_iff, convAddenda_means hst, convLine_means hst]
    constructor
    · rintro ⟨kids, h1, as, h2, h3⟩
      exact .node h2 ((convKids_means hst reg ts kids).1 h1) h3
    · intro h
      cases h with
      | node h2 h1 h3 => exact ⟨_, (convKids_means hst reg ts _).2 h1, _, h2, h3⟩
theorem convKids_means [FTab] {st : Store} (hst : st.Ordered) (reg : Registry ExtArgs (List Nat)) :
    (ts : List (RNode SLine SAddendum)) → (l : List (Rel × Nat)) →
    (convKids st reg ts = .ok l ↔ All2 (RelMeans st reg) ts l)
  | [], l => by
    rw [convKids]
    exact ⟨fun h => by cases h; exact .nil, fun h => by cases h; rfl⟩
  | t :: ts, l => by
    rw [convKids]
    simp only [Res.bind_ok_iff]
    constructor
    · rintro ⟨x, h1, y, h2, h⟩
      cases h
      exact .cons ((convNode_means hst reg t x).1 h1) ((convKids_means hst reg ts y).1 h2)
    · intro h
      cases h with
      | cons h1 h2 => exact ⟨_, (convNode_means hst reg t _).2 h1, _, (convKids_means hst reg ts _).2 h2, rfl⟩
end

theorem convPlanRel_means [FTab] {st : Store} (hst : st.Ordered) (reg : Registry ExtArgs (List Nat))
    (t : RNode SLine SAddendum) (p : PlanRel) : convPlanRel st reg t = .ok p ↔ TopMeans st reg t p := by
  have other : (convNode st reg t).bind (fun r => .ok (.rel r.1)) = .ok p ↔ ∃ r w, p = .rel r ∧ RelMeans st reg t (r, w) := by
    simp only [Res.bind_ok_iff, convNode_means hst]
    constructor
    · rintro ⟨⟨r, w⟩, h1, h⟩; cases h; exact ⟨r, w, rfl, h1⟩
    · rintro ⟨r, w, rfl, h⟩; exact ⟨(r, w), h, rfl⟩
  obtain ⟨line, ss, ts⟩ := t
  by_cases hl : ∃ names, line = .root names
  · obtain ⟨names, rfl⟩ := hl
    rw [convPlanRel.eq_def]
    dsimp only
    constructor
    · intro h
      split at h
      · cases h
      · next ha =>
        have ha : ss = [] := by simpa using ha
        subst ha
        split at h
        · next k =>
          obtain ⟨⟨r, w⟩, h1, h⟩ := Res.bind_ok_iff.1 h
          cases h
          exact .root ((convNode_means hst reg k _).1 h1)
        · cases h
    · intro h
      cases h with
      | root h =>
        rw [if_neg (by simp)]
        exact Res.bind_ok_iff.2 ⟨_, (convNode_means hst reg _ _).2 h, rfl⟩
      | rel h =>
        cases h with
        | node _ _ h => cases h
  · have e : convPlanRel st reg (.mk line ss ts) = (convNode st reg (.mk line ss ts)).bind fun r => .ok (.rel r.1) := by
      cases line with
      | root names => exact absurd ⟨names, rfl⟩ hl
      | _ => rfl
    rw [e, other]
    constructor
    · rintro ⟨r, w, rfl, h⟩; exact .rel h
    · intro h
      cases h with
      | root h => exact absurd ⟨_, rfl⟩ hl
      | rel h => exact ⟨_, _, rfl, h⟩

theorem convPlanRels_means [FTab] {st : Store} (hst : st.Ordered) (reg : Registry ExtArgs (List Nat))
    (l : List (RNode SLine SAddendum)) (ps : List PlanRel) :
    convPlanRels st reg l = .ok ps ↔ All2 (TopMeans st reg) l ps :=
  loop_means (convPlanRel_means hst reg) (by rfl) (fun _ _ => by rfl) l ps

end Verif
