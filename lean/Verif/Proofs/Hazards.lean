import Verif.Spec.Hazards
import Verif.Proofs.PlanWhole
import Verif.Proofs.ExtSection
/-!
# Where the parser panics: values
-/

namespace Verif

set_option autoImplicit false

open ChunkSpec SectionSpec Grammar TreeSpec StoreSpec HazardSpec

theorem Res.bind_panic_iff {ε α β : Type} {r : Res ε α} {f : α → Res ε β} :
    r.bind f = .panic ↔ r = .panic ∨ ∃ a, r = .ok a ∧ f a = .panic := by
  cases r <;> simp [Res.bind]

theorem Res.bind_isOk_iff {ε α β : Type} {r : Res ε α} {f : α → Res ε β} {b : β} :
    r.bind f = .ok b ↔ ∃ a, r = .ok a ∧ f a = .ok b := by
  cases r <;> simp [Res.bind]

theorem Res.map_panic_iff {ε α β : Type} {r : Res ε α} {f : α → β} : r.map f = .panic ↔ r = .panic := by
  cases r <;> simp [Res.map]

theorem toI32_none {i : IntTok} : i.toI32 = none ↔ Not32 i := by
  unfold IntTok.toI32 Not32
  split <;> simp_all

theorem toI64_none {i : IntTok} : i.toI64 = none ↔ Not64 i := by
  unfold IntTok.toI64 Not64
  split <;> simp_all

theorem toU32_none {i : IntTok} : i.toU32 = none ↔ NotAnchor i := by
  unfold IntTok.toU32 NotAnchor
  cases i.neg <;> simp

theorem convIndex_panic {i : IntTok} : convIndex i = .panic ↔ Not32 i := by
  unfold convIndex
  rw [← toI32_none]
  cases i.toI32 <;> simp

theorem unwrapU32_panic {a : Option IntTok} : unwrapU32 a = .panic ↔ ∃ i, a = some i ∧ NotAnchor i := by
  cases a with
  | none => simp [unwrapU32]
  | some i =>
    simp only [unwrapU32, ← toU32_none]
    cases h : i.toU32 <;> simp [h]

theorem ofLookup_panic {α : Type} {r : Except Store.MissingReference α} : ofLookup r ≠ .panic := by
  cases r <;> simp [ofLookup]

theorem rest_mem {α : Type} {sep : Str → Prop} {G : α → Str → Prop} {l : List α} {x : Str} (h : Rest sep G l x) :
    ∀ a ∈ l, ∃ y, G a y := by
  induction h with
  | nil => simp
  | cons _ hg _ ih =>
    intro a ha
    rcases List.mem_cons.1 ha with rfl | ha
    · exact ⟨_, hg⟩
    · exact ih a ha

theorem sepBy_mem {α : Type} {sep : Str → Prop} {G : α → Str → Prop} {l : List α} {x : Str} (h : SepBy sep G l x) :
    ∀ a ∈ l, ∃ y, G a y := by
  cases h with
  | mk hg hr =>
    intro a ha
    rcases List.mem_cons.1 ha with rfl | ha
    · exact ⟨_, hg⟩
    · exact rest_mem hr a ha

theorem sep0_mem {α : Type} {sep : Str → Prop} {G : α → Str → Prop} {l : List α} {x : Str} (h : Sep0 sep G l x) :
    ∀ a ∈ l, ∃ y, G a y := by
  cases h with
  | nil => simp
  | some h => exact sepBy_mem h

theorem loose_mem {α : Type} {sep : Str → Prop} {G : α → Str → Prop} {l : List α} {x : Str} (h : Loose sep G l x) :
    ∀ a ∈ l, ∃ y, G a y := by
  cases h with
  | mk hg _ hr =>
    intro a ha
    rcases List.mem_cons.1 ha with rfl | ha
    · exact ⟨_, hg⟩
    · exact rest_mem hr a ha

/-! ## Types -/

theorem convSimple_panic {name x : Str} {n : Nul} (hn : SimpleName name) (h : convSimple name n = .panic) :
    name ∈ [cs!"u8", cs!"u16", cs!"u32", cs!"u64"] := by
  have key : ∀ m ∈ [cs!"boolean", cs!"i8", cs!"i16", cs!"i32", cs!"i64", cs!"u8", cs!"u16", cs!"u32", cs!"u64",
      cs!"fp32", cs!"fp64", cs!"string", cs!"binary", cs!"timestamp_tz", cs!"timestamp", cs!"date",
      cs!"time", cs!"interval_year", cs!"uuid"],
      m ∈ [cs!"u8", cs!"u16", cs!"u32", cs!"u64"] ∨ ∀ n : Nul, ∃ t, convSimple m n = .ok t := by
    intro m hm
    simp only [List.mem_cons, List.not_mem_nil, or_false] at hm
    rcases hm with h | h | h | h | h | h | h | h | h | h | h | h | h | h | h | h | h | h | h <;> subst h <;>
      first
        | exact .inl (by decide)
        | exact .inr fun n => ⟨_, rfl⟩
  rcases key name hn with h1 | h1
  · exact h1
  · obtain ⟨t, ht⟩ := h1 n
    rw [ht] at h
    cases h

theorem convPrecision_panic {i : IntTok} {w : Str} : convPrecision i w ≠ .panic := by
  unfold convPrecision
  split
  · split <;> simp
  · simp

theorem convParams_panic {st : Store} {ps : List SParam} (h : convParams st ps = .panic) :
    ∃ l p r, ps = l ++ p :: r ∧ (convParam st p = .panic ∨ (r ≠ [] ∧ ∃ e, convParam st p = .err e)) := by
  induction ps with
  | nil => cases h
  | cons p ps ih =>
    unfold convParams convCons at h
    split at h
    · rw [Res.map_panic_iff] at h
      obtain ⟨l, q, r, e, hq⟩ := ih h
      exact ⟨p :: l, q, r, by rw [e]; rfl, hq⟩
    · next e he =>
      split at h
      · cases h
      · next hl =>
        refine ⟨[], p, ps, rfl, .inr ⟨?_, e, he⟩⟩
        intro h0
        rw [h0] at hl
        exact hl rfl
    · next hp => exact ⟨[], p, ps, rfl, .inl hp⟩

theorem convTy_panic_aux {st : Store} (m : Nat) : ∀ (t : STy) {x : Str}, sizeOf t < m → TyText t x →
    convTy st t = .panic → TyHazard st t := by
  induction m with
  | zero => intro t x hs; exact absurd hs (by omega)
  | succ m ih =>
  intro t x hs hx h
  cases t with
  | simple name n =>
    cases hx with
    | simple hn _ => exact .unsigned (convSimple_panic (x := []) hn h)
  | list n t =>
    cases hx with
    | list _ _ ht =>
      unfold convTy at h
      rcases Res.bind_panic_iff.1 h with h | ⟨a, -, h⟩
      · exact .list (ih t (by simp at hs; omega) ht h)
      · cases h
  | map => exact .map
  | struct => exact .struct
  | prec k n i =>
    unfold convTy at h
    rcases Res.bind_panic_iff.1 h with h | ⟨a, -, h⟩
    · exact absurd h convPrecision_panic
    · cases h
  | intervalDay n i =>
    unfold convTy at h
    rcases Res.bind_panic_iff.1 h with h | ⟨a, -, h⟩
    · exact absurd h convPrecision_panic
    · cases h
  | user name a u n ps =>
    unfold convTy at h
    rcases Res.bind_panic_iff.1 h with h | ⟨a', -, h⟩
    · obtain ⟨i, rfl, hi⟩ := unwrapU32_panic.1 h
      exact .anchor hi
    rcases Res.bind_panic_iff.1 h with h | ⟨u', -, h⟩
    · obtain ⟨i, rfl, hi⟩ := unwrapU32_panic.1 h
      exact .urn hi
    rcases Res.bind_panic_iff.1 h with h | ⟨ps', -, h⟩
    · cases ps with
      | none => cases h
      | some ps =>
        cases hx with
        | user _ _ _ _ _ hps =>
          cases hps with
          | some hps =>
            cases hps with
            | mk hps =>
              dsimp only at h
              obtain ⟨l, p, r, e, hp⟩ := convParams_panic h
              have hm : p ∈ ps := by rw [e]; simp
              cases p with
              | int i => exact .intParam hm
              | name m => exact .nameParam hm
              | ty t =>
                obtain ⟨y, hy⟩ := sep0_mem hps _ hm
                cases hy with
                | ty hy =>
                  rcases hp with hp | ⟨hr, er, hp⟩
                  · have hsz := List.sizeOf_lt_of_mem hm
                    unfold convParam at hp
                    rcases Res.bind_panic_iff.1 hp with hp | ⟨_, -, hp⟩
                    · exact .param hm (ih t (by simp at hs hsz; omega) hy hp)
                    · cases hp
                  · cases r with
                    | nil => exact absurd rfl hr
                    | cons q r =>
                      rw [e]
                      refine .early ?_
                      unfold convParam at hp
                      revert hp
                      cases convTy st t with
                      | ok a => intro hp; cases hp
                      | err e => intro _; exact ⟨e, rfl⟩
                      | panic => intro hp; cases hp
    rcases Res.bind_panic_iff.1 h with h | ⟨r, -, h⟩
    · exact absurd h ofLookup_panic
    · cases h

theorem convTy_panic {st : Store} {t : STy} {x : Str} (hx : TyText t x) (h : convTy st t = .panic) : TyHazard st t :=
  convTy_panic_aux (sizeOf t + 1) t (by omega) hx h

/-! ## Literals -/

theorem fitOr_panic {α : Type} {f : α → Option Int} {t : Option α} : fitOr f t ≠ .panic := by
  cases t with
  | none => simp [fitOr]
  | some t => simp only [fitOr]; split <;> simp

theorem convSub_panic {p : Precision} {t : Option (IntTok × Str)} : convSub p t ≠ .panic := by
  unfold convSub
  split
  · simp
  · split
    · simp
    · exact fitOr_panic

theorem readInterval_panic {s : Str} {p : Precision} : readInterval s p ≠ .panic := by
  unfold readInterval
  intro h
  split at h
  · cases h
  · rcases Res.bind_panic_iff.1 h with h | ⟨_, -, h⟩
    · exact fitOr_panic h
    rcases Res.bind_panic_iff.1 h with h | ⟨_, -, h⟩
    · exact fitOr_panic h
    rcases Res.bind_panic_iff.1 h with h | ⟨_, -, h⟩
    · exact convSub_panic h
    · cases h

theorem nsToUnits_panic {n : Int} {p : Precision} : nsToUnits n p ≠ .panic := by
  unfold nsToUnits
  cases p <;> dsimp only <;> repeat' split
  all_goals simp

theorem checkPrecision_panic {p : Int} : checkPrecision p ≠ .panic := by
  unfold checkPrecision
  split <;> simp

theorem stampUnits_panic {s : Str} {p : Int} : stampUnits s p ≠ .panic := by
  unfold stampUnits
  intro h
  rcases Res.bind_panic_iff.1 h with h | ⟨_, -, h⟩
  · exact checkPrecision_panic h
  · split at h
    · exact nsToUnits_panic h
    · cases h

theorem timeUnits_panic {s : Str} {p : Int} : timeUnits s p ≠ .panic := by
  unfold timeUnits
  intro h
  rcases Res.bind_panic_iff.1 h with h | ⟨_, -, h⟩
  · exact checkPrecision_panic h
  · split at h
    · exact nsToUnits_panic h
    · cases h

theorem toStringLit_panic {s : Str} {t : Option Ty} : toStringLit s t ≠ .panic := by
  unfold toStringLit
  intro h
  split at h
  · split at h <;> cases h
  · split at h
    · rcases Res.bind_panic_iff.1 h with h | ⟨_, -, h⟩
      · exact readInterval_panic h
      · cases h
    · cases h
  · rcases Res.bind_panic_iff.1 h with h | ⟨_, -, h⟩
    · exact timeUnits_panic h
    · cases h
  · rcases Res.bind_panic_iff.1 h with h | ⟨_, -, h⟩
    · exact stampUnits_panic h
    · cases h
  · rcases Res.bind_panic_iff.1 h with h | ⟨_, -, h⟩
    · exact timeUnits_panic h
    · cases h
  · rcases Res.bind_panic_iff.1 h with h | ⟨_, -, h⟩
    · exact stampUnits_panic h
    · cases h
  · cases h

theorem toIntLit_panic {i : IntTok} {t : Option Ty} : toIntLit i t = .panic ↔ Not64 i := by
  unfold toIntLit
  rw [← toI64_none]
  cases i.toI64 with
  | none => simp
  | some i => dsimp only; split <;> simp

variable [FTab]

theorem convValue_panic {v : SVal} {t : Option Ty} (h : convValue v t = .panic) : ∃ i, v = .int i ∧ Not64 i := by
  cases v with
  | int i => exact ⟨i, rfl, toIntLit_panic.1 h⟩
  | float x =>
    exfalso
    simp only [convValue, toFloatLit] at h
    split at h <;> cases h
  | bool b =>
    exfalso
    simp only [convValue, toBoolLit] at h
    split at h <;> cases h
  | str s => exact absurd h toStringLit_panic
  | null =>
    exfalso
    simp only [convValue, toNullLit] at h
    split at h <;> cases h

theorem convLit_panic {st : Store} {l : SLit} {x : Str} (hx : LitText l x) (h : convLit st l = .panic) :
    ExprHazard st (.lit l) := by
  obtain ⟨v, t⟩ := l
  unfold convLit at h
  rcases Res.bind_panic_iff.1 h with h | ⟨t', -, h⟩
  · cases t with
    | none => cases h
    | some t =>
      obtain ⟨y, z, -, hz, -⟩ := hx
      cases hz with
      | some hz =>
        obtain ⟨w, y, -, ht, -⟩ := hz
        exact .ascription (convTy_panic ht (Res.map_panic_iff.1 h))
  · obtain ⟨i, rfl, hi⟩ := convValue_panic h
    exact .int hi

/-! ## Expressions -/

theorem convArgs_panic {st : Store} {l : List SExpr} (h : convArgs st l = .panic) : ∃ e ∈ l, convExpr st e = .panic := by
  induction l with
  | nil => cases h
  | cons e l ih =>
    unfold convArgs at h
    rcases Res.bind_panic_iff.1 h with h | ⟨_, -, h⟩
    · exact ⟨e, by simp, h⟩
    rcases Res.bind_panic_iff.1 h with h | ⟨_, -, h⟩
    · obtain ⟨e', hm, he⟩ := ih h
      exact ⟨e', by simp [hm], he⟩
    · cases h

theorem convClauses_panic {st : Store} {l : List (SExpr × SExpr)} (h : convClauses st l = .panic) :
    ∃ p ∈ l, ∃ e, (e = p.1 ∨ e = p.2) ∧ (convExpr st e = .panic ∨ Fails (convExpr st e)) := by
  induction l with
  | nil => cases h
  | cons p l ih =>
    obtain ⟨c, r⟩ := p
    unfold convClauses at h
    split at h
    · split at h
      · rcases Res.bind_panic_iff.1 h with h | ⟨_, -, h⟩
        · obtain ⟨p, hp, rest⟩ := ih h
          exact ⟨p, by simp [hp], rest⟩
        · cases h
      · next hr =>
        refine ⟨(c, r), by simp, r, .inr rfl, ?_⟩
        cases hc : convExpr st r with
        | ok a => exact absurd hc (hr a)
        | err e => exact .inr ⟨e, rfl⟩
        | panic => exact .inl rfl
    · next hr =>
      refine ⟨(c, r), by simp, c, .inl rfl, ?_⟩
      cases hc : convExpr st c with
      | ok a => exact absurd hc (hr a)
      | err e => exact .inr ⟨e, rfl⟩
      | panic => exact .inl rfl

omit [FTab] in
theorem clausesText_mem {l : List (SExpr × SExpr)} {x : Str} (h : ClausesText l x) :
    ∀ p ∈ l, (∃ y, ExprText p.1 y) ∧ ∃ y, ExprText p.2 y := by
  induction l generalizing x with
  | nil => simp
  | cons q l ih =>
    cases h with
    | cons h1 _ _ h2 _ _ h3 =>
      intro p hp
      rcases List.mem_cons.1 hp with rfl | hp
      · exact ⟨⟨_, h1⟩, _, h2⟩
      · exact ih h3 p hp

theorem convExpr_panic_aux {st : Store} (m : Nat) : ∀ (s : SExpr) {x : Str}, sizeOf s < m → ExprText s x →
    convExpr st s = .panic → ExprHazard st s := by
  induction m with
  | zero => intro s x hs; exact absurd hs (by omega)
  | succ m ih =>
  intro s x hs hx h
  cases s with
  | lit l =>
    cases hx with
    | lit hx =>
      unfold convExpr at h
      rcases Res.bind_panic_iff.1 h with h | ⟨_, -, h⟩
      · exact convLit_panic hx h
      · cases h
  | ref i =>
    unfold convExpr at h
    rcases Res.bind_panic_iff.1 h with h | ⟨_, -, h⟩
    · exact .ref (convIndex_panic.1 h)
    · cases h
  | call name a u args t =>
    cases hx with
    | call _ _ _ _ _ _ hargs _ ht =>
      unfold convExpr at h
      rcases Res.bind_panic_iff.1 h with h | ⟨_, -, h⟩
      · obtain ⟨i, rfl, hi⟩ := unwrapU32_panic.1 h
        exact .anchor hi
      rcases Res.bind_panic_iff.1 h with h | ⟨_, -, h⟩
      · obtain ⟨i, rfl, hi⟩ := unwrapU32_panic.1 h
        exact .urn hi
      rcases Res.bind_panic_iff.1 h with h | ⟨_, -, h⟩
      · obtain ⟨e, hm, he⟩ := convArgs_panic h
        obtain ⟨y, hy⟩ := sep0_mem hargs e hm
        have hsz := List.sizeOf_lt_of_mem hm
        exact .arg hm (ih e (by simp at hs; omega) hy he)
      rcases Res.bind_panic_iff.1 h with h | ⟨_, -, h⟩
      · exact .result (convTy_panic ht h)
      rcases Res.bind_panic_iff.1 h with h | ⟨_, -, h⟩
      · exact absurd h ofLookup_panic
      · cases h
  | cast e fb t =>
    cases hx with
    | cast _ he _ _ _ _ _ ht =>
      unfold convExpr at h
      rcases Res.bind_panic_iff.1 h with h | ⟨_, -, h⟩
      · exact .castOf (ih e (by simp at hs; omega) he h)
      rcases Res.bind_panic_iff.1 h with h | ⟨_, -, h⟩
      · exact .castTo (convTy_panic ht h)
      · cases h
  | ifThen l y =>
    cases hx with
    | ifThen _ _ hl _ _ _ hy =>
      unfold convExpr at h
      rcases Res.bind_panic_iff.1 h with h | ⟨_, -, h⟩
      · obtain ⟨p, hp, e, he, hc⟩ := convClauses_panic h
        have hsz := List.sizeOf_lt_of_mem hp
        rcases hc with hc | hc
        · have hlt : sizeOf e < sizeOf p := by
            obtain ⟨c, r⟩ := p
            rcases he with rfl | rfl <;> simp <;> omega
          have htx : ∃ z, ExprText e z := by
            rcases he with rfl | rfl
            · exact (clausesText_mem hl p hp).1
            · exact (clausesText_mem hl p hp).2
          obtain ⟨z, hz⟩ := htx
          exact .clause hp he (ih e (by simp at hs; omega) hz hc)
        · exact .clauseFails hp he hc
      rcases Res.bind_panic_iff.1 h with h | ⟨_, -, h⟩
      · exact .otherwise (ih y (by simp at hs; omega) hy h)
      · cases h

theorem convExpr_panic {st : Store} {s : SExpr} {x : Str} (hx : ExprText s x) (h : convExpr st s = .panic) :
    ExprHazard st s :=
  convExpr_panic_aux (sizeOf s + 1) s (by omega) hx h

/-! ## Extension arguments -/

theorem convParamLit_panic {v : SVal} (h : convParamLit v = .panic) : ∃ i, v = .int i ∧ Not64 i := by
  cases v with
  | int i =>
    refine ⟨i, rfl, toI64_none.1 ?_⟩
    simp only [convParamLit] at h
    split at h
    · cases h
    · assumption
  | float x => cases h
  | bool b => cases h
  | str s => cases h
  | null => cases h

theorem convArgList_panic {st : Store} {l : List SArg} (h : convArgList st l = .panic) :
    ∃ e ∈ l, convArg st e = .panic := by
  induction l with
  | nil => cases h
  | cons e l ih =>
    unfold convArgList at h
    rcases Res.bind_panic_iff.1 h with h | ⟨_, -, h⟩
    · exact ⟨e, by simp, h⟩
    rcases Res.bind_panic_iff.1 h with h | ⟨_, -, h⟩
    · obtain ⟨e', hm, he⟩ := ih h
      exact ⟨e', by simp [hm], he⟩
    · cases h

omit [FTab] in
theorem tupleText_mem {l : List SArg} {x : Str} (h : TupleText l x) : ∀ a ∈ l, ∃ y, Grammar.ArgText a y := by
  cases h with
  | nil => simp
  | one _ ha _ _ => intro a hm; rw [List.mem_singleton] at hm; exact ⟨_, hm ▸ ha⟩
  | many _ _ hs _ _ => exact sepBy_mem hs

theorem convArg_panic_aux {st : Store} (m : Nat) : ∀ (s : SArg) {x : Str}, sizeOf s < m → Grammar.ArgText s x →
    convArg st s = .panic → ArgHazard st s := by
  induction m with
  | zero => intro s x hs; exact absurd hs (by omega)
  | succ m ih =>
  intro s x hs hx h
  cases s with
  | enum n => cases h
  | lit v =>
    unfold convArg at h
    obtain ⟨i, rfl, hi⟩ := convParamLit_panic h
    exact .int hi
  | ref i =>
    unfold convArg at h
    rcases Res.bind_panic_iff.1 h with h | ⟨_, -, h⟩
    · exact .ref (convIndex_panic.1 h)
    · cases h
  | expr e =>
    cases hx with
    | expr hx =>
      unfold convArg at h
      rcases Res.bind_panic_iff.1 h with h | ⟨_, -, h⟩
      · exact .expr (convExpr_panic hx h)
      · cases h
  | tuple l =>
    cases hx with
    | tuple hx =>
      unfold convArg at h
      rcases Res.bind_panic_iff.1 h with h | ⟨_, -, h⟩
      · obtain ⟨e, hm, he⟩ := convArgList_panic h
        obtain ⟨y, hy⟩ := tupleText_mem hx e hm
        have hsz := List.sizeOf_lt_of_mem hm
        exact .tuple hm (ih e (by simp at hs; omega) hy he)
      · cases h

theorem convArg_panic {st : Store} {s : SArg} {x : Str} (hx : Grammar.ArgText s x) (h : convArg st s = .panic) :
    ArgHazard st s :=
  convArg_panic_aux (sizeOf s + 1) s (by omega) hx h

theorem convNamed_panic {st : Store} {l : List (Str × SArg)} : ∀ {acc : List (Str × ExtValue)},
    convNamed st acc l = .panic → ∃ p ∈ l, convArg st p.2 = .panic := by
  induction l with
  | nil => intro acc h; cases h
  | cons p l ih =>
    intro acc h
    obtain ⟨k, a⟩ := p
    unfold convNamed at h
    rcases Res.bind_panic_iff.1 h with h | ⟨_, -, h⟩
    · exact ⟨(k, a), by simp, h⟩
    · obtain ⟨p, hp, hc⟩ := ih h
      exact ⟨p, by simp [hp], hc⟩

omit [FTab] in
theorem argsText_mem {a : SArgs} {x : Str} (h : ArgsText a x) :
    (∀ p ∈ a.positional, ∃ y, Grammar.ArgText p y) ∧ ∀ p ∈ a.named, ∃ y, Grammar.ArgText p.2 y := by
  have named : ∀ {n : List (Str × SArg)} {y : Str}, SepBy SpComma NamedArgText n y → ∀ p ∈ n, ∃ y, Grammar.ArgText p.2 y := by
    intro n y h p hp
    obtain ⟨z, hz⟩ := sepBy_mem h p hp
    obtain ⟨_, _, _, y, _, _, _, h, _⟩ := hz
    exact ⟨y, h⟩
  cases h with
  | nothing => simp
  | empty => simp
  | positional h => exact ⟨sepBy_mem h, by simp⟩
  | both h1 _ h2 => exact ⟨sepBy_mem h1, named h2⟩
  | named h => exact ⟨by simp, named h⟩

theorem convExtColumn_panic {st : Store} {c : SCol} {x : Str} (hx : ExtColumnText c x)
    (h : convExtColumn st c = .panic) : ColHazard st c := by
  cases hx with
  | named hx =>
    obtain ⟨_, y, _, ht, _⟩ := hx
    unfold convExtColumn at h
    rcases Res.bind_panic_iff.1 h with h | ⟨_, -, h⟩
    · exact .named (convTy_panic ht h)
    · cases h
  | ref hx =>
    unfold convExtColumn at h
    rcases Res.bind_panic_iff.1 h with h | ⟨_, -, h⟩
    · exact .ref (convIndex_panic.1 h)
    · cases h
  | expr hx =>
    unfold convExtColumn at h
    rcases Res.bind_panic_iff.1 h with h | ⟨_, -, h⟩
    · exact .expr (convExpr_panic hx h)
    · cases h

theorem convExtColumns_panic {st : Store} {l : List SCol} (h : convExtColumns st l = .panic) :
    ∃ e ∈ l, convExtColumn st e = .panic := by
  induction l with
  | nil => cases h
  | cons e l ih =>
    unfold convExtColumns at h
    rcases Res.bind_panic_iff.1 h with h | ⟨_, -, h⟩
    · exact ⟨e, by simp, h⟩
    rcases Res.bind_panic_iff.1 h with h | ⟨_, -, h⟩
    · obtain ⟨e', hm, he⟩ := ih h
      exact ⟨e', by simp [hm], he⟩
    · cases h

theorem convExtArgs_panic {st : Store} {a : SArgs} {cols : List SCol} {x : Str} (hx : ArgsText a x)
    (hc : ∀ c ∈ cols, ∃ y, ExtColumnText c y) (h : convExtArgs st a cols = .panic) :
    ArgsHazard st a ∨ ∃ c ∈ cols, ColHazard st c := by
  obtain ⟨h1, h2⟩ := argsText_mem hx
  unfold convExtArgs at h
  rcases Res.bind_panic_iff.1 h with h | ⟨_, -, h⟩
  · obtain ⟨e, hm, he⟩ := convArgList_panic h
    obtain ⟨y, hy⟩ := h1 e hm
    exact .inl (.inl ⟨e, hm, convArg_panic hy he⟩)
  rcases Res.bind_panic_iff.1 h with h | ⟨_, -, h⟩
  · obtain ⟨e, hm, he⟩ := convNamed_panic h
    obtain ⟨y, hy⟩ := h2 e hm
    exact .inl (.inr ⟨e, hm, convArg_panic hy he⟩)
  rcases Res.bind_panic_iff.1 h with h | ⟨_, -, h⟩
  · obtain ⟨e, hm, he⟩ := convExtColumns_panic h
    obtain ⟨y, hy⟩ := hc e hm
    exact .inr ⟨e, hm, convExtColumn_panic hy he⟩
  · cases h

end Verif
