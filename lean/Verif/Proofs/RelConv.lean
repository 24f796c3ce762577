import Verif.Spec.Rels
import Verif.Proofs.ExprsErr
/-!
# Lemmas about the conversion of relation lines
-/

namespace Verif

set_option autoImplicit false

open RelSpec

theorem plain_ok {α : Type} {r : Res Err α} {a : α} : plain r = .ok a ↔ r = .ok a := by
  cases r <;> simp [plain]

theorem dropPanics_ok {α : Type} {r : Res Err α} {a : α} : dropPanics r = .ok a ↔ r = .ok a := by
  cases r <;> simp [dropPanics]

theorem grammarName_ok {α : Type} {r : Option α} {a : α} : grammarName r = .ok a ↔ r = some a := by
  cases r <;> simp [grammarName]

theorem convIndex_toInt {i : IntTok} {v : Int} (h : convIndex i = .ok v) : v = i.toInt := by
  unfold convIndex at h
  split at h
  · cases h
    rename_i h
    unfold IntTok.toI32 at h
    split at h <;> simp_all
  · cases h

theorem convRefs_ok {l : List IntTok} {m : List Int} (h : convRefs l = .ok m) : m = l.map IntTok.toInt := by
  induction l generalizing m with
  | nil => cases h; rfl
  | cons i l ih =>
    simp only [convRefs, Res.bind_ok_iff, plain_ok] at h
    obtain ⟨v, hv, m', hm, hh⟩ := h
    cases hh
    simp [convIndex_toInt hv, ih hm]

theorem wrap32_small {i : Nat} (h : i < 2 ^ 31) : wrap32 (i : Int) = i := by
  unfold wrap32
  omega

theorem countsFrom_iff (m : List Int) : ∀ k : Nat, k + m.length ≤ 2 ^ 31 →
    (countsFrom k m = true ↔ m = (List.range' k m.length).map Int.ofNat) := by
  induction m with
  | nil => intro k _; simp [countsFrom]
  | cons v m ih =>
    intro k hk
    simp only [List.length_cons] at hk
    have := ih (k + 1) (by omega)
    simp only [countsFrom, Bool.and_eq_true, decide_eq_true_eq, List.length_cons, List.range'_succ,
      List.map_cons, List.cons.injEq, this, wrap32_small (show k < 2 ^ 31 by omega)]
    rfl

theorem identity_eq (n : Nat) : identity n = (List.range' 0 n).map Int.ofNat := by
  simp [identity, List.range_eq_range']

theorem length_identity (n : Nat) : (identity n).length = n := by simp [identity]

theorem makeEmit_direct_iff {m : List Int} {n : Nat} (hn : n ≤ 2 ^ 31) :
    makeEmit m n = .direct ↔ m = identity n := by
  unfold makeEmit
  split
  · rename_i h
    simp only [true_iff]
    obtain ⟨hl, hc⟩ := h
    rw [countsFrom_iff m 0 (by omega)] at hc
    rw [identity_eq, ← hl]
    exact hc
  · rename_i h
    simp only [reduceCtorEq, false_iff]
    intro hm
    apply h
    subst hm
    refine ⟨length_identity n, ?_⟩
    rw [countsFrom_iff _ 0 (by rw [length_identity]; omega), length_identity]
    exact identity_eq n

theorem makeEmit_cases (m : List Int) (n : Nat) : makeEmit m n = .direct ∨ makeEmit m n = .emit m := by
  unfold makeEmit
  split
  · exact .inl rfl
  · exact .inr rfl

theorem makeEmit_indices {m : List Int} {n : Nat} (hn : n ≤ 2 ^ 31) : indices n (makeEmit m n) = m := by
  rcases makeEmit_cases m n with h | h
  · rw [h]
    exact ((makeEmit_direct_iff hn).mp h).symm
  · rw [h]
    rfl

theorem convEmit_ok {refs : List IntTok} {n : Nat} {c : Option Common × Nat} (h : convEmit refs n = .ok c) :
    c.1 = mkCommon (makeEmit (refs.map IntTok.toInt) n) ∧ c.2 = refs.length := by
  simp only [convEmit, Res.bind_ok_iff] at h
  obtain ⟨m, hm, hh⟩ := h
  cases hh
  rw [convRefs_ok hm]
  simp

theorem oneChild_ok {kids : List Rel} {r : Rel} (h : oneChild kids = .ok r) : kids = [r] := by
  unfold oneChild at h
  split at h
  · cases h; rfl
  · cases h

theorem oneChild_wrong (kids : List Rel) (h : kids.length ≠ 1) : oneChild kids = .err .arity := by
  unfold oneChild
  split
  · simp at h
  · rfl

/-! ## Grouping sets -/

theorem posOf_some {e : Expr} {l : List Expr} {i : Nat} (h : posOf e l = some i) : l[i]? = some e := by
  induction l generalizing i with
  | nil => cases h
  | cons d l ih =>
    unfold posOf at h
    split at h
    · cases h; subst_vars; rfl
    · simp only [Option.map_eq_some_iff] at h
      obtain ⟨j, hj, rfl⟩ := h
      simpa using ih hj

theorem posOf_none {e : Expr} {l : List Expr} : posOf e l = none ↔ e ∉ l := by
  induction l with
  | nil => simp [posOf]
  | cons d l ih =>
    unfold posOf
    split
    · rename_i h; simp [h]
    · rename_i h
      have h' : ¬ e = d := fun hh => h hh.symm
      simp [ih, h']

theorem lt_of_getElem?_some {α : Type} {l : List α} {i : Nat} {a : α} (h : l[i]? = some a) : i < l.length := by
  rcases Nat.lt_or_ge i l.length with h' | h'
  · exact h'
  · rw [List.getElem?_eq_none h'] at h; cases h

/-- The invariant of interning: the table only grows, stays free of repetitions, and the references
lead back to the set. -/
theorem internSet_spec (s : List Expr) : ∀ exprs : List Expr, exprs.Nodup →
    (internSet exprs s).2.Nodup ∧ (∃ more, (internSet exprs s).2 = exprs ++ more ∧ ∀ e ∈ more, e ∈ s) ∧
      (∀ e ∈ s, e ∈ (internSet exprs s).2) ∧
      (internSet exprs s).1.map (fun i => (internSet exprs s).2[i]?) = s.map some := by
  induction s with
  | nil => intro exprs h; exact ⟨h, ⟨[], by simp [internSet]⟩, by simp, rfl⟩
  | cons e l ih =>
    intro exprs h
    simp only [internSet]
    cases hp : posOf e exprs with
    | some i =>
      obtain ⟨h1, ⟨more, h2, h3⟩, h5, h4⟩ := ih exprs h
      have hi := posOf_some hp
      refine ⟨h1, ⟨more, h2, fun e he => List.mem_cons_of_mem _ (h3 e he)⟩, ?_, ?_⟩
      · intro d hd
        rcases List.mem_cons.mp hd with rfl | hd
        · show d ∈ (internSet exprs l).2
          rw [h2]; exact List.mem_append_left _ (List.mem_of_getElem? hi)
        · exact h5 d hd
      · show ((internSet exprs l).2[i]?) :: _ = _
        rw [List.map_cons, ← h4]
        congr 1
        rw [h2, List.getElem?_append_left (lt_of_getElem?_some hi), hi]
    | none =>
      have hne := posOf_none.mp hp
      obtain ⟨h1, ⟨more, h2, h3⟩, h5, h4⟩ := ih (exprs ++ [e]) (by
        rw [List.nodup_append]
        exact ⟨h, by simp, by simpa using fun a ha (hae : a = e) => hne (hae ▸ ha)⟩)
      refine ⟨h1, ⟨e :: more, by simp [h2], ?_⟩, ?_, ?_⟩
      · intro d hd
        rcases List.mem_cons.mp hd with rfl | hd
        · exact List.mem_cons_self
        · exact List.mem_cons_of_mem _ (h3 d hd)
      · intro d hd
        rcases List.mem_cons.mp hd with rfl | hd
        · show d ∈ (internSet (exprs ++ [d]) l).2
          rw [h2]; simp
        · exact h5 d hd
      · show ((internSet (exprs ++ [e]) l).2[exprs.length]?) :: _ = _
        rw [List.map_cons, ← h4]
        congr 1
        rw [h2]; simp

theorem setOf_append {exprs more : List Expr} {g : Grouping} {s : List Expr}
    (h : setOf exprs g = s.map some) : setOf (exprs ++ more) g = s.map some := by
  rw [← h]
  unfold setOf at *
  apply List.map_congr_left
  intro i hi
  have : (exprs[i]?) ∈ s.map some := by rw [← h]; exact List.mem_map_of_mem hi
  obtain ⟨e, _, he⟩ := List.mem_map.mp this
  rw [List.getElem?_append_left (lt_of_getElem?_some he.symm)]

theorem internSets_spec (sets : List (List Expr)) : ∀ exprs : List Expr, exprs.Nodup →
    (internSets exprs sets).2.Nodup ∧
      (∃ more, (internSets exprs sets).2 = exprs ++ more ∧ ∀ e ∈ more, ∃ s ∈ sets, e ∈ s) ∧
      (internSets exprs sets).1.map (setOf (internSets exprs sets).2) = sets.map (·.map some) ∧
      (∀ g ∈ (internSets exprs sets).1, g.exprs = []) := by
  induction sets with
  | nil => intro exprs h; exact ⟨h, ⟨[], by simp [internSets]⟩, rfl, by simp [internSets]⟩
  | cons s l ih =>
    intro exprs h
    obtain ⟨h1, ⟨more, h2, h3⟩, _, h4⟩ := internSet_spec s exprs h
    obtain ⟨k1, ⟨more', k2, k3⟩, k4, k5⟩ := ih (internSet exprs s).2 h1
    simp only [internSets]
    refine ⟨k1, ⟨more ++ more', by rw [k2, h2]; simp, ?_⟩, ?_, ?_⟩
    · intro e he
      rcases List.mem_append.mp he with he | he
      · exact ⟨s, List.mem_cons_self, h3 e he⟩
      · obtain ⟨t, ht, hh⟩ := k3 e he
        exact ⟨t, List.mem_cons_of_mem _ ht, hh⟩
    · rw [List.map_cons, k4, List.map_cons]
      congr 1
      rw [k2]
      exact setOf_append h4
    · intro g hg
      rcases List.mem_cons.mp hg with rfl | hg
      · rfl
      · exact k5 g hg

/-! ## Inversion -/

theorem convExprs_length [FTab] {st : Store} {l : List SExpr} {m : List Expr} (h : convExprs st l = .ok m) :
    m.length = l.length := by
  induction l generalizing m with
  | nil => cases h; rfl
  | cons a l ih =>
    simp only [convExprs, Res.bind_ok_iff] at h
    obtain ⟨e, _, m', hm, hh⟩ := h
    cases hh
    simp [ih hm]

/-- What `convBody` accepts: the number of inputs, the relation it builds and its width. -/
inductive BodyOk [FTab] (st : Store) (adv : Option AdvExt) (n : Nat) : SLine → List Rel → Rel × Nat → Prop where
  | read (table : List Str) (out : SOutput) (cols : List (Str × Ty)) (e : Emit) (w : Nat) : n = 0 →
      convOutput st out = .ok (cols, e, w) →
      BodyOk st adv n (.read table out) []
        (.node (.read (mkCommon e) (some (buildStruct cols)) none (.named table 0) adv 0) [], w)
  | readVirtual (rows : List (List SExpr)) (filter : Option SExpr) (cols : List SColumn)
      (f : Option Expr) (rs : List (List Expr)) (cs : List (Str × Ty)) :
      convOpt (convExpr st) filter = .ok f → convExprLists st rows = .ok rs →
      convColumns st cols = .ok cs →
      BodyOk st adv n (.readVirtual rows filter cols) []
        (.node (.read (mkCommon .direct) (some (buildStruct cs)) f (.virtual rs 0) adv 0) [], cs.length)
  | filter (cond : SExpr) (refs : List IntTok) (r : Rel) (e : Expr) (m : List Int) :
      convExpr st cond = .ok e → convRefs refs = .ok m →
      BodyOk st adv n (.filter cond refs) [r]
        (.node (.filter (mkCommon (makeEmit m n)) (some e) adv) [some r], m.length)
  | project (args : List SProj) (r : Rel) (es : List Expr) (m : List Int) :
      convProj st n 0 args = .ok (es, m) →
      BodyOk st adv n (.project args) [r]
        (.node (.project (mkCommon (makeEmit m (n + es.length))) es adv) [some r], m.length)
  | aggregate (group : SGroup) (outs : List SExpr) (r : Rel) (sets : List (List Expr))
      (ms : List Measure) (m : List Int) :
      convGroup st group = .ok sets → convOuts st (internSets [] sets).2 0 outs = .ok (ms, m) →
      BodyOk st adv n (.aggregate group outs) [r]
        (.node (.aggregate (mkCommon (makeEmit m ((internSets [] sets).2.length + ms.length)))
          (internSets [] sets).2 (internSets [] sets).1 ms adv) [some r], m.length)
  | sort (fields : List (SExpr × Str)) (refs : List IntTok) (r : Rel) (fs : List SortField) (m : List Int) :
      convSortFields st fields = .ok fs → convRefs refs = .ok m →
      BodyOk st adv n (.sort fields refs) [r]
        (.node (.sort (mkCommon (makeEmit m n)) fs adv) [some r], m.length)
  | fetch (args : List (Str × SFetch)) (refs : List IntTok) (r : Rel) (l o : Option Count) (m : List Int) :
      hasDup (args.map (·.1)) = false → convRefs refs = .ok m →
      convOptR (convFetchValue st) (fetchArg args cs!"limit") = .ok l →
      convOptR (convFetchValue st) (fetchArg args cs!"offset") = .ok o →
      BodyOk st adv n (.fetch args refs) [r]
        (.node (.fetch (mkCommon (makeEmit m n)) l o adv) [some r], m.length)
  | join (ty : Str) (cond : SExpr) (post : Option SExpr) (refs : List IntTok) (l r : Rel) (t : JoinType)
      (e : Expr) (p : Option Expr) (m : List Int) :
      JoinType.ofName (trimAmp ty) = some t → convExpr st cond = .ok e →
      convOpt (convExpr st) post = .ok p → convRefs refs = .ok m →
      BodyOk st adv n (.join ty cond post refs) [l, r]
        (.node (.join (mkCommon (makeEmit m n)) (.known t) (some e) p adv) [some l, some r], m.length)
  | cross (refs : List IntTok) (l r : Rel) (m : List Int) : convRefs refs = .ok m →
      BodyOk st adv n (.cross refs) [l, r]
        (.node (.cross (mkCommon (makeEmit m n)) adv) [some l, some r], m.length)

theorem convBody_ok [FTab] {st : Store} {adv : Option AdvExt} {kids : List Rel} {n : Nat} {line : SLine}
    {x : Rel × Nat} (h : convBody st adv kids n line = .ok x) : BodyOk st adv n line kids x := by
  cases line with
  | root _ => cases h
  | readExt _ => cases h
  | set _ _ => cases h
  | ext _ _ _ _ => cases h
  | read table out =>
    simp only [convBody] at h
    split at h
    · cases h
    · split at h
      · cases h
      · rename_i hk hn
        simp only [Res.bind_ok_iff] at h
        obtain ⟨⟨cols, e, w⟩, hr, hh⟩ := h
        cases hh
        have hk : kids = [] := by simpa using hk
        subst hk
        exact .read _ _ _ _ _ (by omega) hr
  | readVirtual rows filter cols =>
    simp only [convBody] at h
    split at h
    · cases h
    · rename_i hk
      simp only [Res.bind_ok_iff, plain_ok, dropPanics_ok] at h
      obtain ⟨f, hf, rs, hrs, cs, hcs, hh⟩ := h
      cases hh
      have hk : kids = [] := by simpa using hk
      subst hk
      exact .readVirtual _ _ _ _ _ _ hf hrs hcs
  | filter cond refs =>
    simp only [convBody, Res.bind_ok_iff, dropPanics_ok, convEmit] at h
    obtain ⟨r, hr, e, he, c, ⟨m, hm, hc⟩, hh⟩ := h
    cases hh; cases hc
    rw [oneChild_ok hr]
    exact .filter _ _ _ _ _ he hm
  | project args =>
    simp only [convBody, Res.bind_ok_iff] at h
    obtain ⟨r, hr, ⟨es, m⟩, hp, hh⟩ := h
    cases hh
    rw [oneChild_ok hr]
    exact .project _ _ _ _ hp
  | aggregate group outs =>
    simp only [convBody, Res.bind_ok_iff, plain_ok] at h
    obtain ⟨r, hr, sets, hs, ⟨ms, m⟩, hp, hh⟩ := h
    cases hh
    rw [oneChild_ok hr]
    exact .aggregate _ _ _ _ _ _ hs hp
  | sort fields refs =>
    simp only [convBody, Res.bind_ok_iff, convEmit] at h
    obtain ⟨r, hr, fs, hf, c, ⟨m, hm, hc⟩, hh⟩ := h
    cases hh; cases hc
    rw [oneChild_ok hr]
    exact .sort _ _ _ _ _ hf hm
  | fetch args refs =>
    simp only [convBody, Res.bind_ok_iff] at h
    obtain ⟨r, hr, h⟩ := h
    split at h
    · cases h
    · rename_i hd
      simp only [Res.bind_ok_iff, convEmit] at h
      obtain ⟨c, ⟨m, hm, hc⟩, l, hl, o, ho, hh⟩ := h
      cases hh; cases hc
      rw [oneChild_ok hr]
      exact .fetch _ _ _ _ _ _ (by simpa using hd) hm hl ho
  | join ty cond post refs =>
    simp only [convBody] at h
    split at h
    · simp only [Res.bind_ok_iff, dropPanics_ok, grammarName_ok, convEmit] at h
      obtain ⟨t, ht, e, he, p, hp, c, ⟨m, hm, hc⟩, hh⟩ := h
      cases hh; cases hc
      exact .join _ _ _ _ _ _ _ _ _ _ ht he hp hm
    · cases h
  | cross refs =>
    simp only [convBody] at h
    split at h
    · simp only [Res.bind_ok_iff, convEmit] at h
      obtain ⟨c, ⟨m, hm, hc⟩, hh⟩ := h
      cases hh; cases hc
      exact .cross _ _ _ _ hm
    · cases h

/-- What `convLine` accepts. -/
inductive LineOk [FTab] (st : Store) (reg : Registry ExtArgs (List Nat)) (as : List Addendum)
    (kids : List (Rel × Nat)) : SLine → Rel × Nat → Prop where
  | body (line : SLine) (adv : Option AdvExt) (x : Rel × Nat) : standardAdv reg as = .ok adv →
      BodyOk st adv (kids.map (·.2)).sum line (kids.map (·.1)) x → LineOk st reg as kids line x
  | set (op : Str) (refs : List IntTok) (adv : Option AdvExt) (w : Nat) (o : SetOp) (m : List Int) :
      standardAdv reg as = .ok adv → 2 ≤ kids.length → (∀ k ∈ kids, k.2 = w) →
      SetOp.ofName (trimAmp op) = some o → convRefs refs = .ok m →
      LineOk st reg as kids (.set op refs)
        (.node (.set (mkCommon (makeEmit m w)) (.known o) adv) ((kids.map (·.1)).map some), m.length)
  | readExt (cols : List SColumn) (d : AnyMsg) (adv : Option AdvExt) (cs : List (Str × Ty)) :
      extReadParts reg as = .ok (d, adv) → kids = [] → convColumns st cols = .ok cs →
      LineOk st reg as kids (.readExt cols)
        (.node (.read (mkCommon .direct) (some (buildStruct cs)) none (.extension (some d)) adv 0) [],
          cs.length)
  | ext (kind : ExtKind) (name : Str) (args : SArgs) (cols : List SCol) (a : ExtArgs) (d : AnyMsg) :
      as = [] → convExtArgs st args cols = .ok a → kind.arityOk kids.length = true →
      reg.parse .relation name a = .ok d →
      LineOk st reg as kids (.ext kind name args cols)
        (.node (.ext kind (mkCommon .direct) (some d)) ((kids.map (·.1)).map some), a.columns.length)

theorem resolved_ok {name : Str} {r : Except ExtErr AnyMsg} {d : AnyMsg} :
    resolved name r = .ok d ↔ r = .ok d := by
  cases r with
  | ok _ => simp [resolved]
  | error e => cases e <;> simp [resolved]

theorem convLine_ok [FTab] {st : Store} {reg : Registry ExtArgs (List Nat)} {as : List Addendum}
    {kids : List (Rel × Nat)} {line : SLine} {x : Rel × Nat} (h : convLine st reg as kids line = .ok x) :
    LineOk st reg as kids line x := by
  have std : ∀ {line : SLine}, ((standardAdv reg as).bind fun adv =>
      convBody st adv (kids.map (·.1)) (kids.map (·.2)).sum line) = .ok x →
      LineOk st reg as kids line x := by
    intro line h
    rw [Res.bind_ok_iff] at h
    obtain ⟨adv, ha, hb⟩ := h
    exact .body _ adv _ ha (convBody_ok hb)
  cases line with
  | set op refs =>
    simp only [convLine, Res.bind_ok_iff, convSet] at h
    obtain ⟨adv, ha, h⟩ := h
    split at h
    · cases h
    · rename_i hl
      split at h
      · cases h
      · rename_i w l hw
        split at h
        · rename_i hall
          simp only [Res.bind_ok_iff, grammarName_ok, convEmit] at h
          obtain ⟨o, ho, c, ⟨m, hm, hc⟩, hh⟩ := h
          cases hh; cases hc
          refine .set _ _ adv w o m ha (by simpa using hl) ?_ ho hm
          intro k hk
          have : k.2 ∈ w :: l := by rw [← hw]; exact List.mem_map_of_mem hk
          rcases List.mem_cons.mp this with h | h
          · exact h
          · simpa using List.all_eq_true.mp hall _ h
        · cases h
  | readExt cols =>
    simp only [convLine, Res.bind_ok_iff, convReadExt] at h
    obtain ⟨⟨d, adv⟩, hp, h⟩ := h
    split at h
    · cases h
    · split at h
      · cases h
      · rename_i hk _
        simp only [Res.bind_ok_iff, plain_ok] at h
        obtain ⟨cs, hcs, hh⟩ := h
        cases hh
        exact .readExt _ _ _ _ hp (by simpa using hk) hcs
  | ext kind name args cols =>
    simp only [convLine, convExtRel] at h
    split at h
    · cases h
    · rename_i has
      simp only [Res.bind_ok_iff, plain_ok] at h
      obtain ⟨a, ha, h⟩ := h
      split at h
      · rename_i hk
        simp only [Res.bind_ok_iff, resolved_ok] at h
        obtain ⟨d, hd, hh⟩ := h
        cases hh
        exact .ext _ _ _ _ _ _ (by simpa using has) ha (by simpa using hk) hd
      · cases h
  | root _ => exact std h
  | read _ _ => exact std h
  | readVirtual _ _ _ => exact std h
  | filter _ _ => exact std h
  | project _ => exact std h
  | aggregate _ _ => exact std h
  | sort _ _ => exact std h
  | fetch _ _ => exact std h
  | join _ _ _ _ => exact std h
  | cross _ => exact std h

theorem convKids_length [FTab] {st : Store} {reg : Registry ExtArgs (List Nat)} :
    ∀ {l : List (RNode SLine SAddendum)} {m : List (Rel × Nat)}, convKids st reg l = .ok m →
      m.length = l.length
  | [], m, h => by cases h; rfl
  | k :: l, m, h => by
    simp only [convKids, Res.bind_ok_iff] at h
    obtain ⟨x, _, m', hm, hh⟩ := h
    cases hh
    simp [convKids_length hm]

/-! ## Shapes -/

theorem BodyOk.shape [FTab] {st : Store} {adv : Option AdvExt} {n : Nat} {line : SLine} {kids : List Rel}
    {x : Rel × Nat} (h : BodyOk st adv n line kids x) :
    ∃ op, x.1 = .node op (kids.map some) ∧ Arity op kids.length ∧ LineArity line kids.length := by
  cases h <;> exact ⟨_, rfl, rfl, rfl⟩

theorem LineOk.shape [FTab] {st : Store} {reg : Registry ExtArgs (List Nat)} {as : List Addendum}
    {kids : List (Rel × Nat)} {line : SLine} {x : Rel × Nat} (h : LineOk st reg as kids line x) :
    ∃ op, x.1 = .node op ((kids.map (·.1)).map some) ∧ Arity op kids.length ∧ LineArity line kids.length := by
  cases h with
  | body _ adv _ _ hb => simpa using hb.shape
  | set _ _ _ _ _ _ _ hl => exact ⟨_, rfl, hl, hl⟩
  | readExt _ _ _ _ _ hk => subst hk; exact ⟨_, rfl, rfl, rfl⟩
  | ext kind _ _ _ _ _ _ _ hk =>
    refine ⟨_, rfl, ?_⟩
    cases kind <;> simp_all [ExtKind.arityOk, Arity, LineArity]

theorem LineOk.not_root [FTab] {st : Store} {reg : Registry ExtArgs (List Nat)} {as : List Addendum}
    {kids : List (Rel × Nat)} {ns : List Str} {x : Rel × Nat} (h : LineOk st reg as kids (.root ns) x) : False := by
  cases h with
  | body _ _ _ _ hb => cases hb

mutual
theorem convNode_shape [FTab] {st : Store} {reg : Registry ExtArgs (List Nat)} :
    ∀ (t : RNode SLine SAddendum) (x : Rel × Nat), convNode st reg t = .ok x →
      WellShaped x.1 ∧ TreeArity t ∧ (∀ ns, t.rel ≠ .root ns)
  | .mk line as kids, x, h => by
    simp only [convNode, Res.bind_ok_iff] at h
    obtain ⟨ks, hks, as', _, hl⟩ := h
    have hl := convLine_ok hl
    obtain ⟨op, hx, ha, hla⟩ := hl.shape
    obtain ⟨h1, h2, h3⟩ := convKids_shape kids ks hks
    rw [convKids_length hks] at hla
    refine ⟨?_, .mk _ _ _ hla h2 h3, ?_⟩
    · rw [hx]
      refine .node _ _ (by simpa using ha) ?_
      intro r hr
      obtain ⟨k, hk, rfl⟩ := List.mem_map.mp hr
      exact h1 k hk
    · intro ns hns
      change line = .root ns at hns
      subst hns
      exact hl.not_root
theorem convKids_shape [FTab] {st : Store} {reg : Registry ExtArgs (List Nat)} :
    ∀ (l : List (RNode SLine SAddendum)) (m : List (Rel × Nat)), convKids st reg l = .ok m →
      (∀ k ∈ m, WellShaped k.1) ∧ (∀ k ∈ l, TreeArity k) ∧ (∀ k ∈ l, ∀ ns, k.rel ≠ .root ns)
  | [], m, h => by cases h; simp
  | k :: l, m, h => by
    simp only [convKids, Res.bind_ok_iff] at h
    obtain ⟨x, hx, m', hm, hh⟩ := h
    cases hh
    obtain ⟨h1, h2, h3⟩ := convNode_shape k x hx
    obtain ⟨k1, k2, k3⟩ := convKids_shape l m' hm
    simp only [List.mem_cons, forall_eq_or_imp]
    exact ⟨⟨h1, k1⟩, ⟨h2, k2⟩, ⟨h3, k3⟩⟩
end

/-! ## Aggregate outputs -/

theorem isCall_conv [FTab] {st : Store} {s : SExpr} {e : Expr} (hs : s.isCall = true)
    (h : convExpr st s = .ok e) : callOf (toMeasure e) = some e ∧ (toMeasure e).fn.isSome = true := by
  cases s with
  | call name anchor urn args t =>
    simp only [convExpr, Res.bind_ok_iff] at h
    obtain ⟨_, _, _, _, _, _, _, _, _, _, h⟩ := h
    cases h
    simp [toMeasure, callOf]
  | _ => cases hs

theorem at?_append_left {α : Type} {l m : List α} {i : Nat} {a : α} (h : l[i]? = some a) :
    at? (l ++ m) (i : Int) = some a := by
  simp only [at?, Int.natCast_nonneg, if_true, Int.toNat_natCast]
  rw [List.getElem?_append_left (lt_of_getElem?_some h), h]

theorem at?_append_here {α : Type} {l m : List α} {a : α} {i : Nat} (h : l.length = i) :
    at? (l ++ a :: m) (i : Int) = some a := by
  subst h
  simp [at?]

theorem convOuts_spec [FTab] {st : Store} {g : List Expr} (outs : List SExpr) : ∀ (k : Nat) (ms : List Measure)
    (m : List Int), convOuts st g k outs = .ok (ms, m) →
    ∃ es, convExprs st outs = .ok es ∧ ms.map callOf = (es.filter fun e => decide (e ∉ g)).map some ∧
      (∀ x ∈ ms, x.fn.isSome = true) ∧
      (∀ q : List (Option Expr), q.length = k →
        m.map (at? (g.map some ++ (q ++ ms.map callOf))) = es.map fun e => some (some e)) := by
  induction outs with
  | nil =>
    intro k ms m h
    cases h
    exact ⟨[], rfl, rfl, by simp, fun _ _ => rfl⟩
  | cons s l ih =>
    intro k ms m h
    simp only [convOuts, Res.bind_ok_iff, plain_ok] at h
    obtain ⟨e, he, h⟩ := h
    cases hp : posOf e g with
    | some i =>
      simp only [hp, Res.bind_ok_iff] at h
      obtain ⟨⟨ms', m'⟩, hr, hh⟩ := h
      cases hh
      obtain ⟨es, h1, h2, h3, h4⟩ := ih k ms' m' hr
      have hi := posOf_some hp
      have hmem : e ∈ g := List.mem_of_getElem? hi
      refine ⟨e :: es, by simp [convExprs, he, h1, Res.bind], by simp [h2, hmem], h3, ?_⟩
      intro q hq
      simp only [List.map_cons, h4 q hq]
      congr 1
      exact at?_append_left (by simp [hi])
    | none =>
      simp only [hp] at h
      split at h
      · rename_i hc
        simp only [Res.bind_ok_iff] at h
        obtain ⟨⟨ms', m'⟩, hr, hh⟩ := h
        cases hh
        obtain ⟨es, h1, h2, h3, h4⟩ := ih (k + 1) ms' m' hr
        have hmem : e ∉ g := posOf_none.mp hp
        obtain ⟨hcall, hsome⟩ := isCall_conv hc he
        refine ⟨e :: es, by simp [convExprs, he, h1, Res.bind], by simp [h2, hmem, hcall], ?_, ?_⟩
        · simpa using ⟨hsome, h3⟩
        · intro q hq
          have := h4 (q ++ [some e]) (by simp [hq])
          simp only [List.append_assoc, List.cons_append, List.nil_append] at this
          simp only [List.map_cons, hcall, this]
          congr 1
          rw [← List.append_assoc]
          exact at?_append_here (by simp [hq])
      · cases h

/-- The columns put out under the emit made for a mapping are the mapped ones. -/
theorem outputs_makeEmit {α : Type} {cols : List α} {m : List Int} {n : Nat} (hn : n ≤ 2 ^ 31)
    (hl : cols.length = n) : outputs cols (makeEmit m n) = m.map (at? cols) := by
  rcases makeEmit_cases m n with h | h
  · rw [h, (makeEmit_direct_iff hn).mp h]
    show cols.map some = _
    subst hl
    apply List.ext_getElem
    · simp [length_identity]
    · intro i h1 h2
      simp at h1
      simp [identity, at?, h1]
  · rw [h]; rfl

theorem convExprs_calls [FTab] {st : Store} {g : List Expr} (outs : List SExpr) : ∀ (es : List Expr) (k : Nat),
    convExprs st outs = .ok es → (∃ p ∈ outs.zip es, p.2 ∉ g ∧ p.1.isCall = false) →
    convOuts st g k outs = .err .notGrouping := by
  induction outs with
  | nil => intro es k _ h; simp at h
  | cons s l ih =>
    intro es k h hex
    simp only [convExprs, Res.bind_ok_iff] at h
    obtain ⟨e, he, es', hes, hh⟩ := h
    cases hh
    simp only [convOuts, he, plain, Res.bind]
    simp only [List.zip_cons_cons, List.mem_cons, exists_eq_or_imp] at hex
    cases hp : posOf e g with
    | some i =>
      have hmem : e ∈ g := List.mem_of_getElem? (posOf_some hp)
      rcases hex with ⟨h, _⟩ | h
      · exact absurd hmem h
      · simp [ih es' k hes h, Res.bind]
    | none =>
      rcases hex with ⟨_, h⟩ | h
      · simp [h]
      · simp only [ih es' (k + 1) hes h, Res.bind]
        split <;> rfl

/-! ## Project outputs -/

theorem convProj_spec [FTab] {st : Store} {n : Nat} (args : List SProj) : ∀ (k : Nat) (es : List Expr)
    (m : List Int), convProj st n k args = .ok (es, m) →
    (∀ (q : List Expr), q.length = k →
      m.map (at? (((List.range n).map inputRef ++ q) ++ es)) =
        args.map (projItem st (((List.range n).map inputRef ++ q) ++ es))) := by
  induction args with
  | nil => intro k es m h; cases h; simp
  | cons a l ih =>
    intro k es m h q hq
    cases a with
    | ref i =>
      simp only [convProj, Res.bind_ok_iff, plain_ok] at h
      obtain ⟨j, hj, ⟨es', m'⟩, hr, hh⟩ := h
      cases hh
      simp only [List.map_cons, ih k _ _ hr q hq]
      congr 1
      simp [projItem, convIndex_toInt hj]
    | expr e =>
      simp only [convProj, Res.bind_ok_iff, plain_ok] at h
      obtain ⟨e', he, ⟨es', m'⟩, hr, hh⟩ := h
      cases hh
      have := ih (k + 1) _ _ hr (q ++ [e']) (by simp [hq])
      have hc : (List.range n).map inputRef ++ (q ++ [e']) ++ es' = (List.range n).map inputRef ++ q ++ e' :: es' := by
        simp
      rw [hc] at this
      simp only [List.map_cons, this]
      congr 1
      rw [at?_append_here (by simp [hq])]
      simp [projItem, he]

/-! ## Widths -/

theorem emitted_makeEmit {h : Head} {m : List Int} {n : Nat} (he : h.emit = some (makeEmit m n))
    (hc : h.columns.length = n) : h.emitted = m.length := by
  unfold Head.emitted
  rw [he]
  unfold makeEmit
  split
  · rename_i hd
    split at hd
    · rename_i hh; cases hd
    · cases hd; rfl
  · rename_i hd
    split at hd
    · rename_i hh; rw [hc, hh.1]
    · cases hd
  · rename_i hd; cases hd

theorem length_references (n : Nat) : (references n).length = n := by simp [references]

theorem inputWidths_some [UTab] [FTab] (env : Env) : ∀ (kids : List (Rel × Nat)),
    (∀ k ∈ kids, relWidth env k.1 = k.2) →
    inputWidths env ((kids.map (·.1)).map some) = (kids.map (·.2)).map some
  | [], _ => by simp [inputWidths]
  | k :: l, h => by
    simp only [List.map_cons, inputWidths, inputWidths_some env l fun k hk => h k (List.mem_cons_of_mem _ hk),
      h k List.mem_cons_self]

theorem totalWidth_some (ws : List Nat) : totalWidth (ws.map some) = ws.sum := by
  induction ws with
  | nil => rfl
  | cons w l ih => simpa [totalWidth] using ih

theorem sum_const {l : List Nat} {w : Nat} (h : ∀ x ∈ l, x = w) : l.sum = l.length * w := by
  induction l with
  | nil => simp
  | cons a l ih =>
    simp only [List.mem_cons, forall_eq_or_imp] at h
    simp only [List.sum_cons, ih h.2, h.1, List.length_cons, Nat.add_mul]
    omega

theorem convColumns_length {st : Store} : ∀ {cols : List SColumn} {cs : List (Str × Ty)},
    convColumns st cols = .ok cs → cs.length = cols.length
  | [], cs, h => by cases h; rfl
  | (n, t) :: l, cs, h => by
    simp only [convColumns, Res.bind_ok_iff] at h
    obtain ⟨_, _, l', hl, hh⟩ := h
    cases hh
    simp [convColumns_length hl]

theorem zipFields_build (cols : List (Str × Ty)) :
    zipFields (cols.map (·.1)) (cols.map (·.2)) = cols.map fun c => (some c.1, some c.2) := by
  induction cols with
  | nil => simp [zipFields]
  | cons c l ih => simp [zipFields, ih]

theorem readColumns_build [UTab] (st : Store) (o : Opts) (cols : List (Str × Ty)) :
    readColumns st o (some (buildStruct cols)) = cols.map fun c => textField st o (some c.1) (some c.2) := by
  simp [readColumns, schemaValues, buildStruct, zipFields_build]

theorem usesDeprecated_false {g : List Expr} {gs : List Grouping} (h : ∀ x ∈ gs, x.exprs = []) :
    usesDeprecated g gs = false := by
  unfold usesDeprecated
  split
  · rename_i x _
    simp [h x List.mem_cons_self]
  · rfl

theorem length_filterMap_isSome {α β : Type} (f : α → Option β) (l : List α)
    (h : ∀ x ∈ l, (f x).isSome = true) : (l.filterMap f).length = l.length := by
  induction l with
  | nil => rfl
  | cons a l ih =>
    simp only [List.mem_cons, forall_eq_or_imp] at h
    obtain ⟨b, hb⟩ := Option.isSome_iff_exists.mp h.1
    simp [hb, ih h.2]

theorem BodyOk.width [UTab] [FTab] {st : Store} {adv : Option AdvExt} {ws : List Nat} {line : SLine}
    {kids : List Rel} {op : RelOp} {ins : List (Option Rel)} {w : Nat} (env : Env)
    (h : BodyOk st adv ws.sum line kids (.node op ins, w)) (hl : ws.length = kids.length)
    (hj : ∀ c t e p a, op = .join c t e p a → c.bind (·.emit) = some .direct → FullJoin t) :
    (relHead env (ws.map some) op).emitted = w := by
  cases h with
  | read table out cols e _ _ hc =>
    cases out with
    | implicit cs =>
      simp only [convOutput, Res.bind_ok_iff, plain_ok] at hc
      obtain ⟨cs', h1, h2⟩ := hc
      cases h2
      simp [relHead, headRead, Head.emitted, getEmit, mkCommon, readColumns_build]
    | direct cs suffix =>
      simp only [convOutput, Res.bind_ok_iff, dropPanics_ok] at hc
      obtain ⟨cs', h1, h2⟩ := hc
      cases suffix with
      | none =>
        cases h2
        simp [relHead, headRead, Head.emitted, getEmit, mkCommon, readColumns_build]
      | some refs =>
        simp only [Res.bind_ok_iff] at h2
        obtain ⟨m, _, h2⟩ := h2
        cases h2
        simp [relHead, headRead, Head.emitted, getEmit, mkCommon]
  | readVirtual rows filter cols f rs cs h1 h2 h3 =>
    simp [relHead, headRead, Head.emitted, getEmit, mkCommon, readColumns_build]
  | filter => exact emitted_makeEmit rfl (by simp [relHead, length_references, totalWidth_some])
  | project =>
    exact emitted_makeEmit rfl (by simp [relHead, length_references, totalWidth_some])
  | aggregate group outs r sets ms m hs ho =>
    obtain ⟨_, _, _, h4⟩ := internSets_spec sets [] (by simp)
    obtain ⟨es, _, _, k3, _⟩ := convOuts_spec outs 0 ms m ho
    refine emitted_makeEmit rfl ?_
    simp only [relHead, headAggregate, groupingValues, usesDeprecated_false h4, Bool.false_eq_true, if_false,
      List.length_append, List.length_map]
    rw [length_filterMap_isSome _ _ (by
      intro x hx
      simpa using k3 x hx)]
  | sort => exact emitted_makeEmit rfl (by simp [relHead, length_references, totalWidth_some])
  | fetch => exact emitted_makeEmit rfl (by simp [relHead, length_references, totalWidth_some])
  | cross => exact emitted_makeEmit rfl (by simp [relHead, length_references, totalWidth_some])
  | join ty cond post refs l r t e p m =>
    rcases makeEmit_cases m ws.sum with hd | hd
    · have hf := hj _ _ _ _ _ rfl (by simp [mkCommon, hd])
      refine emitted_makeEmit rfl ?_
      match ws, hl with
      | [a, b], _ =>
        cases t <;> simp_all [FullJoin, relHead, length_references, joinWidth, EnumVal.joinType, widthAt]
    · simp [relHead, Head.emitted, getEmit, mkCommon, hd]

theorem LineOk.width [UTab] [FTab] {st : Store} {as : List Addendum}
    {kids : List (Rel × Nat)} {line : SLine} {op : RelOp} {ins : List (Option Rel)} {w : Nat} (env : Env)
    (hreg : StableWidths env.reg) (h : LineOk st env.reg as kids line (.node op ins, w))
    (hj : ∀ c t e p a, op = .join c t e p a → c.bind (·.emit) = some .direct → FullJoin t) :
    (relHead env ((kids.map (·.2)).map some) op).emitted = w := by
  cases h with
  | body _ adv _ _ hb => exact hb.width env (by simp) hj
  | set o refs adv w o' m _ hl hw _ _ =>
    refine emitted_makeEmit rfl ?_
    have hs : (kids.map (·.2)).sum = kids.length * w := by
      rw [sum_const (w := w) (by simpa using fun x r h => hw (r, x) h)]
      simp
    have hne : kids ≠ [] := by
      intro hk; simp [hk] at hl
    have hpos : 0 < kids.length := by omega
    simp only [relHead, length_references, totalWidth_some, hs, List.length_map]
    rw [if_neg (by simpa using hne), Nat.mul_div_cancel_left _ hpos]
  | readExt cols d adv cs _ hk _ =>
    simp [relHead, headRead, Head.emitted, getEmit, mkCommon, readColumns_build]
  | ext kind name args cols a d _ _ _ hd =>
    have : (((kids.map (·.2)).map some).filterMap id) = kids.map (·.2) := by
      simp
    obtain ⟨n', a', h1, h2⟩ := hreg name a d (kids.map (·.2)) hd
    simp [relHead, headExt, decodeRel, h1, Head.emitted, h2]

mutual
theorem convNode_width [UTab] [FTab] {st : Store} (env : Env) (hreg : StableWidths env.reg) :
    ∀ (t : RNode SLine SAddendum) (x : Rel × Nat), convNode st env.reg t = .ok x → FullJoins x.1 →
      relWidth env x.1 = x.2
  | .mk line as kids, (r, w), h, hf => by
    simp only [convNode, Res.bind_ok_iff] at h
    obtain ⟨ks, hks, as', _, hl⟩ := h
    have hl := convLine_ok hl
    obtain ⟨op, hx, _, _⟩ := hl.shape
    simp only at hx
    subst hx
    cases hf with
    | node _ _ hj hk =>
      have := convKids_width env hreg kids ks hks (by
        intro k hkk
        exact hk k.1 (List.mem_map_of_mem (List.mem_map_of_mem hkk)))
      simp only [relWidth, inputWidths_some env ks this]
      exact hl.width env hreg hj
theorem convKids_width [UTab] [FTab] {st : Store} (env : Env) (hreg : StableWidths env.reg) :
    ∀ (l : List (RNode SLine SAddendum)) (m : List (Rel × Nat)), convKids st env.reg l = .ok m →
      (∀ k ∈ m, FullJoins k.1) → ∀ k ∈ m, relWidth env k.1 = k.2
  | [], m, h, _ => by cases h; simp
  | k :: l, m, h, hf => by
    simp only [convKids, Res.bind_ok_iff] at h
    obtain ⟨x, hx, m', hm, hh⟩ := h
    cases hh
    simp only [List.mem_cons, forall_eq_or_imp] at hf ⊢
    exact ⟨convNode_width env hreg k x hx hf.1, convKids_width env hreg l m' hm hf.2⟩
end

/-! ## Fetch arguments -/

theorem hasDup_iff (l : List Str) : hasDup l = false ↔ l.Nodup := by
  induction l with
  | nil => simp [hasDup]
  | cons a l ih => simp [hasDup, ih]

theorem fetchArg_mem {args : List (Str × SFetch)} (h : (args.map (·.1)).Nodup) (n : Str) (v : SFetch) :
    fetchArg args n = some v ↔ (n, v) ∈ args := by
  induction args with
  | nil => simp [fetchArg]
  | cons a l ih =>
    obtain ⟨k, u⟩ := a
    simp only [List.map_cons, List.nodup_cons] at h
    unfold fetchArg
    split
    · rename_i hk
      subst hk
      simp only [Option.some.injEq, List.mem_cons, Prod.mk.injEq, true_and]
      constructor
      · rintro rfl; exact .inl rfl
      · rintro (rfl | hm)
        · rfl
        · exact absurd (List.mem_map_of_mem (f := (·.1)) hm) h.1
    · rename_i hk
      simp only [ih h.2, List.mem_cons, Prod.mk.injEq]
      constructor
      · exact .inr
      · rintro (⟨rfl, _⟩ | hm)
        · exact absurd rfl hk
        · exact hm

theorem fetchArg_perm {a b : List (Str × SFetch)} (hp : a.Perm b) (h : (a.map (·.1)).Nodup) (n : Str) :
    fetchArg a n = fetchArg b n := by
  apply Option.ext
  intro v
  rw [fetchArg_mem h, fetchArg_mem ((hp.map _).nodup_iff.mp h)]
  exact hp.mem_iff

end Verif
