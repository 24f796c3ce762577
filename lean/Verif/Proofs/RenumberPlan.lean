import Verif.Proofs.RenumberRel
/-!
# Plans with other anchors are written alike: declarations
-/

namespace Verif

set_option autoImplicit false

open StoreSpec UnrelSpec RenumSpec

/-- A call with the new numbers. -/
def renumOp (r : Renum) : Op → Op
  | .urn n a => .urn n (r.urn a)
  | .ext k u a n => .ext k (r.urn u) (r.on k a) n
  | .unmapped => .unmapped

theorem planOps_renum (r : Renum) (us : List (Nat × Str)) (ds : List Store.Decl) :
    planOps (us.map fun u => (r.urn u.1, u.2)) (ds.map r.decl) = (planOps us ds).map (renumOp r) := by
  unfold planOps
  rw [List.map_append, List.map_map, List.map_map, List.map_map, List.map_map]
  congr 1
  refine List.map_congr_left fun d _ => ?_
  cases d <;> rfl

theorem firstExt_op {r : Renum} (h : r.Sound) (l : List Op) (a : Nat) (k : Kind) :
    firstExt (l.map (renumOp r)) (r.on k a) k = (firstExt l a k).map fun p => (r.urn p.1, p.2) := by
  induction l with
  | nil => rfl
  | cons d l ih =>
    unfold firstExt at ih ⊢
    simp only [List.map_cons, List.findSome?_cons]
    cases d with
    | urn n b => simpa [renumOp] using ih
    | unmapped => simpa [renumOp] using ih
    | ext k' u b n =>
      simp only [renumOp]
      by_cases hk : k' = k
      · subst hk
        by_cases hb : b = a
        · subst hb
          simp only [and_self, if_true]
          cases legalName k' n with
          | none => simpa using ih
          | some m => simp
        · have : ¬ r.on k' b = r.on k' a := fun e => hb (h.inj _ _ _ e)
          simp only [this, hb, false_and, if_false]
          exact ih
      · simp only [hk, and_false, if_false]
        exact ih

theorem firstUrn_op {r : Renum} (h : r.Sound) (l : List Op) (a : Nat) :
    firstUrn (l.map (renumOp r)) (r.urn a) = firstUrn l a := by
  induction l with
  | nil => rfl
  | cons d l ih =>
    unfold firstUrn at ih ⊢
    simp only [List.map_cons, List.findSome?_cons]
    cases d with
    | urn n b =>
      simp only [renumOp]
      by_cases hb : b = a
      · simp [hb]
      · have : ¬ r.urn b = r.urn a := fun e => hb (h.urns _ _ e)
        simp only [this, hb, if_false]
        exact ih
    | unmapped => simpa [renumOp] using ih
    | ext k' u b n => simpa [renumOp] using ih

theorem firstExt_renum {r : Renum} (h : r.Sound) (ds : List Store.Decl) (a : Nat) (k : Kind) :
    firstExt (planOps [] (ds.map r.decl)) (r.on k a) k =
      (firstExt (planOps [] ds) a k).map fun p => (r.urn p.1, p.2) := by
  rw [← firstExt_op h, ← planOps_renum]
  rfl

theorem answer_op {r : Renum} (h : r.Sound) (past : List Op) (x : Op) :
    answer (past.map (renumOp r)) (renumOp r x) = none ↔ answer past x = none := by
  cases x with
  | unmapped => simp [renumOp, answer]
  | urn n a => simp [renumOp, answer, firstUrn_op h]
  | ext k u a n =>
    simp only [renumOp, answer, firstUrn_op h, firstExt_op h]
    cases legalName k n with
    | none => simp
    | some m => cases firstExt past a k <;> cases firstUrn past u <;> simp

theorem answers_op {r : Renum} (h : r.Sound) (l past : List Op) :
    answers (past.map (renumOp r)) (l.map (renumOp r)) = [] ↔ answers past l = [] := by
  induction l generalizing past with
  | nil => simp [answers]
  | cons x l ih =>
    have := ih (past ++ [x])
    simp only [List.map_append, List.map_cons, List.map_nil] at this
    simp only [List.map_cons, answers, List.append_eq_nil_iff, this, Option.toList_eq_nil_iff, answer_op h]

/-- The new declarations are as sound as the old ones. -/
theorem load_renum {r : Renum} (h : r.Sound) (us : List (Nat × Str)) (ds : List Store.Decl) :
    (Store.fromExtensions (us.map fun u => (r.urn u.1, u.2)) (ds.map r.decl)).2 = [] ↔
      (Store.fromExtensions us ds).2 = [] := by
  rw [Store.fromExtensions_spec, Store.fromExtensions_spec, planOps_renum]
  exact answers_op h _ []

/-- The declarations of the renumbered plan. -/
structure Renumbers (s s' : Store) (r : Renum) : Prop where
  sound : r.Sound
  keeps : ∀ k a u n, s.findByAnchor k a = .ok (u, n) → s'.findByAnchor k (r.on k a) = .ok (r.urn u, n)
  back : ∀ k b n, Declared s' k b n → ∃ a, b = r.on k a ∧ Declared s k a n

theorem renumbers_plan {r : Renum} (h : r.Sound) (us us' : List (Nat × Str)) (ds : List Store.Decl) :
    Renumbers (Store.fromExtensions us ds).1 (Store.fromExtensions us' (ds.map r.decl)).1 r where
  sound := h
  keeps k a u n hf := by
    rw [findByAnchor_plan] at hf ⊢
    rw [firstExt_renum h, hf]
    rfl
  back k b n hd := by
    obtain ⟨u, hu⟩ := hd
    rw [findByAnchor_plan] at hu
    obtain ⟨m, hm, _⟩ := firstExt_from hu
    obtain ⟨d, hd, he⟩ := List.mem_map.1 hm
    cases d with
    | none => cases he
    | some d =>
      obtain ⟨k', u', a, m'⟩ := d
      cases he
      refine ⟨a, rfl, ?_⟩
      rw [firstExt_renum h] at hu
      obtain ⟨p, hp, he⟩ := Option.map_eq_some_iff.1 hu
      obtain ⟨v, x⟩ := p
      have he : x = n := (Prod.mk.inj he).2
      rw [← he]
      exact ⟨v, (findByAnchor_plan ..).2 hp⟩

namespace Renumbers
variable {s s' : Store} {r : Renum}

theorem declared (w : Renumbers s s' r) {k : Kind} {a : Nat} {n : Str} (h : Declared s k a n) :
    Declared s' k (r.on k a) n := by
  obtain ⟨u, hu⟩ := h
  exact ⟨_, w.keeps k a u n hu⟩

theorem any_eq (w : Renumbers s s' r) (hs : s.Ordered) (hs' : s'.Ordered) (k : Kind) (a : Nat) (p : Str → Bool) :
    (s'.exts.any fun e => e.1.2 == k && e.1.1 != r.on k a && p e.2.2) =
      (s.exts.any fun e => e.1.2 == k && e.1.1 != a && p e.2.2) := by
  rw [Bool.eq_iff_iff, Store.any_other_iff hs', Store.any_other_iff hs]
  constructor
  · rintro ⟨b, m, hb, hm, hpm⟩
    obtain ⟨c, rfl, hc⟩ := w.back k b m hm
    exact ⟨c, m, fun e => hb (by rw [e]), hc, hpm⟩
  · rintro ⟨b, m, hb, hm, hpm⟩
    exact ⟨r.on k b, m, fun e => hb (w.sound.inj _ _ _ e), w.declared hm, hpm⟩

theorem lookup (w : Renumbers s s' r) (hs : s.Ordered) (hs' : s'.Ordered) {k : Kind} {a : Nat} {na : NamedAnchor}
    (h : NamedAnchor.lookup s k a = some na) :
    NamedAnchor.lookup s' k (r.on k a) = some { na with anchor := r.on k a } := by
  cases hf : s.findByAnchor k a with
  | error e =>
    exfalso
    unfold NamedAnchor.lookup at h
    split at h
    · rename_i hk
      subst hk
      simp [Store.lookupFunction, hf, bind, Except.bind] at h
    · rw [hf] at h; cases h
  | ok p =>
    obtain ⟨u, n⟩ := p
    have hd : Declared s k a n := ⟨u, hf⟩
    have hf' := w.keeps k a u n hf
    have hb := w.any_eq hs hs' k a (fun m => baseName m == baseName n)
    have hn := w.any_eq hs hs' k a (fun m => m == n)
    unfold NamedAnchor.lookup at h ⊢
    by_cases hk : k = .function
    · subst hk
      rw [if_pos rfl, Store.lookupFunction_ok hs hf] at h
      rw [if_pos rfl, Store.lookupFunction_ok hs' hf']
      dsimp only at h ⊢
      rw [hb, hn]
      cases h
      rfl
    · rw [if_neg hk, hf] at h
      rw [if_neg hk, hf']
      dsimp only at h ⊢
      rw [Store.isNameUnique_spec hs hd] at h
      rw [Store.isNameUnique_spec hs' (w.declared hd), hn]
      cases h
      rfl

end Renumbers

/-- Distinct names do not need their anchors. -/
theorem shownAnchor_distinct {us : List (Nat × Str)} {ds : List Store.Decl} (h : DistinctNames ds) {k : Kind} {a : Nat}
    {na : NamedAnchor} (hl : NamedAnchor.lookup (Store.fromExtensions us ds).1 k a = some na) :
    na.shownAnchor .required = none := by
  have hs := planStore_ordered us ds
  generalize hst : (Store.fromExtensions us ds).1 = s at hl hs
  have hdis : ∀ b m n, Declared s k a n → Declared s k b m → b ≠ a →
      n ≠ m ∧ (k = .function → ':' ∉ n → ¬ SameBase n m) := by
    rintro b m n ⟨u, hu⟩ ⟨v, hv⟩ hb
    rw [← hst, findByAnchor_plan] at hu hv
    obtain ⟨x, hx, hx'⟩ := firstExt_from hu
    obtain ⟨y, hy, hy'⟩ := firstExt_from hv
    exact h k u v a b x y n m hx hy hx' hy' (Ne.symm hb)
  cases hf : s.findByAnchor k a with
  | error e =>
    exfalso
    unfold NamedAnchor.lookup at hl
    split at hl
    · rename_i hk
      subst hk
      simp [Store.lookupFunction, hf, bind, Except.bind] at hl
    · rw [hf] at hl; cases hl
  | ok p =>
    obtain ⟨u, n⟩ := p
    have hd : Declared s k a n := ⟨u, hf⟩
    have hn : (s.exts.any fun e => e.1.2 == k && e.1.1 != a && e.2.2 == n) = false := by
      rw [Bool.eq_false_iff]
      intro ht
      obtain ⟨b, m, hb, hm, hp⟩ := (Store.any_other_iff hs k a (fun m => m == n)).1 ht
      exact (hdis b m n hd hm hb).1 (by simpa using hp : m = n).symm
    unfold NamedAnchor.lookup at hl
    by_cases hk : k = .function
    · subst hk
      rw [if_pos rfl, Store.lookupFunction_ok hs hf] at hl
      dsimp only at hl
      cases hl
      by_cases hc : ':' ∈ n
      · have : hasColon n = true := by simpa [hasColon] using hc
        simp [NamedAnchor.shownAnchor, hn, this]
      · have hb : (s.exts.any fun e => e.1.2 == .function && e.1.1 != a && baseName e.2.2 == baseName n) = false := by
          rw [Bool.eq_false_iff]
          intro ht
          obtain ⟨b, m, hb, hm, hp⟩ := (Store.any_other_iff hs .function a (fun m => baseName m == baseName n)).1 ht
          exact (hdis b m n hd hm hb).2 rfl hc ((sameBase_iff _ _).2 (by simpa using hp : baseName m = baseName n).symm)
        simp [NamedAnchor.shownAnchor, hn, hb]
    · rw [if_neg hk, hf] at hl
      dsimp only at hl
      rw [Store.isNameUnique_spec hs hd, hn] at hl
      cases hl
      simp [NamedAnchor.shownAnchor]

theorem showsAs_plan {r : Renum} (h : r.Sound) (o : Opts) (us us' : List (Nat × Str)) (ds : List Store.Decl)
    (hh : HidesAnchors o ds) :
    ShowsAs (Store.fromExtensions us ds).1 (Store.fromExtensions us' (ds.map r.decl)).1 o r where
  sound := h
  anchor k a := by
    intro he
    have w := renumbers_plan h us us' ds
    unfold textAnchor at he ⊢
    cases hl : NamedAnchor.lookup (Store.fromExtensions us ds).1 k a with
    | none => rw [hl] at he; simp at he
    | some na =>
      rw [w.lookup (planStore_ordered ..) (planStore_ordered ..) hl]
      have h1 : ∀ x, na.shownAnchor o.anchors = none ∧ ({ na with anchor := x } : NamedAnchor).shownAnchor o.anchors = none := by
        intro x
        rcases hh with hv | ⟨hv, hd⟩
        · rw [hv]; exact ⟨rfl, rfl⟩
        · rw [hv]
          have := shownAnchor_distinct hd hl
          refine ⟨this, ?_⟩
          unfold NamedAnchor.shownAnchor at this ⊢
          dsimp only at this ⊢
          split at this
          · cases this
          · rename_i hc; rw [if_neg hc]
      dsimp only
      rw [(h1 (r.on k a)).1, (h1 (r.on k a)).2]
      rfl

end Verif
