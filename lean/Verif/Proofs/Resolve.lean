import Verif.Proofs.Store

namespace Verif
open StoreSpec

theorem hasColon_iff (n : Str) : hasColon n = true ↔ ':' ∈ n := by
  simp [hasColon]

theorem baseName_append {p sig : Str} (h : ':' ∉ p) : baseName (p ++ ':' :: sig) = p := by
  unfold baseName
  rw [List.takeWhile_append_of_pos]
  · simp
  · intro c hc
    simp only [ne_eq, decide_not, Bool.not_eq_eq_eq_not, Bool.not_true, decide_eq_false_iff_not]
    intro h'; subst h'; exact h hc

theorem baseName_of_not_mem {p : Str} (h : ':' ∉ p) : baseName p = p := by
  induction p with
  | nil => rfl
  | cons c p ih =>
    simp only [List.mem_cons, not_or] at h
    have := ih h.2
    simp only [baseName, ne_eq, decide_not] at this
    simp [baseName, Ne.symm h.1, this]

theorem not_mem_baseName (n : Str) : ':' ∉ baseName n := by
  intro h
  have h2 : ∀ c ∈ n.takeWhile (· ≠ ':'), decide (c ≠ ':') = true := by
    intro c hc
    have := List.all_takeWhile (p := (fun c : Char => decide (c ≠ ':'))) (l := n)
    exact List.all_eq_true.1 this c hc
  have := h2 ':' h
  simp at this

theorem split_colon {n : Str} (h : ':' ∈ n) : ∃ sig, n = baseName n ++ ':' :: sig := by
  induction n with
  | nil => simp at h
  | cons c n ih =>
    by_cases hc : c = ':'
    · subst hc; exact ⟨n, by simp [baseName]⟩
    · have h' : ':' ∈ n := by
        rcases List.mem_cons.1 h with h | h
        · exact absurd h.symm hc
        · exact h
      obtain ⟨sig, hs⟩ := ih h'
      refine ⟨sig, ?_⟩
      have hb : baseName (c :: n) = c :: baseName n := by simp [baseName, hc]
      rw [hb, List.cons_append, ← hs]

theorem nameMatches_iff (stored written : Str) :
    nameMatches stored written = true ↔ SpelledBy stored written := by
  unfold nameMatches SpelledBy
  by_cases hw : ':' ∈ written
  · rw [if_pos ((hasColon_iff _).2 hw)]
    simp [hw]
  · rw [if_neg (by rw [hasColon_iff]; exact hw)]
    simp only [beq_iff_eq, hw, not_false_eq_true, true_and]
    constructor
    · intro h
      by_cases hs : ':' ∈ stored
      · obtain ⟨sig, hsig⟩ := split_colon hs
        exact Or.inr ⟨sig, by rw [← h]; exact hsig⟩
      · left; rw [← h]; exact (baseName_of_not_mem hs).symm
    · rintro (h | ⟨sig, h⟩)
      · rw [h]; exact baseName_of_not_mem hw
      · rw [h]; exact baseName_append hw

namespace Store

theorem findByAnchor_ok {s : Store} {k : Kind} {a : Nat} {p : Nat × Str} :
    s.findByAnchor k a = .ok p ↔ s.exts.find? (a, k) = some p := by
  unfold findByAnchor
  cases OMap.find? s.exts (a, k) <;> simp

theorem declared_iff {s : Store} (hs : s.Ordered) {k : Kind} {a : Nat} {n : Str} :
    Declared s k a n ↔ ∃ u, ((a, k), (u, n)) ∈ s.exts := by
  unfold Declared
  simp only [findByAnchor_ok, OMap.find?_iff hs.2]

theorem declared_unique {s : Store} {k : Kind} {a : Nat} {n n' : Str}
    (h : Declared s k a n) (h' : Declared s k a n') : n = n' := by
  obtain ⟨u, h⟩ := h
  obtain ⟨u', h'⟩ := h'
  rw [h] at h'; cases h'; rfl

/-- After the anchor has been seen, the loop only looks for another entry of that name. -/
theorem uniqueLoop_found (k : Kind) (a : Nat) (n : Str) (o : Bool)
    (m : OMap (Nat × Kind) (Nat × Str)) (h : ∀ e ∈ m, e.1 ≠ (a, k)) :
    uniqueLoop k a n true o m =
      some (true, o || m.any fun e => e.1.2 == k && e.2.2 == n) := by
  induction m generalizing o with
  | nil => simp [uniqueLoop]
  | cons e m ih =>
    obtain ⟨⟨b, l⟩, ⟨u, n'⟩⟩ := e
    have hrest : ∀ e ∈ m, e.1 ≠ (a, k) := fun e he => h e (List.mem_cons_of_mem _ he)
    have h0 := h _ List.mem_cons_self
    simp only [ne_eq, Prod.mk.injEq, not_and] at h0
    unfold uniqueLoop
    by_cases hl : l = k
    · subst hl
      have hba : b ≠ a := fun hba => h0 hba rfl
      rw [if_neg (by simp), if_neg hba]
      by_cases hn : n' = n
      · subst hn; simp
      · rw [if_pos hn, ih _ hrest]; simp [beq_eq_false_iff_ne.2 hn]
    · rw [if_pos hl, ih _ hrest]; simp [beq_eq_false_iff_ne.2 hl]

theorem uniqueLoop_spec (k : Kind) (a : Nat) (n : Str) (u : Nat) (o : Bool)
    (m : OMap (Nat × Kind) (Nat × Str)) (hs : OMap.Sorted m) (hm : ((a, k), (u, n)) ∈ m) :
    uniqueLoop k a n false o m =
      some (true, o || m.any fun e => e.1.2 == k && e.1.1 != a && e.2.2 == n) := by
  induction m generalizing o with
  | nil => simp at hm
  | cons e m ih =>
    obtain ⟨⟨b, l⟩, ⟨v, n'⟩⟩ := e
    have hp := List.pairwise_cons.1 hs
    unfold uniqueLoop
    by_cases he : b = a ∧ l = k
    · obtain ⟨rfl, rfl⟩ := he
      have hne : ∀ e ∈ m, e.1 ≠ (b, l) := by
        intro e he h
        have h1 := hp.1 e he
        rw [h] at h1
        exact Nat.lt_irrefl _ h1
      have hn : n' = n := by
        rcases List.mem_cons.1 hm with h | h
        · cases h; rfl
        · exact absurd rfl (hne _ h)
      subst hn
      rw [if_neg (by simp), if_pos rfl, if_neg (by simp), uniqueLoop_found _ _ _ _ _ hne]
      have hcong : (m.any fun e => e.1.2 == l && e.2.2 == n') =
          (m.any fun e => e.1.2 == l && e.1.1 != b && e.2.2 == n') := by
        rw [Bool.eq_iff_iff]
        simp only [List.any_eq_true, Bool.and_eq_true, beq_iff_eq, bne_iff_ne]
        constructor
        · rintro ⟨e, he, h1, h2⟩
          refine ⟨e, he, ⟨h1, ?_⟩, h2⟩
          intro h3
          exact hne e he (by rw [← h1, ← h3])
        · rintro ⟨e, he, ⟨h1, _⟩, h2⟩
          exact ⟨e, he, h1, h2⟩
      rw [hcong]
      simp
    · have hm' : ((a, k), (u, n)) ∈ m := by
        rcases List.mem_cons.1 hm with h | h
        · cases h; exact absurd ⟨rfl, rfl⟩ he
        · exact h
      by_cases hl : l = k
      · subst hl
        have hba : b ≠ a := fun h => he ⟨h, rfl⟩
        rw [if_neg (by simp), if_neg hba]
        by_cases hn : n' = n
        · subst hn
          rw [if_neg (by simp), if_neg (by simp), ih _ hp.2 hm']
          simp [hba]
        · rw [if_pos hn, ih _ hp.2 hm']; simp [beq_eq_false_iff_ne.2 hn]
      · rw [if_pos hl, ih _ hp.2 hm']; simp [beq_eq_false_iff_ne.2 hl]

theorem isNameUnique_spec {s : Store} (hs : s.Ordered) {k : Kind} {a : Nat} {n : Str}
    (h : Declared s k a n) :
    s.isNameUnique k a n =
      .ok !(s.exts.any fun e => e.1.2 == k && e.1.1 != a && e.2.2 == n) := by
  obtain ⟨u, hu⟩ := (declared_iff hs).1 h
  unfold isNameUnique
  rw [uniqueLoop_spec k a n u false s.exts hs.2 hu]
  simp only [Bool.false_or]
  generalize s.exts.any (fun e => e.1.2 == k && e.1.1 != a && e.2.2 == n) = b
  cases b <;> rfl

theorem any_other_iff {s : Store} (hs : s.Ordered) (k : Kind) (a : Nat) (p : Str → Bool) :
    (s.exts.any fun e => e.1.2 == k && e.1.1 != a && p e.2.2) = true ↔
      ∃ b n, b ≠ a ∧ Declared s k b n ∧ p n = true := by
  simp only [List.any_eq_true, Bool.and_eq_true, beq_iff_eq, bne_iff_ne, declared_iff hs]
  constructor
  · rintro ⟨⟨⟨b, l⟩, ⟨u, n⟩⟩, he, ⟨h1, h2⟩, h3⟩
    simp only at h1 h2 h3
    subst h1
    exact ⟨b, n, h2, ⟨u, he⟩, h3⟩
  · rintro ⟨b, n, hb, ⟨u, he⟩, hp⟩
    exact ⟨((b, k), (u, n)), he, ⟨rfl, hb⟩, hp⟩

/-- Exactly one declared entry of kind `k` satisfies `p` and it is `a`. -/
theorem exactlyOne_filter {s : Store} (hs : s.Ordered) (k : Kind) (p : Str → Bool) (nm : Str) (a : Nat) :
    exactlyOne k nm ((s.exts.filter fun e => e.1.2 == k && p e.2.2).map (·.1.1)) = .ok a ↔
      (∃ n, Declared s k a n ∧ p n = true) ∧
      ∀ b n, Declared s k b n → p n = true → b = a := by
  have hmem : ∀ b, b ∈ ((s.exts.filter fun e => e.1.2 == k && p e.2.2).map (·.1.1)) ↔
      ∃ n, Declared s k b n ∧ p n = true := by
    intro b
    simp only [List.mem_map, List.mem_filter, Bool.and_eq_true, beq_iff_eq, declared_iff hs]
    constructor
    · rintro ⟨⟨⟨b', l⟩, ⟨u, n⟩⟩, ⟨he, h1, h2⟩, h3⟩
      simp only at h1 h2 h3
      subst h1; subst h3
      exact ⟨n, ⟨u, he⟩, h2⟩
    · rintro ⟨n, ⟨u, he⟩, hp⟩
      exact ⟨((b, k), (u, n)), ⟨he, rfl, hp⟩, rfl⟩
  have hnd : ((s.exts.filter fun e => e.1.2 == k && p e.2.2).map (·.1.1)).Nodup := by
    unfold List.Nodup
    rw [List.pairwise_map]
    have h1 := List.Pairwise.filter (fun e => e.1.2 == k && p e.2.2) hs.2
    refine List.Pairwise.imp_of_mem ?_ h1
    intro e e' he he' hlt heq
    have hk := (List.mem_filter.1 he).2
    have hk' := (List.mem_filter.1 he').2
    simp only [Bool.and_eq_true, beq_iff_eq] at hk hk'
    have : e.1 = e'.1 := by
      obtain ⟨⟨b, l⟩, _⟩ := e
      obtain ⟨⟨b', l'⟩, _⟩ := e'
      simp only at hk hk' heq
      rw [hk.1, hk'.1, heq]
    rw [this] at hlt
    exact Nat.lt_irrefl _ hlt
  generalize ((s.exts.filter fun e => e.1.2 == k && p e.2.2).map (·.1.1)) = l at hmem hnd
  match l, hmem, hnd with
  | [], hmem, _ =>
    simp only [exactlyOne, reduceCtorEq, false_iff, not_and]
    intro h
    exact absurd ((hmem a).2 h) (by simp)
  | [b], hmem, _ =>
    simp only [exactlyOne, Except.ok.injEq]
    constructor
    · intro h; subst h
      refine ⟨(hmem b).1 (by simp), ?_⟩
      intro c n hc hp
      have := (hmem c).2 ⟨n, hc, hp⟩
      simpa using this
    · rintro ⟨_, h⟩
      obtain ⟨n, hc, hp⟩ := (hmem b).1 (by simp)
      exact h b n hc hp
  | b :: c :: l, hmem, hnd =>
    simp only [exactlyOne, reduceCtorEq, false_iff, not_and, Classical.not_forall]
    intro _
    apply Classical.byContradiction
    intro hno
    have hall : ∀ d, (∃ n, Declared s k d n ∧ p n = true) → d = a := by
      rintro d ⟨n, hd, hp⟩
      apply Classical.byContradiction
      intro hda
      exact hno ⟨d, n, hd, hp, hda⟩
    have hb := hall b ((hmem b).1 (by simp))
    have hc := hall c ((hmem c).1 (by simp))
    rw [hb, hc] at hnd
    simp at hnd

theorem findByName_ok {s : Store} (hs : s.Ordered) (k : Kind) (nm : Str) (a : Nat) :
    s.findByName k nm = .ok a ↔ Declared s k a nm ∧ ∀ b, Declared s k b nm → b = a := by
  unfold findByName
  rw [exactlyOne_filter hs k (fun n => n == nm)]
  simp only [beq_iff_eq]
  constructor
  · rintro ⟨⟨n, h, rfl⟩, h2⟩; exact ⟨h, fun b hb => h2 b _ hb rfl⟩
  · rintro ⟨h, h2⟩; exact ⟨⟨nm, h, rfl⟩, fun b n hb hn => h2 b (hn ▸ hb)⟩

theorem findByBaseName_ok {s : Store} (hs : s.Ordered) (k : Kind) (nm : Str) (a : Nat) :
    s.findByBaseName k nm = .ok a ↔
      (∃ n, Declared s k a n ∧ SpelledBy n nm) ∧
      ∀ b n, Declared s k b n → SpelledBy n nm → b = a := by
  unfold findByBaseName
  rw [exactlyOne_filter hs k (fun n => nameMatches n nm)]
  simp only [nameMatches_iff]

/-- Every declared function can be looked up, with the flags meaning what they say. -/
theorem lookupFunction_ok {s : Store} (hs : s.Ordered) {a : Nat} {u : Nat} {n : Str}
    (h : s.findByAnchor .function a = .ok (u, n)) :
    s.lookupFunction a = .ok
      { anchor := a, urn := u, name := n,
        baseNameUnique := !(s.exts.any fun e => e.1.2 == .function && e.1.1 != a && baseName e.2.2 == baseName n),
        nameUnique := !(s.exts.any fun e => e.1.2 == .function && e.1.1 != a && e.2.2 == n) } := by
  unfold lookupFunction
  rw [h]
  simp only [bind, Except.bind, pure, Except.pure]
  rw [isNameUnique_spec hs ⟨u, h⟩]
  simp only [isBaseNameUnique, h]

theorem resolveFunction_anchor {s : Store} (hs : s.Ordered) (nm : Str) (x : Option Nat) (a : Nat) :
    (∃ r, s.resolveFunction nm x = .ok r ∧ r.anchor = a) ↔ s.resolveAnchor nm x = .ok a := by
  unfold resolveFunction
  constructor
  · rintro ⟨r, h, rfl⟩
    split at h
    · cases h
    · rename_i b hb
      rw [hb]
      unfold lookupFunction at h
      simp only [bind, Except.bind, pure, Except.pure] at h
      split at h
      · cases h
      · split at h
        · cases h
        · split at h
          · cases h
          · cases h; rfl
  · intro h
    rw [h]
    have hd : ∃ u n, s.findByAnchor .function a = .ok (u, n) := by
      unfold resolveAnchor at h
      split at h
      · split at h
        · cases h
        · rename_i hx
          split at h
          · cases h; exact ⟨_, _, hx⟩
          · cases h
      · split at h
        · obtain ⟨⟨u, hu⟩, _⟩ := (findByName_ok hs _ _ _).1 h
          exact ⟨u, _, hu⟩
        · obtain ⟨⟨n, ⟨u, hu⟩, _⟩, _⟩ := (findByBaseName_ok hs _ _ _).1 h
          exact ⟨u, _, hu⟩
    obtain ⟨u, n, hun⟩ := hd
    exact ⟨_, lookupFunction_ok hs hun, rfl⟩

theorem resolveAnchor_iff {s : Store} (hs : s.Ordered) (nm : Str) (x : Option Nat) (a : Nat) :
    s.resolveAnchor nm x = .ok a ↔ Means s nm x a := by
  unfold resolveAnchor Means
  cases x with
  | some b =>
    dsimp only
    constructor
    · intro h
      split at h
      · cases h
      · rename_i u n hx
        split at h
        · rename_i hm
          cases h
          exact ⟨⟨n, ⟨u, hx⟩, (nameMatches_iff _ _).1 hm⟩, rfl⟩
        · cases h
    · rintro ⟨⟨n, ⟨u, hu⟩, hsp⟩, rfl⟩
      rw [hu]
      simp only
      rw [if_pos ((nameMatches_iff _ _).2 hsp)]
  | none =>
    dsimp only
    by_cases hc : ':' ∈ nm
    · rw [if_pos ((hasColon_iff _).2 hc), findByName_ok hs]
      have hsp : ∀ n, SpelledBy n nm ↔ n = nm := by
        intro n; simp [SpelledBy, hc]
      constructor
      · rintro ⟨h, h2⟩
        exact ⟨⟨nm, h, (hsp _).2 rfl⟩, fun b n hb hn => h2 b ((hsp n).1 hn ▸ hb)⟩
      · rintro ⟨⟨n, h, hn⟩, h2⟩
        have := (hsp n).1 hn; subst this
        exact ⟨h, fun b hb => h2 b _ hb ((hsp _).2 rfl)⟩
    · rw [if_neg (by rw [hasColon_iff]; exact hc), findByBaseName_ok hs]

theorem getAndValidate_function {s : Store} (hs : s.Ordered) (nm : Str) (x : Option Nat) (a : Nat) :
    s.getAndValidateAnchor .function x nm = .ok a ↔ Means s nm x a := by
  rw [← resolveAnchor_iff hs, ← resolveFunction_anchor hs]
  unfold getAndValidateAnchor
  rw [if_pos rfl]
  cases s.resolveFunction nm x with
  | error e => simp
  | ok r => simp

/-! ## Reasons -/

/-- Why no single entry of kind `k` satisfies `p`. -/
theorem exactlyOne_filter_err {s : Store} (hs : s.Ordered) (k : Kind) (p : Str → Bool) (nm : Str) (e : MissingReference) :
    exactlyOne k nm ((s.exts.filter fun e => e.1.2 == k && p e.2.2).map (·.1.1)) = .error e ↔
      (e = .missingName k nm ∧ ∀ b n, Declared s k b n → p n = false) ∨
      (e = .duplicateName k nm ∧ ∃ a b n m, a ≠ b ∧ Declared s k a n ∧ p n = true ∧ Declared s k b m ∧ p m = true) := by
  have hok := exactlyOne_filter hs k p nm
  have hmem : ∀ b, b ∈ ((s.exts.filter fun e => e.1.2 == k && p e.2.2).map (·.1.1)) ↔
      ∃ n, Declared s k b n ∧ p n = true := by
    intro b
    simp only [List.mem_map, List.mem_filter, Bool.and_eq_true, beq_iff_eq, declared_iff hs]
    constructor
    · rintro ⟨⟨⟨b', l⟩, ⟨u, n⟩⟩, ⟨he, h1, h2⟩, h3⟩
      simp only at h1 h2 h3
      subst h1; subst h3
      exact ⟨n, ⟨u, he⟩, h2⟩
    · rintro ⟨n, ⟨u, he⟩, hp⟩
      exact ⟨((b, k), (u, n)), ⟨he, rfl, hp⟩, rfl⟩
  generalize ((s.exts.filter fun e => e.1.2 == k && p e.2.2).map (·.1.1)) = l at hmem hok
  have two : ∀ (a b : Nat) (n m : Str), a ≠ b → Declared s k a n → p n = true → Declared s k b m → p m = true → ∀ c, l ≠ [c] := by
    intro a b n m hab ha hn hb hm c hl
    have h1 := (hmem a).2 ⟨n, ha, hn⟩
    have h2 := (hmem b).2 ⟨m, hb, hm⟩
    rw [hl] at h1 h2
    exact hab ((List.mem_singleton.1 h1).trans (List.mem_singleton.1 h2).symm)
  match l, hmem, hok, two with
  | [], hmem, _, _ =>
    simp only [exactlyOne, Except.error.injEq]
    have hno : ∀ b n, Declared s k b n → p n = false := by
      intro b n hb
      cases hp : p n with
      | false => rfl
      | true => exact absurd ((hmem b).2 ⟨n, hb, hp⟩) (by simp)
    constructor
    · intro h; exact .inl ⟨h.symm, hno⟩
    · rintro (⟨h, -⟩ | ⟨-, a, -, n, -, -, ha, hn, -⟩)
      · exact h.symm
      · rw [hno a n ha] at hn; cases hn
  | [b], hmem, _, two =>
    simp only [exactlyOne, reduceCtorEq, false_iff]
    rintro (⟨-, h⟩ | ⟨-, a, c, n, m, hac, ha, hn, hc, hm⟩)
    · obtain ⟨n, hb, hp⟩ := (hmem b).1 (by simp)
      rw [h b n hb] at hp; cases hp
    · exact two a c n m hac ha hn hc hm b rfl
  | b :: c :: l, hmem, hok, _ =>
    simp only [exactlyOne, Except.error.injEq]
    obtain ⟨n, hb, hp⟩ := (hmem b).1 (by simp)
    constructor
    · intro h
      refine .inr ⟨h.symm, ?_⟩
      have hnot : ¬ ((∃ n, Declared s k b n ∧ p n = true) ∧ ∀ d n, Declared s k d n → p n = true → d = b) := by
        rw [← hok b]
        simp [exactlyOne]
      apply Classical.byContradiction
      intro hno
      refine hnot ⟨⟨n, hb, hp⟩, fun d m hd hm => ?_⟩
      apply Classical.byContradiction
      intro hdb
      exact hno ⟨d, b, m, n, hdb, hd, hm, hb, hp⟩
    · rintro (⟨-, h⟩ | ⟨h, -⟩)
      · rw [h b n hb] at hp; cases hp
      · exact h.symm

theorem findByAnchor_err {s : Store} {k : Kind} {a : Nat} {e : MissingReference} :
    s.findByAnchor k a = .error e ↔ e = .missingAnchor k a ∧ ∀ n, ¬ Declared s k a n := by
  unfold Declared findByAnchor
  cases h : OMap.find? s.exts (a, k) with
  | none => simp [eq_comm]
  | some p => obtain ⟨u, n⟩ := p; simp

theorem findByName_err {s : Store} (hs : s.Ordered) (k : Kind) (nm : Str) (e : MissingReference) :
    s.findByName k nm = .error e ↔ (e = .missingName k nm ∧ ∀ b, ¬ Declared s k b nm) ∨
      (e = .duplicateName k nm ∧ ∃ a b, a ≠ b ∧ Declared s k a nm ∧ Declared s k b nm) := by
  unfold findByName
  rw [exactlyOne_filter_err hs k (fun n => n == nm)]
  simp only [beq_iff_eq, beq_eq_false_iff_ne]
  constructor
  · rintro (⟨h, h2⟩ | ⟨h, a, b, n, m, hab, ha, rfl, hb, rfl⟩)
    · exact .inl ⟨h, fun b hb => h2 b nm hb rfl⟩
    · exact .inr ⟨h, a, b, hab, ha, hb⟩
  · rintro (⟨h, h2⟩ | ⟨h, a, b, hab, ha, hb⟩)
    · exact .inl ⟨h, fun b n hb hn => h2 b (hn ▸ hb)⟩
    · exact .inr ⟨h, a, b, nm, nm, hab, ha, rfl, hb, rfl⟩

theorem resolveAnchor_err {s : Store} (hs : s.Ordered) (nm : Str) (x : Option Nat) (e : MissingReference) :
    s.resolveAnchor nm x = .error e ↔ match x with
      | some a => (e = .missingAnchor .function a ∧ ∀ n, ¬ Declared s .function a n) ∨
          (e = .mismatched .function nm a ∧ ∃ n, Declared s .function a n ∧ ¬ SpelledBy n nm)
      | none => (e = .missingName .function nm ∧ ∀ b n, Declared s .function b n → ¬ SpelledBy n nm) ∨
          (e = .duplicateName .function nm ∧ ∃ a b n m, a ≠ b ∧ Declared s .function a n ∧ SpelledBy n nm ∧
            Declared s .function b m ∧ SpelledBy m nm) := by
  unfold resolveAnchor
  cases x with
  | some a =>
    dsimp only
    cases hf : s.findByAnchor .function a with
    | error e' =>
      obtain ⟨rfl, hno⟩ := findByAnchor_err.1 hf
      simp only [Except.error.injEq]
      constructor
      · intro h; exact .inl ⟨h.symm, hno⟩
      · rintro (⟨h, -⟩ | ⟨-, n, hn, -⟩)
        · exact h.symm
        · exact absurd hn (hno n)
    | ok p =>
      obtain ⟨u, n⟩ := p
      have hd : Declared s .function a n := ⟨u, hf⟩
      dsimp only
      by_cases hm : nameMatches n nm
      · rw [if_pos hm]
        simp only [reduceCtorEq, false_iff]
        rintro (⟨-, h⟩ | ⟨-, m, hm', h⟩)
        · exact h n hd
        · rw [declared_unique hm' hd] at h
          exact h ((nameMatches_iff _ _).1 hm)
      · rw [if_neg hm]
        simp only [Except.error.injEq]
        constructor
        · intro h; exact .inr ⟨h.symm, n, hd, fun h => hm ((nameMatches_iff _ _).2 h)⟩
        · rintro (⟨-, h⟩ | ⟨h, -⟩)
          · exact absurd hd (h n)
          · exact h.symm
  | none =>
    dsimp only
    by_cases hc : ':' ∈ nm
    · rw [if_pos ((hasColon_iff _).2 hc), findByName_err hs]
      have hsp : ∀ n, SpelledBy n nm ↔ n = nm := by
        intro n; simp [SpelledBy, hc]
      simp only [hsp]
      constructor
      · rintro (⟨h, h2⟩ | ⟨h, a, b, hab, ha, hb⟩)
        · exact .inl ⟨h, fun b n hb hn => h2 b (hn ▸ hb)⟩
        · exact .inr ⟨h, a, b, nm, nm, hab, ha, rfl, hb, rfl⟩
      · rintro (⟨h, h2⟩ | ⟨h, a, b, n, m, hab, ha, rfl, hb, rfl⟩)
        · exact .inl ⟨h, fun b hb => h2 b nm hb rfl⟩
        · exact .inr ⟨h, a, b, hab, ha, hb⟩
    · rw [if_neg (by rw [hasColon_iff]; exact hc)]
      unfold findByBaseName
      rw [exactlyOne_filter_err hs .function (fun n => nameMatches n nm)]
      simp only [← nameMatches_iff, Bool.not_eq_true]

theorem getAndValidate_function_err {s : Store} (hs : s.Ordered) (nm : Str) (x : Option Nat) (e : MissingReference) :
    s.getAndValidateAnchor .function x nm = .error e ↔ s.resolveAnchor nm x = .error e := by
  unfold getAndValidateAnchor
  rw [if_pos rfl]
  unfold resolveFunction
  cases hr : s.resolveAnchor nm x with
  | error e' => simp
  | ok a =>
    obtain ⟨r, h1, h2⟩ := (resolveFunction_anchor hs nm x a).2 hr
    unfold resolveFunction at h1
    rw [hr] at h1
    dsimp only at h1 ⊢
    rw [h1]
    simp

theorem typeMatches_iff (stored nm : Str) :
    (stored == nm || baseName stored == nm) = true ↔ stored = nm ∨ BareName stored nm := by
  simp only [Bool.or_eq_true, beq_iff_eq]
  constructor
  · rintro (h | h)
    · exact .inl h
    · right
      subst h
      refine ⟨not_mem_baseName _, ?_⟩
      by_cases hc : ':' ∈ stored
      · obtain ⟨sig, hs⟩ := split_colon hc
        exact .inr ⟨sig, hs⟩
      · exact .inl (baseName_of_not_mem hc).symm
  · rintro (h | ⟨h, rfl | ⟨sig, rfl⟩⟩)
    · exact .inl h
    · exact .inl rfl
    · exact .inr (baseName_append h)

theorem getAndValidate_type {s : Store} (hs : s.Ordered) (k : Kind) (hk : k ≠ .function) (nm : Str) (x : Option Nat) (a : Nat) :
    s.getAndValidateAnchor k x nm = .ok a ↔ match x with
      | some b => b = a ∧ ∃ n, Declared s k a n ∧ (n = nm ∨ BareName n nm)
      | none => Declared s k a nm ∧ ∀ b, Declared s k b nm → b = a := by
  unfold getAndValidateAnchor
  rw [if_neg hk]
  cases x with
  | none => exact findByName_ok hs k nm a
  | some b =>
    dsimp only
    cases hf : s.findByAnchor k b with
    | error e =>
      obtain ⟨-, hno⟩ := findByAnchor_err.1 hf
      simp only [reduceCtorEq, false_iff]
      rintro ⟨rfl, n, hn, -⟩
      exact hno n hn
    | ok p =>
      obtain ⟨u, n⟩ := p
      have hd : Declared s k b n := ⟨u, hf⟩
      dsimp only
      by_cases hm : (n == nm || baseName n == nm) = true
      · rw [if_pos hm]
        simp only [Except.ok.injEq]
        constructor
        · rintro rfl
          exact ⟨rfl, n, hd, (typeMatches_iff _ _).1 hm⟩
        · rintro ⟨h, -⟩; exact h
      · rw [if_neg hm]
        simp only [reduceCtorEq, false_iff]
        rintro ⟨rfl, m, hm', h⟩
        rw [declared_unique hm' hd] at h
        exact hm ((typeMatches_iff _ _).2 h)

theorem getAndValidate_type_err {s : Store} (hs : s.Ordered) (k : Kind) (hk : k ≠ .function) (nm : Str) (x : Option Nat)
    (e : MissingReference) :
    s.getAndValidateAnchor k x nm = .error e ↔ match x with
      | some a => (e = .missingAnchor k a ∧ ∀ n, ¬ Declared s k a n) ∨
          (e = .mismatched k nm a ∧ ∃ n, Declared s k a n ∧ ¬ (n = nm ∨ BareName n nm))
      | none => (e = .missingName k nm ∧ ∀ b, ¬ Declared s k b nm) ∨
          (e = .duplicateName k nm ∧ ∃ a b, a ≠ b ∧ Declared s k a nm ∧ Declared s k b nm) := by
  unfold getAndValidateAnchor
  rw [if_neg hk]
  cases x with
  | none => exact findByName_err hs k nm e
  | some a =>
    dsimp only
    cases hf : s.findByAnchor k a with
    | error e' =>
      obtain ⟨rfl, hno⟩ := findByAnchor_err.1 hf
      simp only [Except.error.injEq]
      constructor
      · intro h; exact .inl ⟨h.symm, hno⟩
      · rintro (⟨h, -⟩ | ⟨-, n, hn, -⟩)
        · exact h.symm
        · exact absurd hn (hno n)
    | ok p =>
      obtain ⟨u, n⟩ := p
      have hd : Declared s k a n := ⟨u, hf⟩
      dsimp only
      by_cases hm : (n == nm || baseName n == nm) = true
      · rw [if_pos hm]
        simp only [reduceCtorEq, false_iff]
        rintro (⟨-, h⟩ | ⟨-, m, hm', h⟩)
        · exact h n hd
        · rw [declared_unique hm' hd] at h
          exact h ((typeMatches_iff _ _).1 hm)
      · rw [if_neg hm]
        simp only [Except.error.injEq]
        constructor
        · intro h; exact .inr ⟨h.symm, n, hd, fun h => hm ((typeMatches_iff _ _).2 h)⟩
        · rintro (⟨-, h⟩ | ⟨h, -⟩)
          · exact absurd hd (h n)
          · exact h.symm

end Store
end Verif
