import Verif.Model.OMap

namespace Verif.OMap
variable {κ α : Type} [Key κ]

theorem rank_inj {a b : κ} (h : Key.rank a = Key.rank b) : a = b := Key.inj a b h

theorem mem_insertNew {m : OMap κ α} {k : κ} {v : α} {e : κ × α} :
    e ∈ insertNew m k v → e = (k, v) ∨ e ∈ m := by
  fun_induction insertNew m k v with
  | case1 => simp
  | case2 => simp
  | case3 => intro h; exact Or.inr h
  | case4 k' v' rest _ _ ih =>
    intro h
    rcases List.mem_cons.1 h with h | h
    · subst h; exact Or.inr (List.mem_cons_self)
    · rcases ih h with h | h
      · exact Or.inl h
      · exact Or.inr (List.mem_cons_of_mem _ h)

theorem mem_insertNew_of_mem {m : OMap κ α} {k : κ} {v : α} {e : κ × α} (h : e ∈ m) :
    e ∈ insertNew m k v := by
  fun_induction insertNew m k v with
  | case1 => simp at h
  | case2 => exact List.mem_cons_of_mem _ h
  | case3 => exact h
  | case4 k' v' rest _ _ ih =>
    rcases List.mem_cons.1 h with h | h
    · subst h; exact List.mem_cons_self
    · exact List.mem_cons_of_mem _ (ih h)

theorem sorted_insertNew {m : OMap κ α} {k : κ} {v : α} (h : Sorted m) :
    Sorted (insertNew m k v) := by
  fun_induction insertNew m k v with
  | case1 => simp [Sorted]
  | case2 k' v' rest hlt =>
    unfold Sorted at *
    refine List.pairwise_cons.2 ⟨?_, h⟩
    intro b hb
    rcases List.mem_cons.1 hb with hb | hb
    · subst hb; exact hlt
    · exact Nat.lt_trans hlt ((List.pairwise_cons.1 h).1 b hb)
  | case3 => exact h
  | case4 k' v' rest h1 h2 ih =>
    unfold Sorted at *
    have hp := List.pairwise_cons.1 h
    refine List.pairwise_cons.2 ⟨?_, ih hp.2⟩
    intro b hb
    rcases mem_insertNew hb with hb | hb
    · subst hb; simp only; omega
    · exact hp.1 b hb

theorem find?_insertNew {m : OMap κ α} {k k' : κ} {v : α} (hs : Sorted m) :
    find? (insertNew m k v) k' =
      match find? m k' with
      | some x => some x
      | none => if Key.rank k = Key.rank k' then some v else none := by
  fun_induction insertNew m k v with
  | case1 => simp [find?]
  | case2 a b rest hlt =>
    by_cases hk : Key.rank k = Key.rank k'
    · have : ∀ (l : OMap κ α), (∀ e ∈ l, Key.rank k < Key.rank e.1) → find? l k' = none := by
        intro l; induction l with
        | nil => intro _; rfl
        | cons e l ih =>
          intro h
          have h1 := h e List.mem_cons_self
          simp only [find?]
          rw [if_neg (by omega)]
          exact ih fun e he => h e (List.mem_cons_of_mem _ he)
      have hn : find? ((a, b) :: rest) k' = none := by
        apply this
        intro e he
        rcases List.mem_cons.1 he with he | he
        · subst he; exact hlt
        · exact Nat.lt_trans hlt ((List.pairwise_cons.1 hs).1 e he)
      rw [hn]; simp [find?, hk]
    · simp only [find?, hk, if_false]
      generalize (if Key.rank a = Key.rank k' then some b else find? rest k') = o
      cases o <;> rfl
  | case3 a b rest h1 h2 =>
    simp only [find?]
    by_cases hk : Key.rank a = Key.rank k'
    · simp [hk]
    · rw [if_neg hk]
      have hk2 : ¬ Key.rank k = Key.rank k' := by omega
      simp only [hk2, if_false]
      generalize find? rest k' = o
      cases o <;> rfl
  | case4 a b rest h1 h2 ih =>
    simp only [find?]
    by_cases hk : Key.rank a = Key.rank k'
    · simp [hk]
    · simp only [hk, if_false]
      exact ih (List.pairwise_cons.1 hs).2

theorem find?_mem {m : OMap κ α} {k : κ} {v : α} (h : find? m k = some v) : (k, v) ∈ m := by
  induction m with
  | nil => simp [find?] at h
  | cons e m ih =>
    obtain ⟨a, b⟩ := e
    simp only [find?] at h
    by_cases hk : Key.rank a = Key.rank k
    · rw [if_pos hk] at h
      have := rank_inj hk
      simp_all
    · rw [if_neg hk] at h
      exact List.mem_cons_of_mem _ (ih h)

theorem mem_find? {m : OMap κ α} (hs : Sorted m) {k : κ} {v : α} (h : (k, v) ∈ m) :
    find? m k = some v := by
  induction m with
  | nil => simp at h
  | cons e m ih =>
    obtain ⟨a, b⟩ := e
    have hp := List.pairwise_cons.1 hs
    rcases List.mem_cons.1 h with h | h
    · cases h; simp [find?]
    · have := hp.1 _ h
      simp only at this
      simp only [find?]
      rw [if_neg (by omega)]
      exact ih hp.2 h

theorem find?_iff {m : OMap κ α} (hs : Sorted m) {k : κ} {v : α} :
    find? m k = some v ↔ (k, v) ∈ m := ⟨find?_mem, mem_find? hs⟩

/-- Two sorted maps with the same entries are equal. -/
theorem sorted_ext {m m' : OMap κ α} (hs : Sorted m) (hs' : Sorted m')
    (h : ∀ e, e ∈ m ↔ e ∈ m') : m = m' := by
  induction m generalizing m' with
  | nil =>
    cases m' with
    | nil => rfl
    | cons e m' => exact absurd ((h e).2 List.mem_cons_self) (by simp)
  | cons e m ih =>
    cases m' with
    | nil => exact absurd ((h e).1 List.mem_cons_self) (by simp)
    | cons e' m' =>
      have hp := List.pairwise_cons.1 hs
      have hp' := List.pairwise_cons.1 hs'
      have he : e = e' := by
        rcases List.mem_cons.1 ((h e).1 List.mem_cons_self) with h1 | h1
        · exact h1
        · rcases List.mem_cons.1 ((h e').2 List.mem_cons_self) with h2 | h2
          · exact h2.symm
          · have := hp'.1 _ h1
            have := hp.1 _ h2
            omega
      subst he
      congr 1
      apply ih hp.2 hp'.2
      intro x
      constructor
      · intro hx
        rcases List.mem_cons.1 ((h x).1 (List.mem_cons_of_mem _ hx)) with h1 | h1
        · subst h1; have := hp.1 _ hx; omega
        · exact h1
      · intro hx
        rcases List.mem_cons.1 ((h x).2 (List.mem_cons_of_mem _ hx)) with h1 | h1
        · subst h1; have := hp'.1 _ hx; omega
        · exact h1

/-- Maps that agree on every lookup are equal. -/
theorem find?_ext {m m' : OMap κ α} (hs : Sorted m) (hs' : Sorted m')
    (h : ∀ k, find? m k = find? m' k) : m = m' := by
  apply sorted_ext hs hs'
  rintro ⟨k, v⟩
  rw [← find?_iff hs, ← find?_iff hs', h k]

/-- Appending a key larger than every present key. -/
theorem insertNew_last {m : OMap κ α} {k : κ} {v : α}
    (h : ∀ e ∈ m, Key.rank e.1 < Key.rank k) : insertNew m k v = m ++ [(k, v)] := by
  induction m with
  | nil => rfl
  | cons e m ih =>
    obtain ⟨a, b⟩ := e
    have h1 := h _ List.mem_cons_self
    simp only at h1
    simp only [insertNew, List.cons_append]
    rw [if_neg (by omega), if_neg (by omega), ih fun e he => h e (List.mem_cons_of_mem _ he)]

end Verif.OMap
