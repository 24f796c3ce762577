import Verif.Spec.Registry
/-!
# Lemmas on the registry
-/

namespace Verif

set_option autoImplicit false
variable {A C V α : Type}

theorem hGet_filter_ne {β : Type} (m : List ((Ns × Str) × β)) (k k' : Ns × Str) (h : k' ≠ k) :
    hGet (m.filter fun e => !decide (e.1 = k)) k' = hGet m k' := by
  induction m with
  | nil => rfl
  | cons e m ih =>
    by_cases he : e.1 = k
    · have hne : ¬ e.1 = k' := fun h' => h (h'.symm.trans he)
      obtain ⟨ek, ev⟩ := e
      simp only at he hne
      simp [he, hGet, ih]
      intro h'; exact absurd h'.symm h
    · obtain ⟨ek, ev⟩ := e
      simp only at he
      simp [he, hGet, ih]

theorem hGet_insert {β : Type} (m : List ((Ns × Str) × β)) (k k' : Ns × Str) (v : β) :
    hGet (hInsert m k v) k' = if k = k' then some v else hGet m k' := by
  unfold hInsert
  rw [hGet]
  by_cases h : k = k'
  · simp [h]
  · simp only [h, if_false]
    exact hGet_filter_ne m k k' (Ne.symm h)

/-- The registry stands for the accepted registrations. -/
structure Stands (r : Registry A C) (acc : List (Ns × Ext A C)) : Prop where
  handlers : ∀ ns n H, hGet r.handlers (ns, n) = some H ↔ ∃ e, (ns, e) ∈ acc ∧ e.name = n ∧ e.handler = H
  urls : ∀ ns u n, hGet r.urls (ns, u) = some n ↔ ∃ e, (ns, e) ∈ acc ∧ e.url = u ∧ e.name = n
  entries : ∀ ns n, (∃ u, ((ns, u), n) ∈ r.urls) ↔ ∃ e, (ns, e) ∈ acc ∧ e.name = n
  apart : acc.Pairwise fun x y => ¬ Clash x y

theorem Stands.empty : Stands ({} : Registry A C) [] := by
  constructor <;> simp [hGet]

theorem Stands.unique {r : Registry A C} {acc : List (Ns × Ext A C)} (h : Stands r acc) {ns : Ns} {e e' : Ext A C}
    (he : (ns, e) ∈ acc) (he' : (ns, e') ∈ acc) (hn : e.name = e'.name ∨ e.url = e'.url) : (ns, e) = (ns, e') := by
  have := h.apart
  induction acc with
  | nil => cases he
  | cons x acc ih =>
    clear h ih
    revert he he'
    generalize x :: acc = l at this
    induction l with
    | nil => intro he; cases he
    | cons x l ih =>
      intro he he'
      rw [List.pairwise_cons] at this
      rcases List.mem_cons.1 he with h1 | h1 <;> rcases List.mem_cons.1 he' with h2 | h2
      · rw [h1, h2]
      · subst h1
        exact absurd ⟨rfl, hn⟩ (this.1 _ h2)
      · subst h2
        exact absurd ⟨rfl, hn.imp Eq.symm Eq.symm⟩ (this.1 _ h1)
      · exact ih this.2 h1 h2

/-- One registration. -/
theorem Stands.register {r : Registry A C} {acc : List (Ns × Ext A C)} (h : Stands r acc) (ns : Ns) (e : Ext A C) :
    ((∃ y ∈ acc, Clash y (ns, e)) ∧ (r.register ns e).1 = r ∧ ∃ x, (r.register ns e).2 = some x) ∨
    ((¬ ∃ y ∈ acc, Clash y (ns, e)) ∧ (r.register ns e).2 = none ∧ Stands (r.register ns e).1 (acc ++ [(ns, e)])) := by
  unfold Registry.register
  cases hh : hGet r.handlers (ns, e.name) with
  | some H =>
    left
    obtain ⟨y, hy, hn, _⟩ := (h.handlers ns e.name H).1 hh
    exact ⟨⟨(ns, y), hy, rfl, Or.inl hn⟩, by simp, by simp⟩
  | none =>
    have hno : ∀ y, (ns, y) ∈ acc → y.name ≠ e.name := by
      intro y hy hn
      have := (h.handlers ns e.name y.handler).2 ⟨y, hy, hn, rfl⟩
      rw [hh] at this; cases this
    cases hu : hGet r.urls (ns, e.url) with
    | some existing =>
      left
      obtain ⟨y, hy, hyu, hyn⟩ := (h.urls ns e.url existing).1 hu
      have : existing ≠ e.name := hyn ▸ hno y hy
      exact ⟨⟨(ns, y), hy, rfl, Or.inr hyu⟩, by simp [this], by simp [this]⟩
    | none =>
      right
      have hnu : ∀ y, (ns, y) ∈ acc → y.url ≠ e.url := by
        intro y hy hn
        have := (h.urls ns e.url y.name).2 ⟨y, hy, hn, rfl⟩
        rw [hu] at this; cases this
      have hclash : ¬ ∃ y ∈ acc, Clash y (ns, e) := by
        rintro ⟨⟨ns', y⟩, hy, h1, h2⟩
        simp only at h1 h2
        subst h1
        rcases h2 with h2 | h2
        · exact hno y hy h2
        · exact hnu y hy h2
      refine ⟨hclash, by simp, ?_⟩
      simp only [Option.isSome_none, Bool.false_eq_true, if_false]
      constructor
      · intro ns' n H
        rw [hGet_insert]
        by_cases hk : (ns, e.name) = (ns', n)
        · rw [if_pos hk]
          simp only [Prod.mk.injEq] at hk
          obtain ⟨rfl, rfl⟩ := hk
          constructor
          · intro hH; injection hH with hH; exact ⟨e, by simp, rfl, hH⟩
          · rintro ⟨y, hy, hyn, rfl⟩
            rcases List.mem_append.1 hy with hy | hy
            · exact absurd hyn (hno y hy)
            · simp at hy; rw [hy]
        · rw [if_neg hk, h.handlers]
          constructor
          · rintro ⟨y, hy, h1, h2⟩; exact ⟨y, by simp [hy], h1, h2⟩
          · rintro ⟨y, hy, h1, h2⟩
            rcases List.mem_append.1 hy with hy | hy
            · exact ⟨y, hy, h1, h2⟩
            · simp at hy
              exact absurd (by rw [hy.1, ← h1, hy.2]) hk
      · intro ns' u n
        rw [hGet_insert]
        by_cases hk : (ns, e.url) = (ns', u)
        · rw [if_pos hk]
          simp only [Prod.mk.injEq] at hk
          obtain ⟨rfl, rfl⟩ := hk
          constructor
          · intro hH; injection hH with hH; exact ⟨e, by simp, rfl, hH⟩
          · rintro ⟨y, hy, hyn, rfl⟩
            rcases List.mem_append.1 hy with hy | hy
            · exact absurd hyn (hnu y hy)
            · simp at hy; rw [hy]
        · rw [if_neg hk, h.urls]
          constructor
          · rintro ⟨y, hy, h1, h2⟩; exact ⟨y, by simp [hy], h1, h2⟩
          · rintro ⟨y, hy, h1, h2⟩
            rcases List.mem_append.1 hy with hy | hy
            · exact ⟨y, hy, h1, h2⟩
            · simp at hy
              exact absurd (by rw [hy.1, ← h1, hy.2]) hk
      · intro ns' n
        have hmem : ∀ u, ((ns', u), n) ∈ hInsert r.urls (ns, e.url) e.name ↔
            ((ns', u) = (ns, e.url) ∧ n = e.name) ∨ (((ns', u), n) ∈ r.urls ∧ (ns', u) ≠ (ns, e.url)) := by
          intro u; simp only [hInsert, List.mem_cons, List.mem_filter, Prod.mk.injEq, Bool.not_eq_true', decide_eq_false_iff_not, ne_eq]
        have hkey : ∀ u, ((ns', u), n) ∈ r.urls → (ns', u) ≠ (ns, e.url) := by
          intro u hm he
          simp only [Prod.mk.injEq] at he
          obtain ⟨rfl, rfl⟩ := he
          have : ∀ (m : List ((Ns × Str) × Str)), ((ns', e.url), n) ∈ m → hGet m (ns', e.url) ≠ none := by
            intro m
            induction m with
            | nil => intro h; cases h
            | cons x m ih =>
              obtain ⟨k, v⟩ := x
              intro hx
              rw [hGet]
              split
              · simp
              · rename_i hne
                rcases List.mem_cons.1 hx with hx | hx
                · injection hx with hx1 hx2; exact absurd hx1.symm hne
                · exact ih hx
          exact this _ hm hu
        constructor
        · rintro ⟨u, hm⟩
          rcases (hmem u).1 hm with ⟨h1, h2⟩ | ⟨h1, _⟩
          · simp only [Prod.mk.injEq] at h1
            exact ⟨e, by simp [h1.1], h2.symm⟩
          · obtain ⟨y, hy, hyn⟩ := (h.entries ns' n).1 ⟨u, h1⟩
            exact ⟨y, by simp [hy], hyn⟩
        · rintro ⟨y, hy, hyn⟩
          rcases List.mem_append.1 hy with hy | hy
          · obtain ⟨u, hu'⟩ := (h.entries ns' n).2 ⟨y, hy, hyn⟩
            exact ⟨u, (hmem u).2 (Or.inr ⟨hu', hkey u hu'⟩)⟩
          · simp at hy
            exact ⟨e.url, (hmem _).2 (Or.inl ⟨by rw [hy.1], by rw [← hyn, hy.2]⟩)⟩
      · rw [List.pairwise_append]
        refine ⟨h.apart, by simp, ?_⟩
        intro x hx y hy hc
        simp at hy
        subst hy
        exact hclash ⟨x, hx, hc⟩

theorem stands_from {r : Registry A C} {acc : List (Ns × Ext A C)} (h : Stands r acc) (l : List (Ns × Ext A C)) :
    Stands (l.foldl (fun r x => (r.register x.1 x.2).1) r) (acceptedFrom acc l) := by
  induction l generalizing r acc with
  | nil => exact h
  | cons x l ih =>
    rw [List.foldl_cons, acceptedFrom]
    rcases h.register x.1 x.2 with ⟨h1, h2, _⟩ | ⟨h1, _, h2⟩
    · rw [if_pos h1, h2]; exact ih h
    · rw [if_neg h1]; exact ih h2

/-- The registry after a history stands for the accepted registrations. -/
theorem stands_after (h : List (Ns × Ext A C)) : Stands (registryAfter h) (accepted h) := stands_from Stands.empty h

theorem acceptedFrom_filter (ns : Ns) (acc acc' : List (Ns × Ext A C)) (h : List (Ns × Ext A C))
    (ha : acc.filter (fun x => x.1 = ns) = acc'.filter fun x => x.1 = ns) :
    (acceptedFrom acc h).filter (fun x => x.1 = ns) =
      (acceptedFrom acc' (h.filter fun x => x.1 = ns)).filter fun x => x.1 = ns := by
  induction h generalizing acc acc' with
  | nil => exact ha
  | cons x h ih =>
    have key : x.1 = ns → ((∃ y ∈ acc, Clash y x) ↔ ∃ y ∈ acc', Clash y x) := by
      intro hx
      have : ∀ l : List (Ns × Ext A C), (∃ y ∈ l, Clash y x) ↔ ∃ y ∈ l.filter (fun x => x.1 = ns), Clash y x := by
        intro l
        constructor
        · rintro ⟨y, hy, hc⟩
          exact ⟨y, by simp [hy, hc.1, hx], hc⟩
        · rintro ⟨y, hy, hc⟩
          simp at hy
          exact ⟨y, hy.1, hc⟩
      rw [this acc, this acc', ha]
    by_cases hx : x.1 = ns
    · rw [List.filter_cons_of_pos (by simpa using hx), acceptedFrom, acceptedFrom]
      by_cases hc : ∃ y ∈ acc, Clash y x
      · rw [if_pos hc, if_pos ((key hx).1 hc)]; exact ih _ _ ha
      · rw [if_neg hc, if_neg (fun h => hc ((key hx).2 h))]
        exact ih _ _ (by simp [ha])
    · rw [List.filter_cons_of_neg (by simpa using hx), acceptedFrom]
      split
      · exact ih _ _ ha
      · exact ih _ _ (by simp [ha, hx])

/-! ### Sorted names -/

theorem strLe_total (a b : Str) : (strLe a b || strLe b a) = true := by
  fun_induction strLe a b with
  | case1 => simp
  | case2 => simp [strLe]
  | case3 => simp
  | case4 a s b t h1 h2 => simp [strLe, h2]
  | case5 a s b t h1 h2 ih => simpa [strLe, h1, h2] using ih

theorem char_eq_of {a b : Char} (h1 : ¬ a.toNat < b.toNat) (h2 : ¬ b.toNat < a.toNat) : a = b :=
  Char.toNat_inj.1 (by omega)

theorem strLe_trans (a b c : Str) (h1 : strLe a b = true) (h2 : strLe b c = true) : strLe a c = true := by
  induction a generalizing b c with
  | nil => simp [strLe]
  | cons x a ih =>
    cases b with
    | nil => simp [strLe] at h1
    | cons y b =>
      cases c with
      | nil => simp [strLe] at h2
      | cons z c =>
        rw [strLe] at h1 h2 ⊢
        by_cases h3 : x.toNat < y.toNat
        · by_cases h4 : y.toNat < z.toNat
          · rw [if_pos (by omega)]
          · rw [if_neg h4] at h2
            by_cases h5 : z.toNat < y.toNat
            · rw [if_pos h5] at h2; cases h2
            · rw [if_pos (by omega)]
        · rw [if_neg h3] at h1
          by_cases h6 : y.toNat < x.toNat
          · rw [if_pos h6] at h1; cases h1
          · rw [if_neg h6] at h1
            have := char_eq_of h3 h6
            subst this
            by_cases h4 : x.toNat < z.toNat
            · rw [if_pos h4]
            · rw [if_neg h4] at h2 ⊢
              by_cases h5 : z.toNat < x.toNat
              · rw [if_pos h5] at h2; cases h2
              · rw [if_neg h5] at h2 ⊢
                exact ih b c h1 h2

theorem strLe_antisymm (a b : Str) (h1 : strLe a b = true) (h2 : strLe b a = true) : a = b := by
  induction a generalizing b with
  | nil => cases b with
    | nil => rfl
    | cons y b => simp [strLe] at h2
  | cons x a ih =>
    cases b with
    | nil => simp [strLe] at h1
    | cons y b =>
      rw [strLe] at h1 h2
      by_cases h3 : x.toNat < y.toNat
      · rw [if_neg (by omega), if_pos h3] at h2; cases h2
      · rw [if_neg h3] at h1
        by_cases h6 : y.toNat < x.toNat
        · rw [if_pos h6] at h1; cases h1
        · rw [if_neg h6] at h1
          rw [if_neg h6, if_neg h3] at h2
          rw [char_eq_of h3 h6, ih b h1 h2]

theorem mem_dedup (l : List Str) (x : Str) : x ∈ dedup l ↔ x ∈ l := by
  fun_induction dedup l with
  | case1 => simp
  | case2 => simp
  | case3 a l ih => rw [ih]; simp
  | case4 a b l h ih => simp only [List.mem_cons] at ih ⊢; rw [ih]

theorem dedup_strict (l : List Str) (h : l.Pairwise fun a b => strLe a b = true) :
    (dedup l).Pairwise fun a b => strLe a b = true ∧ a ≠ b := by
  fun_induction dedup l with
  | case1 => simp
  | case2 => simp
  | case3 a l ih => exact ih (List.pairwise_cons.1 h).2
  | case4 a b l hne ih =>
    rw [List.pairwise_cons] at h ⊢
    refine ⟨?_, ih h.2⟩
    intro x hx
    rw [mem_dedup] at hx
    refine ⟨h.1 x hx, ?_⟩
    rintro rfl
    rcases List.mem_cons.1 hx with h' | h'
    · exact hne h'
    · exact hne (strLe_antisymm _ _ (h.1 b (by simp)) ((List.pairwise_cons.1 h.2).1 _ h'))

/-! ### Argument access -/

theorem getKey_none {l : List (Str × V)} {n : Str} : getKey l n = none ↔ n ∉ l.map (·.1) := by
  induction l with
  | nil => simp [getKey]
  | cons e l ih =>
    obtain ⟨k, v⟩ := e
    rw [getKey]
    split
    · rename_i h; simp [h]
    · rename_i h; rw [ih]; simp [Ne.symm h]

theorem reader_run (a : ArgSet V) (r : Reader V α) (s : Seen) :
    (r.run a s).1 = r.answer a ∧
    ((r.run a s).2.positional = true ↔ s.positional = true ∨ Look.positional ∈ r.looks a) ∧
    (∀ n ∈ a.named.map (·.1), n ∈ (r.run a s).2.handled ↔ n ∈ s.handled ∨ Look.named n ∈ r.looks a) := by
  induction r generalizing s with
  | done x => simp [Reader.run, Reader.answer, Reader.looks]
  | positional k ih =>
    have := ih a.positional { s with positional := true }
    rw [Reader.run, Reader.answer, Reader.looks]
    refine ⟨this.1, ?_, ?_⟩
    · rw [this.2.1]; simp
    · intro n hn; rw [this.2.2 n hn]; simp
  | named n k ih =>
    rw [Reader.run, Reader.answer, Reader.looks]
    cases hg : getKey a.named n with
    | some v =>
      have := ih (some v) { s with handled := n :: s.handled }
      refine ⟨this.1, ?_, ?_⟩
      · rw [this.2.1]; simp
      · intro m hm; rw [this.2.2 m hm]
        simp only [List.mem_cons, Look.named.injEq]
        constructor
        · rintro ((h | h) | h)
          · exact Or.inr (Or.inl h)
          · exact Or.inl h
          · exact Or.inr (Or.inr h)
        · rintro (h | h | h)
          · exact Or.inl (Or.inr h)
          · exact Or.inl (Or.inl h)
          · exact Or.inr h
    | none =>
      have := ih none s
      have hn := getKey_none.1 hg
      refine ⟨this.1, ?_, ?_⟩
      · rw [this.2.1]; simp
      · intro m hm; rw [this.2.2 m hm]
        have hne : m ≠ n := by rintro rfl; exact hn hm
        simp [hne]

end Verif
