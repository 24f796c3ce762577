import Verif.Spec.Examples
import Verif.Props.Registry
import Verif.Props.Plan
/-!
# The shipped extensions: C56
-/

namespace Verif
open StoreSpec TextSpec RelSpec PlanSpec ExampleSpec

set_option autoImplicit false

theorem parse_iff {T : Type} (x : Explain T) (a : ExtArgs) (t : T) :
    x.parse a = .ok t ↔ (x.fromArgs a.columns).answer ⟨a.positional, a.named⟩ = .ok t ∧
      (a.positional ≠ [] → Look.positional ∈ (x.fromArgs a.columns).looks ⟨a.positional, a.named⟩) ∧
      ∀ n ∈ a.named.map (·.1), Look.named n ∈ (x.fromArgs a.columns).looks ⟨a.positional, a.named⟩ :=
  C40_unread_arguments_rejected _ _ _

theorem strategyArg_iff (v : ExtValue) (i : Int) : strategyArg v = .ok i ↔ ∃ r ∈ strategies, v = .enum r.1 ∧ i = r.2 := by
  constructor
  · intro h
    unfold strategyArg at h
    split at h
    · cases h
    · rename_i s hs
      cases v <;> simp only [ExtValue.asEnum, reduceCtorEq, Option.some.injEq] at hs
      subst hs
      unfold Strategy.ofName at h
      split at h
      · rename_i x hx
        cases h
        split at hx
        · rename_i h1; cases hx; exact ⟨(cs!"UNSPECIFIED", 0), by simp [strategies], by rw [h1], rfl⟩
        split at hx
        · rename_i h1; cases hx; exact ⟨(cs!"HASH", 1), by simp [strategies], by rw [h1], rfl⟩
        split at hx
        · rename_i h1; cases hx; exact ⟨(cs!"RANGE", 2), by simp [strategies], by rw [h1], rfl⟩
        split at hx
        · rename_i h1; cases hx; exact ⟨(cs!"BROADCAST", 3), by simp [strategies], by rw [h1], rfl⟩
        · cases hx
      · cases h
  · rintro ⟨r, hr, rfl, rfl⟩
    simp only [strategies, List.mem_cons, List.not_mem_nil, or_false] at hr
    rcases hr with rfl | rfl | rfl | rfl <;> rfl

theorem collect_iff (ps : List ExtValue) (l : List Int) : collect strategyArg ps = .ok l ↔
    ∃ rows : List (Str × Int), (∀ r ∈ rows, r ∈ strategies) ∧ ps = rows.map (fun r => .enum r.1) ∧ l = rows.map (·.2) := by
  induction ps generalizing l with
  | nil =>
    constructor
    · intro h; cases h; exact ⟨[], by simp, rfl, rfl⟩
    · rintro ⟨rows, _, h2, rfl⟩
      cases rows with
      | nil => rfl
      | cons r rows => cases h2
  | cons v ps ih =>
    constructor
    · intro h
      simp only [collect] at h
      split at h
      · cases h
      · rename_i b hb
        split at h
        · cases h
        · rename_i bs hbs
          cases h
          obtain ⟨r, hr, rfl, rfl⟩ := (strategyArg_iff _ _).1 hb
          obtain ⟨rows, h1, rfl, rfl⟩ := (ih _).1 hbs
          refine ⟨r :: rows, ?_, rfl, rfl⟩
          intro x hx
          rcases List.mem_cons.1 hx with rfl | hx
          · exact hr
          · exact h1 x hx
    · rintro ⟨rows, h1, h2, rfl⟩
      cases rows with
      | nil => cases h2
      | cons r rows =>
        cases h2
        have hb := (strategyArg_iff (.enum r.1) r.2).2 ⟨r, h1 r (by simp), rfl, rfl⟩
        have hbs := (ih (rows.map (·.2))).2 ⟨rows, fun x hx => h1 x (by simp [hx]), rfl, rfl⟩
        simp only [collect, hb, hbs, List.map_cons]

theorem getKey_some_mem {V : Type} {l : List (Str × V)} {n : Str} {v : V} (h : getKey l n = some v) : (n, v) ∈ l := by
  induction l with
  | nil => cases h
  | cons p l ih =>
    obtain ⟨k, w⟩ := p
    simp only [getKey] at h
    split at h
    · rename_i hk; cases h; subst hk; simp
    · exact List.mem_cons_of_mem _ (ih h)

theorem getKey_of_mem {V : Type} {l : List (Str × V)} {n : Str} {v : V} (hl : (l.map (·.1)).Nodup) (h : (n, v) ∈ l) :
    getKey l n = some v := by
  induction l with
  | nil => cases h
  | cons p l ih =>
    obtain ⟨k, w⟩ := p
    rw [List.map_cons, List.nodup_cons] at hl
    simp only [getKey]
    rcases List.mem_cons.1 h with h | h
    · cases h; simp
    · have : k ≠ n := by
        rintro rfl
        exact hl.1 (List.mem_map.2 ⟨_, h, rfl⟩)
      rw [if_neg this]
      exact ih hl.2 h

/-- A keyed list with one key only. -/
theorem keyed_one {V : Type} {l : List (Str × V)} {n : Str} (hl : (l.map (·.1)).Nodup) (h : ∀ k ∈ l.map (·.1), k = n) :
    l = [] ∨ ∃ v, l = [(n, v)] := by
  match l, hl, h with
  | [], _, _ => exact .inl rfl
  | [(k, v)], _, h => exact .inr ⟨v, by rw [h k (by simp)]⟩
  | (k, v) :: (k', v') :: l, hl, h =>
    have h1 := h k (by simp)
    have h2 := h k' (by simp)
    subst h1 h2
    simp at hl

/-- **C56.** The partition hint accepts exactly the arguments that stand for one. -/
theorem C56_partition_accepts (a : ExtArgs) (ha : Keyed a) (h : PartitionHint) :
    partitionHint.parse a = .ok h ↔ Partition a h := by
  rw [parse_iff]
  obtain ⟨ps, ns, cols⟩ := a
  obtain ⟨ss, c⟩ := h
  simp only [Keyed, Partition, ← collect_iff] at ha ⊢
  simp only [partitionHint, Reader.answer, Reader.looks, Reader.getNamed, List.mem_cons, true_or, implies_true, true_and]
  cases hg : getKey ns cs!"count" with
  | none =>
    have hn := getKey_none.1 hg
    simp only [Reader.answer, Reader.looks, Option.getD_none, List.not_mem_nil, or_false]
    constructor
    · rintro ⟨h1, h2⟩
      have : ns = [] := by
        cases ns with
        | nil => rfl
        | cons p ns =>
          rcases h2 p.1 (by simp) with h | h
          · cases h
          · exact absurd (by simp [Look.named.inj h]) hn
      subst this
      cases hc : collect strategyArg ps with
      | error e => rw [hc] at h1; cases h1
      | ok l => rw [hc] at h1; cases h1; exact ⟨rfl, .inr ⟨rfl, rfl⟩⟩
    · rintro ⟨h1, h2 | ⟨rfl, rfl⟩⟩
      · rw [h2] at hn; exact absurd (by simp) hn
      · rw [h1]; exact ⟨rfl, by simp⟩
  | some v =>
    have hm := getKey_some_mem hg
    cases hv : v.asInt with
    | none =>
      constructor
      · rintro ⟨h1, _⟩; simp only [hv, Reader.answer] at h1; cases h1
      · rintro ⟨_, rfl | ⟨rfl, _⟩⟩
        · simp at hm; subst hm; cases hv
        · cases hm
    | some i =>
      have hvi : v = .integer i := by cases v <;> simp_all [ExtValue.asInt]
      subst hvi
      simp only [hv, Reader.answer, Reader.looks, Option.getD_some, List.not_mem_nil, or_false]
      constructor
      · rintro ⟨h1, h2⟩
        rcases keyed_one (n := cs!"count") ha (fun k hk => by
          rcases h2 k hk with h | h
          · cases h
          · cases h; rfl) with rfl | ⟨w, rfl⟩
        · cases hm
        · simp at hm; subst hm
          cases hc : collect strategyArg ps with
          | error e => rw [hc] at h1; cases h1
          | ok l => rw [hc] at h1; cases h1; exact ⟨rfl, .inl rfl⟩
      · rintro ⟨h1, rfl | ⟨rfl, _⟩⟩
        · simp at hm; subst hm; rw [h1]; exact ⟨rfl, by simp⟩
        · cases hm

/-- The plan hint accepts exactly the arguments that stand for one. -/
theorem C56_plan_hint_accepts (a : ExtArgs) (ha : Keyed a) (h : PlanHint) :
    planHint.parse a = .ok h ↔ Hint a h := by
  rw [parse_iff]
  obtain ⟨ps, ns, cols⟩ := a
  obtain ⟨s⟩ := h
  simp only [Keyed, Hint] at ha ⊢
  by_cases hp : ps = []
  · subst hp
    simp only [planHint, Reader.answer, Reader.looks, Reader.getNamed, Reader.expectNamed, ne_eq, not_true_eq_false,
      if_false, true_and, false_imp_iff]
    cases hg : getKey ns cs!"hint" with
    | none =>
      have hn := getKey_none.1 hg
      constructor
      · rintro ⟨h1, _⟩; cases h1
      · rintro rfl; exact absurd (by simp) hn
    | some v =>
      have hm := getKey_some_mem hg
      cases hv : v.asStr with
      | none =>
        constructor
        · rintro ⟨h1, _⟩; simp only [hv, Reader.answer] at h1; cases h1
        · rintro rfl; simp at hm; subst hm; cases hv
      | some t =>
        have hvi : v = .string t := by cases v <;> simp_all [ExtValue.asStr]
        subst hvi
        simp only [hv, Reader.answer, Reader.looks, List.mem_cons, List.not_mem_nil, or_false]
        constructor
        · rintro ⟨h1, h2⟩
          cases h1
          rcases keyed_one (n := cs!"hint") ha (fun k hk => by
            rcases h2 k hk with h | h
            · cases h
            · cases h; rfl) with rfl | ⟨w, rfl⟩
          · cases hm
          · simp at hm; subst hm; rfl
        · rintro rfl
          simp at hm; subst hm; exact ⟨rfl, by simp⟩
  · simp [planHint, Reader.answer, hp]

/-- The blob read accepts exactly the arguments that stand for one. -/
theorem C56_blob_read_accepts (a : ExtArgs) (ha : Keyed a) (r : BlobStoreRead) :
    blobStoreRead.parse a = .ok r ↔ Blob a r := by
  rw [parse_iff]
  obtain ⟨ps, ns, cols⟩ := a
  obtain ⟨path, lim, arch⟩ := r
  simp only [Keyed, Blob] at ha ⊢
  match ps with
  | [] => simp [blobStoreRead, Reader.answer]
  | p :: q :: l => simp [blobStoreRead, Reader.answer]
  | [p] =>
    by_cases hc : cols = []
    case neg => simp [blobStoreRead, Reader.answer, hc]
    subst hc
    cases hs : p.asStr with
    | none =>
      constructor
      · rintro ⟨h, _⟩; simp [blobStoreRead, Reader.answer, hs] at h
      · rintro ⟨h, _⟩; cases h; cases hs
    | some t =>
      have hp : p = .string t := by cases p <;> simp_all [ExtValue.asStr]
      subst hp
      simp only [blobStoreRead, Reader.answer, Reader.looks, Reader.getNamed, ne_eq, not_true_eq_false, if_false, hs,
        List.mem_cons, true_or, implies_true, true_and]
      have known : ∀ {i : Int} {b : Bool}, (∀ v, getKey ns cs!"limit" = some v → v = .integer i) →
          (∀ v, getKey ns cs!"include_archived" = some v → v = .boolean b) →
          ((∀ n ∈ ns.map (·.1), n = cs!"limit" ∨ n = cs!"include_archived") ↔
            ∀ p ∈ ns, p = (cs!"limit", ExtValue.integer i) ∨ p = (cs!"include_archived", ExtValue.boolean b)) := by
        intro i b h1 h2
        constructor
        · intro h p hp
          rcases h p.1 (List.mem_map.2 ⟨p, hp, rfl⟩) with h | h
          · exact .inl (Prod.ext h (h1 _ (h ▸ getKey_of_mem ha hp)))
          · exact .inr (Prod.ext h (h2 _ (h ▸ getKey_of_mem ha hp)))
        · intro h n hn
          obtain ⟨p, hp, rfl⟩ := List.mem_map.1 hn
          rcases h p hp with rfl | rfl
          · exact .inl rfl
          · exact .inr rfl
      have hlim : ∀ i, getKey ns cs!"limit" = some (.integer i) ↔ (cs!"limit", ExtValue.integer i) ∈ ns :=
        fun i => ⟨getKey_some_mem, getKey_of_mem ha⟩
      have harch : ∀ b, getKey ns cs!"include_archived" = some (.boolean b) ↔
          (cs!"include_archived", ExtValue.boolean b) ∈ ns := fun b => ⟨getKey_some_mem, getKey_of_mem ha⟩
      -- what the two options turn into, and when that is an error
      have look : ∀ n : Str, (∃ v, getKey ns n = some v) ∨ getKey ns n = none := fun n => by
        cases getKey ns n with
        | none => exact .inr rfl
        | some v => exact .inl ⟨v, rfl⟩
      constructor
      · rintro ⟨h1, h2⟩
        cases hl : getKey ns cs!"limit" with
        | none =>
          simp only [hl, Reader.answer, Reader.looks] at h1 h2
          cases hb : getKey ns cs!"include_archived" with
          | none =>
            simp only [hb, Reader.answer, Reader.looks] at h1 h2
            cases h1
            refine ⟨rfl, (known (by simp [hl]) (by simp [hb])).1 ?_, by simp, by simp⟩
            intro n hn
            simpa using h2 n hn
          | some v =>
            cases hv : v.asBool with
            | none => simp only [hb, hv, Reader.answer] at h1; cases h1
            | some b =>
              have hvb : v = .boolean b := by cases v <;> simp_all [ExtValue.asBool]
              subst hvb
              simp only [hb, hv, Reader.answer, Reader.looks] at h1 h2
              cases h1
              refine ⟨rfl, (known (by simp [hl]) (by simp [hb])).1 ?_, by simp, ?_⟩
              · intro n hn
                simpa using h2 n hn
              · intro h
                simp only [Option.getD_some] at h
                subst h
                exact (harch _).1 hb
        | some v =>
          cases hv : v.asInt with
          | none => simp only [hl, hv, Reader.answer] at h1; cases h1
          | some i =>
            have hvi : v = .integer i := by cases v <;> simp_all [ExtValue.asInt]
            subst hvi
            simp only [hl, hv, Reader.answer, Reader.looks] at h1 h2
            cases hb : getKey ns cs!"include_archived" with
            | none =>
              simp only [hb, Reader.answer, Reader.looks] at h1 h2
              cases h1
              refine ⟨rfl, (known (by simp [hl]) (by simp [hb])).1 ?_, fun _ => (hlim _).1 hl, by simp⟩
              intro n hn
              simpa using h2 n hn
            | some w =>
              cases hw : w.asBool with
              | none => simp only [hb, hw, Reader.answer] at h1; cases h1
              | some b =>
                have hwb : w = .boolean b := by cases w <;> simp_all [ExtValue.asBool]
                subst hwb
                simp only [hb, hw, Reader.answer, Reader.looks] at h1 h2
                cases h1
                refine ⟨rfl, (known (by simp [hl]) (by simp [hb])).1 ?_, fun _ => (hlim _).1 hl, ?_⟩
                · intro n hn
                  simpa using h2 n hn
                · intro h
                  simp only [Option.getD_some] at h
                  subst h
                  exact (harch _).1 hb
      · rintro ⟨h0, h3, h4, h5⟩
        cases h0
        have hl : (getKey ns cs!"limit" = none ∧ lim = 0) ∨ getKey ns cs!"limit" = some (.integer lim) := by
          rcases look cs!"limit" with ⟨v, hv⟩ | hv
          · rcases h3 _ (getKey_some_mem hv) with h | h
            · cases h; exact .inr hv
            · cases h
          · refine .inl ⟨hv, ?_⟩
            apply Classical.byContradiction
            intro h
            rw [(hlim _).2 (h4 h)] at hv
            cases hv
        have hb : (getKey ns cs!"include_archived" = none ∧ arch = false) ∨
            getKey ns cs!"include_archived" = some (.boolean arch) := by
          rcases look cs!"include_archived" with ⟨v, hv⟩ | hv
          · rcases h3 _ (getKey_some_mem hv) with h | h
            · cases h
            · cases h; exact .inr hv
          · refine .inl ⟨hv, ?_⟩
            cases arch with
            | false => rfl
            | true => rw [(harch _).2 (h5 rfl)] at hv; cases hv
        have hk := (known (i := lim) (b := arch)
          (by rcases hl with ⟨h, _⟩ | h <;> simp [h]) (by rcases hb with ⟨h, _⟩ | h <;> simp [h])).2 h3
        rcases hl with ⟨hl, rfl⟩ | hl <;> rcases hb with ⟨hb, rfl⟩ | hb <;>
          simp only [hl, hb, Reader.answer, Reader.looks, ExtValue.asInt, ExtValue.asBool] <;>
          refine ⟨rfl, fun n hn => ?_⟩ <;>
          rcases hk n hn with rfl | rfl <;> simp

/-! ### Writing and reading again -/

theorem strategy_row (i : Int) (h : i ∈ strategies.map (·.2)) :
    (((Strategy.ofNum i).getD .unspecified).name, i) ∈ strategies := by
  simp only [strategies, List.map_cons, List.map_nil, List.mem_cons, List.not_mem_nil, or_false] at h
  rcases h with rfl | rfl | rfl | rfl <;> decide

/-- A partition hint comes back from its own arguments exactly when its strategies are known ones. -/
theorem C56_partition_round_trip (h : PartitionHint) (ctx : List Nat) :
    (∃ a, partitionHint.toArgs h ctx = .ok a ∧ partitionHint.parse a = .ok h) ↔
      ∀ i ∈ h.strategies, i ∈ strategies.map (·.2) := by
  have hk : ∀ a, partitionHint.toArgs h ctx = .ok a → Keyed a := by
    intro a ha
    cases ha
    simp only [Keyed]
    split <;> simp
  constructor
  · rintro ⟨a, h1, h2⟩ i hi
    obtain ⟨⟨rows, hr, -, h3⟩, -⟩ := (C56_partition_accepts a (hk a h1) h).1 h2
    rw [h3] at hi
    obtain ⟨r, hr', rfl⟩ := List.mem_map.1 hi
    exact List.mem_map.2 ⟨r, hr r hr', rfl⟩
  · intro hs
    refine ⟨_, rfl, (C56_partition_accepts _ (hk _ rfl) h).2 ⟨⟨h.strategies.map fun i =>
      (((Strategy.ofNum i).getD .unspecified).name, i), ?_, ?_, ?_⟩, ?_⟩⟩
    · intro r hr
      obtain ⟨i, hi, rfl⟩ := List.mem_map.1 hr
      exact strategy_row i (hs i hi)
    · simp [List.map_map, Function.comp_def]
    · simp [List.map_map, Function.comp_def]
    · by_cases hc : h.count = 0
      · exact .inr ⟨by simp [hc], hc⟩
      · exact .inl (by simp [hc])

/-- A number that is no strategy is written as `UNSPECIFIED`, without an error: the hint that is read
back is another one. -/
theorem C56_unknown_strategy_lost :
    ∃ a, partitionHint.toArgs ⟨[7], 0⟩ [] = .ok a ∧ partitionHint.parse a = .ok ⟨[0], 0⟩ :=
  ⟨_, rfl, (C56_partition_accepts _ (by simp [Keyed]) _).2
    ⟨⟨[(cs!"UNSPECIFIED", 0)], by simp [strategies], rfl, rfl⟩, .inr ⟨rfl, rfl⟩⟩⟩

/-- Every plan hint comes back. -/
theorem C56_plan_hint_round_trip (h : PlanHint) (ctx : List Nat) :
    ∃ a, planHint.toArgs h ctx = .ok a ∧ planHint.parse a = .ok h :=
  ⟨_, rfl, (C56_plan_hint_accepts _ (by simp [Keyed]) h).2 ⟨rfl, rfl⟩⟩

theorem blob_keyed (r : BlobStoreRead) : (((if r.limit ≠ 0 then [(cs!"limit", ExtValue.integer r.limit)] else []) ++
        (if r.includeArchived then [(cs!"include_archived", ExtValue.boolean true)] else [])).map (·.1)).Nodup := by
  split <;> split <;> simp

/-- Every blob read comes back. -/
theorem C56_blob_read_round_trip (r : BlobStoreRead) (ctx : List Nat) :
    ∃ a, blobStoreRead.toArgs r ctx = .ok a ∧ blobStoreRead.parse a = .ok r := by
  refine ⟨_, rfl, (C56_blob_read_accepts _ (show Keyed ⟨_, _, _⟩ from blob_keyed r) r).2 ⟨rfl, rfl, ?_, ?_, ?_⟩⟩
  · intro p hp
    rcases List.mem_append.1 hp with hp | hp
    · split at hp
      · simp at hp; exact .inl hp
      · cases hp
    · split at hp
      · rename_i h; simp at hp; right; rw [hp, h]
      · cases hp
  · intro h
    simp [h]
  · intro h
    simp [h]

/-- Whatever was accepted is written so that it is accepted as the same again. -/
theorem C56_accepted_stable (a : ExtArgs) (ha : Keyed a) (ctx : List Nat) :
    (∀ h, partitionHint.parse a = .ok h → ∃ a', partitionHint.toArgs h ctx = .ok a' ∧ partitionHint.parse a' = .ok h) ∧
    (∀ h, planHint.parse a = .ok h → ∃ a', planHint.toArgs h ctx = .ok a' ∧ planHint.parse a' = .ok h) ∧
    (∀ r, blobStoreRead.parse a = .ok r →
      ∃ a', blobStoreRead.toArgs r ctx = .ok a' ∧ blobStoreRead.parse a' = .ok r) := by
  refine ⟨fun h hp => ?_, fun h _ => C56_plan_hint_round_trip h ctx, fun r _ => C56_blob_read_round_trip r ctx⟩
  rw [C56_partition_round_trip]
  obtain ⟨⟨rows, hr, -, h3⟩, -⟩ := (C56_partition_accepts a ha h).1 hp
  intro i hi
  rw [h3] at hi
  obtain ⟨r, hr', rfl⟩ := List.mem_map.1 hi
  exact List.mem_map.2 ⟨r, hr r hr', rfl⟩

/-! ### The registry -/

/-- **C56** (payloads of others).  Whatever the handler, a payload is turned into arguments only when it has the
type URL of the handler and is the encoding of some message; the arguments are those of this message.  A
payload with another URL is an error even when its bytes would decode. -/
theorem C56_only_own_payloads {T : Type} (x : Explain T) (c : Wire T) (d : AnyMsg) (ctx : List Nat) (a : ExtArgs) :
    (((x.ext c).handler.textify d ctx = .ok a ↔
      d.typeUrl = x.url ∧ ∃ t, c.decode d.value = some t ∧ x.toArgs t ctx = .ok a)) ∧
    (d.typeUrl ≠ x.url → (x.ext c).handler.textify d ctx = .error errTypeUrl) := by
  have key : (x.ext c).handler.textify d ctx =
      (match x.fromAny c d with | .error e => .error e | .ok t => x.toArgs t ctx) := rfl
  rw [key]
  by_cases hu : d.typeUrl = x.url
  · refine ⟨?_, fun h => absurd hu h⟩
    simp only [Explain.fromAny, hu, ne_eq, not_true, if_false, true_and]
    cases c.decode d.value <;> simp
  · refine ⟨?_, fun _ => by simp [Explain.fromAny, hu]⟩
    simp [Explain.fromAny, hu]

-- the same bytes under another URL
example (c : MsgCodec PlanHint) :
    (planHint.ext c).handler.textify ⟨planHint.url, c.encode ⟨cs!"x"⟩⟩ [] = .ok { named := [(cs!"hint", .string cs!"x")] } ∧
    (planHint.ext c).handler.textify ⟨partitionHint.url, c.encode ⟨cs!"x"⟩⟩ [] = .error errTypeUrl :=
  ⟨(C56_only_own_payloads planHint c _ _ _).1.2 ⟨rfl, _, c.law _, rfl⟩,
    (C56_only_own_payloads planHint c _ _ {}).2 (show partitionHint.url ≠ planHint.url by decide)⟩

theorem strategy_word (x : Strategy) : isIdentifier x.name = true := by cases x <;> decide

theorem option_word : ∀ w ∈ [cs!"count", cs!"hint", cs!"limit", cs!"include_archived"],
    isIdentifier w = true ∧ ClearName w := by
  unfold ClearName
  decide

/-- A registered payload goes through its arguments unchanged. -/
theorem payload_comes_back {T : Type} {reg : Registry ExtArgs (List Nat)} {ns : Ns} (x : Explain T) (c : Wire T)
    (hu : hGet reg.urls (ns, x.url) = some x.name) (hh : hGet reg.handlers (ns, x.name) = some (x.ext c).handler)
    {t : T} (hw : c.decode (c.encode t) = some t) {ctx : List Nat} {a : ExtArgs} (h1 : x.toArgs t ctx = .ok a) (h2 : x.parse a = .ok t) :
    reg.decode ns (x.toAny c t) ctx = .ok (x.name, a) ∧ reg.parse ns x.name a = .ok (x.toAny c t) := by
  constructor
  · have : (x.toAny c t).typeUrl = x.url := rfl
    simp only [Registry.decode, this, hu, hh, Explain.ext, Explain.fromAny, ne_eq, not_true_eq_false, if_false]
    simp only [Explain.toAny, hw, h1]
  · simp only [Registry.parse, hh, Explain.ext, h2]

section
variable (c1 : Wire PartitionHint) (c2 : Wire PlanHint) (c3 : Wire BlobStoreRead)

/-- The shipped registry is built without a panic; it knows the three extensions and no other. -/
theorem C56_registry_built : ∃ r, exampleRegistry c1 c2 c3 = some r ∧
    ∀ ns n, r.has ns n = true ↔ (ns, n) ∈ [(Ns.enhancement, cs!"PartitionHint"), (Ns.optimization, cs!"PlanHint"),
      (Ns.extensionTable, cs!"BlobStoreRead")] := by
  refine ⟨_, rfl, ?_⟩
  intro ns n
  have h : ∀ H1 H2 H3 : Handler ExtArgs (List Nat), (hGet [((Ns.extensionTable, cs!"BlobStoreRead"), H3),
      ((Ns.optimization, cs!"PlanHint"), H2), ((Ns.enhancement, cs!"PartitionHint"), H1)] (ns, n)).isSome = true ↔
      (ns, n) ∈ [(Ns.enhancement, cs!"PartitionHint"), (Ns.optimization, cs!"PlanHint"),
        (Ns.extensionTable, cs!"BlobStoreRead")] := by
    intro H1 H2 H3
    simp only [hGet, List.mem_cons, List.not_mem_nil, or_false]
    by_cases h3 : (Ns.extensionTable, cs!"BlobStoreRead") = (ns, n)
    · rw [if_pos h3]; simp [← h3]
    · rw [if_neg h3]
      by_cases h2 : (Ns.optimization, cs!"PlanHint") = (ns, n)
      · rw [if_pos h2]; simp [← h2]
      · rw [if_neg h2]
        by_cases h1 : (Ns.enhancement, cs!"PartitionHint") = (ns, n)
        · rw [if_pos h1]; simp [← h1]
        · rw [if_neg h1]
          simp only [Option.isSome_none, Bool.false_eq_true, false_iff]
          rintro (h | h | h)
          · exact h1 h.symm
          · exact h2 h.symm
          · exact h3 h.symm
  exact h (partitionHint.ext c1).handler (planHint.ext c2).handler (blobStoreRead.ext c3).handler

variable {r : Registry ExtArgs (List Nat)} (hr : exampleRegistry c1 c2 c3 = some r)
include hr

/-- The payloads of the three extensions have a faithful text wherever they are attached: known
strategies, numbers of 64 bits, texts that can be spelled.  All that is asked of the encoding is that it decodes the payload;
`C87_registry` does this for the encoding the code uses. -/
theorem C56_payloads_have_text [UTab] [FTab] (env : Env) (he : env.reg = r) :
    (∀ h : PartitionHint, c1.decode (c1.encode h) = some h → (∀ i ∈ h.strategies, i ∈ strategies.map (·.2)) → InI64 h.count →
      AddendumOk env .enh (partitionHint.toAny c1 h)) ∧
    (∀ h : PlanHint, c2.decode (c2.encode h) = some h → Spellable h.hint → AddendumOk env .opt (planHint.toAny c2 h)) ∧
    (∀ b : BlobStoreRead, c3.decode (c3.encode b) = some b → Spellable b.path → InI64 b.limit → AddendumOk env .ext (blobStoreRead.toAny c3 b)) := by
  cases hr
  refine ⟨?_, ?_, ?_⟩
  · intro h hw hs hc
    obtain ⟨a, h1, h2⟩ := (C56_partition_round_trip h []).2 hs
    obtain ⟨h3, h4⟩ := payload_comes_back (reg := env.reg) (ns := .enhancement) partitionHint c1
      (by rw [he]; rfl) (by rw [he]; rfl) hw h1 h2
    refine ⟨_, a, h3, h4, by decide, ?_, ?_⟩ <;> cases h1
    · rfl
    · refine ⟨?_, ?_, ?_, by simp⟩
      · generalize h.strategies = l
        induction l with
        | nil => trivial
        | cons i l ih => exact ⟨strategy_word _, ih⟩
      · intro p hp
        simp only at hp
        split at hp
        · simp only [List.mem_cons, List.not_mem_nil, or_false] at hp
          subst hp
          exact ⟨(option_word cs!"count" (by decide)).1, (option_word cs!"count" (by decide)).2, hc⟩
        · cases hp
      · simp only
        split <;> simp
  · intro h hw hs
    obtain ⟨a, h1, h2⟩ := C56_plan_hint_round_trip h []
    obtain ⟨h3, h4⟩ := payload_comes_back (reg := env.reg) (ns := .optimization) planHint c2
      (by rw [he]; rfl) (by rw [he]; rfl) hw h1 h2
    refine ⟨_, a, h3, h4, by decide, ?_, ?_⟩ <;> cases h1
    · rfl
    · refine ⟨trivial, ?_, by simp, by simp⟩
      intro p hp
      simp only [List.mem_cons, List.not_mem_nil, or_false] at hp
      subst hp
      exact ⟨(option_word cs!"hint" (by decide)).1, (option_word cs!"hint" (by decide)).2, hs⟩
  · intro b hw hs hc
    obtain ⟨a, h1, h2⟩ := C56_blob_read_round_trip b []
    obtain ⟨h3, h4⟩ := payload_comes_back (reg := env.reg) (ns := .extensionTable) blobStoreRead c3
      (by rw [he]; rfl) (by rw [he]; rfl) hw h1 h2
    refine ⟨_, a, h3, h4, by decide, ?_, ?_⟩ <;> cases h1
    · rfl
    · refine ⟨⟨hs, trivial⟩, ?_, blob_keyed b, by simp⟩
      intro p hp
      rcases List.mem_append.1 hp with hp | hp
      · split at hp
        · simp only [List.mem_cons, List.not_mem_nil, or_false] at hp
          subst hp
          exact ⟨(option_word cs!"limit" (by decide)).1, (option_word cs!"limit" (by decide)).2, hc⟩
        · cases hp
      · split at hp
        · simp only [List.mem_cons, List.not_mem_nil, or_false] at hp
          subst hp
          exact ⟨(option_word cs!"include_archived" (by decide)).1, (option_word cs!"include_archived" (by decide)).2, trivial⟩
        · cases hp

/-- A plan that uses all three: a blob read with a partition hint and a plan hint. -/
theorem C56_plan_round_trip [UTab] [FTab] (hA : AsciiPrintable) (o : Opts) (ho : Readable o) (h : PartitionHint)
    (hs : ∀ i ∈ h.strategies, i ∈ strategies.map (·.2)) (hc : InI64 h.count) (p : PlanHint) (hp : Spellable p.hint)
    (b : BlobStoreRead) (hb : Spellable b.path) (hl : InI64 b.limit) (hw1 : c1.decode (c1.encode h) = some h)
    (hw2 : c2.decode (c2.encode p) = some p) (hw3 : c3.decode (c3.encode b) = some b) (names : List Str) (hn : ∀ n ∈ names, Spellable n)
    (cols : List (Str × Ty)) (hcols : ∀ c ∈ cols, Spellable c.1 ∧ Writable (run []) c.2) :
    let plan : Plan := ⟨none, [], [], [.root names (some (.node (.read none
      (some ⟨cols.map (·.1), some ⟨cols.map (·.2), 0, .required⟩⟩) none (.extension (some (blobStoreRead.toAny c3 b)))
      (some ⟨some (partitionHint.toAny c1 h), [planHint.toAny c2 p]⟩) 0) []))]⟩
    ∃ plan', parsePlan r (textPlan r o plan).text = .ok plan' ∧ PlanEquiv r plan plan' := by
  intro plan
  have hpay := C56_payloads_have_text c1 c2 c3 hr ⟨run (history plan), o, r⟩ rfl
  have hok : PlanOk r o plan := by
    refine ⟨(by intro x hx; cases hx), rfl, ⟨?_, ?_, ?_⟩, ?_⟩
    · intro e he; cases he
    · intro e he; cases he
    · intro e he; cases he
    · intro x hx
      simp only [plan, List.mem_cons, List.not_mem_nil, or_false] at hx
      subst hx
      refine ⟨hn, .node _ [] rfl (by simp) ⟨rfl, rfl, ⟨cols, rfl, hcols⟩, ⟨rfl, hpay.2.2 b hw3 hb hl, rfl⟩, ?_⟩⟩
      intro y hy
      cases hy
      refine ⟨?_, ?_⟩
      · intro d hd; cases hd; exact hpay.1 h hw1 hs hc
      · intro d hd
        simp only [List.mem_cons, List.not_mem_nil, or_false] at hd
        subst hd
        exact hpay.2.1 p hw2 hp
  obtain ⟨p', h1, h2, -⟩ := planRT hA r o ho plan hok
  exact ⟨p', h1, h2⟩

end

/-! ### Examples -/

/-- Encodings for the examples: the fields one after the other, a number as its sign and its amount. -/
def signed (i : Int) : List Nat := [if i < 0 then 1 else 0, i.natAbs]
def unsigned (s n : Nat) : Int := if s = 1 then -n else n
def unsignedAll : List Nat → List Int
  | s :: n :: l => unsigned s n :: unsignedAll l
  | _ => []

theorem unsigned_signed (i : Int) : unsigned (if i < 0 then 1 else 0) i.natAbs = i := by
  unfold unsigned
  split <;> split at * <;> omega

def sampleCodec1 : MsgCodec PartitionHint where
  encode h := signed h.count ++ h.strategies.flatMap signed
  decode
    | s :: n :: l => some ⟨unsignedAll l, unsigned s n⟩
    | _ => none
  law := by
    intro ⟨ss, c⟩
    have : unsignedAll (ss.flatMap signed) = ss := by
      induction ss with
      | nil => rfl
      | cons i ss ih => simp [signed, unsignedAll, unsigned_signed, ih]
    show some (PartitionHint.mk (unsignedAll (ss.flatMap signed)) (unsigned _ _)) = _
    rw [this, unsigned_signed]

def sampleCodec2 : MsgCodec PlanHint where
  encode h := h.hint.map Char.toNat
  decode l := some ⟨l.map Char.ofNat⟩
  law := by intro ⟨s⟩; simp [Function.comp_def, Char.ofNat_toNat]

def sampleCodec3 : MsgCodec BlobStoreRead where
  encode b := signed b.limit ++ (if b.includeArchived then 1 else 0) :: b.path.map Char.toNat
  decode
    | s :: n :: a :: l => some ⟨l.map Char.ofNat, unsigned s n, a = 1⟩
    | _ => none
  law := by
    intro ⟨p, l, a⟩
    cases a <;> simp [signed, unsigned_signed, Function.comp_def, Char.ofNat_toNat]

/-- `Ext:BlobStoreRead['a\nb', limit=-5, include_archived=true]` with two hints. -/
example : letI := asciiTab; letI := halfTab
    ∃ r, exampleRegistry sampleCodec1 sampleCodec2 sampleCodec3 = some r ∧
    let plan : Plan := ⟨none, [], [], [.root [cs!"x"] (some (.node (.read none
      (some ⟨[cs!"a"], some ⟨[.simple .i64 .required 0], 0, .required⟩⟩) none
      (.extension (some (blobStoreRead.toAny sampleCodec3 ⟨cs!"a\nb", -5, true⟩)))
      (some ⟨some (partitionHint.toAny sampleCodec1 ⟨[1, 3, 0], 8⟩), [planHint.toAny sampleCodec2 ⟨cs!"it's"⟩]⟩) 0) []))]⟩
    (textPlan r .default plan).text = cs!"=== Plan\nRoot[x]\n  Read:Extension[a:i64]\n    + Ext:BlobStoreRead['a\\nb', limit=-5, include_archived=true]\n    + Enh:PartitionHint[&HASH, &BROADCAST, &UNSPECIFIED, count=8]\n    + Opt:PlanHint[hint='it\\'s']\n" ∧
    ∃ plan', parsePlan r (textPlan r .default plan).text = .ok plan' ∧ PlanEquiv r plan plan' := by
  letI := asciiTab; letI := halfTab
  refine ⟨_, rfl, ?_, C56_plan_round_trip _ _ _ rfl asciiTab_printable _ readable_default ⟨[1, 3, 0], 8⟩ (by decide)
    (by unfold InI64; decide) ⟨cs!"it's"⟩ (SamplePlan.spellable _ (by decide +kernel)) ⟨cs!"a\nb", -5, true⟩
    (SamplePlan.spellable _ (by decide +kernel)) (by unfold InI64; decide) (sampleCodec1.law _) (sampleCodec2.law _) (sampleCodec3.law _) [cs!"x"] ?_ [(cs!"a", .simple .i64 .required 0)] ?_⟩
  · decide +kernel
  · intro n hn
    simp only [List.mem_cons, List.not_mem_nil, or_false] at hn
    subst hn
    exact SamplePlan.spellable _ (by decide +kernel)
  · intro c hc
    simp only [List.mem_cons, List.not_mem_nil, or_false] at hc
    subst hc
    exact ⟨SamplePlan.spellable _ (by decide +kernel), rfl⟩

end Verif
