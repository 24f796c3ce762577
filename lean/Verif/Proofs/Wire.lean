import Verif.Model.Wire
import Verif.Spec.Wire
import Verif.Proofs.Tool
/-!
# The wire format, read back
-/

namespace Verif.Wire
open WireSpec

set_option autoImplicit false

theorem map_same_iff {α : Type} (f : α → α) (l : List α) : l.map f = l ↔ ∀ i ∈ l, f i = i := by
  induction l with
  | nil => simp
  | cons a l ih => simp [ih]

/-! ### Varints and keys -/

theorem readVarintN_varintN (k n : Nat) (s : Bytes) (h : n < 2 * 128 ^ k) :
    readVarintN k (varintN k n ++ s) = some (n, s) := by
  induction k generalizing n with
  | zero => simp [varintN, readVarintN]; omega
  | succ k ih =>
    rw [varintN]
    split
    · next hn => simp [readVarintN, hn]
    · next hn =>
      have hd : n / 128 < 2 * 128 ^ k := by
        rw [Nat.pow_succ] at h
        exact Nat.div_lt_of_lt_mul (by omega)
      have h1 : ¬ n % 128 + 128 < 128 := by omega
      simp only [List.cons_append, readVarintN, h1, if_false, ih _ hd, Option.map_some]
      congr 2
      omega

theorem readVarint_varint {n : Nat} (h : n < 2 ^ 64) (s : Bytes) : readVarint (varint n ++ s) = some (n, s) :=
  readVarintN_varintN 9 n s (by omega)

theorem varint_ne (n : Nat) : varint n ≠ [] := by
  unfold varint varintN
  split <;> simp

theorem varintN_length (k n : Nat) : (varintN k n).length ≤ k + 1 := by
  induction k generalizing n with
  | zero => simp [varintN]
  | succ k ih =>
    rw [varintN]
    split
    · simp
    · have := ih (n / 128)
      simp only [List.length_cons]
      omega

theorem varint_length (n : Nat) : (varint n).length ≤ 10 := varintN_length 9 n

theorem varint_pos (n : Nat) : 0 < (varint n).length := List.length_pos_iff.2 (varint_ne n)

/-- What is read is below `2 ^ 64`. -/
theorem readVarintN_lt {k : Nat} {s r : Bytes} {n : Nat} (h : readVarintN k s = some (n, r)) : n < 2 * 128 ^ k := by
  induction k generalizing s n with
  | zero =>
    cases s with
    | nil => cases h
    | cons b s =>
      simp only [readVarintN] at h
      split at h
      · cases h; omega
      · cases h
  | succ k ih =>
    cases s with
    | nil => cases h
    | cons b s =>
      simp only [readVarintN] at h
      have hp : 0 < 128 ^ k := Nat.pow_pos (by decide)
      split at h
      · cases h
        rw [Nat.pow_succ]
        omega
      · obtain ⟨⟨v, t⟩, h1, h2⟩ := Option.map_eq_some_iff.1 h
        cases h2
        have := ih h1
        rw [Nat.pow_succ]
        omega

theorem readVarint_lt {s r : Bytes} {n : Nat} (h : readVarint s = some (n, r)) : n < 2 ^ 64 := by
  have := readVarintN_lt h
  omega

/-- Exactly the varints are read. -/
theorem readVarintN_iff (k : Nat) (t s : Bytes) (n : Nat) :
    readVarintN k t = some (n, s) ↔ ∃ init last, t = init ++ last :: s ∧ (∀ b ∈ init, 128 ≤ b) ∧ last < 128 ∧ init.length ≤ k ∧
      (init.length = k → last < 2) ∧ n = sevens (init ++ [last]) := by
  induction k generalizing t n with
  | zero =>
    cases t with
    | nil => simp [readVarintN]
    | cons b t =>
      simp only [readVarintN]
      constructor
      · intro h
        split at h
        · next hb =>
          cases h
          exact ⟨[], n, rfl, by simp, by omega, by simp, fun _ => hb, by simp [sevens]; omega⟩
        · cases h
      · rintro ⟨init, last, h1, -, h3, h4, h5, h6⟩
        have : init = [] := List.length_eq_zero_iff.1 (by omega)
        subst this
        simp only [List.nil_append, List.cons.injEq] at h1
        obtain ⟨rfl, rfl⟩ := h1
        have := h5 rfl
        rw [if_pos this, h6]
        simp [sevens]
        omega
  | succ k ih =>
    cases t with
    | nil => simp [readVarintN]
    | cons b t =>
      simp only [readVarintN]
      constructor
      · intro h
        split at h
        · next hb =>
          cases h
          exact ⟨[], n, rfl, by simp, hb, by simp, by simp, by simp [sevens]; omega⟩
        · next hb =>
          obtain ⟨⟨v, r⟩, h1, h2⟩ := Option.map_eq_some_iff.1 h
          cases h2
          obtain ⟨init, last, g1, g2, g3, g4, g5, g6⟩ := (ih t v).1 h1
          refine ⟨b :: init, last, by simp [g1], ?_, g3, by simpa using g4, by simpa using g5, by simp [sevens, g6]⟩
          intro x hx
          rcases List.mem_cons.1 hx with rfl | hx
          · omega
          · exact g2 x hx
      · rintro ⟨init, last, h1, h2, h3, h4, h5, h6⟩
        cases init with
        | nil =>
          simp only [List.nil_append, List.cons.injEq] at h1
          obtain ⟨rfl, rfl⟩ := h1
          rw [if_pos h3, h6]
          simp [sevens]
          omega
        | cons c init =>
          simp only [List.cons_append, List.cons.injEq] at h1
          obtain ⟨rfl, rfl⟩ := h1
          have hb := h2 b (List.mem_cons_self ..)
          rw [if_neg (by omega), (ih _ _).2 ⟨init, last, rfl, fun x hx => h2 x (List.mem_cons_of_mem _ hx), h3,
            by simpa using h4, fun e => h5 (by simp [e]), rfl⟩, h6]
          rfl

theorem sevens_lt (v : Bytes) : sevens v < 128 ^ v.length := by
  induction v with
  | nil => simp [sevens]
  | cons b v ih =>
    simp only [sevens, List.length_cons, Nat.pow_succ]
    omega

/-- No more bytes than needed. -/
theorem varintN_shortest (k n m : Nat) (h : n < 128 ^ m) (hm : 0 < m) : (varintN k n).length ≤ m := by
  induction k generalizing n m with
  | zero => simp [varintN]; omega
  | succ k ih =>
    rw [varintN]
    split
    · simp; omega
    · next hn =>
      cases m with
      | zero => omega
      | succ m =>
        rw [Nat.pow_succ] at h
        cases m with
        | zero => simp at h; omega
        | succ m =>
          have := ih (n / 128) (m + 1) (Nat.div_lt_of_lt_mul (by omega)) (by omega)
          simp only [List.length_cons]
          omega

theorem readVarint_of {v : Bytes} {n : Nat} (h : IsVarint v n) (s : Bytes) : readVarint (v ++ s) = some (n, s) := by
  obtain ⟨init, last, rfl, h2, h3, h4, h5, h6⟩ := h
  exact (readVarintN_iff 9 _ s n).2 ⟨init, last, by simp, h2, h3, h4, h5, h6⟩

theorem isVarint_varint {n : Nat} (h : n < 2 ^ 64) : IsVarint (varint n) n := by
  obtain ⟨init, last, h1, h2, h3, h4, h5, h6⟩ := (readVarintN_iff 9 _ [] n).1 (readVarint_varint h [])
  rw [List.append_nil] at h1
  exact ⟨init, last, h1, h2, h3, h4, h5, by rw [h1]; exact h6⟩

theorem readKey_of {v : Bytes} {tag wt : Nat} (h : IsKey v tag wt) (s : Bytes) : readKey (v ++ s) = some (tag, wt, s) := by
  obtain ⟨h1, h2, h3, h4⟩ := h
  unfold readKey
  rw [readVarint_of h4]
  have e1 : (tag * 8 + wt) / 8 = tag := by omega
  have e2 : (tag * 8 + wt) % 8 = wt := by omega
  simp only [Option.bind_some, e1, e2]
  rw [if_neg]
  omega

theorem isKey_key {tag wt : Nat} (h1 : 0 < tag) (h2 : tag < 2 ^ 29) (h3 : wt ≤ 5) : IsKey (key tag wt) tag wt :=
  ⟨h1, h2, h3, isVarint_varint (by omega)⟩

theorem isVarint_ne {v : Bytes} {n : Nat} (h : IsVarint v n) : 0 < v.length := by
  obtain ⟨init, last, rfl, -⟩ := h
  simp

theorem isKey_ne {v : Bytes} {tag wt : Nat} (h : IsKey v tag wt) : 0 < v.length := isVarint_ne h.2.2.2

theorem splitBytes_append (a s : Bytes) : splitBytes a.length (a ++ s) = some (a, s) := by
  simp [splitBytes]

theorem readDelimited_of {l a : Bytes} (h : IsVarint l a.length) (s : Bytes) : readDelimited (l ++ (a ++ s)) = some (a, s) := by
  unfold readDelimited
  rw [readVarint_of h]
  exact splitBytes_append a s

theorem readDelimited_append {a : Bytes} (h : a.length < 2 ^ 64) (s : Bytes) :
    readDelimited (varint a.length ++ (a ++ s)) = some (a, s) := by
  unfold readDelimited
  rw [readVarint_varint h]
  exact splitBytes_append a s

/-! ### Numbers -/

theorem unsign_lt (i : Int) : unsign i < 2 ^ 64 := by
  unfold unsign
  omega

theorem sign64_unsign (i : Int) : sign64 (unsign i) = i ↔ -(2 ^ 63 : Int) ≤ i ∧ i < 2 ^ 63 := by
  unfold sign64 unsign
  split <;> omega

theorem sign32_unsign (i : Int) : sign32 (unsign i) = i ↔ -(2 ^ 31 : Int) ≤ i ∧ i < 2 ^ 31 := by
  unfold sign32 unsign
  split <;> omega

theorem sign64_range (n : Nat) (h : n < 2 ^ 64) : -(2 ^ 63 : Int) ≤ sign64 n ∧ sign64 n < 2 ^ 63 := by
  unfold sign64
  split <;> omega

theorem sign32_range (n : Nat) : -(2 ^ 31 : Int) ≤ sign32 n ∧ sign32 n < 2 ^ 31 := by
  unfold sign32
  split <;> omega

theorem packed_length (l : List Int) : (packed l).length ≤ 10 * l.length := by
  induction l with
  | nil => simp [packed]
  | cons i l ih =>
    have := varint_length (unsign i)
    simp only [packed, List.flatMap_cons, List.length_append, List.length_cons] at ih ⊢
    omega

theorem unpack_packed (l : List Int) (n : Nat) (h : (packed l).length ≤ n) :
    unpack n (packed l) = some (l.map fun i => sign32 (unsign i)) := by
  induction l generalizing n with
  | nil => cases n <;> rfl
  | cons i l ih =>
    have hp := varint_pos (unsign i)
    have hl : (packed (i :: l)) = varint (unsign i) ++ packed l := rfl
    rw [hl] at h ⊢
    rw [List.length_append] at h
    have hr := readVarint_varint (unsign_lt i) (packed l)
    cases n with
    | zero => omega
    | succ n =>
      cases hv : varint (unsign i) ++ packed l with
      | nil => simp [varint_ne] at hv
      | cons b s =>
        rw [unpack, ← hv, hr]
        · simp only [Option.bind_some, List.map_cons]
          rw [ih n (by omega)]
          rfl
        · simp

/-! ### Fields -/

section
variable {M : Type} {field : M → Nat → Nat → Bytes → Option (M × Bytes)}

/-- One more field in front. -/
theorem readFields_step {n : Nat} {m m' : M} {k v s : Bytes} {tag wt : Nat} (h0 : k ≠ [])
    (h1 : readKey (k ++ (v ++ s)) = some (tag, wt, v ++ s)) (h2 : field m tag wt (v ++ s) = some (m', s))
    (hn : (k ++ (v ++ s)).length ≤ n) :
    ∃ n', s.length ≤ n' ∧ readFields field n m (k ++ (v ++ s)) = readFields field n' m' s := by
  have hk := List.length_pos_iff.2 h0
  simp only [List.length_append] at hn
  cases n with
  | zero => omega
  | succ n =>
    refine ⟨n, by omega, ?_⟩
    cases hv : k ++ (v ++ s) with
    | nil => simp [h0] at hv
    | cons b t =>
      rw [readFields, ← hv, h1]
      · simp only [Option.bind_some, h2]
      · simp

theorem readFields_nil (n : Nat) (m : M) : readFields field n m [] = some m := by cases n <;> rfl

/-- Reading `a` from `m` leaves `m'` and goes on with what follows. -/
def Reads (field : M → Nat → Nat → Bytes → Option (M × Bytes)) (m : M) (a : Bytes) (m' : M) : Prop :=
  ∀ s n, (a ++ s).length ≤ n → ∃ n', s.length ≤ n' ∧ readFields field n m (a ++ s) = readFields field n' m' s

theorem Reads.nil (m : M) : Reads field m [] m := fun s n h => ⟨n, h, rfl⟩

theorem Reads.append {m m' m'' : M} {a b : Bytes} (h1 : Reads field m a m') (h2 : Reads field m' b m'') :
    Reads field m (a ++ b) m'' := by
  intro s n h
  rw [List.append_assoc] at h ⊢
  obtain ⟨n', h3, h4⟩ := h1 (b ++ s) n h
  obtain ⟨n'', h5, h6⟩ := h2 s n' h3
  exact ⟨n'', h5, h4.trans h6⟩

theorem Reads.keyed {m m' : M} {k v : Bytes} {tag wt : Nat} (hk : IsKey k tag wt)
    (h : ∀ s, field m tag wt (v ++ s) = some (m', s)) : Reads field m (k ++ v) m' := by
  intro s n hn
  rw [List.append_assoc] at hn ⊢
  exact readFields_step (List.length_pos_iff.1 (isKey_ne hk)) (readKey_of hk _) (h s) hn

theorem Reads.one {m m' : M} {v : Bytes} {tag wt : Nat} (h1 : 0 < tag) (h2 : tag < 2 ^ 29) (h3 : wt ≤ 5)
    (h : ∀ s, field m tag wt (v ++ s) = some (m', s)) : Reads field m (key tag wt ++ v) m' :=
  .keyed (isKey_key h1 h2 h3) h

theorem Reads.message {m m' : M} {a : Bytes} (h : Reads field m a m') : readMessage field m a = some m' := by
  obtain ⟨n, -, h1⟩ := h [] a.length (by simp)
  rw [List.append_nil, readFields_nil] at h1
  exact h1

end

theorem getInt_put (i : Int) (s : Bytes) : getInt 0 (varint (unsign i) ++ s) = some (sign64 (unsign i), s) := by
  simp [getInt, readVarint_varint (unsign_lt i)]

theorem getBool_put (s : Bytes) : getBool 0 (varint 1 ++ s) = some (true, s) := by
  simp [getBool, readVarint_varint (n := 1) (by decide)]

theorem getString_put {t : Str} (h : (utf8 t).length < 2 ^ 64) (s : Bytes) :
    getString 2 (varint (utf8 t).length ++ utf8 t ++ s) = some (t, s) := by
  simp only [getString, ne_eq, not_true_eq_false, if_false, List.append_assoc, readDelimited_append h, Option.bind_some,
    readUtf8_utf8, Option.map_some]

theorem getEnums_put {l : List Int} (h : (packed l).length < 2 ^ 64) (s : Bytes) :
    getEnums 2 (varint (packed l).length ++ packed l ++ s) = some (l.map fun i => sign32 (unsign i), s) := by
  simp only [getEnums, if_true, List.append_assoc, readDelimited_append h, Option.bind_some, unpack_packed l _ (Nat.le_refl _),
    Option.map_some]

theorem utf8_length (t : Str) : (utf8 t).length ≤ 4 * t.length := by
  induction t with
  | nil => simp [utf8]
  | cons c t ih =>
    have := Char.utf8Size_le_four c
    simp only [utf8, List.flatMap_cons, List.length_append, List.length_map, List.length_cons, String.length_utf8EncodeChar] at ih ⊢
    omega

/-! ### The messages -/

/-- Reading a partition hint behind another. -/
theorem partition_reads (m h : PartitionHint) (hl : 10 * h.strategies.length < 2 ^ 64) :
    Reads partitionField m (partition.encode h) ⟨m.strategies ++ h.strategies.map (fun i => sign32 (unsign i)),
      if h.count = 0 then m.count else sign64 (unsign h.count)⟩ := by
  have hp := packed_length h.strategies
  refine Reads.append (m' := ⟨m.strategies ++ h.strategies.map (fun i => sign32 (unsign i)), m.count⟩) ?_ ?_
  · unfold putEnums
    split
    · next he => rw [he]; simpa using Reads.nil m
    · rw [List.append_assoc]
      refine Reads.one (by decide) (by decide) (by decide) fun s => ?_
      simp only [partitionField, if_true, getEnums_put (l := h.strategies) (by omega), Option.map_some]
  · unfold putInt
    split
    · exact Reads.nil _
    · refine Reads.one (by decide) (by decide) (by decide) fun s => ?_
      simp [partitionField, getInt_put]

theorem plan_reads (m h : PlanHint) (hl : 4 * h.hint.length < 2 ^ 64) :
    Reads planField m (plan.encode h) (if h.hint = [] then m else h) := by
  have hp := utf8_length h.hint
  show Reads planField m (putString 1 h.hint) _
  unfold putString
  split
  · exact Reads.nil _
  · rw [List.append_assoc]
    refine Reads.one (by decide) (by decide) (by decide) fun s => ?_
    simp only [planField, if_true, getString_put (t := h.hint) (by omega), Option.map_some]

theorem blob_reads (m b : BlobStoreRead) (hl : 4 * b.path.length < 2 ^ 64) :
    Reads blobField m (blob.encode b) ⟨if b.path = [] then m.path else b.path, if b.limit = 0 then m.limit else sign64 (unsign b.limit),
      m.includeArchived || b.includeArchived⟩ := by
  have hp := utf8_length b.path
  refine Reads.append (m' := ⟨if b.path = [] then m.path else b.path, if b.limit = 0 then m.limit else sign64 (unsign b.limit),
    m.includeArchived⟩) (Reads.append (m' := ⟨if b.path = [] then m.path else b.path, m.limit, m.includeArchived⟩) ?_ ?_) ?_
  · unfold putString
    split
    · exact Reads.nil _
    · rw [List.append_assoc]
      refine Reads.one (by decide) (by decide) (by decide) fun s => ?_
      simp only [blobField, if_true, getString_put (t := b.path) (by omega), Option.map_some]
  · generalize (if b.path = [] then m.path else b.path) = path
    unfold putInt
    split
    · exact Reads.nil _
    · refine Reads.one (by decide) (by decide) (by decide) fun s => ?_
      simp [blobField, getInt_put]
  · generalize (if b.path = [] then m.path else b.path) = path
    generalize (if b.limit = 0 then m.limit else sign64 (unsign b.limit)) = limit
    unfold putBool
    split
    · next hb =>
      refine Reads.one (by decide) (by decide) (by decide) fun s => ?_
      simp [blobField, getBool_put, hb]
    · next hb =>
      have : (m.includeArchived || b.includeArchived) = m.includeArchived := by simp [hb]
      rw [this]
      exact Reads.nil _

/-! ### Fields that are skipped -/

/-- The bytes of a value of this wire type, which is skipped at `d` levels above the limit. -/
def Skips (d tag wt : Nat) (v : Bytes) : Prop := ∀ s, skipField d tag wt (v ++ s) = some s

theorem skips_varint (d tag : Nat) {v : Bytes} {n : Nat} (h : IsVarint v n) : Skips (d + 1) tag 0 v := by
  intro s
  simp [skipField, readVarint_of h]

theorem skips_fixed64 (d tag : Nat) (v : Bytes) (h : v.length = 8) : Skips (d + 1) tag 1 v := by
  intro s
  have := splitBytes_append v s
  rw [h] at this
  simp [skipField, this]

theorem skips_fixed32 (d tag : Nat) (v : Bytes) (h : v.length = 4) : Skips (d + 1) tag 5 v := by
  intro s
  have := splitBytes_append v s
  rw [h] at this
  simp [skipField, this]

theorem skips_delimited (d tag : Nat) {l v : Bytes} (h : IsVarint l v.length) : Skips (d + 1) tag 2 (l ++ v) := by
  intro s
  simp [skipField, readDelimited_of h]

/-- A field as a whole is skipped behind its key. -/
def SkipsWhole (d tag : Nat) (b : Bytes) : Prop :=
  ∃ wt k v, b = k ++ v ∧ IsKey k tag wt ∧ wt ≠ 4 ∧ Skips d tag wt v

theorem skips_group (d tag : Nat) {e : Bytes} (fs : List (Nat × Bytes)) (he : IsKey e tag 4)
    (h : ∀ f ∈ fs, SkipsWhole d f.1 f.2) : Skips (d + 1) tag 3 ((fs.map (·.2)).flatten ++ e) := by
  intro s
  simp only [skipField]
  have gen : ∀ n, ((fs.map (·.2)).flatten ++ e ++ s).length ≤ n →
      skipGroup (skipField d) tag n ((fs.map (·.2)).flatten ++ e ++ s) = some s := by
    induction fs with
    | nil =>
      intro n hn
      have hp := isKey_ne he
      simp only [List.map_nil, List.flatten_nil, List.nil_append, List.length_append] at hn ⊢
      cases n with
      | zero => omega
      | succ n => simp [skipGroup, readKey_of he]
    | cons f fs ih =>
      intro n hn
      obtain ⟨wt, k, v, f1, f2, f3, f4⟩ := h f (by simp)
      have hp := isKey_ne f2
      simp only [List.map_cons, List.flatten_cons, f1, List.append_assoc, List.length_append] at hn ⊢ ih
      cases n with
      | zero => omega
      | succ n =>
        simp only [skipGroup, readKey_of f2, Option.bind_some, if_neg f3]
        rw [f4]
        simp only [Option.bind_some]
        exact ih (fun x hx => h x (by simp [hx])) n (by omega)
  exact gen _ (Nat.le_refl _)

theorem field_skips {d tag : Nat} {b : Bytes} (h : Field d tag b) : SkipsWhole d tag b := by
  induction h with
  | number hk h => exact ⟨0, _, _, rfl, hk, by decide, skips_varint _ _ h⟩
  | eight hk h => exact ⟨1, _, _, rfl, hk, by decide, skips_fixed64 _ _ _ h⟩
  | bytes hk h => exact ⟨2, _, _, rfl, hk, by decide, skips_delimited _ _ h⟩
  | four hk h => exact ⟨5, _, _, rfl, hk, by decide, skips_fixed32 _ _ _ h⟩
  | group hk _ he ih => exact ⟨3, _, _, rfl, hk, by decide, skips_group _ _ _ he ih⟩

/-! ### What is read is in range -/

section
variable {M : Type} {field : M → Nat → Nat → Bytes → Option (M × Bytes)}

theorem readFields_inv (P : M → Prop) (hf : ∀ m t w s m' s', P m → field m t w s = some (m', s') → P m') :
    ∀ (n : Nat) (m : M) (s : Bytes) (m' : M), P m → readFields field n m s = some m' → P m'
  | n, m, [], m', hm, h => by
    rw [readFields_nil] at h
    cases h
    exact hm
  | 0, m, _ :: _, m', hm, h => by cases h
  | n + 1, m, b :: s, m', hm, h => by
    rw [readFields] at h
    · obtain ⟨r, -, h⟩ := Option.bind_eq_some_iff.1 h
      obtain ⟨x, h1, h⟩ := Option.bind_eq_some_iff.1 h
      exact readFields_inv P hf n _ _ m' (hf m _ _ _ _ _ hm h1) h
    · simp

end

theorem getInt_range {wt : Nat} {s s' : Bytes} {i : Int} (h : getInt wt s = some (i, s')) : -(2 ^ 63 : Int) ≤ i ∧ i < 2 ^ 63 := by
  unfold getInt at h
  split at h
  · cases h
  · obtain ⟨⟨n, t⟩, h1, h2⟩ := Option.map_eq_some_iff.1 h
    cases h2
    exact sign64_range n (readVarint_lt h1)

theorem unpack_range : ∀ {n : Nat} {s : Bytes} {l : List Int}, unpack n s = some l → ∀ i ∈ l, -(2 ^ 31 : Int) ≤ i ∧ i < 2 ^ 31
  | n, [], l, h => by cases n <;> (cases h; simp)
  | 0, _ :: _, l, h => by cases h
  | n + 1, b :: s, l, h => by
    rw [unpack] at h
    · obtain ⟨r, -, h⟩ := Option.bind_eq_some_iff.1 h
      obtain ⟨x, h1, h⟩ := Option.map_eq_some_iff.1 h
      cases h
      intro i hi
      rcases List.mem_cons.1 hi with rfl | hi
      · exact sign32_range _
      · exact unpack_range h1 i hi
    · simp

theorem getEnums_range {wt : Nat} {s s' : Bytes} {l : List Int} (h : getEnums wt s = some (l, s')) :
    ∀ i ∈ l, -(2 ^ 31 : Int) ≤ i ∧ i < 2 ^ 31 := by
  unfold getEnums at h
  split at h
  · obtain ⟨r, -, h⟩ := Option.bind_eq_some_iff.1 h
    obtain ⟨x, h1, h⟩ := Option.map_eq_some_iff.1 h
    cases h
    exact unpack_range h1
  · split at h
    · obtain ⟨r, h1, h⟩ := Option.map_eq_some_iff.1 h
      cases h
      intro i hi
      simp only [List.mem_cons, List.not_mem_nil, or_false] at hi
      subst hi
      exact sign32_range _
    · cases h

theorem otherField_same {M : Type} {m m' : M} {t w : Nat} {s s' : Bytes} (h : otherField m t w s = some (m', s')) : m' = m := by
  obtain ⟨x, -, h⟩ := Option.map_eq_some_iff.1 h
  cases h
  rfl

end Verif.Wire
