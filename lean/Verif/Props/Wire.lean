import Verif.Proofs.Wire
import Verif.Props.Examples
/-!
C87: the payloads of the shipped extensions survive their wire format.
-/

namespace Verif
open StoreSpec TextSpec RelSpec PlanSpec ExampleSpec WireSpec

set_option autoImplicit false

/-! ## C87 -/

/-- C87, exactly: a partition hint is decoded from its own bytes exactly if its strategies have 32 and its count 64 bits.
(A vector has fewer than `2 ^ 64` bytes.) -/
theorem C87_partition_wire_iff (h : PartitionHint) (hl : 10 * h.strategies.length < 2 ^ 64) :
    Wire.partition.decode (Wire.partition.encode h) = some h ↔ (∀ i ∈ h.strategies, InI32 i) ∧ InI64 h.count := by
  have hr := (Wire.partition_reads ⟨[], 0⟩ h hl).message
  have hd : Wire.partition.decode (Wire.partition.encode h) = Wire.readMessage Wire.partitionField ⟨[], 0⟩ (Wire.partition.encode h) := rfl
  rw [hd, hr]
  obtain ⟨ss, c⟩ := h
  simp only [List.nil_append, Option.some.injEq, PartitionHint.mk.injEq]
  refine and_congr ?_ ?_
  · rw [Wire.map_same_iff]
    exact forall_congr' fun i => forall_congr' fun _ => Wire.sign32_unsign i
  · split
    · next h0 => subst h0; simp [InI64]
    · exact Wire.sign64_unsign c

/-- C87: a plan hint is decoded from its own bytes. -/
theorem C87_hint_wire (h : PlanHint) (hl : 4 * h.hint.length < 2 ^ 64) : Wire.plan.decode (Wire.plan.encode h) = some h := by
  have hr := (Wire.plan_reads ⟨[]⟩ h hl).message
  have hd : Wire.plan.decode (Wire.plan.encode h) = Wire.readMessage Wire.planField ⟨[]⟩ (Wire.plan.encode h) := rfl
  rw [hd, hr]
  obtain ⟨t⟩ := h
  split
  · next h0 => simp only at h0; rw [h0]
  · rfl

/-- C87, exactly: a blob read is decoded from its own bytes exactly if its limit has 64 bits. -/
theorem C87_blob_wire_iff (b : BlobStoreRead) (hl : 4 * b.path.length < 2 ^ 64) :
    Wire.blob.decode (Wire.blob.encode b) = some b ↔ InI64 b.limit := by
  have hr := (Wire.blob_reads ⟨[], 0, false⟩ b hl).message
  have hd : Wire.blob.decode (Wire.blob.encode b) = Wire.readMessage Wire.blobField ⟨[], 0, false⟩ (Wire.blob.encode b) := rfl
  rw [hd, hr]
  obtain ⟨p, l, a⟩ := b
  have h1 : (if p = [] then [] else p) = p := by split <;> simp_all
  simp only [h1, Bool.false_or, Option.some.injEq, BlobStoreRead.mk.injEq, true_and, and_true]
  split
  · next h0 => subst h0; simp [InI64]
  · exact Wire.sign64_unsign l

/-- C87: two encodings one after the other are decoded as the later values where they are given, and strategies one after
the other. -/
theorem C87_concatenated (g h : PartitionHint) (hg : 10 * g.strategies.length < 2 ^ 64) (hh : 10 * h.strategies.length < 2 ^ 64)
    (hg' : (∀ i ∈ g.strategies, InI32 i) ∧ InI64 g.count) (hh' : (∀ i ∈ h.strategies, InI32 i) ∧ InI64 h.count)
    (a b : BlobStoreRead) (ha : 4 * a.path.length < 2 ^ 64) (hb : 4 * b.path.length < 2 ^ 64) (ha' : InI64 a.limit) (hb' : InI64 b.limit) :
    Wire.partition.decode (Wire.partition.encode g ++ Wire.partition.encode h) =
      some ⟨g.strategies ++ h.strategies, if h.count = 0 then g.count else h.count⟩ ∧
    Wire.blob.decode (Wire.blob.encode a ++ Wire.blob.encode b) =
      some ⟨if b.path = [] then a.path else b.path, if b.limit = 0 then a.limit else b.limit,
        a.includeArchived || b.includeArchived⟩ := by
  have e32 : ∀ l : List Int, (∀ i ∈ l, InI32 i) → l.map (fun i => Wire.sign32 (Wire.unsign i)) = l := fun l h =>
    (Wire.map_same_iff _ _).2 fun i hi => (Wire.sign32_unsign i).2 (h i hi)
  have e64 : ∀ i : Int, InI64 i → Wire.sign64 (Wire.unsign i) = i := fun i h => (Wire.sign64_unsign i).2 h
  constructor
  · have h1 := (Wire.partition_reads ⟨[], 0⟩ g hg).append (Wire.partition_reads _ h hh)
    have h2 := h1.message
    rw [show Wire.partition.decode = Wire.readMessage Wire.partitionField ⟨[], 0⟩ from rfl, h2]
    simp only [List.nil_append, e32 _ hg'.1, e32 _ hh'.1, e64 _ hh'.2, e64 _ hg'.2]
    congr 2
    split
    · split
      · next h0 => exact h0.symm
      · rfl
    · rfl
  · have h1 := (Wire.blob_reads ⟨[], 0, false⟩ a ha).append (Wire.blob_reads _ b hb)
    have h2 := h1.message
    rw [show Wire.blob.decode = Wire.readMessage Wire.blobField ⟨[], 0, false⟩ from rfl, h2]
    simp only [e64 _ ha', e64 _ hb', Bool.false_or]
    have e1 : (if a.path = [] then [] else a.path) = a.path := by split <;> simp_all
    have e2 : (if a.limit = 0 then 0 else a.limit) = a.limit := by split <;> simp_all
    rw [e1, e2]

/-- C87: exactly the varints of at most 64 bits are read, as the number they stand for, and numbers are written as the varint
with the fewest bytes. -/
theorem C87_varint_exact (t s : Bytes) (n : Nat) :
    (Wire.readVarint t = some (n, s) ↔ ∃ v, t = v ++ s ∧ IsVarint v n) ∧
    (n < 2 ^ 64 → IsVarint (Wire.varint n) n ∧ ∀ v, IsVarint v n → (Wire.varint n).length ≤ v.length) := by
  refine ⟨?_, fun hn => ⟨Wire.isVarint_varint hn, ?_⟩⟩
  · constructor
    · intro h
      obtain ⟨init, last, h1, h2⟩ := (Wire.readVarintN_iff 9 t s n).1 h
      exact ⟨init ++ [last], by simp [h1], init, last, rfl, h2⟩
    · rintro ⟨v, rfl, h⟩
      exact Wire.readVarint_of h s
  · intro v hv
    rw [← Nat.not_lt]
    intro hlt
    have h1 := Wire.varintN_shortest 9 n v.length (by
      have := Wire.sevens_lt v
      obtain ⟨init, last, -, -, -, -, -, h6⟩ := hv
      omega) (Wire.isVarint_ne hv)
    unfold Wire.varint at hlt
    omega

/-- C87: fields the messages do not have, of any wire type and with nested up to 100 deep, change nothing wherever they
stand between encodings. -/
theorem C87_unknown_fields (tag : Nat) (ht : 3 < tag) (b : Bytes) (hb : Field 100 tag b)
    (g h : PartitionHint) (hg : 10 * g.strategies.length < 2 ^ 64) (hh : 10 * h.strategies.length < 2 ^ 64)
    (x y : BlobStoreRead) (hx : 4 * x.path.length < 2 ^ 64) (hy : 4 * y.path.length < 2 ^ 64)
    (p q : PlanHint) (hp : 4 * p.hint.length < 2 ^ 64) (hq : 4 * q.hint.length < 2 ^ 64) :
    Wire.partition.decode (Wire.partition.encode g ++ b ++ Wire.partition.encode h) =
      Wire.partition.decode (Wire.partition.encode g ++ Wire.partition.encode h) ∧
    Wire.blob.decode (Wire.blob.encode x ++ b ++ Wire.blob.encode y) = Wire.blob.decode (Wire.blob.encode x ++ Wire.blob.encode y) ∧
    Wire.plan.decode (Wire.plan.encode p ++ b ++ Wire.plan.encode q) = Wire.plan.decode (Wire.plan.encode p ++ Wire.plan.encode q) := by
  obtain ⟨wt, k, v, rfl, hk, -, h3⟩ := Wire.field_skips hb
  have other : ∀ {M : Type} (m : M) (s : Bytes), Wire.otherField m tag wt (v ++ s) = some (m, s) := by
    intro M m s
    unfold Wire.otherField Wire.recursionLimit
    rw [h3 s]
    rfl
  have r1 : ∀ m, Wire.Reads Wire.partitionField m (k ++ v) m := fun m =>
    .keyed hk fun s => by
      rw [Wire.partitionField, if_neg (by omega), if_neg (by omega), other]
  have r2 : ∀ m, Wire.Reads Wire.blobField m (k ++ v) m := fun m =>
    .keyed hk fun s => by
      rw [Wire.blobField, if_neg (by omega), if_neg (by omega), if_neg (by omega), other]
  have r3 : ∀ m, Wire.Reads Wire.planField m (k ++ v) m := fun m =>
    .keyed hk fun s => by
      rw [Wire.planField, if_neg (by omega), other]
  refine ⟨?_, ?_, ?_⟩
  · exact (((Wire.partition_reads _ g hg).append (r1 _)).append (Wire.partition_reads _ h hh)).message.trans
      ((Wire.partition_reads _ g hg).append (Wire.partition_reads _ h hh)).message.symm
  · exact (((Wire.blob_reads _ x hx).append (r2 _)).append (Wire.blob_reads _ y hy)).message.trans
      ((Wire.blob_reads _ x hx).append (Wire.blob_reads _ y hy)).message.symm
  · exact (((Wire.plan_reads _ p hp).append (r3 _)).append (Wire.plan_reads _ q hq)).message.trans
      ((Wire.plan_reads _ p hp).append (Wire.plan_reads _ q hq)).message.symm

/-- C87: whatever bytes are decoded, the numbers have the size of their fields, so that what was decoded once is decoded again
from its own bytes. -/
theorem C87_decoded_in_range (s : Bytes) :
    (∀ h, Wire.partition.decode s = some h → (∀ i ∈ h.strategies, InI32 i) ∧ InI64 h.count) ∧
    (∀ b, Wire.blob.decode s = some b → InI64 b.limit) := by
  constructor
  · intro h hd
    refine Wire.readFields_inv (fun h => (∀ i ∈ h.strategies, InI32 i) ∧ InI64 h.count) ?_ _ _ _ h ⟨by simp, by simp [InI64]⟩ hd
    intro m t w s m' s' hm hf
    unfold Wire.partitionField at hf
    split at hf
    · obtain ⟨⟨l, r⟩, h1, h2⟩ := Option.map_eq_some_iff.1 hf
      cases h2
      refine ⟨fun i hi => ?_, hm.2⟩
      rcases List.mem_append.1 hi with hi | hi
      · exact hm.1 i hi
      · exact Wire.getEnums_range h1 i hi
    · split at hf
      · obtain ⟨⟨l, r⟩, h1, h2⟩ := Option.map_eq_some_iff.1 hf
        cases h2
        exact ⟨hm.1, Wire.getInt_range h1⟩
      · rw [Wire.otherField_same hf]; exact hm
  · intro b hd
    refine Wire.readFields_inv (fun b : BlobStoreRead => InI64 b.limit) ?_ _ _ _ b (by simp [InI64]) hd
    intro m t w s m' s' hm hf
    unfold Wire.blobField at hf
    split at hf
    · obtain ⟨⟨l, r⟩, h1, h2⟩ := Option.map_eq_some_iff.1 hf
      cases h2
      exact hm
    · split at hf
      · obtain ⟨⟨l, r⟩, h1, h2⟩ := Option.map_eq_some_iff.1 hf
        cases h2
        exact Wire.getInt_range h1
      · split at hf
        · obtain ⟨⟨l, r⟩, h1, h2⟩ := Option.map_eq_some_iff.1 hf
          cases h2
          exact hm
        · rw [Wire.otherField_same hf]; exact hm

/-- C87 and C56 without a parameter for the encoding: the shipped registry is built, and a plan with a blob read, a partition hint
and a plan hint survives as text, payloads included byte for byte (`PlanEquiv` compares payloads). -/
theorem C87_registry [UTab] [FTab] (hA : AsciiPrintable) (o : Opts) (ho : Readable o) :
    ∃ r, exampleRegistry Wire.partition Wire.plan Wire.blob = some r ∧
    ∀ (h : PartitionHint), (∀ i ∈ h.strategies, i ∈ strategies.map (·.2)) → InI64 h.count → 10 * h.strategies.length < 2 ^ 64 →
    ∀ (p : PlanHint), Spellable p.hint → 4 * p.hint.length < 2 ^ 64 →
    ∀ (b : BlobStoreRead), Spellable b.path → InI64 b.limit → 4 * b.path.length < 2 ^ 64 →
    ∀ (names : List Str), (∀ n ∈ names, Spellable n) →
    ∀ (cols : List (Str × Ty)), (∀ c ∈ cols, Spellable c.1 ∧ Writable (run []) c.2) →
    let plan : Plan := ⟨none, [], [], [.root names (some (.node (.read none
      (some ⟨cols.map (·.1), some ⟨cols.map (·.2), 0, .required⟩⟩) none (.extension (some (blobStoreRead.toAny Wire.blob b)))
      (some ⟨some (partitionHint.toAny Wire.partition h), [planHint.toAny Wire.plan p]⟩) 0) []))]⟩
    ∃ plan', parsePlan r (textPlan r o plan).text = .ok plan' ∧ PlanEquiv r plan plan' := by
  obtain ⟨r, hr, -⟩ := C56_registry_built Wire.partition Wire.plan Wire.blob
  refine ⟨r, hr, ?_⟩
  intro h hs hc hl p hp hpl b hb hbl hbb names hn cols hcols
  refine C56_plan_round_trip _ _ _ hr hA o ho h hs hc p hp b hb hbl ?_ ?_ ?_ names hn cols hcols
  · refine (C87_partition_wire_iff h hl).2 ⟨fun i hi => ?_, hc⟩
    have := hs i hi
    simp only [strategies, List.map_cons, List.map_nil, List.mem_cons, List.not_mem_nil, or_false] at this
    unfold InI32
    omega
  · exact C87_hint_wire p hpl
  · exact (C87_blob_wire_iff b hbb).2 hbl

/-! ### Examples -/

-- the bytes of `PartitionHint[&HASH, &BROADCAST, count=-1]`, `PlanHint[hint='é']` and `BlobStoreRead['ab', limit=300, ...]`
example : Wire.partition.encode ⟨[1, 3], -1⟩ = [10, 2, 1, 3, 16, 255, 255, 255, 255, 255, 255, 255, 255, 255, 1] ∧
    Wire.plan.encode ⟨cs!"é"⟩ = [10, 2, 195, 169] ∧
    Wire.blob.encode ⟨cs!"ab", 300, true⟩ = [10, 2, 97, 98, 16, 172, 2, 24, 1] := by decide +kernel

-- a strategy of 33 bits is cut off; unpacked strategies are read as well; a truncated or a wrongly typed field is an error
example : Wire.partition.decode (Wire.partition.encode ⟨[4294967297], 0⟩) = some ⟨[1], 0⟩ ∧
    Wire.partition.decode [8, 1, 16, 7, 8, 3] = some ⟨[1, 3], 7⟩ ∧
    Wire.partition.decode [10, 2, 1] = none ∧ Wire.partition.decode [18, 0] = none ∧
    Wire.plan.decode [10, 1, 255] = none := by decide +kernel

-- an unknown group with a number in it; its key is not written in the shortest way
example : Field 100 5 ([171, 0] ++ ([(7, [56] ++ [9])].map (·.2)).flatten ++ [44]) := by
  rw [List.append_assoc]
  refine .group ⟨by decide, by decide, by decide, [171], 0, rfl, by decide, by decide, by decide, by decide, rfl⟩ ?_
    ⟨by decide, by decide, by decide, [], 44, rfl, by decide, by decide, by decide, by decide, rfl⟩
  intro f hf
  simp only [List.mem_cons, List.not_mem_nil, or_false] at hf
  subst hf
  exact .number (n := 9) ⟨by decide, by decide, by decide, [], 56, rfl, by decide, by decide, by decide, by decide, rfl⟩
    ⟨[], 9, rfl, by decide, by decide, by decide, by decide, rfl⟩

end Verif
