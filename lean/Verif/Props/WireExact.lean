import Verif.Proofs.WireExact
import Verif.Props.Wire
/-!
C87, exactly: which bytes are a payload, and which payload they are.
-/

namespace Verif
open WireSpec

set_option autoImplicit false

/-! ## C87 -/

/-- C87, exactly: bytes are decoded as a partition hint exactly if they are fields that make the hint out of an empty one, as
the description of the format has it. -/
theorem C87_partition_decoded_iff (s : Bytes) (h : PartitionHint) :
    Wire.partition.decode s = some h ↔ Updates PartitionStep ⟨[], 0⟩ s h := by
  refine Wire.readMessage_iff (P := fun _ => True) _ ?_ (fun _ _ _ => trivial) ?_ s trivial h
  · intro m t w k s m' s' _ hk hf
    unfold Wire.partitionField at hf
    split at hf
    · next ht =>
      subst ht
      obtain ⟨⟨l, r⟩, h1, h2⟩ := Option.map_eq_some_iff.1 hf
      cases h2
      unfold Wire.getEnums at h1
      split at h1
      · next hw =>
        subst hw
        obtain ⟨⟨a, r⟩, h3, h4⟩ := Option.bind_eq_some_iff.1 h1
        obtain ⟨l', h5, h6⟩ := Option.map_eq_some_iff.1 h4
        cases h6
        obtain ⟨len, rfl, hl⟩ := Wire.readDelimited_some h3
        obtain ⟨ns, h7, h8⟩ := Wire.unpack_some _ _ _ h5
        exact ⟨len ++ a, by simp, .packed hk hl h7 ((Wire.strategies_iff _ _).2 h8)⟩
      · split at h1
        · next hw =>
          subst hw
          obtain ⟨⟨n, r⟩, h3, h4⟩ := Option.map_eq_some_iff.1 h1
          cases h4
          obtain ⟨v, rfl, hv⟩ := Wire.readVarint_some h3
          exact ⟨v, rfl, .single hk hv ((Wire.signed32 _ _).2 rfl)⟩
        · cases h1
    · next ht1 =>
      split at hf
      · next ht =>
        subst ht
        obtain ⟨⟨i, r⟩, h1, h2⟩ := Option.map_eq_some_iff.1 hf
        cases h2
        obtain ⟨rfl, v, n, rfl, hv, hi⟩ := Wire.getInt_some h1
        exact ⟨v, rfl, .count hk hv hi⟩
      · next ht2 =>
        obtain ⟨rfl, v, e, hv⟩ := Wire.otherField_some hf hk
        have := hk.1
        exact ⟨v, e, .other (by omega) hv⟩
  · intro m b m' hs
    cases hs with
    | packed hk hl hv hi =>
      refine .keyed hk fun s => ?_
      simp only [Wire.partitionField, if_true, Wire.getEnums, List.append_assoc, Wire.readDelimited_of hl, Option.bind_some,
        Wire.unpack_of hv _ (Nat.le_refl _), Option.map_some, (Wire.strategies_iff _ _).1 hi]
    | single hk hv hi =>
      refine .keyed hk fun s => ?_
      simp [Wire.partitionField, Wire.getEnums, Wire.readVarint_of hv, (Wire.signed32 _ _).1 hi]
    | count hk hv hi =>
      refine .keyed hk fun s => ?_
      simp [Wire.partitionField, Wire.getInt_of hv hi]
    | other ht hf =>
      obtain ⟨w, k, v, rfl, hk, ho⟩ := Wire.otherField_of m hf
      refine .keyed hk fun s => ?_
      rw [Wire.partitionField, if_neg (by omega), if_neg (by omega), ho]

/-- C87, exactly: which bytes are decoded as a plan hint. -/
theorem C87_hint_decoded_iff (s : Bytes) (hb : ∀ x ∈ s, x < 256) (h : PlanHint) :
    Wire.plan.decode s = some h ↔ Updates PlanStep ⟨[]⟩ s h := by
  refine Wire.readMessage_iff (P := fun s => ∀ x ∈ s, x < 256) _ ?_ (fun a s h x hx => h x (by simp [hx])) ?_ s hb h
  · intro m t w k s m' s' hb hk hf
    unfold Wire.planField at hf
    split at hf
    · next ht =>
      subst ht
      obtain ⟨⟨u, r⟩, h1, h2⟩ := Option.map_eq_some_iff.1 hf
      cases h2
      obtain ⟨rfl, l, rfl, hl⟩ := Wire.getString_some hb h1
      exact ⟨_, rfl, .hint hk hl⟩
    · next ht =>
      obtain ⟨rfl, v, e, hv⟩ := Wire.otherField_some hf hk
      have := hk.1
      exact ⟨v, e, .other (by omega) hv⟩
  · intro m b m' hs
    cases hs with
    | hint hk hl =>
      refine .keyed hk fun s => ?_
      rw [Wire.planField, if_pos rfl, Wire.getString_of hl]
      rfl
    | other ht hf =>
      obtain ⟨w, k, v, rfl, hk, ho⟩ := Wire.otherField_of m hf
      refine .keyed hk fun s => ?_
      rw [Wire.planField, if_neg (by omega), ho]

/-- C87, exactly: which bytes are decoded as a blob read. -/
theorem C87_blob_decoded_iff (s : Bytes) (hb : ∀ x ∈ s, x < 256) (b : BlobStoreRead) :
    Wire.blob.decode s = some b ↔ Updates BlobStep ⟨[], 0, false⟩ s b := by
  refine Wire.readMessage_iff (P := fun s => ∀ x ∈ s, x < 256) _ ?_ (fun a s h x hx => h x (by simp [hx])) ?_ s hb b
  · intro m t w k s m' s' hb hk hf
    unfold Wire.blobField at hf
    split at hf
    · next ht =>
      subst ht
      obtain ⟨⟨u, r⟩, h1, h2⟩ := Option.map_eq_some_iff.1 hf
      cases h2
      obtain ⟨rfl, l, rfl, hl⟩ := Wire.getString_some hb h1
      exact ⟨_, rfl, .path hk hl⟩
    · next ht1 =>
      split at hf
      · next ht =>
        subst ht
        obtain ⟨⟨i, r⟩, h1, h2⟩ := Option.map_eq_some_iff.1 hf
        cases h2
        obtain ⟨rfl, v, n, rfl, hv, hi⟩ := Wire.getInt_some h1
        exact ⟨v, rfl, .limit hk hv hi⟩
      · next ht2 =>
        split at hf
        · next ht =>
          subst ht
          obtain ⟨⟨i, r⟩, h1, h2⟩ := Option.map_eq_some_iff.1 hf
          cases h2
          unfold Wire.getBool at h1
          split at h1
          · cases h1
          · next hw =>
            have : w = 0 := by omega
            subst this
            obtain ⟨⟨n, r⟩, h3, h4⟩ := Option.map_eq_some_iff.1 h1
            cases h4
            obtain ⟨v, rfl, hv⟩ := Wire.readVarint_some h3
            cases n with
            | zero => exact ⟨v, rfl, .unset hk hv⟩
            | succ n => exact ⟨v, rfl, .set hk hv⟩
        · next ht3 =>
          obtain ⟨rfl, v, e, hv⟩ := Wire.otherField_some hf hk
          have := hk.1
          exact ⟨v, e, .other (by omega) hv⟩
  · intro m b m' hs
    cases hs with
    | path hk hl =>
      refine .keyed hk fun s => ?_
      rw [Wire.blobField, if_pos rfl, Wire.getString_of hl]
      rfl
    | limit hk hv hi =>
      refine .keyed hk fun s => ?_
      simp [Wire.blobField, Wire.getInt_of hv hi]
    | unset hk hv =>
      refine .keyed hk fun s => ?_
      simp [Wire.blobField, Wire.getBool, Wire.readVarint_of hv]
    | set hk hv =>
      refine .keyed hk fun s => ?_
      simp [Wire.blobField, Wire.getBool, Wire.readVarint_of hv]
    | other ht hf =>
      obtain ⟨w, k, v, rfl, hk, ho⟩ := Wire.otherField_of m hf
      refine .keyed hk fun s => ?_
      rw [Wire.blobField, if_neg (by omega), if_neg (by omega), if_neg (by omega), ho]

/-! ### Examples -/

-- a flag of 2 is set and a later flag of 0 unsets it; between them a fixed field with number 9
example : Wire.blob.decode [24, 2, 77, 1, 2, 3, 4] = some ⟨[], 0, true⟩ ∧
    Wire.blob.decode [24, 2, 77, 1, 2, 3, 4, 24, 0] = some ⟨[], 0, false⟩ := by
  refine ⟨(C87_blob_decoded_iff _ (by decide) _).2 ?_, by decide +kernel⟩
  refine .cons (b := [24, 2]) (s := [77, 1, 2, 3, 4])
    (.set (k := [24]) (v := [2]) (n := 1) ⟨by decide, by decide, by decide, [], 24, rfl, by decide, by decide, by decide, by decide, rfl⟩
      ⟨[], 2, rfl, by decide, by decide, by decide, by decide, rfl⟩) ?_
  refine .cons (b := [77, 1, 2, 3, 4]) (s := []) (.other (tag := 9) (by decide) (.four (k := [77]) (v := [1, 2, 3, 4])
    ⟨by decide, by decide, by decide, [], 77, rfl, by decide, by decide, by decide, by decide, rfl⟩ rfl)) (.nil _)

-- a truncated field is no field: nothing makes a message of it
example : ¬ ∃ h, Updates PlanStep ⟨[]⟩ [10, 2, 97] h := by
  rintro ⟨h, hu⟩
  have := (C87_hint_decoded_iff [10, 2, 97] (by decide) h).2 hu
  rw [show Wire.plan.decode [10, 2, 97] = none by decide +kernel] at this
  cases this

end Verif
