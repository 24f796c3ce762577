import Verif.Model.Messages
import Verif.Proofs.Chrono
import Verif.Spec.Store
/-!
# What an error message tells (C82)
-/

namespace Verif
open StoreSpec

set_option autoImplicit false

/-! ## Taking messages apart -/

theorem split_at_first {c : Char} {a a' b b' : Str} (ha : c ∉ a) (ha' : c ∉ a') (h : a ++ c :: b = a' ++ c :: b') :
    a = a' ∧ b = b' := by
  induction a generalizing a' with
  | nil =>
    cases a' with
    | nil => exact ⟨rfl, (List.cons.inj h).2⟩
    | cons d a' => exact absurd (List.cons.inj h).1 (by rintro rfl; simp at ha')
  | cons d a ih =>
    cases a' with
    | nil => exact absurd (List.cons.inj h).1.symm (by rintro rfl; simp at ha)
    | cons d' a' =>
      obtain ⟨h1, h2⟩ := List.cons.inj h
      obtain ⟨h3, h4⟩ := ih (fun h => ha (by simp [h])) (fun h => ha' (by simp [h])) h2
      exact ⟨by rw [h1, h3], h4⟩

theorem not_mem_dec {c : Char} (hc : isDigit c = false) (n : Nat) : c ∉ dec n := fun h => by
  rw [dec_all_digits n c h] at hc; cases hc

theorem dec_injective {a b : Nat} (h : dec a = dec b) : a = b := by
  rw [← decVal_dec a, h, decVal_dec]

theorem dec_split {c : Char} (hc : isDigit c = false) {a b : Nat} {x y : Str} (h : dec a ++ c :: x = dec b ++ c :: y) :
    a = b ∧ x = y := by
  obtain ⟨h1, h2⟩ := split_at_first (not_mem_dec hc a) (not_mem_dec hc b) h
  exact ⟨dec_injective h1, h2⟩

theorem kind_split {k k' : Kind} {c c' d d' : Char} {x y : Str} (hc : c ≠ ' ' ∨ d ≠ 'V') (hc' : c' ≠ ' ' ∨ d' ≠ 'V')
    (h : k.shown ++ c :: d :: x = k'.shown ++ c' :: d' :: y) : k = k' ∧ c :: d :: x = c' :: d' :: y := by
  cases k <;> cases k' <;> simp [Kind.shown] at h ⊢
  all_goals first
    | exact h
    | (obtain ⟨rfl, rfl, -⟩ := h; simp at hc hc')

/-- What the message of an insertion error tells for certain. -/
inductive Heard where
  | nothing
  | urn (anchor : Nat)
  | anchor (kind : Kind) (anchor : Nat)
  | missing (kind : Kind) (anchor : Nat) (name : Str) (urn : Nat)
  | name (kind : Kind) (name : Str)

/-- The part of an insertion error that can be told from its message: everything but the two names, and but
whether a URN is missing as well. -/
def heard : InsertError → Heard
  | .missingMappingType => .nothing
  | .duplicateUrnAnchor a _ _ => .urn a
  | .duplicateAnchor k a _ _ => .anchor k a
  | .missingUrn k a n u => .missing k a n u
  | .duplicateAndMissingUrn k a _ _ _ => .anchor k a
  | .invalidName k n => .name k n

theorem dup_urn_split {a b : Nat} {x y : Str} (h : cs!"Duplicate URN anchor " ++ dec a ++ cs!" for " ++ x =
    cs!"Duplicate URN anchor " ++ dec b ++ cs!" for " ++ y) : a = b ∧ x = y := by
  simp only [List.append_assoc] at h
  obtain ⟨h1, h2⟩ := dec_split (c := ' ') (by decide) (List.append_cancel_left h)
  exact ⟨h1, by simpa using h2⟩

theorem dup_ext_split {k l : Kind} {a b : Nat} {x y : Str}
    (h : cs!"Duplicate extension " ++ k.shown ++ cs!" anchor " ++ dec a ++ cs!" for " ++ x =
    cs!"Duplicate extension " ++ l.shown ++ cs!" anchor " ++ dec b ++ cs!" for " ++ y) : k = l ∧ a = b ∧ x = y := by
  simp only [List.append_assoc] at h
  obtain ⟨h1, h2⟩ := kind_split (.inr (by decide)) (.inr (by decide)) (List.append_cancel_left h)
  have h3 : cs!" anchor " ++ (dec a ++ (cs!" for " ++ x)) = cs!" anchor " ++ (dec b ++ (cs!" for " ++ y)) := h2
  obtain ⟨h4, h5⟩ := dec_split (c := ' ') (by decide) (List.append_cancel_left h3)
  exact ⟨h1, h4, by simpa using h5⟩

/-- The end of the message of a repeated anchor. -/
theorem dup_shown (k : Kind) (a : Nat) (p n : Str) : (InsertError.duplicateAnchor k a p n).shown =
    cs!"Duplicate extension " ++ k.shown ++ cs!" anchor " ++ dec a ++ cs!" for " ++ (p ++ (cs!" and " ++ n)) := by
  simp [InsertError.shown]

theorem dupMissing_shown (k : Kind) (a : Nat) (p n : Str) (u : Nat) : (InsertError.duplicateAndMissingUrn k a p n u).shown =
    cs!"Duplicate extension " ++ k.shown ++ cs!" anchor " ++ dec a ++ cs!" for " ++
      (p ++ (cs!" and " ++ (n ++ (cs!", also missing URN " ++ dec u)))) := by
  simp [InsertError.shown]

theorem dupUrn_shown (a : Nat) (p n : Str) : (InsertError.duplicateUrnAnchor a p n).shown =
    cs!"Duplicate URN anchor " ++ dec a ++ cs!" for " ++ (p ++ (cs!" and " ++ n)) := by
  simp [InsertError.shown]

/-! ## The claims -/

/-- C82: the message of an error about a declaration tells the kind of declaration and its anchor, whatever the
names are. -/
theorem C82_insert_told (e e' : InsertError) (h : e.shown = e'.shown) : heard e = heard e' := by
  have apart : ∀ (k : Kind) (a : Nat) (x : Str) (b : Nat) (y : Str), ¬
      cs!"Duplicate URN anchor " ++ dec b ++ cs!" for " ++ y =
      cs!"Duplicate extension " ++ k.shown ++ cs!" anchor " ++ dec a ++ cs!" for " ++ x := by
    intro k a x b y h
    simp at h
  cases e with
  | missingMappingType =>
    cases e' <;> first | rfl | (simp [InsertError.shown] at h)
  | duplicateUrnAnchor a p n =>
    rw [dupUrn_shown] at h
    cases e' with
    | duplicateUrnAnchor a' p' n' =>
      rw [dupUrn_shown] at h
      exact congrArg Heard.urn (dup_urn_split h).1
    | duplicateAnchor k' a' p' n' => rw [dup_shown] at h; exact absurd h (apart _ _ _ _ _)
    | duplicateAndMissingUrn k' a' p' n' u' => rw [dupMissing_shown] at h; exact absurd h (apart _ _ _ _ _)
    | _ => simp [InsertError.shown] at h
  | duplicateAnchor k a p n =>
    rw [dup_shown] at h
    cases e' with
    | duplicateUrnAnchor a' p' n' => rw [dupUrn_shown] at h; exact absurd h.symm (apart _ _ _ _ _)
    | duplicateAnchor k' a' p' n' =>
      rw [dup_shown] at h
      obtain ⟨rfl, rfl, -⟩ := dup_ext_split h
      rfl
    | duplicateAndMissingUrn k' a' p' n' u' =>
      rw [dupMissing_shown] at h
      obtain ⟨rfl, rfl, -⟩ := dup_ext_split h
      rfl
    | _ => simp [InsertError.shown] at h
  | duplicateAndMissingUrn k a p n u =>
    rw [dupMissing_shown] at h
    cases e' with
    | duplicateUrnAnchor a' p' n' => rw [dupUrn_shown] at h; exact absurd h.symm (apart _ _ _ _ _)
    | duplicateAnchor k' a' p' n' =>
      rw [dup_shown] at h
      obtain ⟨rfl, rfl, -⟩ := dup_ext_split h
      rfl
    | duplicateAndMissingUrn k' a' p' n' u' =>
      rw [dupMissing_shown] at h
      obtain ⟨rfl, rfl, -⟩ := dup_ext_split h
      rfl
    | _ => simp [InsertError.shown] at h
  | missingUrn k a n u =>
    cases e' with
    | missingUrn k' a' n' u' =>
      simp only [InsertError.shown, List.append_assoc] at h
      obtain ⟨rfl, h1⟩ := dec_split (c := ' ') (by decide) (List.append_cancel_left h)
      have h2 : cs!"for extension " ++ (k.shown ++ (cs!" anchor " ++ (dec a ++ (cs!" name " ++ n)))) =
        cs!"for extension " ++ (k'.shown ++ (cs!" anchor " ++ (dec a' ++ (cs!" name " ++ n')))) := h1
      obtain ⟨rfl, h3⟩ := kind_split (.inr (by decide)) (.inr (by decide)) (List.append_cancel_left h2)
      have h4 : cs!" anchor " ++ (dec a ++ (cs!" name " ++ n)) = cs!" anchor " ++ (dec a' ++ (cs!" name " ++ n')) := h3
      obtain ⟨rfl, h5⟩ := dec_split (c := ' ') (by decide) (List.append_cancel_left h4)
      have h6 : cs!"name " ++ n = cs!"name " ++ n' := h5
      rw [List.append_cancel_left h6]
    | _ => simp [InsertError.shown] at h
  | invalidName k n =>
    cases e' with
    | invalidName k' n' =>
      simp only [InsertError.shown, List.append_assoc] at h
      obtain ⟨rfl, h1⟩ := kind_split (.inr (by decide)) (.inr (by decide)) (List.append_cancel_left h)
      have h2 : cs!" name '" ++ (n ++ cs!"': u! prefix is only valid for type names") =
        cs!" name '" ++ (n' ++ cs!"': u! prefix is only valid for type names") := h1
      have h3 := List.append_cancel_right (List.append_cancel_left h2)
      rw [h3]
    | _ => simp [InsertError.shown] at h

/-- The names in an insertion error. -/
def InsertError.names : InsertError → List Str
  | .missingMappingType => []
  | .duplicateUrnAnchor _ p n => [p, n]
  | .duplicateAnchor _ _ p n => [p, n]
  | .missingUrn _ _ n _ => [n]
  | .duplicateAndMissingUrn _ _ p n _ => [p, n]
  | .invalidName _ n => [n]

theorem pair_split {p p' x x' : Str} (hp : ' ' ∉ p) (hp' : ' ' ∉ p')
    (h : p ++ (cs!" and " ++ x) = p' ++ (cs!" and " ++ x')) : p = p' ∧ x = x' := by
  obtain ⟨h1, h2⟩ := split_at_first hp hp' h
  have h3 : cs!"and " ++ x = cs!"and " ++ x' := h2
  exact ⟨h1, List.append_cancel_left h3⟩

theorem also_split {n n' : Str} {u u' : Nat} (hn : ' ' ∉ n) (hn' : ' ' ∉ n')
    (h : n ++ (cs!", also missing URN " ++ dec u) = n' ++ (cs!", also missing URN " ++ dec u')) : n = n' ∧ u = u' := by
  have h1 : (n ++ [',']) ++ ' ' :: (cs!"also missing URN " ++ dec u) =
      (n' ++ [',']) ++ ' ' :: (cs!"also missing URN " ++ dec u') := by simpa using h
  obtain ⟨h2, h3⟩ := split_at_first (by simp [hn]) (by simp [hn']) h1
  exact ⟨List.append_cancel_right h2, dec_injective (List.append_cancel_left h3)⟩

/-- C82: different errors about declarations have different messages, as long as no name and no URN in them has a
space in it. -/
theorem C82_insert_distinct_partial (e e' : InsertError) (hs : ∀ n ∈ e.names ++ e'.names, ' ' ∉ n) (h : e.shown = e'.shown) :
    e = e' := by
  have ht := C82_insert_told e e' h
  cases e <;> cases e' <;> simp only [heard] at ht <;>
    simp only [InsertError.names, List.cons_append, List.nil_append, List.mem_cons, List.not_mem_nil, or_false,
      forall_eq_or_imp, forall_eq] at hs
  all_goals first
    | (cases ht; rfl)
    | (cases ht; done)
    | skip
  · cases ht
    rw [dupUrn_shown, dupUrn_shown] at h
    obtain ⟨rfl, rfl⟩ := pair_split hs.1 hs.2.2.1 (dup_urn_split h).2
    rfl
  · cases ht
    rw [dup_shown, dup_shown] at h
    obtain ⟨rfl, rfl⟩ := pair_split hs.1 hs.2.2.1 (dup_ext_split h).2.2
    rfl
  · exfalso
    rw [dup_shown, dupMissing_shown] at h
    obtain ⟨-, h1⟩ := pair_split hs.1 hs.2.2.1 (dup_ext_split h).2.2
    rw [h1] at hs
    exact hs.2.1 (by simp)
  · exfalso
    rw [dup_shown, dupMissing_shown] at h
    obtain ⟨-, h1⟩ := pair_split hs.1 hs.2.2.1 (dup_ext_split h).2.2
    rw [← h1] at hs
    exact hs.2.2.2 (by simp)
  · cases ht
    rw [dupMissing_shown, dupMissing_shown] at h
    obtain ⟨rfl, h1⟩ := pair_split hs.1 hs.2.2.1 (dup_ext_split h).2.2
    obtain ⟨rfl, rfl⟩ := also_split hs.2.1 hs.2.2.2 h1
    rfl

/-- C82 fails with spaces: one message for a missing URN and for none, and one for two pairs of names. -/
theorem C82_insert_spaces_fail :
    (InsertError.duplicateAnchor .function 1 cs!"f" cs!"g, also missing URN 5").shown =
      (InsertError.duplicateAndMissingUrn .function 1 cs!"f" cs!"g" 5).shown ∧
    (InsertError.duplicateUrnAnchor 1 cs!"a" cs!"b and c").shown = (InsertError.duplicateUrnAnchor 1 cs!"a and b" cs!"c").shown :=
  ⟨by decide +kernel, by decide +kernel⟩

/-- C82: different errors about references have different messages, whatever the names are. -/
theorem C82_lookup_distinct (e e' : Store.MissingReference) (h : e.shown = e'.shown) : e = e' := by
  cases e <;> cases e' <;> simp only [Store.MissingReference.shown, List.append_assoc] at h
  all_goals first
    | (simp at h; done)
    | skip
  · rw [dec_injective (List.append_cancel_left h)]
  · obtain ⟨rfl, h1⟩ := kind_split (.inl (by decide)) (.inl (by decide)) (List.append_cancel_left h)
    have h2 : cs!": " ++ dec _ = cs!": " ++ dec _ := h1
    rw [dec_injective (List.append_cancel_left h2)]
  · obtain ⟨rfl, h1⟩ := kind_split (.inl (by decide)) (.inl (by decide)) (List.append_cancel_left h)
    have h2 : cs!": " ++ _ = cs!": " ++ _ := h1
    rw [List.append_cancel_left h2]
  · rename_i k n a k' n' a'
    obtain ⟨rfl, h1⟩ := kind_split (.inl (by decide)) (.inl (by decide)) (List.append_cancel_left h)
    have h2 : cs!": " ++ (n ++ '#' :: dec a) = cs!": " ++ (n' ++ '#' :: dec a') := h1
    have h3 := congrArg List.reverse (List.append_cancel_left h2)
    simp only [List.reverse_append, List.reverse_cons, List.append_assoc, List.singleton_append] at h3
    obtain ⟨h4, h5⟩ := split_at_first (by simpa using not_mem_dec (by decide) a) (by simpa using not_mem_dec (by decide) a') h3
    rw [List.reverse_inj.1 h5, dec_injective (List.reverse_inj.1 h4)]
  · obtain ⟨rfl, h1⟩ := kind_split (.inl (by decide)) (.inl (by decide)) (List.append_cancel_left h)
    have h2 : cs!": " ++ _ = cs!": " ++ _ := h1
    rw [List.append_cancel_left h2]

/-- C82: the context of a parse error is told by its text. -/
theorem C82_context_distinct (c c' : Ctx) (h : c.shown = c'.shown) : c = c' := by
  obtain ⟨n, l⟩ := c
  obtain ⟨n', l'⟩ := c'
  simp only [Ctx.shown, List.append_assoc] at h
  obtain ⟨rfl, h1⟩ := dec_split (c := ':') (by decide) (List.append_cancel_left h)
  have h2 : cs!" '" ++ (l ++ cs!"'") = cs!" '" ++ (l' ++ cs!"'") := h1
  rw [List.append_cancel_right (List.append_cancel_left h2)]

/-- C82: errors about declarations and errors about references are told apart. -/
theorem C82_classes_apart (e : InsertError) (e' : Store.MissingReference) :
    (DeclError.insert e).shown ≠ (DeclError.lookup e').shown := by
  intro h
  simp [DeclError.shown] at h

example : (InsertError.missingUrn .typeVariation 7 cs!"v" 3).shown =
    cs!"Missing URN anchor 3 for extension Type Variation anchor 7 name v" := by decide +kernel

end Verif
