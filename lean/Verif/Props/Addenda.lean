import Verif.Props.Sample
/-!
# Addenda and named arguments
-/

namespace Verif
open StoreSpec TextSpec RelSpec

set_option autoImplicit false

/-! ## C37 -/

namespace AddendaSpec

/-- The invocations of one kind, in order. -/
def ofKind (k : AddKind) (as : List Addendum) : List Addendum := as.filter fun a => decide (a.kind = k)

/-- The registry builds these payloads, one for each invocation. -/
def Builds (reg : Registry ExtArgs (List Nat)) (as : List Addendum) (ds : List AnyMsg) : Prop :=
  as.map (fun a => reg.parse a.kind.ns a.name a.args) = ds.map Except.ok

end AddendaSpec

open AddendaSpec

theorem resolveAddendum_ok {reg : Registry ExtArgs (List Nat)} {a : Addendum} {d : AnyMsg} :
    resolveAddendum reg a = .ok d ↔ reg.parse a.kind.ns a.name a.args = .ok d := by
  unfold resolveAddendum resolved
  split
  · next h => rw [h]; constructor <;> intro h <;> cases h <;> rfl
  · next h => rw [h]; constructor <;> intro h <;> cases h
  · next h => rw [h]; constructor <;> intro h <;> cases h

theorem standardLoop_ok (reg : Registry ExtArgs (List Nat)) (as : List Addendum) (enh : Option AnyMsg)
    (opts : List AnyMsg) (r : Option AnyMsg × List AnyMsg) :
    standardLoop reg enh opts as = .ok r ↔
      (∀ a ∈ as, a.kind ≠ .ext) ∧
      (∃ es, Builds reg (ofKind .enh as) es ∧ r.1.toList = enh.toList ++ es) ∧
      ∃ os, Builds reg (ofKind .opt as) os ∧ r.2 = opts ++ os := by
  induction as generalizing enh opts with
  | nil =>
    constructor
    · intro h
      cases h
      exact ⟨fun _ h => absurd h (by simp), ⟨[], rfl, by simp⟩, [], rfl, by simp⟩
    · rintro ⟨_, ⟨es, h1, h2⟩, os, h3, h4⟩
      have h5 : es = [] := by simpa [Builds, ofKind] using h1.symm
      have h6 : os = [] := by simpa [Builds, ofKind] using h3.symm
      subst h5 h6
      have : r.1 = enh := by
        cases h7 : r.1 <;> cases enh <;> simp_all
      rw [standardLoop, ← this]
      simp only [List.append_nil] at h4
      rw [← h4]
  | cons a as ih =>
    rw [standardLoop]
    cases hk : a.kind with
    | enh =>
      have hf : ofKind .enh (a :: as) = a :: ofKind .enh as := by simp [ofKind, hk]
      have hf2 : ofKind .opt (a :: as) = ofKind .opt as := by simp [ofKind, hk]
      have hmem : (∀ x ∈ a :: as, x.kind ≠ .ext) ↔ ∀ x ∈ as, x.kind ≠ .ext := by simp [hk]
      rw [hf, hf2, hmem]
      cases enh with
      | some e =>
        simp only [Option.isSome_some, if_true]
        constructor
        · intro h; cases h
        · rintro ⟨_, ⟨es, h1, h2⟩, _⟩
          cases es with
          | nil => simp [Builds] at h1
          | cons e' es => cases hr : r.1 <;> simp [hr] at h2
      | none =>
        simp only [Option.isSome_none, Bool.false_eq_true, if_false]
        constructor
        · intro h
          obtain ⟨d, h1, h2⟩ := Res.bind_ok_iff.1 h
          obtain ⟨g1, ⟨es, g2, g3⟩, g4⟩ := (ih (some d) opts).1 h2
          refine ⟨g1, ⟨d :: es, ?_, by simpa using g3⟩, g4⟩
          simp only [Builds, List.map_cons, List.cons.injEq]
          exact ⟨resolveAddendum_ok.1 h1, g2⟩
        · rintro ⟨g1, ⟨es, g2, g3⟩, g4⟩
          cases es with
          | nil => simp [Builds] at g2
          | cons d es =>
            simp only [Builds, List.map_cons, List.cons.injEq] at g2
            refine Res.bind_ok_iff.2 ⟨d, resolveAddendum_ok.2 g2.1, ?_⟩
            exact (ih (some d) opts).2 ⟨g1, ⟨es, g2.2, by simpa using g3⟩, g4⟩
    | opt =>
      have hf : ofKind .enh (a :: as) = ofKind .enh as := by simp [ofKind, hk]
      have hf2 : ofKind .opt (a :: as) = a :: ofKind .opt as := by simp [ofKind, hk]
      have hmem : (∀ x ∈ a :: as, x.kind ≠ .ext) ↔ ∀ x ∈ as, x.kind ≠ .ext := by simp [hk]
      rw [hf, hf2, hmem]
      constructor
      · intro h
        obtain ⟨d, h1, h2⟩ := Res.bind_ok_iff.1 h
        obtain ⟨g1, g2, os, g3, g4⟩ := (ih enh (opts ++ [d])).1 h2
        refine ⟨g1, g2, d :: os, ?_, by simpa using g4⟩
        simp only [Builds, List.map_cons, List.cons.injEq]
        exact ⟨resolveAddendum_ok.1 h1, g3⟩
      · rintro ⟨g1, g2, os, g3, g4⟩
        cases os with
        | nil => simp [Builds] at g3
        | cons d os =>
          simp only [Builds, List.map_cons, List.cons.injEq] at g3
          refine Res.bind_ok_iff.2 ⟨d, resolveAddendum_ok.2 g3.1, ?_⟩
          exact (ih enh (opts ++ [d])).2 ⟨g1, g2, os, g3.2, by simpa using g4⟩
    | ext =>
      constructor
      · intro h; cases h
      · rintro ⟨h, _⟩
        exact absurd hk (h a (by simp))

/-- C37: the addenda of a relation that is not an extension table are accepted exactly when none of
them is an extension-table addendum, at most one is an enhancement, and the registry builds a
payload for each; the enhancement and the optimizations, in the order of the lines, are then the
payloads of the relation. -/
theorem C37_addenda_collected (reg : Registry ExtArgs (List Nat)) (as : List Addendum) (adv : Option AdvExt) :
    standardAdv reg as = .ok adv ↔
      (∀ a ∈ as, a.kind ≠ .ext) ∧ (ofKind .enh as).length ≤ 1 ∧
      Builds reg (ofKind .enh as) (payloads adv).1.toList ∧ Builds reg (ofKind .opt as) (payloads adv).2 ∧
      (adv.isSome = true ↔ as ≠ []) := by
  have hlen : ∀ {l : List Addendum} {ds : List AnyMsg}, Builds reg l ds → l.length = ds.length := by
    intro l ds h
    have := congrArg List.length h
    simpa using this
  have hnil : (∀ a ∈ as, a.kind ≠ .ext) → (as = [] ↔ ofKind .enh as = [] ∧ ofKind .opt as = []) := by
    intro h
    constructor
    · rintro rfl; exact ⟨rfl, rfl⟩
    · rintro ⟨h1, h2⟩
      cases as with
      | nil => rfl
      | cons a l =>
        have := h a (by simp)
        cases hk : a.kind with
        | enh => simp [ofKind, hk] at h1
        | opt => simp [ofKind, hk] at h2
        | ext => exact absurd hk this
  constructor
  · intro h
    obtain ⟨r, h1, h2⟩ := Res.bind_ok_iff.1 h
    obtain ⟨g1, ⟨es, g2, g3⟩, os, g4, g5⟩ := (standardLoop_ok reg as none [] r).1 h1
    simp only [Option.toList_none, List.nil_append] at g3 g5
    subst g3
    subst g5
    have hle : (ofKind .enh as).length ≤ 1 := by
      rw [hlen g2]
      cases r.1 <;> simp
    have hl2 := hlen g2
    have hl4 := hlen g4
    split at h2
    · next hn =>
      cases h2
      rw [hn.1] at g2
      rw [hn.2] at g4
      have : as = [] := by
        rw [hnil g1]
        exact ⟨List.length_eq_zero_iff.1 (hlen g2), List.length_eq_zero_iff.1 (hlen g4)⟩
      exact ⟨g1, hle, by simpa [payloads] using g2, by simpa [payloads] using g4, by simp [this]⟩
    · next hn =>
      cases h2
      refine ⟨g1, hle, g2, g4, ?_⟩
      simp only [Option.isSome_some, true_iff, ne_eq]
      intro h0
      subst h0
      apply hn
      constructor
      · cases h5 : r.1 with
        | none => rfl
        | some x => simp [ofKind, h5] at hl2
      · exact List.length_eq_zero_iff.1 (by simpa [ofKind] using hl4.symm)
  · rintro ⟨g1, hle, g2, g4, g5⟩
    refine Res.bind_ok_iff.2 ⟨payloads adv, ?_, ?_⟩
    · exact (standardLoop_ok reg as none [] _).2 ⟨g1, ⟨_, g2, by simp⟩, _, g4, by simp⟩
    · cases adv with
      | none => simp [payloads]
      | some x =>
        rw [if_neg]
        · rfl
        · rintro ⟨h1, h2⟩
          have hne : as ≠ [] := g5.1 rfl
          apply hne
          rw [hnil g1]
          have e1 := hlen g2
          have e2 := hlen g4
          rw [h1] at e1
          rw [h2] at e2
          exact ⟨List.length_eq_zero_iff.1 e1, List.length_eq_zero_iff.1 e2⟩

/-- Two optimizations around an enhancement. -/
example : standardAdv sampleReg [noteOf .opt 1, noteOf .enh 2, noteOf .opt 3] =
    .ok (some ⟨some (note 2), [note 1, note 3]⟩) := by
  rw [C37_addenda_collected]
  refine ⟨?_, by decide, rfl, rfl, by simp⟩
  intro a ha
  simp only [List.mem_cons, List.not_mem_nil, or_false] at ha
  rcases ha with rfl | rfl | rfl <;> simp [noteOf]

example : ∀ adv, standardAdv sampleReg [noteOf .enh 1, noteOf .enh 2] ≠ .ok adv := by
  intro adv h
  exact absurd ((C37_addenda_collected _ _ _).1 h).2.1 (by decide)

/-- C37: the addenda of an extension table are accepted exactly when one of them is its
extension-table addendum and the others would be accepted on their own. -/
theorem C37_extension_table (reg : Registry ExtArgs (List Nat)) (as : List Addendum) (d : AnyMsg)
    (adv : Option AdvExt) :
    extReadParts reg as = .ok (d, adv) ↔
      (ofKind .ext as).length = 1 ∧ Builds reg (ofKind .ext as) [d] ∧
      standardAdv reg (as.filter fun a => decide (a.kind ≠ .ext)) = .ok adv := by
  unfold extReadParts
  change (match ofKind .ext as with | [a] => _ | _ => _) = _ ↔ _
  split
  · next a ha =>
    rw [ha]
    constructor
    · intro h
      obtain ⟨d', h1, h2⟩ := Res.bind_ok_iff.1 h
      obtain ⟨adv', h3, h4⟩ := Res.bind_ok_iff.1 h2
      cases h4
      exact ⟨rfl, by simp [Builds, resolveAddendum_ok.1 h1], h3⟩
    · rintro ⟨_, h1, h2⟩
      have : reg.parse a.kind.ns a.name a.args = .ok d := by simpa [Builds] using h1
      exact Res.bind_ok_iff.2 ⟨d, resolveAddendum_ok.2 this, Res.bind_ok_iff.2 ⟨adv, h2, rfl⟩⟩
  · next hne =>
    constructor
    · intro h; cases h
    · rintro ⟨h1, _⟩
      obtain ⟨a, ha⟩ := List.length_eq_one_iff.1 h1
      exact absurd ha (hne a)

/-- C37: an extension-table addendum is accepted only below `Read:Extension`, and there exactly
one; extension relations take no addenda at all. -/
theorem C37_extension_table_only_on_read [FTab] (st : Store) (reg : Registry ExtArgs (List Nat)) (as : List Addendum)
    (kids : List (Rel × Nat)) (line : SLine) (r : Rel × Nat) (h : convLine st reg as kids line = .ok r) :
    (∀ cols, line = .readExt cols → (ofKind .ext as).length = 1) ∧
    ((∀ cols, line ≠ .readExt cols) → ofKind .ext as = []) ∧
    (∀ k n a c, line = .ext k n a c → as = []) := by
  have std : ∀ {adv}, standardAdv reg as = .ok adv → ofKind .ext as = [] := by
    intro adv hs
    have := ((C37_addenda_collected reg as adv).1 hs).1
    simpa [ofKind] using this
  cases line with
  | readExt cols =>
    refine ⟨fun _ _ => ?_, fun h => absurd rfl (h cols), fun _ _ _ _ h => by cases h⟩
    obtain ⟨p, h1, _⟩ := Res.bind_ok_iff.1 h
    exact ((C37_extension_table reg as p.1 p.2).1 h1).1
  | ext k n a c =>
    simp only [convLine, convExtRel] at h
    split at h
    · cases h
    · next h0 =>
      have h0 : as = [] := Decidable.not_not.1 h0
      subst h0
      exact ⟨fun _ h => (by cases h), fun _ => rfl, fun _ _ _ _ _ => rfl⟩
  | _ =>
    obtain ⟨p, h1, _⟩ := Res.bind_ok_iff.1 h
    exact ⟨fun _ h => (by cases h), fun _ => std h1, fun _ _ _ _ h => by cases h⟩

/-- C37: the addenda printed for payloads that have a faithful text are read back, and collecting
them gives the same payloads. -/
theorem C37_printed_addenda_read_back_partial [UTab] [FTab] (hA : AsciiPrintable) (env : Env) (hst : env.st.Ordered)
    (ho : Readable env.o) (adv : Option AdvExt) (h : AdvOk env adv) :
    ∃ (trees : List SAddendum) (as : List Addendum) (adv' : Option AdvExt),
      (advAddenda env adv).map (fun x => pAddendum x.text) = trees.map (fun t => some (t, [])) ∧
      convAddenda env.st trees = .ok as ∧ standardAdv env.reg as = .ok adv' ∧ payloads adv' = payloads adv := by
  obtain ⟨tree, htree⟩ := addTrees hA hst ho
  obtain ⟨adv', h1, h2⟩ := standardAdv_advList h
  have conv : ∀ (k : AddKind) (l : List AnyMsg), (∀ d ∈ l, AddendumOk env k d) →
      ∀ more as, convAddenda env.st more = .ok as →
      convAddenda env.st (l.map (tree k) ++ more) = .ok (l.map (addendumOf env k) ++ as) := by
    intro k l hl more as hm
    induction l with
    | nil => exact hm
    | cons d l ih =>
      obtain ⟨n, a, h3, _⟩ := addendumOf_ok (hl d (by simp))
      have ht := htree k d (hl d (by simp))
      simp only [List.map_cons, List.cons_append, convAddenda, ht.2.2.1, plain, Res.bind,
        ih fun x hx => hl x (by simp [hx])]
      rw [ht.1, ht.2.1, h3]
  have text : ∀ (k : AddKind) (l : List AnyMsg), (∀ d ∈ l, AddendumOk env k d) →
      (l.map fun d => textAddendum env.st env.o k (env.reg.decode k.ns d [])).map (fun x => pAddendum x.text) =
        (l.map (tree k)).map fun t => some (t, []) := by
    intro k l hl
    rw [List.map_map, List.map_map]
    apply List.map_congr_left
    intro d hd
    have := (htree k d (hl d hd)).2.2.2 []
    simpa using this
  cases adv with
  | none => exact ⟨[], [], adv', rfl, rfl, h1, h2.symm⟩
  | some x =>
    obtain ⟨g1, g2⟩ := h x rfl
    have g1' : ∀ d ∈ x.enhancement.toList, AddendumOk env .enh d := fun d hd => g1 d (by simpa using hd)
    refine ⟨x.enhancement.toList.map (tree .enh) ++ (x.optimization.map (tree .opt) ++ []), advList env (some x), adv',
      ?_, ?_, h1, h2.symm⟩
    · have e1 := text .enh _ g1'
      have e2 := text .opt _ g2
      simp only [advAddenda, List.map_append, List.append_nil]
      rw [← e1, ← e2]
      rfl
    · have := conv .enh _ g1' _ _ (conv .opt _ g2 [] [] rfl)
      rw [this]
      simp [advList, payloads]

/-- Its hypotheses are met by any store, the default options and these payloads. -/
example [UTab] [FTab] : Readable Opts.default ∧
    AdvOk ⟨.empty, .default, sampleReg⟩ (some ⟨some (note 2), [note 1, note 3]⟩) := by
  refine ⟨⟨by decide, by decide, rfl, rfl⟩, fun x hx => ?_⟩
  cases hx
  refine ⟨fun d hd => ?_, fun d hd => ?_⟩
  · cases hd; exact note_ok rfl _ _ (by decide)
  · simp only [List.mem_cons, List.not_mem_nil, or_false] at hd
    rcases hd with rfl | rfl <;> exact note_ok rfl _ _ (by decide)

/-! ## C54 -/

theorem mem_insertKey {V : Type} (l : List (Str × V)) (k : Str) (v : V) (hnd : (l.map (·.1)).Nodup) (x : Str) (y : V) :
    (x, y) ∈ insertKey l k v ↔ (x = k ∧ y = v) ∨ (x ≠ k ∧ (x, y) ∈ l) := by
  induction l with
  | nil => simp [insertKey]
  | cons p l ih =>
    obtain ⟨k', v'⟩ := p
    simp only [List.map_cons, List.nodup_cons] at hnd
    simp only [insertKey]
    split
    · next h =>
      subst h
      have hmem : ∀ y, (k', y) ∉ l := fun y hy => hnd.1 (List.mem_map.2 ⟨_, hy, rfl⟩)
      simp only [List.mem_cons, Prod.mk.injEq]
      constructor
      · rintro (h | h)
        · exact .inl h
        · refine .inr ⟨?_, .inr h⟩
          rintro rfl
          exact hmem y h
      · rintro (h | ⟨h1, ⟨h2, _⟩ | h2⟩)
        · exact .inl h
        · exact absurd h2 h1
        · exact .inr h2
    · next h =>
      simp only [List.mem_cons, Prod.mk.injEq, ih hnd.2]
      constructor
      · rintro (⟨rfl, rfl⟩ | h1 | h1)
        · exact .inr ⟨h, .inl ⟨rfl, rfl⟩⟩
        · exact .inl h1
        · exact .inr ⟨h1.1, .inr h1.2⟩
      · rintro (h1 | ⟨h1, h2 | h2⟩)
        · exact .inr (.inl h1)
        · exact .inl h2
        · exact .inr (.inr ⟨h1, h2⟩)

theorem keys_insertKey {V : Type} (l : List (Str × V)) (k : Str) (v : V) :
    (insertKey l k v).map (·.1) = if k ∈ l.map (·.1) then l.map (·.1) else l.map (·.1) ++ [k] := by
  induction l with
  | nil => simp [insertKey]
  | cons p l ih =>
    obtain ⟨k', v'⟩ := p
    simp only [insertKey]
    split
    · next h => simp [h]
    · next h =>
      have h' : k ≠ k' := fun e => h e.symm
      simp only [List.map_cons, ih, List.mem_cons, h', false_or]
      split <;> simp

open NamedSpec

/-- C54: of several arguments with one name the last counts, and it stands where the name first
stood; all other arguments keep their value and their place. -/
theorem C54_repeated_names [FTab] (st : Store) (l : List (Str × SArg)) (m : List (Str × ExtValue))
    (h : convNamed st [] l = .ok m) :
    m.map (·.1) = names l ∧ ∀ k v, (k, v) ∈ m ↔ ∃ a, Last l k a ∧ convArg st a = .ok v := by
  have gen : ∀ (l : List (Str × SArg)) (acc m : List (Str × ExtValue)), (acc.map (·.1)).Nodup →
      convNamed st acc l = .ok m →
      m.map (·.1) = l.foldl (fun ns p => if p.1 ∈ ns then ns else ns ++ [p.1]) (acc.map (·.1)) ∧
      ∀ k v, (k, v) ∈ m ↔ (∃ a, Last l k a ∧ convArg st a = .ok v) ∨
        ((∀ p ∈ l, p.1 ≠ k) ∧ (k, v) ∈ acc) := by
    intro l
    induction l with
    | nil =>
      intro acc m hnd h
      cases h
      refine ⟨rfl, fun k v => ⟨fun h => .inr ⟨by simp, h⟩, ?_⟩⟩
      rintro (⟨a, ⟨b, c, hb, _⟩, _⟩ | h)
      · simp at hb
      · exact h.2
    | cons p l ih =>
      obtain ⟨k0, a0⟩ := p
      intro acc m hnd h
      simp only [convNamed] at h
      obtain ⟨v0, h1, h2⟩ := Res.bind_ok_iff.1 h
      have hkeys := keys_insertKey acc k0 v0
      have hnd2 : ((insertKey acc k0 v0).map (·.1)).Nodup := by
        rw [hkeys]
        split
        · exact hnd
        · next hn =>
          rw [List.nodup_append]
          refine ⟨hnd, by simp, ?_⟩
          intro a ha b hb
          simp only [List.mem_cons, List.not_mem_nil, or_false] at hb
          subst hb
          rintro rfl
          exact hn ha
      obtain ⟨g1, g2⟩ := ih _ m hnd2 h2
      refine ⟨?_, fun k v => ?_⟩
      · rw [g1, hkeys]
        rfl
      · rw [g2, mem_insertKey _ _ _ hnd]
        have hlast : ∀ a, Last ((k0, a0) :: l) k a ↔ Last l k a ∨ (k = k0 ∧ a = a0 ∧ ∀ p ∈ l, p.1 ≠ k) := by
          intro a
          constructor
          · rintro ⟨b, c, hb, hc⟩
            cases b with
            | nil =>
              simp only [List.nil_append, List.cons.injEq, Prod.mk.injEq] at hb
              obtain ⟨⟨rfl, rfl⟩, rfl⟩ := hb
              exact .inr ⟨rfl, rfl, hc⟩
            | cons x b =>
              simp only [List.cons_append, List.cons.injEq] at hb
              exact .inl ⟨b, c, hb.2, hc⟩
          · rintro (⟨b, c, hb, hc⟩ | ⟨rfl, rfl, hc⟩)
            · exact ⟨(k0, a0) :: b, c, by rw [hb]; rfl, hc⟩
            · exact ⟨[], l, rfl, hc⟩
        simp only [hlast, List.mem_cons, forall_eq_or_imp]
        constructor
        · rintro (⟨a, h3, h4⟩ | ⟨h3, ⟨rfl, rfl⟩ | ⟨h4, h5⟩⟩)
          · exact .inl ⟨a, .inl h3, h4⟩
          · exact .inl ⟨a0, .inr ⟨rfl, rfl, h3⟩, h1⟩
          · exact .inr ⟨⟨fun h => h4 h.symm, h3⟩, h5⟩
        · rintro (⟨a, h3 | ⟨rfl, rfl, h3⟩, h4⟩ | ⟨⟨h3, h4⟩, h5⟩)
          · exact .inl ⟨a, h3, h4⟩
          · rw [h1] at h4
            cases h4
            exact .inr ⟨h3, .inl ⟨rfl, rfl⟩⟩
          · exact .inr ⟨h4, .inr ⟨fun h => h3 h.symm, h5⟩⟩
  obtain ⟨g1, g2⟩ := gen l [] m (by simp) h
  exact ⟨g1, fun k v => by rw [g2]; simp⟩

/-- `a` is given twice. -/
example : letI := halfTab
    convNamed .empty [] [(cs!"a", .enum cs!"x"), (cs!"b", .enum cs!"y"), (cs!"a", .enum cs!"z")] =
      .ok [(cs!"a", .enum cs!"z"), (cs!"b", .enum cs!"y")] := by rfl

end Verif
