import Verif.Proofs.Printed
import Verif.Proofs.Resolve
/-!
# Properties C04, C05, C06, C08, C09, C10, C11: extension declarations
-/

namespace Verif
open StoreSpec

/-! ## C04: first-wins map over every history -/

/-- C04.  After any history of declarations a lookup answers with the first legal declaration
of that anchor (and kind), whatever happened later. -/
theorem C04_lookup_first_wins (h : List Op) (a : Nat) (k : Kind) :
    (run h).findUrn a = (match firstUrn h a with
      | some u => .ok u
      | none => .error (.missingUrn a)) ∧
    (run h).findByAnchor k a = (match firstExt h a k with
      | some p => .ok p
      | none => .error (.missingAnchor k a)) := by
  obtain ⟨hu, he⟩ := Store.run_spec h
  simp only [Store.findUrn, Store.findByAnchor, hu, he]
  exact ⟨rfl, rfl⟩

/-- C04.  A declaration already visible is never changed or removed by later calls. -/
theorem C04_declarations_persist (h h' : List Op) (a : Nat) (k : Kind) (p : Nat × Str)
    (hp : (run h).findByAnchor k a = .ok p) : (run (h ++ h')).findByAnchor k a = .ok p := by
  have h1 := (C04_lookup_first_wins h a k).2
  rw [hp] at h1
  rw [(C04_lookup_first_wins (h ++ h') a k).2]
  cases hf : firstExt h a k with
  | none => rw [hf] at h1; simp at h1
  | some q =>
    rw [hf] at h1
    have : firstExt (h ++ h') a k = some q := by
      simp only [firstExt, List.findSome?_append] at hf ⊢
      rw [hf]; rfl
    rw [this]
    simpa using h1.symm

/-- C04.  A call that reports anything but a missing URN leaves the store as it was. -/
theorem C04_rejected_calls_change_nothing (s : Store) (op : Op) (e : InsertError)
    (he : (exec s op).2 = some e) (hm : ∀ k a n u, e ≠ .missingUrn k a n u) :
    (exec s op).1 = s := by
  cases op with
  | unmapped => rfl
  | urn n a =>
    simp only [exec, Store.addUrn] at *
    split <;> rename_i hx <;> simp only [hx] at he ⊢
    simp at he
  | ext k u a n =>
    simp only [exec, Store.addExt] at *
    split
    · rfl
    · rename_i n' hn
      simp only [hn] at he
      split
      · rfl
      · rename_i hx
        simp only [hx] at he
        split at he
        · simp only [Option.some.injEq] at he
          exact absurd he.symm (hm _ _ _ _)
        · simp at he

-- the hypotheses are met by a real history: a duplicate that is refused
example : (exec (run [.urn cs!"u" 1, .ext .function 1 5 cs!"add"]) (.ext .function 1 5 cs!"sub")).2
    = some (.duplicateAnchor .function 5 cs!"add" cs!"sub") := by decide

-- kinds are separate name spaces: anchor 5 as function and as type
example : (run [.urn cs!"u" 1, .ext .function 1 5 cs!"add", .ext .type 1 5 cs!"u!json"]).findByAnchor .type 5
    = .ok (1, cs!"json") := by decide

/-! ## C05: errors are reported exactly for defective declarations -/

/-- C05.  The errors returned when a plan's declarations are loaded are, in order, the answers
the specification gives to each declaration; and the resulting store is the one of C04. -/
theorem C05_load_reports_answers (us : List (Nat × Str)) (ds : List Store.Decl) :
    (Store.fromExtensions us ds).1 = run (planOps us ds) ∧
    (Store.fromExtensions us ds).2 = answers [] (planOps us ds) := by
  rw [Store.fromExtensions_spec]; exact ⟨rfl, rfl⟩

/-- C05.  Loading is free of errors exactly when every declaration is sound with respect to the
ones before it. -/
theorem C05_load_clean_iff (us : List (Nat × Str)) (ds : List Store.Decl) :
    (Store.fromExtensions us ds).2 = [] ↔
      ∀ past op rest, planOps us ds = past ++ op :: rest → answer past op = none := by
  rw [(C05_load_reports_answers us ds).2]
  suffices ∀ (l base : List Op), answers base l = [] ↔
      ∀ past op rest, l = past ++ op :: rest → answer (base ++ past) op = none by
    have := this (planOps us ds) []
    simpa using this
  intro l
  induction l with
  | nil => intro base; simp [answers]
  | cons op l ih =>
    intro base
    simp only [answers, List.append_eq_nil_iff, ih]
    constructor
    · rintro ⟨h1, h2⟩ past op' rest heq
      cases past with
      | nil =>
        simp only [List.nil_append, List.cons.injEq] at heq
        obtain ⟨rfl, rfl⟩ := heq
        simpa using h1
      | cons p past =>
        simp only [List.cons_append, List.cons.injEq] at heq
        obtain ⟨rfl, rfl⟩ := heq
        have := h2 past op' rest rfl
        simpa using this
    · intro h
      constructor
      · have := h [] op l rfl
        simpa using this
      · intro past op' rest heq
        have := h (op :: past) op' rest (by simp [heq])
        simpa using this

/-- C05.  In particular a URN list loads cleanly exactly when its anchors are distinct. -/
theorem C05_urns_clean_iff_distinct (us : List (Nat × Str)) :
    (Store.fromExtensions us []).2 = [] ↔ (us.map (·.1)).Nodup := by
  rw [(C05_load_reports_answers us []).2]
  have hp : planOps us [] = us.map fun p => Op.urn p.2 p.1 := by simp [planOps]
  rw [hp]
  suffices ∀ (us : List (Nat × Str)) (base : List Op),
      answers base (us.map fun p => Op.urn p.2 p.1) = [] ↔
        (us.map (·.1)).Nodup ∧ ∀ p ∈ us, firstUrn base p.1 = none by
    rw [this us []]
    simp [firstUrn]
  intro us
  induction us with
  | nil => intro base; simp [answers]
  | cons p us ih =>
    intro base
    obtain ⟨a, n⟩ := p
    have key : ∀ b, firstUrn (base ++ [Op.urn n a]) b = none ↔ firstUrn base b = none ∧ b ≠ a := by
      intro b
      simp only [firstUrn, List.findSome?_append]
      cases List.findSome? _ base with
      | some x => simp
      | none =>
        by_cases hab : a = b
        · simp [hab]
        · simp [hab, Ne.symm hab]
    simp only [List.map_cons, answers, List.append_eq_nil_iff, ih, key, answer]
    simp only [List.nodup_cons, List.mem_map, List.mem_cons, Prod.exists, exists_and_right,
      exists_eq_right, forall_eq_or_imp, ne_eq, Prod.forall, not_exists]
    have : (Option.map (fun prev => InsertError.duplicateUrnAnchor a prev n) (firstUrn base a)).toList = []
        ↔ firstUrn base a = none := by
      cases firstUrn base a <;> simp
    rw [this]
    constructor
    · rintro ⟨h1, h2, h3⟩
      refine ⟨⟨?_, h2⟩, h1, fun b m hb => (h3 b m hb).1⟩
      intro m hm; exact (h3 a m hm).2 rfl
    · rintro ⟨⟨h1, h2⟩, h3, h4⟩
      exact ⟨h3, h2, fun b m hb => ⟨h4 b m hb, fun hba => h1 m (hba ▸ hb)⟩⟩

example : (Store.fromExtensions [(1, cs!"a"), (2, cs!"b")]
    [some (.function, 1, 7, cs!"f:i64"), some (.type, 2, 7, cs!"t")]).2 = [] := by decide
example : (Store.fromExtensions [(1, cs!"a"), (1, cs!"b")] [none, some (.function, 9, 7, cs!"f")]).2
    = [.duplicateUrnAnchor 1 cs!"a" cs!"b", .missingMappingType, .missingUrn .function 7 cs!"f" 9] := by
  decide

/-! ## C06: export and re-import -/

/-- No stored type name still begins with the `u!` marker (a type declared `u!u!x` is stored as
`u!x` and would lose another marker on re-import). -/
def NoMarkers (s : Store) : Prop := ∀ a k n, Declared s k a n → legalName k n = some n

/-- Every declaration refers to a declared URN. -/
def UrnsDeclared (s : Store) : Prop :=
  ∀ e ∈ s.exts, (s.urns.find? e.2.1).isSome

theorem C06_loadUrns_sorted (s : Store) (us : OMap Nat Str)
    (hs : OMap.Sorted (s.urns ++ us)) :
    Store.loadUrns s us = ({ s with urns := s.urns ++ us }, []) := by
  induction us generalizing s with
  | nil => simp [Store.loadUrns]
  | cons p us ih =>
    obtain ⟨a, u⟩ := p
    have hlt : ∀ e ∈ s.urns, Key.rank e.1 < Key.rank a := by
      intro e he
      exact (List.pairwise_append.1 hs).2.2 e he (a, u) List.mem_cons_self
    have hnone : OMap.find? s.urns a = none := by
      cases hf : OMap.find? s.urns a with
      | none => rfl
      | some v => have := hlt _ (OMap.find?_mem hf); simp at this
    simp only [Store.loadUrns, Store.addUrn, hnone]
    rw [OMap.insertNew_last hlt, ih]
    · simp
    · simpa [OMap.Sorted] using hs

theorem C06_loadDecls_sorted (s : Store) (es : OMap (Nat × Kind) (Nat × Str))
    (hs : OMap.Sorted (s.exts ++ es))
    (hl : ∀ e ∈ es, legalName e.1.2 e.2.2 = some e.2.2)
    (hu : ∀ e ∈ es, (s.urns.find? e.2.1).isSome) :
    Store.loadDecls s (es.map fun e => some (e.1.2, e.2.1, e.1.1, e.2.2))
      = ({ s with exts := s.exts ++ es }, []) := by
  induction es generalizing s with
  | nil => simp [Store.loadDecls]
  | cons e es ih =>
    obtain ⟨⟨a, k⟩, ⟨u, n⟩⟩ := e
    have hlt : ∀ e ∈ s.exts, Key.rank e.1 < Key.rank (a, k) := by
      intro e he
      exact (List.pairwise_append.1 hs).2.2 e he ((a, k), (u, n)) List.mem_cons_self
    have hnone : OMap.find? s.exts (a, k) = none := by
      cases hf : OMap.find? s.exts (a, k) with
      | none => rfl
      | some v => have := hlt _ (OMap.find?_mem hf); simp at this
    have hl0 : Store.normName k n = some n := by
      rw [Store.normName_eq_legal]; exact hl _ List.mem_cons_self
    have hu0 := hu _ List.mem_cons_self
    simp only at hu0
    have hu0' : (s.urns.find? u).isNone = false := by
      cases hx : s.urns.find? u <;> simp_all
    simp only [List.map_cons, Store.loadDecls, Store.addExt, hl0, hnone, hu0']
    rw [OMap.insertNew_last hlt, ih]
    · simp
    · simpa [OMap.Sorted] using hs
    · exact fun e he => hl e (List.mem_cons_of_mem _ he)
    · exact fun e he => hu e (List.mem_cons_of_mem _ he)

/-- C06 (restricted to stores without left-over `u!` markers).  Exporting the declarations of
any reachable store whose URNs are all declared and loading them again gives the same store
and no errors. -/
theorem C06_export_import_partial (h : List Op) (hu : UrnsDeclared (run h)) (hm : NoMarkers (run h)) :
    Store.fromExtensions (run h).toUrns (run h).toDecls = (run h, []) := by
  have hord := Store.ordered_run h
  unfold Store.fromExtensions Store.toUrns Store.toDecls
  have h1 := C06_loadUrns_sorted Store.empty (run h).urns (by simpa [Store.empty] using hord.1)
  rw [h1]
  have h2 := C06_loadDecls_sorted { Store.empty with urns := (Store.empty).urns ++ (run h).urns }
    (run h).exts (by simpa [Store.empty] using hord.2)
    (by
      rintro ⟨⟨a, k⟩, ⟨u, n⟩⟩ he
      exact hm a k n ((Store.declared_iff hord).2 ⟨u, he⟩))
    (by intro e he; simpa [Store.empty] using hu e he)
  dsimp only
  rw [h2]
  simp [Store.empty]

/-- C06, exactly: export and import give the same store without errors precisely when every declaration refers to a
declared URN and no stored type name still begins with the marker. -/
theorem C06_export_import_iff (h : List Op) :
    Store.fromExtensions (run h).toUrns (run h).toDecls = (run h, []) ↔ UrnsDeclared (run h) ∧ NoMarkers (run h) := by
  refine ⟨fun he => ?_, fun hc => C06_export_import_partial h hc.1 hc.2⟩
  have hord := Store.ordered_run h
  have hrun : run (planOps (run h).toUrns (run h).toDecls) = run h := by
    rw [← (C05_load_reports_answers _ _).1, he]
  have herr : (Store.fromExtensions (run h).toUrns (run h).toDecls).2 = [] := by rw [he]
  have hspec := Store.run_spec (planOps (run h).toUrns (run h).toDecls)
  rw [hrun] at hspec
  constructor
  · rintro ⟨⟨a, k⟩, ⟨u, n⟩⟩ hm
    have hop : Op.ext k u a n ∈ planOps (run h).toUrns (run h).toDecls := by
      unfold planOps
      refine List.mem_append_right _ (List.mem_map.2 ⟨some (k, u, a, n), ?_, rfl⟩)
      exact List.mem_map.2 ⟨((a, k), (u, n)), hm, rfl⟩
    obtain ⟨past, rest, hpr⟩ := List.append_of_mem hop
    have := (C05_load_clean_iff _ _).1 herr past _ rest hpr
    have hfu : (firstUrn past u).isSome := by
      simp only [answer] at this
      cases hq : firstUrn past u with
      | some x => rfl
      | none =>
        exfalso
        revert this
        rw [hq]
        cases legalName k n with
        | none => exact (nomatch ·)
        | some m => cases firstExt past a k <;> exact (nomatch ·)
    dsimp only
    rw [hspec.1 u, hpr]
    unfold firstUrn at hfu ⊢
    rw [List.findSome?_append]
    cases hq : List.findSome? _ past with
    | none => rw [hq] at hfu; cases hfu
    | some x => rfl
  · intro a k n hd
    obtain ⟨u, hm⟩ := (Store.declared_iff hord).1 hd
    have hf := OMap.mem_find? hord.2 hm
    rw [hspec.2] at hf
    unfold firstExt at hf
    obtain ⟨op, hop, hv⟩ := List.exists_of_findSome?_eq_some hf
    cases op with
    | urn _ _ => cases hv
    | unmapped => cases hv
    | ext k' u' b n' =>
      dsimp only at hv
      split at hv
      · next hbk =>
        obtain ⟨rfl, rfl⟩ := hbk
        cases hl : legalName k' n' with
        | none => rw [hl] at hv; cases hv
        | some m =>
          rw [hl] at hv
          cases hv
          have hmem : ((b, k'), (u, n')) ∈ (run h).exts := by
            unfold planOps at hop
            rcases List.mem_append.1 hop with hop | hop
            · obtain ⟨q, -, hq⟩ := List.mem_map.1 hop
              cases hq
            · obtain ⟨q, hq, heq⟩ := List.mem_map.1 hop
              obtain ⟨⟨⟨a', k''⟩, ⟨u'', n''⟩⟩, hx, rfl⟩ := List.mem_map.1 hq
              cases heq
              exact hx
          have h1 := OMap.mem_find? hord.2 hmem
          have h2 := OMap.mem_find? hord.2 hm
          rw [h1] at h2
          cases h2
          exact hl
      · cases hv

/-- C06.  The exported lists are in anchor order, under one anchor functions before types before type
variations, and so do not depend on the order in which the declarations were made. -/
theorem C06_export_sorted (h : List Op) :
    ((run h).toUrns.map (·.1)).Pairwise (· < ·) ∧
    ((run h).toDecls.Pairwise fun x y => ∃ k u a n l v b m, x = some (k, u, a, n) ∧ y = some (l, v, b, m) ∧
      (a < b ∨ (a = b ∧ (k, l) ∈ [(Kind.function, Kind.type), (.function, .typeVariation), (.type, .typeVariation)]))) := by
  have hord := Store.ordered_run h
  constructor
  · unfold Store.toUrns
    rw [List.pairwise_map]; exact hord.1
  · unfold Store.toDecls
    rw [List.pairwise_map]
    refine List.Pairwise.imp ?_ hord.2
    rintro ⟨⟨a, k⟩, ⟨u, n⟩⟩ ⟨⟨b, l⟩, ⟨v, m⟩⟩ hlt
    refine ⟨k, u, a, n, l, v, b, m, rfl, rfl, ?_⟩
    change 3 * a + k.idx < 3 * b + l.idx at hlt
    by_cases hab : a < b
    · exact Or.inl hab
    · right
      have hk : k.idx < 3 := by cases k <;> decide
      have hl : l.idx < 3 := by cases l <;> decide
      refine ⟨by omega, ?_⟩
      have : k.idx < l.idx := by omega
      revert this
      cases k <;> cases l <;> decide

/-- C06.  Two histories that declare the same first-wins content export identical lists. -/
theorem C06_export_canonical (h h' : List Op)
    (hu : ∀ a, firstUrn h a = firstUrn h' a) (he : ∀ a k, firstExt h a k = firstExt h' a k) :
    (run h).toUrns = (run h').toUrns ∧ (run h).toDecls = (run h').toDecls := by
  have h1 : (run h).urns = (run h').urns :=
    OMap.find?_ext (Store.ordered_run h).1 (Store.ordered_run h').1
      (fun a => by rw [(Store.run_spec h).1, (Store.run_spec h').1, hu])
  have h2 : (run h).exts = (run h').exts :=
    OMap.find?_ext (Store.ordered_run h).2 (Store.ordered_run h').2
      (fun p => by obtain ⟨a, k⟩ := p; rw [(Store.run_spec h).2, (Store.run_spec h').2, he])
  exact ⟨h1, by unfold Store.toDecls; rw [h2]⟩

/-- C06 fails without the marker condition: a type declared `u!u!x` changes its name. -/
theorem C06_export_import_fails :
    ∃ h, UrnsDeclared (run h) ∧
      Store.fromExtensions (run h).toUrns (run h).toDecls ≠ (run h, []) :=
  ⟨[.urn cs!"u" 1, .ext .type 1 5 cs!"u!u!x"], by unfold UrnsDeclared; decide, by decide⟩

example : UrnsDeclared (run [.urn cs!"u" 1, .ext .function 1 5 cs!"add"]) ∧
    NoMarkers (run [.urn cs!"u" 1, .ext .function 1 5 cs!"add"]) := by
  constructor
  · unfold UrnsDeclared; decide
  · intro a k n hd
    rw [Store.declared_iff (Store.ordered_run _)] at hd
    obtain ⟨u, hu⟩ := hd
    have h2 : (run [.urn cs!"u" 1, .ext .function 1 5 cs!"add"]).exts = [((5, .function), (1, cs!"add"))] := by
      decide
    rw [h2] at hu
    simp only [List.mem_singleton, Prod.mk.injEq] at hu
    obtain ⟨⟨rfl, rfl⟩, rfl, rfl⟩ := hu
    decide

/-! ## C08: the `u!` marker -/

/-- C08.  A type may be declared with or without the marker: same store, same answer up to the
spelling (`n` itself without marker). -/
theorem C08_type_marker_ignored (s : Store) (u a : Nat) (n : Str) (hn : ¬ cs!"u!".isPrefixOf n) :
    s.addExt .type u a (cs!"u!" ++ n) = s.addExt .type u a n := by
  unfold Store.addExt
  rw [Store.normName_eq_legal, Store.normName_eq_legal]
  simp [legalName, hn, List.isPrefixOf]

/-- C08.  For functions and type variations the marker is refused and nothing changes. -/
theorem C08_marker_refused (s : Store) (k : Kind) (hk : k ≠ .type) (u a : Nat) (n : Str) :
    s.addExt k u a (cs!"u!" ++ n) = (s, some (.invalidName k (cs!"u!" ++ n))) := by
  unfold Store.addExt
  rw [Store.normName_eq_legal]
  cases k with
  | type => exact absurd rfl hk
  | function => simp [legalName, List.isPrefixOf]
  | typeVariation => simp [legalName, List.isPrefixOf]

example : ¬ cs!"u!".isPrefixOf cs!"json" := by decide

/-! ## C10: resolution never guesses -/

/-- C10.  A written function reference resolves to `a` exactly when it unambiguously means `a`. -/
theorem C10_resolution_exact (h : List Op) (written : Str) (explicit : Option Nat) (a : Nat) :
    (run h).getAndValidateAnchor .function explicit written = .ok a ↔
      Means (run h) written explicit a :=
  Store.getAndValidate_function (Store.ordered_run h) written explicit a

/-- C10.  Two different functions that could both be meant: an error, never a choice. -/
theorem C10_ambiguous_is_error (h : List Op) (written : Str) (a b : Nat) (n m : Str)
    (hab : a ≠ b) (ha : Declared (run h) .function a n) (hb : Declared (run h) .function b m)
    (hsa : SpelledBy n written) (hsb : SpelledBy m written) :
    ∃ e, (run h).getAndValidateAnchor .function none written = .error e := by
  cases hr : (run h).getAndValidateAnchor .function none written with
  | error e => exact ⟨e, rfl⟩
  | ok c =>
    have hm := (C10_resolution_exact h written none c).1 hr
    have h1 := hm.2 a n ha hsa
    have h2 := hm.2 b m hb hsb
    exact absurd (h1.trans h2.symm) hab

example : ∃ e, (run [.urn cs!"u" 1, .ext .function 1 5 cs!"add:i64", .ext .function 1 6 cs!"add:i8"]).getAndValidateAnchor
    .function none cs!"add" = .error e := ⟨_, rfl⟩
example : (run [.urn cs!"u" 1, .ext .function 1 5 cs!"add:i64", .ext .function 1 6 cs!"add:i8"]).getAndValidateAnchor
    .function none cs!"add:i8" = .ok 6 := by decide

/-- C10.  Exactly when and why a reference to a function is refused: the explicit anchor is not declared, or
declared under a name that is not spelled so; without an anchor, no function is spelled so, or several are. -/
theorem C10_refusal_exact (h : List Op) (written : Str) (explicit : Option Nat) (e : Store.MissingReference) :
    (run h).getAndValidateAnchor .function explicit written = .error e ↔ match explicit with
      | some a => (e = .missingAnchor .function a ∧ ∀ n, ¬ Declared (run h) .function a n) ∨
          (e = .mismatched .function written a ∧ ∃ n, Declared (run h) .function a n ∧ ¬ SpelledBy n written)
      | none => (e = .missingName .function written ∧ ∀ b n, Declared (run h) .function b n → ¬ SpelledBy n written) ∨
          (e = .duplicateName .function written ∧ ∃ a b n m, a ≠ b ∧ Declared (run h) .function a n ∧
            SpelledBy n written ∧ Declared (run h) .function b m ∧ SpelledBy m written) := by
  rw [Store.getAndValidate_function_err (Store.ordered_run h)]
  exact Store.resolveAnchor_err (Store.ordered_run h) written explicit e

example : (run [.urn cs!"u" 1, .ext .function 1 5 cs!"add:i64"]).getAndValidateAnchor .function (some 5) cs!"sub" =
    .error (.mismatched .function cs!"sub" 5) := by decide

/-! ## C09: printed function references -/

/-- C09.  For every reachable store and every declared function anchor, the name and anchor
printed with the default (`Required`) or `Always` visibility resolve to that anchor again. -/
theorem C09_printed_function_resolves (h : List Op) (v : Visibility) (hv : v ≠ .never)
    (a : Nat) (n : Str) (hd : Declared (run h) .function a n) :
    ∃ na, NamedAnchor.lookup (run h) .function a = some na ∧
      (run h).getAndValidateAnchor .function (na.shownAnchor v) (na.shownName v) = .ok a := by
  obtain ⟨na, h1, -, -, h2⟩ := Store.printed_function (Store.ordered_run h) v hv a n hd
  exact ⟨na, h1, h2⟩

/-- C09 at visibility `Never`: the text may be rejected as ambiguous, but it never resolves to a
different function. -/
theorem C09_never_visibility_safe (h : List Op) (a b : Nat) (na : NamedAnchor)
    (hl : NamedAnchor.lookup (run h) .function a = some na)
    (hr : (run h).getAndValidateAnchor .function (na.shownAnchor .never) (na.shownName .never) = .ok b) :
    b = a := by
  have hord := Store.ordered_run h
  rw [Store.getAndValidate_function hord] at hr
  simp only [NamedAnchor.shownName, NamedAnchor.shownAnchor, Bool.false_eq_true, if_false] at hr
  unfold NamedAnchor.lookup at hl
  rw [if_pos rfl] at hl
  cases hx : (run h).lookupFunction a with
  | error e => rw [hx] at hl; cases hl
  | ok r =>
    rw [hx] at hl
    cases hl
    have hd : Declared (run h) .function a r.name := by
      unfold Store.lookupFunction at hx
      cases hy : (run h).findByAnchor .function a with
      | error e => rw [hy] at hx; simp [bind, Except.bind] at hx
      | ok p =>
        obtain ⟨u, n⟩ := p
        have h3 := Store.lookupFunction_ok hord hy
        unfold Store.lookupFunction at h3
        rw [hx] at h3
        cases h3
        exact ⟨u, hy⟩
    refine (hr.2 a r.name hd ?_).symm
    by_cases hc : ':' ∈ r.name
    · obtain ⟨sig, hs⟩ := split_colon hc
      exact Or.inr ⟨not_mem_baseName _, sig, hs⟩
    · exact Or.inl (baseName_of_not_mem hc).symm

/-- C09: the three shapes that get printed, on one declaration set. -/
example : let s := run [.urn cs!"u" 1, .urn cs!"w" 2, .ext .function 1 5 cs!"add:i64",
      .ext .function 1 6 cs!"add:i8", .ext .function 2 7 cs!"add:i8", .ext .function 1 8 cs!"sum:i64"]
    (NamedAnchor.lookup s .function 5).map (fun na => (na.shownName .required, na.shownAnchor .required)) = some (cs!"add:i64", none) ∧
    (NamedAnchor.lookup s .function 6).map (fun na => (na.shownName .required, na.shownAnchor .required)) = some (cs!"add:i8", some 6) ∧
    (NamedAnchor.lookup s .function 8).map (fun na => (na.shownName .required, na.shownAnchor .required)) = some (cs!"sum", none) := by
  decide

/-! ## C11: printed type names -/

/-- C11 (restricted to type names without `:`, the only ones the text grammar can declare).
The printed name and anchor of a declared type resolve to that type again, with default or
`Always` visibility. -/
theorem C11_printed_type_resolves_partial (h : List Op) (v : Visibility) (hv : v ≠ .never)
    (k : Kind) (hk : k ≠ .function) (a : Nat) (n : Str) (hd : Declared (run h) k a n) (hc : ':' ∉ n) :
    ∃ na, NamedAnchor.lookup (run h) k a = some na ∧
      (run h).getAndValidateAnchor k (na.shownAnchor v) (na.shownName v) = .ok a := by
  obtain ⟨na, h1, -, -, h2⟩ := Store.printed_type (Store.ordered_run h) v hv k hk a n hd hc
  exact ⟨na, h1, h2⟩

/-- C11.  A reference to a type or type variation is accepted exactly if the explicit anchor is declared under
that name, up to a signature, or, without an anchor, if exactly one declaration has exactly that name. -/
theorem C11_resolution_exact (h : List Op) (k : Kind) (hk : k ≠ .function) (written : Str) (explicit : Option Nat) (a : Nat) :
    (run h).getAndValidateAnchor k explicit written = .ok a ↔ match explicit with
      | some b => b = a ∧ ∃ n, Declared (run h) k a n ∧ (n = written ∨ BareName n written)
      | none => Declared (run h) k a written ∧ ∀ b, Declared (run h) k b written → b = a :=
  Store.getAndValidate_type (Store.ordered_run h) k hk written explicit a

/-- C11.  Exactly when and why it is refused. -/
theorem C11_refusal_exact (h : List Op) (k : Kind) (hk : k ≠ .function) (written : Str) (explicit : Option Nat)
    (e : Store.MissingReference) :
    (run h).getAndValidateAnchor k explicit written = .error e ↔ match explicit with
      | some a => (e = .missingAnchor k a ∧ ∀ n, ¬ Declared (run h) k a n) ∨
          (e = .mismatched k written a ∧ ∃ n, Declared (run h) k a n ∧ ¬ (n = written ∨ BareName n written))
      | none => (e = .missingName k written ∧ ∀ b, ¬ Declared (run h) k b written) ∨
          (e = .duplicateName k written ∧ ∃ a b, a ≠ b ∧ Declared (run h) k a written ∧ Declared (run h) k b written) :=
  Store.getAndValidate_type_err (Store.ordered_run h) k hk written explicit e

example : (run [.urn cs!"u" 1, .ext .type 1 5 cs!"point", .ext .type 1 6 cs!"point"]).getAndValidateAnchor .type none cs!"point" =
    .error (.duplicateName .type cs!"point") := by decide
example : (run [.urn cs!"u" 1, .ext .type 1 5 cs!"point", .ext .type 1 6 cs!"point"]).getAndValidateAnchor .type (some 6) cs!"point" =
    .ok 6 := by decide

/-- C11 fails for type names containing `:` (possible in a protobuf plan): the type declared as
`a:x` is printed `a`, which silently resolves to a different type. -/
theorem C11_colon_type_resolves_wrongly :
    ∃ h a b na, a ≠ b ∧ NamedAnchor.lookup (run h) .type a = some na ∧
      (run h).getAndValidateAnchor .type (na.shownAnchor .required) (na.shownName .required) = .ok b :=
  ⟨[.urn cs!"u" 1, .ext .type 1 5 cs!"a:x", .ext .type 1 6 cs!"a"], 5, 6,
   ⟨cs!"a:x", 5, true, true⟩, by decide, by decide, by decide⟩

example : Declared (run [.urn cs!"u" 1, .ext .type 1 5 cs!"u!point"]) .type 5 cs!"point" :=
  ⟨1, by decide⟩

end Verif
