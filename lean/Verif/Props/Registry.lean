import Verif.Proofs.Registry
import Verif.Model.Columns
/-!
# Registered extensions: C39, C40, C42
-/

namespace Verif

set_option autoImplicit false
variable {A C V α : Type}

/-! ## C39 -/

/-- Looking up by name: exactly the accepted registrations have handlers, each its own. -/
theorem C39_handlers_are_accepted (h : List (Ns × Ext A C)) (ns : Ns) (n : Str) (args : A) :
    (∀ e, (ns, e) ∈ accepted h → e.name = n → (registryAfter h).parse ns n args = e.handler.parse args) ∧
    ((∀ e, (ns, e) ∈ accepted h → e.name ≠ n) → (registryAfter h).parse ns n args = .error (.notFound n)) ∧
    ((registryAfter h).has ns n = true ↔ ∃ e, (ns, e) ∈ accepted h ∧ e.name = n) := by
  have st := stands_after h
  refine ⟨?_, ?_, ?_⟩
  · intro e he hn
    rw [Registry.parse, (st.handlers ns n e.handler).2 ⟨e, he, hn, rfl⟩]
  · intro hno
    rw [Registry.parse]
    cases hg : hGet (registryAfter h).handlers (ns, n) with
    | none => rfl
    | some H =>
      obtain ⟨e, he, hn, _⟩ := (st.handlers ns n H).1 hg
      exact absurd hn (hno e he)
  · rw [Registry.has, Option.isSome_iff_exists]
    constructor
    · rintro ⟨H, hH⟩
      obtain ⟨e, he, hn, _⟩ := (st.handlers ns n H).1 hH
      exact ⟨e, he, hn⟩
    · rintro ⟨e, he, hn⟩
      exact ⟨_, (st.handlers ns n e.handler).2 ⟨e, he, hn, rfl⟩⟩

/-- Looking up by type URL: the accepted registration with that URL, whose name is reported and
whose own handler decodes; an unregistered URL is not found. -/
theorem C39_urls_are_accepted (h : List (Ns × Ext A C)) (ns : Ns) (d : AnyMsg) (ctx : C) :
    (∀ e, (ns, e) ∈ accepted h → e.url = d.typeUrl →
      (registryAfter h).decode ns d ctx = (e.handler.textify d ctx).map fun args => (e.name, args)) ∧
    ((∀ e, (ns, e) ∈ accepted h → e.url ≠ d.typeUrl) →
      (registryAfter h).decode ns d ctx = .error (.notFound d.typeUrl)) := by
  have st := stands_after h
  constructor
  · intro e he hu
    rw [Registry.decode, (st.urls ns d.typeUrl e.name).2 ⟨e, he, hu, rfl⟩]
    simp only [(st.handlers ns e.name e.handler).2 ⟨e, he, rfl, rfl⟩]
    cases e.handler.textify d ctx <;> rfl
  · intro hno
    rw [Registry.decode]
    cases hg : hGet (registryAfter h).urls (ns, d.typeUrl) with
    | none => rfl
    | some n =>
      obtain ⟨e, he, hu, _⟩ := (st.urls ns d.typeUrl n).1 hg
      exact absurd hu (hno e he)

/-- The accepted registrations exclude each other, so at most one answers a name or a URL. -/
theorem C39_accepted_apart (h : List (Ns × Ext A C)) (ns : Ns) (e e' : Ext A C) (he : (ns, e) ∈ accepted h)
    (he' : (ns, e') ∈ accepted h) (hc : e.name = e'.name ∨ e.url = e'.url) : e = e' := by
  have := (stands_after h).unique he he' hc
  injection this

/-- A registration succeeds exactly when nothing accepted in its namespace has its name or URL; the
error says which, and with which accepted name; a failed registration changes nothing. -/
theorem C39_registration_exact (h : List (Ns × Ext A C)) (ns : Ns) (e : Ext A C) :
    (((registryAfter h).register ns e).2 = none ↔ ∀ y, (ns, y) ∈ accepted h → y.name ≠ e.name ∧ y.url ≠ e.url) ∧
    (((registryAfter h).register ns e).2 = some (.duplicateName ns e.name) ↔ ∃ y, (ns, y) ∈ accepted h ∧ y.name = e.name) ∧
    (∀ x, ((registryAfter h).register ns e).2 = some (.conflictingTypeUrl ns e.url x) ↔
      (∀ y, (ns, y) ∈ accepted h → y.name ≠ e.name) ∧ ∃ y, (ns, y) ∈ accepted h ∧ y.url = e.url ∧ y.name = x) ∧
    (((registryAfter h).register ns e).2 ≠ none → ((registryAfter h).register ns e).1 = registryAfter h) := by
  have st := stands_after h
  rw [Registry.register]
  cases hh : hGet (registryAfter h).handlers (ns, e.name) with
  | some H =>
    obtain ⟨y, hy, hn, _⟩ := (st.handlers ns e.name H).1 hh
    simp only [Option.isSome_some, if_true, reduceCtorEq, false_iff, ne_eq, not_false_eq_true, true_implies, and_true,
      true_iff, Option.some.injEq, not_and]
    exact ⟨fun hx => (hx y hy).1 hn, ⟨y, hy, hn⟩, fun x hx => absurd hn (hx y hy)⟩
  | none =>
    have hno : ∀ y, (ns, y) ∈ accepted h → y.name ≠ e.name := by
      intro y hy hn
      have := (st.handlers ns e.name y.handler).2 ⟨y, hy, hn, rfl⟩
      rw [hh] at this; cases this
    cases hu : hGet (registryAfter h).urls (ns, e.url) with
    | some x =>
      obtain ⟨y, hy, hyu, hyn⟩ := (st.urls ns e.url x).1 hu
      have hne : x ≠ e.name := hyn ▸ hno y hy
      simp only [Option.isSome_none, Bool.false_eq_true, if_false, ne_eq, hne, not_false_eq_true, if_true, reduceCtorEq,
        false_iff, not_and, Option.some.injEq, RegErr.conflictingTypeUrl.injEq, true_and,
        true_implies, and_true, not_exists]
      refine ⟨fun hx => (hx y hy).2 hyu, fun y hy hn => hno y hy hn, fun x' => ⟨?_, ?_⟩⟩
      · rintro rfl; exact ⟨fun y hy hn => hno y hy hn, y, hy, hyu, hyn⟩
      · rintro ⟨_, z, hz, hzu, hzn⟩
        have := st.unique hy hz (Or.inr (hyu.trans hzu.symm))
        injection this with _ this
        rw [← hyn, ← hzn, this]
    | none =>
      have hnu : ∀ y, (ns, y) ∈ accepted h → y.url ≠ e.url := by
        intro y hy hn
        have := (st.urls ns e.url y.name).2 ⟨y, hy, hn, rfl⟩
        rw [hu] at this; cases this
      simp only [Option.isSome_none, Bool.false_eq_true, if_false, true_iff, reduceCtorEq, false_iff, not_exists, not_and,
        ne_eq, not_true_eq_false, false_implies, and_true]
      exact ⟨fun y hy => ⟨hno y hy, hnu y hy⟩, fun y hy hn => hno y hy hn, fun x _ y hy h => absurd h (hnu y hy)⟩

/-- The listed names are the accepted ones, each once, in order. -/
theorem C39_names (h : List (Ns × Ext A C)) (ns : Ns) :
    ((registryAfter h).names ns).Pairwise (fun a b => strLe a b = true ∧ a ≠ b) ∧
    ∀ n, n ∈ (registryAfter h).names ns ↔ ∃ e, (ns, e) ∈ accepted h ∧ e.name = n := by
  constructor
  · refine dedup_strict _ ?_
    exact List.pairwise_mergeSort (fun a b c => strLe_trans a b c) (fun a b => strLe_total a b) _
  · intro n
    rw [Registry.names, mem_dedup, List.mem_mergeSort, ← (stands_after h).entries, List.mem_filterMap]
    constructor
    · rintro ⟨⟨⟨ns', u⟩, m⟩, hm, he⟩
      simp only [Option.ite_none_right_eq_some, Option.some.injEq] at he
      obtain ⟨rfl, rfl⟩ := he
      exact ⟨u, hm⟩
    · rintro ⟨u, hu⟩
      exact ⟨_, hu, by simp⟩

/-- Namespaces do not interact: what is accepted in one depends only on the registrations in it. -/
theorem C39_namespaces_independent (h : List (Ns × Ext A C)) (ns : Ns) (e : Ext A C) :
    (ns, e) ∈ accepted h ↔ (ns, e) ∈ accepted (h.filter fun x => x.1 = ns) := by
  have := acceptedFrom_filter ns [] [] h rfl
  have key : ∀ l : List (Ns × Ext A C), (ns, e) ∈ l ↔ (ns, e) ∈ l.filter fun x => x.1 = ns := by simp
  rw [key (accepted h), accepted, this, ← key]; rfl

/-- Two extensions with one name, two with one URL, and one in another namespace. -/
def sampleHistory : List (Ns × Ext Nat Unit) :=
  let h (k : Nat) : Handler Nat Unit := ⟨fun a => .ok ⟨cs!"t", [a, k]⟩, fun m _ => .ok (m.value.length + k)⟩
  [(.relation, ⟨cs!"Scan", cs!"u/a", h 1⟩), (.relation, ⟨cs!"Scan", cs!"u/b", h 2⟩),
   (.relation, ⟨cs!"Other", cs!"u/a", h 3⟩), (.enhancement, ⟨cs!"Scan", cs!"u/a", h 4⟩),
   (.relation, ⟨cs!"Add", cs!"u/b", h 5⟩)]

example : (accepted sampleHistory).map (fun x => (x.1, x.2.name, x.2.url)) =
    [(.relation, cs!"Scan", cs!"u/a"), (.enhancement, cs!"Scan", cs!"u/a"), (.relation, cs!"Add", cs!"u/b")] := by
  decide

example : (registryAfter sampleHistory).decode .enhancement ⟨cs!"u/a", [7, 7]⟩ () = .ok (cs!"Scan", 6) := by
  decide +kernel

/-! ## C40 -/

/-- Decoding succeeds exactly when the handler does, has looked at every named argument present and,
if there are positional ones, at them. -/
theorem C40_unread_arguments_rejected (a : ArgSet V) (r : Reader V α) (v : α) :
    parseArgs a r = .ok v ↔
      r.answer a = .ok v ∧ (a.positional ≠ [] → Look.positional ∈ r.looks a) ∧
      ∀ n ∈ a.named.map (·.1), Look.named n ∈ r.looks a := by
  obtain ⟨h1, h2, h3⟩ := reader_run a r {}
  rw [parseArgs]
  generalize r.run a {} = x at h1 h2 h3
  obtain ⟨res, s⟩ := x
  simp only at h1 h2 h3
  subst h1
  have hun : (List.filter (fun n => !s.handled.contains n) (a.named.map (·.1)) = []) ↔
      ∀ n ∈ a.named.map (·.1), Look.named n ∈ r.looks a := by
    rw [List.filter_eq_nil_iff]
    constructor
    · intro h n hn
      have := h n hn
      simp at this
      simpa using (h3 n hn).1 this
    · intro h n hn
      have := (h3 n hn).2 (Or.inr (h n hn))
      simpa using this
  cases hr : r.answer a with
  | error e => simp
  | ok w =>
    simp only [finish]
    by_cases hp : s.positional = false ∧ a.positional ≠ []
    · rw [if_pos hp]
      simp only [reduceCtorEq, false_iff, not_and]
      intro _ hl
      have := h2.2 (Or.inr (hl hp.2))
      rw [hp.1] at this; cases this
    · rw [if_neg hp]
      have hp' : a.positional ≠ [] → Look.positional ∈ r.looks a := by
        intro hne
        cases hs : s.positional with
        | false => exact absurd ⟨hs, hne⟩ hp
        | true => simpa using h2.1 hs
      by_cases hu : (List.filter (fun n => !s.handled.contains n) (a.named.map (·.1)) = [])
      · simp only [hu, if_true]
        constructor
        · intro h; exact ⟨h, hp', hun.1 hu⟩
        · exact fun h => h.1
      · simp only [hu, if_false]
        simp only [reduceCtorEq, false_iff, not_and]
        intro _ _ hall
        exact hu (hun.2 hall)

/-- The verdict, error included, depends only on the handler's answer and on which arguments it
looked at, not on the order or number of its looks. -/
theorem C40_order_irrelevant (a : ArgSet V) (r r' : Reader V α) (ha : r.answer a = r'.answer a)
    (hl : ∀ l, l ∈ r.looks a ↔ l ∈ r'.looks a) : parseArgs a r = parseArgs a r' := by
  obtain ⟨h1, h2, h3⟩ := reader_run a r {}
  obtain ⟨h1', h2', h3'⟩ := reader_run a r' {}
  rw [parseArgs, parseArgs]
  generalize r.run a {} = x at h1 h2 h3
  generalize r'.run a {} = x' at h1' h2' h3'
  obtain ⟨res, s⟩ := x
  obtain ⟨res', s'⟩ := x'
  simp only at h1 h2 h3 h1' h2' h3'
  subst h1 h1'
  rw [ha]
  cases r'.answer a with
  | error e => rfl
  | ok v =>
    have hp : s.positional = s'.positional := by
      rw [Bool.eq_iff_iff, h2, h2', hl]
    have hf : (a.named.map (·.1)).filter (fun n => !s.handled.contains n) =
        (a.named.map (·.1)).filter (fun n => !s'.handled.contains n) := by
      refine List.filter_congr ?_
      intro n hn
      have : n ∈ s.handled ↔ n ∈ s'.handled := by rw [h3 n hn, h3' n hn, hl]
      simp [this]
    simp only [finish, hp, hf]

/-- An unread argument is named in the error, and reported only if the handler succeeds. -/
theorem C40_error_names_unread (a : ArgSet V) (r : Reader V α) (names : List Str)
    (h : parseArgs a r = .error (.unknownNamed names)) (hr : ∀ e, r.answer a ≠ .error e) (n : Str) :
    n ∈ names ↔ n ∈ a.named.map (·.1) ∧ Look.named n ∉ r.looks a := by
  obtain ⟨h1, h2, h3⟩ := reader_run a r {}
  rw [parseArgs] at h
  generalize r.run a {} = x at h1 h2 h3 h
  obtain ⟨res, s⟩ := x
  simp only at h1 h2 h3
  subst h1
  cases hra : r.answer a with
  | error e => exact absurd hra (hr e)
  | ok v =>
    rw [hra] at h
    simp only [finish] at h
    split at h
    · rename_i e he
      split at he
      · injection he with he; subst he; cases h
      · split at he
        · cases he
        · injection he with he
          subst he
          simp only [Except.error.injEq, ExtErr.unknownNamed.injEq] at h
          subst h
          rw [List.mem_mergeSort, List.mem_filter]
          constructor
          · rintro ⟨hn, hc⟩
            refine ⟨hn, fun hl => ?_⟩
            have := (h3 n hn).2 (Or.inr hl)
            simp [this] at hc
          · rintro ⟨hn, hc⟩
            refine ⟨hn, ?_⟩
            simp only [Bool.not_eq_true', List.contains_eq_mem, decide_eq_false_iff_not]
            intro hm
            rcases (h3 n hn).1 hm with h' | h'
            · cases h'
            · exact hc h'
    · cases h

/-- A handler that reads `a`, and reads `b` only if `a` is 1. -/
def sampleReader : Reader Nat Nat :=
  .expectNamed cs!"a" some fun a => if a = 1 then .expectNamed cs!"b" some fun b => .done (.ok b) else .done (.ok a)

example : parseArgs ⟨[], [(cs!"b", 5), (cs!"a", 1)]⟩ sampleReader = .ok 5 ∧
    parseArgs ⟨[], [(cs!"b", 5), (cs!"a", 2)]⟩ sampleReader = .error (.unknownNamed [cs!"b"]) ∧
    parseArgs ⟨[9], [(cs!"b", 5), (cs!"a", 1)]⟩ sampleReader = .error (.unhandledPositional 1) := by
  refine ⟨?_, ?_, ?_⟩ <;> decide +kernel

/-! ## C42 -/

/-- Columns to a schema and back. -/
theorem C42_columns_round_trip (cols : List ExtColumn) (s : NamedStruct) (h : toNamedStruct cols = .ok s) :
    toColumns s = .ok cols := by
  have key : ∀ (cols : List ExtColumn) (ns : List Str) (ts : List Ty), columnParts cols = .ok (ns, ts) →
      ns.length = ts.length ∧ zipColumns ns ts = cols := by
    intro cols
    induction cols with
    | nil => intro ns ts h; simp [columnParts] at h; obtain ⟨rfl, rfl⟩ := h; exact ⟨rfl, rfl⟩
    | cons c cols ih =>
      intro ns ts h
      cases c with
      | expr e => simp [columnParts] at h
      | named n t =>
        rw [columnParts] at h
        cases hc : columnParts cols with
        | error e => rw [hc] at h; cases h
        | ok p =>
          obtain ⟨ns', ts'⟩ := p
          rw [hc] at h
          simp at h
          obtain ⟨rfl, rfl⟩ := h
          have := ih _ _ hc
          simp [zipColumns, this.1, this.2]
  rw [toNamedStruct] at h
  cases hc : columnParts cols with
  | error e => rw [hc] at h; cases h
  | ok p =>
    obtain ⟨ns, ts⟩ := p
    rw [hc] at h
    injection h with h
    subst h
    have := key _ _ _ hc
    simp [toColumns, this.1, this.2]

/-- Columns convert exactly when they are all named. -/
theorem C42_named_columns_convert (cols : List ExtColumn) :
    (∃ s, toNamedStruct cols = .ok s) ↔ ∀ c ∈ cols, ∃ n t, c = .named n t := by
  have key : (∃ p, columnParts cols = .ok p) ↔ ∀ c ∈ cols, ∃ n t, c = .named n t := by
    induction cols with
    | nil => simp [columnParts]
    | cons c cols ih =>
      cases c with
      | expr e => simp [columnParts]
      | named n t =>
        rw [columnParts]
        simp only [List.mem_cons, forall_eq_or_imp, ← ih]
        cases columnParts cols with
        | error e => simp
        | ok p => simp
  rw [← key, toNamedStruct]
  cases columnParts cols <;> simp

/-- A schema to columns and back: the same names and types, in the canonical wrapping. -/
theorem C42_schema_round_trip (s : NamedStruct) (cols : List ExtColumn) (h : toColumns s = .ok cols) :
    toNamedStruct cols = .ok ⟨s.names, some ⟨(s.struct.map (·.types)).getD [], 0, .required⟩⟩ := by
  have key : ∀ (ns : List Str) (ts : List Ty), ns.length = ts.length → columnParts (zipColumns ns ts) = .ok (ns, ts) := by
    intro ns
    induction ns with
    | nil => intro ts h; cases ts with
      | nil => rfl
      | cons t ts => simp at h
    | cons n ns ih =>
      intro ts h
      cases ts with
      | nil => simp at h
      | cons t ts =>
        simp at h
        simp [zipColumns, columnParts, ih ts h]
  obtain ⟨names, struct⟩ := s
  rw [toColumns] at h
  cases struct with
  | none =>
    simp only at h
    split at h
    · cases h
    · rename_i hl
      injection h with h; subst h
      simp [toNamedStruct, key names [] (by simpa using hl)]
  | some st =>
    simp only at h
    split at h
    · cases h
    · rename_i hl
      injection h with h; subst h
      simp [toNamedStruct, key names st.types (by simpa using hl)]

/-- A schema is rejected exactly when it has not one type per name. -/
theorem C42_mismatch_rejected (s : NamedStruct) :
    (∃ cols, toColumns s = .ok cols) ↔ s.names.length = ((s.struct.map (·.types)).getD []).length := by
  obtain ⟨names, struct⟩ := s
  rw [toColumns]
  cases struct with
  | none => simp only; split <;> rename_i h <;> simp_all
  | some st => simp only; split <;> rename_i h <;> simp_all

example : toColumns ⟨[cs!"a", cs!"b"], some ⟨[.simple .i64 .nullable 0, .simple .string .required 0], 0, .required⟩⟩ =
    .ok [.named cs!"a" (.simple .i64 .nullable 0), .named cs!"b" (.simple .string .required 0)] := rfl

end Verif
