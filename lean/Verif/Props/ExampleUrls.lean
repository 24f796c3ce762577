import Verif.Model.Wire
import Verif.Props.Examples
/-!
C56: the shipped registry reads and writes exactly the payloads with the documented type URLs.
-/

namespace Verif
open ExampleSpec

set_option autoImplicit false

section
variable (n1 n2 n3 u1 u2 u3 : Str) (h1 h2 h3 : Handler ExtArgs (List Nat))

/-- Reading with a registry of three extensions. -/
theorem three_decode (ns : Ns) (d : AnyMsg) (ctx : List Nat) (n : Str) (a : ExtArgs) :
    (Registry.mk [((Ns.extensionTable, n3), h3), ((Ns.optimization, n2), h2), ((Ns.enhancement, n1), h1)]
      [((Ns.extensionTable, u3), n3), ((Ns.optimization, u2), n2), ((Ns.enhancement, u1), n1)]).decode ns d ctx = .ok (n, a) ↔
      (ns = .enhancement ∧ d.typeUrl = u1 ∧ n = n1 ∧ h1.textify d ctx = .ok a) ∨
      (ns = .optimization ∧ d.typeUrl = u2 ∧ n = n2 ∧ h2.textify d ctx = .ok a) ∨
      (ns = .extensionTable ∧ d.typeUrl = u3 ∧ n = n3 ∧ h3.textify d ctx = .ok a) := by
  have pick : ∀ (ns : Ns) (u m : Str) (h : Handler ExtArgs (List Nat)) (r : Registry ExtArgs (List Nat)),
      hGet r.urls (ns, d.typeUrl) = (if u = d.typeUrl then some m else none) → hGet r.handlers (ns, m) = some h →
      (r.decode ns d ctx = .ok (n, a) ↔ d.typeUrl = u ∧ n = m ∧ h.textify d ctx = .ok a) := by
    intro ns u m h r e1 e2
    rw [Registry.decode, e1]
    by_cases hu : u = d.typeUrl
    · rw [if_pos hu]
      simp only [e2, hu, true_and]
      cases h.textify d ctx with
      | error e => simp
      | ok b => simp [eq_comm]
    · have : ¬ d.typeUrl = u := fun h => hu h.symm
      simp [hu, this]
  cases ns
  · simp [Registry.decode, hGet]
  · rw [pick _ u3 n3 h3 _ (by simp [hGet]) (by simp [hGet])]; simp
  · rw [pick _ u1 n1 h1 _ (by simp [hGet]) (by simp [hGet])]; simp
  · rw [pick _ u2 n2 h2 _ (by simp [hGet]) (by simp [hGet])]; simp

/-- Writing with a registry of three extensions. -/
theorem three_parse (us : List ((Ns × Str) × Str)) (ns : Ns) (n : Str) (a : ExtArgs) (d : AnyMsg) :
    (Registry.mk [((Ns.extensionTable, n3), h3), ((Ns.optimization, n2), h2), ((Ns.enhancement, n1), h1)] us).parse ns n a = .ok d ↔
      (ns = .enhancement ∧ n = n1 ∧ h1.parse a = .ok d) ∨ (ns = .optimization ∧ n = n2 ∧ h2.parse a = .ok d) ∨
      (ns = .extensionTable ∧ n = n3 ∧ h3.parse a = .ok d) := by
  have pick : ∀ (ns : Ns) (m : Str) (h : Handler ExtArgs (List Nat)) (r : Registry ExtArgs (List Nat)),
      hGet r.handlers (ns, n) = (if m = n then some h else none) →
      (r.parse ns n a = .ok d ↔ n = m ∧ h.parse a = .ok d) := by
    intro ns m h r e
    rw [Registry.parse, e]
    by_cases hm : m = n
    · simp [hm]
    · have : ¬ n = m := fun h => hm h.symm
      simp [hm, this]
  cases ns
  · simp [Registry.parse, hGet]
  · rw [pick _ n3 h3 _ (by simp [hGet])]; simp
  · rw [pick _ n1 h1 _ (by simp [hGet])]; simp
  · rw [pick _ n2 h2 _ (by simp [hGet])]; simp

end

/-- The shipped registry. -/
theorem exampleRegistry_eq (c1 : Wire PartitionHint) (c2 : Wire PlanHint) (c3 : Wire BlobStoreRead) :
    exampleRegistry c1 c2 c3 = some (.mk
      [((.extensionTable, blobStoreRead.name), (blobStoreRead.ext c3).handler), ((.optimization, planHint.name), (planHint.ext c2).handler),
        ((.enhancement, partitionHint.name), (partitionHint.ext c1).handler)]
      [((.extensionTable, blobStoreRead.url), blobStoreRead.name), ((.optimization, planHint.url), planHint.name),
        ((.enhancement, partitionHint.url), partitionHint.name)]) := rfl

section
variable (c1 : Wire PartitionHint) (c2 : Wire PlanHint) (c3 : Wire BlobStoreRead)
variable {r : Registry ExtArgs (List Nat)} (hr : exampleRegistry c1 c2 c3 = some r)
include hr

/-- C56, exactly: the shipped registry turns a payload into arguments exactly if it has the documented type URL for the place
where it stands and its bytes are a message of that type. -/
theorem C56_registry_reads (ns : Ns) (d : AnyMsg) (ctx : List Nat) (n : Str) (a : ExtArgs) :
    r.decode ns d ctx = .ok (n, a) ↔
      (ns = .enhancement ∧ d.typeUrl = cs!"type.googleapis.com/example.PartitionHint" ∧ n = cs!"PartitionHint" ∧
        ∃ t, c1.decode d.value = some t ∧ partitionHint.toArgs t ctx = .ok a) ∨
      (ns = .optimization ∧ d.typeUrl = cs!"type.googleapis.com/example.PlanHint" ∧ n = cs!"PlanHint" ∧
        ∃ t, c2.decode d.value = some t ∧ planHint.toArgs t ctx = .ok a) ∨
      (ns = .extensionTable ∧ d.typeUrl = cs!"type.googleapis.com/example.BlobStoreRead" ∧ n = cs!"BlobStoreRead" ∧
        ∃ t, c3.decode d.value = some t ∧ blobStoreRead.toArgs t ctx = .ok a) := by
  rw [exampleRegistry_eq] at hr
  cases hr
  rw [three_decode, (C56_only_own_payloads partitionHint c1 d ctx a).1, (C56_only_own_payloads planHint c2 d ctx a).1,
    (C56_only_own_payloads blobStoreRead c3 d ctx a).1]
  have e : ∀ {p q s u : Prop}, p ∧ q ∧ s ∧ q ∧ u ↔ p ∧ q ∧ s ∧ u := by
    intro p q s u
    constructor
    · exact fun ⟨a, b, c, _, d⟩ => ⟨a, b, c, d⟩
    · exact fun ⟨a, b, c, d⟩ => ⟨a, b, c, b, d⟩
  exact or_congr e (or_congr e e)

/-- C56: what the shipped registry makes of arguments has the documented type URL and the bytes of the message the arguments
stand for; no other name is accepted. -/
theorem C56_registry_writes (ns : Ns) (n : Str) (a : ExtArgs) (d : AnyMsg) :
    r.parse ns n a = .ok d ↔
      (ns = .enhancement ∧ n = cs!"PartitionHint" ∧ ∃ t, partitionHint.parse a = .ok t ∧
        d = ⟨cs!"type.googleapis.com/example.PartitionHint", c1.encode t⟩) ∨
      (ns = .optimization ∧ n = cs!"PlanHint" ∧ ∃ t, planHint.parse a = .ok t ∧
        d = ⟨cs!"type.googleapis.com/example.PlanHint", c2.encode t⟩) ∨
      (ns = .extensionTable ∧ n = cs!"BlobStoreRead" ∧ ∃ t, blobStoreRead.parse a = .ok t ∧
        d = ⟨cs!"type.googleapis.com/example.BlobStoreRead", c3.encode t⟩) := by
  rw [exampleRegistry_eq] at hr
  cases hr
  have parse : ∀ {T : Type} (x : Explain T) (c : Wire T), (x.ext c).handler.parse a = .ok d ↔
      ∃ t, x.parse a = .ok t ∧ d = ⟨x.url, c.encode t⟩ := by
    intro T x c
    have key : (x.ext c).handler.parse a = (match x.parse a with | .error e => .error e | .ok t => .ok (x.toAny c t)) := rfl
    rw [key]
    cases x.parse a with
    | error e => simp
    | ok t =>
      simp only [Except.ok.injEq, exists_eq_left']
      exact eq_comm
  rw [three_parse, parse partitionHint c1, parse planHint c2, parse blobStoreRead c3]
  exact Iff.rfl

end

/-! ### Examples -/

-- with the encoding of the code: the bytes of `PlanHint[hint='é']`, which are read only as an optimization and only under their URL
example : ∃ r, exampleRegistry Wire.partition Wire.plan Wire.blob = some r ∧
    r.decode .optimization ⟨cs!"type.googleapis.com/example.PlanHint", [10, 2, 195, 169]⟩ [] =
      .ok (cs!"PlanHint", { named := [(cs!"hint", .string cs!"é")] }) ∧
    (∀ n a, r.decode .enhancement ⟨cs!"type.googleapis.com/example.PlanHint", [10, 2, 195, 169]⟩ [] ≠ .ok (n, a)) := by
  refine ⟨_, rfl, (C56_registry_reads Wire.partition Wire.plan Wire.blob rfl _ _ _ _ _).2
    (.inr (.inl ⟨rfl, rfl, rfl, ⟨cs!"é"⟩, by decide +kernel, rfl⟩)), ?_⟩
  intro n a h
  rcases (C56_registry_reads Wire.partition Wire.plan Wire.blob rfl _ _ _ _ _).1 h with h | h | h
  · exact absurd h.2.1 (by decide)
  · cases h.1
  · cases h.1

end Verif
