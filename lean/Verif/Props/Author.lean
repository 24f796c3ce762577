import Verif.Props.Examples
import Verif.Props.Registry
/-!
# Property C76: what the author of an extension has to provide
-/

namespace Verif
open StoreSpec TextSpec RelSpec PlanSpec

set_option autoImplicit false

variable {T : Type}

/-- What the author of a type shows about one value: the arguments it is written with are `a`, and from them `from_args`
builds the value again, having looked at the positional arguments, if there are any, and at every named one. -/
structure Returns (x : Explain T) (t : T) (widths : List Nat) (a : ExtArgs) : Prop where
  written : x.toArgs t widths = .ok a
  built : (x.fromArgs a.columns).answer ⟨a.positional, a.named⟩ = .ok t
  positional : a.positional ≠ [] → Look.positional ∈ (x.fromArgs a.columns).looks ⟨a.positional, a.named⟩
  named : ∀ n ∈ a.named.map (·.1), Look.named n ∈ (x.fromArgs a.columns).looks ⟨a.positional, a.named⟩

/-- C76: the payload of a registered type goes from the message to arguments and back to the same message exactly
when its author's methods return the value, whatever else is registered. -/
theorem C76_payload_iff (h : List (Ns × Ext ExtArgs (List Nat))) (ns : Ns) (x : Explain T) (c : MsgCodec T)
    (hx : (ns, x.ext c) ∈ accepted h) (t : T) (widths : List Nat) (name : Str) (a : ExtArgs) :
    (registryAfter h).decode ns (x.toAny c t) widths = .ok (name, a) ∧
      (registryAfter h).parse ns name a = .ok (x.toAny c t) ↔ name = x.name ∧ Returns x t widths a := by
  have hd : (registryAfter h).decode ns (x.toAny c t) widths = (x.toArgs t widths).map fun a => (x.name, a) := by
    rw [(C39_urls_are_accepted h ns (x.toAny c t) widths).1 _ hx rfl]
    simp only [Explain.ext, Explain.fromAny, Explain.toAny, ne_eq, not_true_eq_false, if_false, c.law]
  have hp : (registryAfter h).parse ns x.name a = .ok (x.toAny c t) ↔ x.parse a = .ok t := by
    rw [(C39_handlers_are_accepted h ns x.name a).1 _ hx rfl]
    simp only [Explain.ext]
    cases hq : x.parse a with
    | error e => simp
    | ok t' =>
      simp only [Except.ok.injEq]
      constructor
      · intro e
        have := congrArg c.decode (congrArg AnyMsg.value e)
        simp only [Explain.toAny, c.law, Option.some.injEq] at this
        exact this
      · rintro rfl; rfl
  have hr : x.parse a = .ok t ↔ _ := C40_unread_arguments_rejected ⟨a.positional, a.named⟩ (x.fromArgs a.columns) t
  rw [hd]
  constructor
  · rintro ⟨h1, h2⟩
    cases hw : x.toArgs t widths with
    | error e => rw [hw] at h1; cases h1
    | ok b =>
      rw [hw] at h1
      cases h1
      obtain ⟨r1, r2, r3⟩ := hr.1 (hp.1 h2)
      exact ⟨rfl, hw, r1, r2, r3⟩
  · rintro ⟨rfl, r⟩
    rw [r.written]
    exact ⟨rfl, hp.2 (hr.2 ⟨r.built, r.positional, r.named⟩)⟩

section
variable [UTab] [FTab] {st : Store} {o : Opts} (h : List (Ns × Ext ExtArgs (List Nat))) (x : Explain T) (c : MsgCodec T)
  (hn : isIdentifier x.name = true) (t : T) (a : ExtArgs) (ha : ArgsOk st o a)
include hn ha

/-- C76: then it can be attached to a relation. -/
theorem C76_attached (k : AddKind) (hx : (k.ns, x.ext c) ∈ accepted h) (hr : Returns x t [] a) (hc : a.columns = []) :
    AddendumOk ⟨st, o, registryAfter h⟩ k (x.toAny c t) :=
  have ⟨h1, h2⟩ := (C76_payload_iff h k.ns x c hx t [] x.name a).2 ⟨rfl, hr⟩
  ⟨x.name, a, h1, h2, hn, hc, ha⟩

/-- C76: or be a relation, over any inputs with a faithful text; its author is told how many columns they have. -/
theorem C76_relation (hx : (.relation, x.ext c) ∈ accepted h) (kind : ExtKind) (ins : List Rel)
    (hk : Arity (.ext kind none (some (x.toAny c t))) ins.length)
    (hi : ∀ r ∈ ins, Supported ⟨st, o, registryAfter h⟩ r) (hr : Returns x t (ins.map (width (registryAfter h))) a) :
    Supported ⟨st, o, registryAfter h⟩ (.node (.ext kind none (some (x.toAny c t))) (ins.map some)) :=
  have ⟨h1, h2⟩ := (C76_payload_iff h .relation x c hx t _ x.name a).2 ⟨rfl, hr⟩
  .node _ ins hk hi ⟨rfl, rfl, _, _, _, rfl, h1, h2, hn, ha⟩

end

/-- C76: a plan that is one such relation without inputs, with such an enhancement on a filter above it, is read back. -/
theorem C76_plan_round_trip {S : Type} [UTab] [FTab] (hA : AsciiPrintable) (o : Opts) (ho : Readable o)
    (h : List (Ns × Ext ExtArgs (List Nat)))
    (x : Explain T) (c : MsgCodec T) (hx : (.relation, x.ext c) ∈ accepted h) (hxn : isIdentifier x.name = true)
    (t : T) (a : ExtArgs) (ha : ArgsOk (run []) o a) (hr : Returns x t [] a)
    (y : Explain S) (d : MsgCodec S) (hy : (.enhancement, y.ext d) ∈ accepted h) (hyn : isIdentifier y.name = true)
    (s : S) (b : ExtArgs) (hb : ArgsOk (run []) o b) (hs : Returns y s [] b) (hc : b.columns = [])
    (hw : a.columns.length < 2 ^ 30) (cond : Expr) (hf : Faithful (run []) cond) :
    let plan : Plan := ⟨none, [], [], [.rel (.node (.filter none (some cond) (some ⟨some (y.toAny d s), []⟩))
      [some (.node (.ext .leaf none (some (x.toAny c t))) [])])]⟩
    ∃ plan', parsePlan (registryAfter h) (textPlan (registryAfter h) o plan).text = .ok plan' ∧
      PlanEquiv (registryAfter h) plan plan' := by
  intro plan
  have hleaf : Supported ⟨run [], o, registryAfter h⟩ (.node (.ext .leaf none (some (x.toAny c t))) []) :=
    C76_relation h x c hxn t a ha hx .leaf [] rfl (by simp) hr
  have henh := C76_attached (st := run []) (o := o) h y d hyn s b hb .enh hy hs hc
  have hwid : width (registryAfter h) (.node (.ext .leaf none (some (x.toAny c t))) []) = a.columns.length := by
    have h1 := ((C76_payload_iff h .relation x c hx t [] x.name a).2 ⟨rfl, hr⟩).1
    simp [width, widths, outWidth, shown, mapping, RelSpec.common, directWidth, h1, identity]
  have hok : PlanOk (registryAfter h) o plan := by
    refine ⟨(by intro x hx; cases hx), rfl, ⟨?_, ?_, ?_⟩, ?_⟩
    · intro e he; cases he
    · intro e he; cases he
    · intro e he; cases he
    · intro r hr
      simp only [plan, List.mem_cons, List.not_mem_nil, or_false] at hr
      subst hr
      refine .node _ [_] rfl (fun q hq => ?_) ?_
      · simp only [List.mem_cons, List.not_mem_nil, or_false] at hq
        subst hq
        exact hleaf
      · simp only [OpOk, List.map_cons, List.map_nil, hwid]
        refine ⟨rfl, ⟨cond, rfl, hf⟩, ⟨?_, ?_⟩, ?_⟩
        · simp [shown, mapping, identity]; omega
        · intro i hi
          simp only [shown, mapping, identity, Option.bind_none, Option.getD_none, List.mem_map, List.mem_range] at hi
          obtain ⟨j, hj, rfl⟩ := hi
          constructor
          · exact Int.natCast_nonneg j
          · exact Int.ofNat_lt.2 hj
        · intro z hz
          cases hz
          exact ⟨fun d hd => by cases hd; exact henh, fun d hd => by cases hd⟩
  obtain ⟨p', h1, h2, -⟩ := planRT hA _ o ho plan hok
  exact ⟨p', h1, h2⟩

namespace AuthorSample

/-- A relation that makes as many rows as its one positional argument says. -/
def rows : Explain Int where
  name := cs!"Rows"
  url := cs!"t/Rows"
  fromArgs _ := .positional fun
    | [.integer i] => .done (.ok i)
    | _ => .done (.error (.missing cs!"rows"))
  toArgs i _ := .ok ⟨[.integer i], [], [.named cs!"n" (.simple .i64 .required 0)]⟩

/-- An enhancement with a text that is left out when it is empty. -/
def label : Explain Str where
  name := cs!"Label"
  url := cs!"t/Label"
  fromArgs _ := .named cs!"text" fun
    | some (.string s) => .done (.ok s)
    | some _ => .done (.error (.conversion cs!"text"))
    | none => .done (.ok [])
  toArgs s _ := .ok ⟨[], if s = [] then [] else [(cs!"text", .string s)], []⟩

def rowsCodec : MsgCodec Int where
  encode := signed
  decode
    | [s, n] => some (unsigned s n)
    | _ => none
  law i := congrArg some (unsigned_signed i)

def labelCodec : MsgCodec Str where
  encode s := s.map Char.toNat
  decode l := some (l.map Char.ofNat)
  law s := by simp [Function.comp_def, Char.ofNat_toNat]

def history : List (Ns × Ext ExtArgs (List Nat)) :=
  [(.enhancement, label.ext labelCodec), (.relation, rows.ext rowsCodec), (.relation, label.ext labelCodec)]

theorem rows_returns (i : Int) (ws : List Nat) :
    Returns rows i ws ⟨[.integer i], [], [.named cs!"n" (.simple .i64 .required 0)]⟩ :=
  ⟨rfl, rfl, fun _ => by simp [rows, Reader.looks], by simp⟩

theorem label_returns (s : Str) (ws : List Nat) :
    Returns label s ws ⟨[], if s = [] then [] else [(cs!"text", .string s)], []⟩ := by
  refine ⟨rfl, ?_, by simp, ?_⟩
  · by_cases h : s = [] <;> simp [h, label, Reader.answer, getKey]
  · intro n hn
    by_cases h : s = []
    · simp [h] at hn
    · simp [h] at hn; subst hn; simp [label, Reader.looks]

theorem registered : (Ns.relation, rows.ext rowsCodec) ∈ accepted history ∧
    (Ns.enhancement, label.ext labelCodec) ∈ accepted history := by
  have hl : (label.ext labelCodec).name = cs!"Label" ∧ (label.ext labelCodec).url = cs!"t/Label" := ⟨rfl, rfl⟩
  have hr : (rows.ext rowsCodec).name = cs!"Rows" ∧ (rows.ext rowsCodec).url = cs!"t/Rows" := ⟨rfl, rfl⟩
  simp [accepted, acceptedFrom, history, Clash, hl, hr]

end AuthorSample

open AuthorSample in
/-- The plan `Filter[true => $0]` with `+ Enh:Label[text='a b']` over `ExtensionLeaf:Rows[5 => n:i64]`. -/
example : letI := asciiTab; letI := halfTab
    ∃ plan', parsePlan (registryAfter AuthorSample.history) (textPlan (registryAfter AuthorSample.history) .default
      ⟨none, [], [], [.rel (.node (.filter none (some (.literal ⟨some (.bool true), false, 0⟩))
        (some ⟨some (label.toAny labelCodec cs!"a b"), []⟩))
      [some (.node (.ext .leaf none (some (rows.toAny rowsCodec 5))) [])])]⟩).text = .ok plan' ∧
      PlanEquiv (registryAfter AuthorSample.history) ⟨none, [], [], [.rel (.node (.filter none (some (.literal ⟨some (.bool true), false, 0⟩))
        (some ⟨some (label.toAny labelCodec cs!"a b"), []⟩))
      [some (.node (.ext .leaf none (some (rows.toAny rowsCodec 5))) [])])]⟩ plan' := by
  letI := asciiTab; letI := halfTab
  refine C76_plan_round_trip asciiTab_printable _ readable_default _ rows rowsCodec registered.1 (by decide) 5 _ ?_
    (rows_returns 5 []) label labelCodec registered.2 (by decide) cs!"a b" _ ?_ (label_returns _ []) rfl (by decide) _ ?_
  · refine ⟨⟨?_, trivial⟩, by simp, by simp, ?_⟩
    · show InI64 5; unfold InI64; decide
    · intro c hc
      simp only [List.mem_cons, List.not_mem_nil, or_false] at hc
      subst hc
      exact ⟨SamplePlan.spellable _ (by decide +kernel), rfl⟩
  · refine ⟨trivial, ?_, by simp, by simp⟩
    intro p hp
    simp at hp
    subst hp
    exact ⟨by decide, by unfold ClearName; decide, SamplePlan.spellable cs!"a b" (by decide +kernel)⟩
  · simp [Faithful, Survives, Verif.Spelled]

end Verif
