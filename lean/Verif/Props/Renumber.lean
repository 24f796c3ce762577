import Verif.Proofs.RenumberPlan
import Verif.Props.Plan

/-!
C68: the numbers of anchors do not show in the relations.
-/

set_option autoImplicit false

namespace Verif

open StoreSpec TextSpec RenumSpec PlanSpec

/-! ## C68 -/

/-- C68: when every anchor of a plan gets another number, in its declarations as well as in its relations, the
relations are written the same, if they are written without an error and no anchor is shown. -/
theorem C68_relations [UTab] [FTab] (reg : Registry ExtArgs (List Nat)) (o : Opts) (r : Renum) (p : Plan)
    (hs : r.Sound) (hr : r.Respects reg) (hh : HidesAnchors o p.decls)
    (h : (textPlanRels ⟨p.store, o, reg⟩ p.rels).errs = []) :
    textPlanRels ⟨(r.plan p).store, o, reg⟩ (r.plan p).rels = textPlanRels ⟨p.store, o, reg⟩ p.rels :=
  (showsAs_plan hs o p.urns _ p.decls hh).planRels hr p.rels h

/-- C68 for whole texts: both texts end alike from the header of the plan section on, and the second is written
without an error too. -/
theorem C68_written_text [UTab] [FTab] (reg : Registry ExtArgs (List Nat)) (o : Opts) (r : Renum) (p : Plan)
    (hs : r.Sound) (hr : r.Respects reg) (hh : HidesAnchors o p.decls) (h : (textPlan reg o p).errs = []) :
    ∃ pre pre' body, (textPlan reg o p).text = pre ++ (cs!"=== Plan\n" ++ body) ∧
      (textPlan reg o (r.plan p)).text = pre' ++ (cs!"=== Plan\n" ++ body) ∧
      body = (textPlanRels ⟨p.store, o, reg⟩ p.rels).text ++ cs!"\n" ∧ (textPlan reg o (r.plan p)).errs = [] := by
  have he : (Store.fromExtensions p.urns p.decls).2 = [] ∧ (textPlanRels ⟨p.store, o, reg⟩ p.rels).errs = [] := by
    simpa [textPlan] using h
  have hw := C68_relations reg o r p hs hr hh he.2
  refine ⟨writeVersion o.indent p.version ++ (writeExts p.store o.indent ++ if p.store.isEmpty then [] else cs!"\n"),
    writeVersion o.indent (r.plan p).version ++
      (writeExts (r.plan p).store o.indent ++ if (r.plan p).store.isEmpty then [] else cs!"\n"), _,
    ?_, ?_, rfl, ?_⟩
  · simp [textPlan, planHeader]
  · simp only [textPlan, hw]
    simp [planHeader]
  · simp only [textPlan, hw]
    have : (Store.fromExtensions (r.plan p).urns (r.plan p).decls).2 = [] := (load_renum hs p.urns p.decls).2 he.1
    rw [this]
    simp [he.2]

/-- C68, the other way round: a renumbering brings no error that was not there, and hides none. -/
theorem C68_declarations (r : Renum) (hs : r.Sound) (p : Plan) :
    (Store.fromExtensions (r.plan p).urns (r.plan p).decls).2 = [] ↔ (Store.fromExtensions p.urns p.decls).2 = [] :=
  load_renum hs p.urns p.decls

/-! ### Examples -/

namespace RenumSample

/-- `a` for `b` and `b` for `a`. -/
def swap (a b n : Nat) : Nat := if n = a then b else if n = b then a else n

theorem swap_inj (a b : Nat) : ∀ n m, swap a b n = swap a b m → n = m := by
  intro n m
  unfold swap
  split <;> split <;> (try split) <;> (try split) <;> omega

/-- The two functions trade their anchors, the URN gets another, and so do types and variations. -/
def trade : Renum where
  on k := match k with
    | .function => swap 10 11
    | .type => swap 0 1
    | .typeVariation => swap 1 2
  urn := swap 2 5
  msg := id

theorem trade_sound : trade.Sound where
  inj k a b h := by cases k <;> exact swap_inj _ _ a b h
  urns := swap_inj _ _
  none := by decide

theorem trade_respects : trade.Respects sampleReg := by
  intro ns d c
  have hd : ∀ n a, sampleReg.decode ns d c = .ok (n, a) → trade.extArgs a = a := by
    intro n a h
    unfold Registry.decode at h
    split at h
    · cases h
    · rename_i name hu
      split at h
      · cases h
      · rename_i hd hh
        split at h
        · rename_i args ht
          cases h
          have : ∃ url cols, hd = noteHandler url cols ∧ cols.map trade.column = cols := by
            simp only [sampleReg, hGet] at hh
            repeat' split at hh
            all_goals first
              | (cases hh; exact ⟨_, _, rfl, rfl⟩)
              | cases hh
          obtain ⟨url, cols, rfl, hc⟩ := this
          simp only [noteHandler] at ht
          split at ht
          · cases ht
            simp [Renum.extArgs, Renum.values, Renum.value, hc]
          · cases ht
        · cases h
  cases h : sampleReg.decode ns d c with
  | error e => exact ⟨e, h⟩
  | ok p =>
    obtain ⟨n, a⟩ := p
    show sampleReg.decode ns d c = _
    rw [hd n a h]
    exact h

theorem sample_distinct : DistinctNames samplePlan.decls := by
  intro k u v a b m n m' n' h1 h2 hm hn hab
  simp only [samplePlan, List.mem_cons, List.not_mem_nil, or_false, Option.some.injEq, Prod.mk.injEq] at h1 h2
  rcases h1 with ⟨rfl, rfl, rfl, rfl⟩ | ⟨rfl, rfl, rfl, rfl⟩ <;> rcases h2 with ⟨_, rfl, rfl, rfl⟩ | ⟨_, rfl, rfl, rfl⟩
  · exact absurd rfl hab
  · cases hm; cases hn
    refine ⟨by decide, fun _ _ => ?_⟩
    rw [sameBase_iff]
    decide +kernel
  · cases hm; cases hn
    refine ⟨by decide, fun _ _ => ?_⟩
    rw [sameBase_iff]
    decide +kernel
  · exact absurd rfl hab

end RenumSample

open RenumSample

/-- A plan whose two functions trade their anchors. -/
example : letI := asciiTab; letI := halfTab
    ∃ pre pre' body, (textPlan sampleReg .default samplePlan).text = pre ++ (cs!"=== Plan\n" ++ body) ∧
      (textPlan sampleReg .default (trade.plan samplePlan)).text = pre' ++ (cs!"=== Plan\n" ++ body) := by
  letI := asciiTab; letI := halfTab
  obtain ⟨pre, pre', body, h1, h2, -⟩ := C68_written_text sampleReg .default trade samplePlan trade_sound trade_respects
    (.inr ⟨rfl, sample_distinct⟩)
    (C46_plan_round_trip asciiTab_printable sampleReg .default readable_default samplePlan (samplePlan_ok _ rfl)
      samplePlan_complete).1
  exact ⟨pre, pre', body, h1, h2⟩

example : (trade.plan samplePlan).decls =
    [some (.function, 5, 10, cs!"sum:i64"), some (.function, 5, 11, cs!"equal")] := by decide +kernel

/-- Two functions of one name: their anchors are shown, so their numbers are. -/
def RenumSample.twins : Plan where
  version := none
  urns := [(2, cs!"/f.yaml")]
  decls := [some (.function, 2, 10, cs!"f"), some (.function, 2, 11, cs!"f")]
  rels := [.rel (.node (.filter none (some (.call 10 [] [] (some (.simple .boolean .required 0)))) none)
    [some (.node (.ext .leaf none (some (note 4))) [])])]

/-- The condition on the options is needed. -/
theorem C68_shown_anchors_differ : letI := asciiTab; letI := halfTab
    (textPlanRels ⟨twins.store, .default, sampleReg⟩ twins.rels).text =
      cs!"Filter[f#10():boolean => $0]\n  ExtensionLeaf:Note[4 => c:i64]" ∧
    (textPlanRels ⟨(trade.plan twins).store, .default, sampleReg⟩ (trade.plan twins).rels).text =
      cs!"Filter[f#11():boolean => $0]\n  ExtensionLeaf:Note[4 => c:i64]" := by
  decide +kernel

end Verif
