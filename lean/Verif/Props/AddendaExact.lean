import Verif.Props.Addenda
import Verif.Props.ExtLinesExact
/-!
# C37: exactly which advanced extensions survive as addenda
-/

namespace Verif
open StoreSpec TextSpec RelSpec AddendaSpec

set_option autoImplicit false

namespace AddendaSpec

/-- The payloads of an advanced extension with the kinds of their lines, in the order of the lines. -/
def lines (adv : Option AdvExt) : List (AddKind × AnyMsg) :=
  (payloads adv).1.toList.map (fun d => (AddKind.enh, d)) ++ (payloads adv).2.map fun d => (AddKind.opt, d)

/-- A payload survives as an addendum: its handler explains it by an identifier and arguments that survive as text and
have no columns, and the handler of that name rebuilds it from these arguments. -/
def PayloadSurvives [UTab] [FTab] (env : Env) (k : AddKind) (d : AnyMsg) : Prop :=
  ∃ name args, env.reg.decode k.ns d [] = .ok (name, args) ∧ isIdentifier name = true ∧
    SurvivesList env.st env.o args.positional args.named ∧ args.columns = [] ∧ env.reg.parse k.ns name args = .ok d

/-- The lines are read, whole, as invocations `inv`: each with the kind, the name and the arguments its payload was explained
by, from as many named arguments. -/
def ReadAs [UTab] [FTab] (env : Env) (adv : Option AdvExt) (inv : List (SAddendum × Addendum)) : Prop :=
  (advAddenda env adv).map (fun x => pAddendum x.text) = inv.map (fun x => some (x.1, [])) ∧
    convAddenda env.st (inv.map (·.1)) = .ok (inv.map (·.2)) ∧
    inv.map (fun x => (x.2.kind, Except.ok (x.2.name, x.2.args))) = (lines adv).map (fun p => (p.1, env.reg.decode p.1.ns p.2 [])) ∧
    ∀ x ∈ inv, x.1.args.named.length = x.2.args.named.length

end AddendaSpec

theorem advAddenda_lines [UTab] [FTab] (env : Env) (adv : Option AdvExt) :
    advAddenda env adv = (lines adv).map fun p => textAddendum env.st env.o p.1 (env.reg.decode p.1.ns p.2 []) := by
  cases adv with
  | none => rfl
  | some x => simp [advAddenda, lines, payloads, Function.comp_def, AddKind.ns]

/-- The invocations of a list of payloads. -/
theorem readAs_iff [UTab] [FTab] (hA : AsciiPrintable) (hF : FloatsShown) (h : List Op) (o : Opts) (reg : Registry ExtArgs (List Nat))
    (l : List (AddKind × AnyMsg)) (inv : List (SAddendum × Addendum)) :
    (l.map (fun p => pAddendum (textAddendum (run h) o p.1 (reg.decode p.1.ns p.2 [])).text) = inv.map (fun x => some (x.1, [])) ∧
      convAddenda (run h) (inv.map (·.1)) = .ok (inv.map (·.2)) ∧
      inv.map (fun x => (x.2.kind, Except.ok (x.2.name, x.2.args))) = l.map (fun p => (p.1, reg.decode p.1.ns p.2 [])) ∧
      ∀ x ∈ inv, x.1.args.named.length = x.2.args.named.length) →
    ∀ p ∈ l, ∃ name args, reg.decode p.1.ns p.2 [] = .ok (name, args) ∧ isIdentifier name = true ∧
      SurvivesList (run h) o args.positional args.named ∧ args.columns = [] := by
  induction l generalizing inv with
  | nil => intro _ p hp; cases hp
  | cons q l ih =>
    rintro ⟨h1, h2, h3, h4⟩
    cases inv with
    | nil => simp at h1
    | cons x inv =>
      simp only [List.map_cons, List.cons.injEq, Prod.mk.injEq] at h1 h3
      obtain ⟨t, a⟩ := x
      simp only [List.map_cons, convAddenda] at h2
      obtain ⟨args, g1, h2⟩ := Res.bind_ok_iff.1 h2
      obtain ⟨as, g2, h2⟩ := Res.bind_ok_iff.1 h2
      injection h2 with h2
      rw [List.cons.injEq] at h2
      obtain ⟨h5, h6⟩ := h2
      subst h5
      intro p hp
      rcases List.mem_cons.1 hp with rfl | hp
      · obtain ⟨⟨e1, e2⟩, -⟩ := h3
        refine ⟨t.name, args, e2.symm, ?_⟩
        have hr := h1.1
        rw [← e2] at hr
        simp only at e1 hr
        have hl := h4 _ (List.mem_cons_self ..)
        simp only at hl
        obtain ⟨tk, tn, ta⟩ := t
        simp only at e1 hr hl g1 ⊢
        subst e1
        have hc : convExtArgs (run h) ta [] = .ok args := by
          revert g1
          cases convExtArgs (run h) ta [] <;> simp [plain]
        exact addendum_of_read hA hF (rest := []) o p.1 tn args (by rw [List.append_nil]; exact hr) hl hc
      · refine ih inv ⟨h1.2, ?_, h3.2, fun x hx => h4 x (List.mem_cons_of_mem _ hx)⟩ p hp
        rw [g2, h6]

/-- The other direction. -/
theorem readAs_of [UTab] [FTab] (hA : AsciiPrintable) (h : List Op) (o : Opts) (reg : Registry ExtArgs (List Nat))
    (l : List (AddKind × AnyMsg)) (hl : ∀ p ∈ l, ∃ name args, reg.decode p.1.ns p.2 [] = .ok (name, args) ∧ isIdentifier name = true ∧
      SurvivesList (run h) o args.positional args.named ∧ args.columns = []) :
    ∃ inv : List (SAddendum × Addendum),
      l.map (fun p => pAddendum (textAddendum (run h) o p.1 (reg.decode p.1.ns p.2 [])).text) = inv.map (fun x => some (x.1, [])) ∧
      convAddenda (run h) (inv.map (·.1)) = .ok (inv.map (·.2)) ∧
      inv.map (fun x => (x.2.kind, Except.ok (x.2.name, x.2.args))) = l.map (fun p => (p.1, reg.decode p.1.ns p.2 [])) ∧
      ∀ x ∈ inv, x.1.args.named.length = x.2.args.named.length := by
  induction l with
  | nil => exact ⟨[], rfl, rfl, rfl, by simp⟩
  | cons q l ih =>
    obtain ⟨inv, i1, i2, i3, i4⟩ := ih fun p hp => hl p (List.mem_cons_of_mem _ hp)
    obtain ⟨name, args, g1, g2, g3, g4⟩ := hl q (List.mem_cons_self ..)
    obtain ⟨sa, s1, s2, s3⟩ := addendum_read hA o q.1 name args g2 g3 g4
    refine ⟨(⟨q.1, name, sa⟩, ⟨q.1, name, args⟩) :: inv, ?_, ?_, ?_, ?_⟩
    · have := s3 []
      rw [List.append_nil] at this
      rw [List.map_cons, List.map_cons, i1, g1, this]
    · simp only [List.map_cons, convAddenda, s2, plain, Res.bind, i2]
    · simp only [List.map_cons, i3, g1]
    · intro x hx
      rcases List.mem_cons.1 hx with rfl | hx
      · exact s1
      · exact i4 x hx

/-- What the kinds and the explanations of the invocations say about what is built from them. -/
theorem builds_of_lines (reg : Registry ExtArgs (List Nat)) (adv : Option AdvExt) (as : List Addendum)
    (hk : as.map (fun a => (a.kind, (Except.ok (a.name, a.args) : Except ExtErr (Str × ExtArgs)))) =
      (lines adv).map (fun p => (p.1, reg.decode p.1.ns p.2 []))) :
    (∀ a ∈ as, a.kind ≠ .ext) ∧ (ofKind .enh as).length ≤ 1 ∧ (as ≠ [] ↔ lines adv ≠ []) ∧
    ((Builds reg (ofKind .enh as) (payloads adv).1.toList ∧ Builds reg (ofKind .opt as) (payloads adv).2) ↔
      ∀ p ∈ lines adv, ∃ name args, reg.decode p.1.ns p.2 [] = .ok (name, args) ∧ reg.parse p.1.ns name args = .ok p.2) := by
  have gen : ∀ (k : AddKind) (ds : List AnyMsg) (bs : List Addendum),
      bs.map (fun a => (a.kind, (Except.ok (a.name, a.args) : Except ExtErr (Str × ExtArgs)))) =
        ds.map (fun d => (k, reg.decode k.ns d [])) →
      (∀ b ∈ bs, b.kind = k) ∧ (Builds reg bs ds ↔ ∀ d ∈ ds, ∃ name args, reg.decode k.ns d [] = .ok (name, args) ∧
        reg.parse k.ns name args = .ok d) := by
    intro k ds
    induction ds with
    | nil =>
      intro bs hb
      have : bs = [] := by simpa using hb
      subst this
      exact ⟨by simp, by simp [Builds]⟩
    | cons d ds ih =>
      intro bs hb
      cases bs with
      | nil => simp at hb
      | cons b bs =>
        simp only [List.map_cons, List.cons.injEq, Prod.mk.injEq] at hb
        obtain ⟨⟨h1, h2⟩, h3⟩ := hb
        obtain ⟨g1, g2⟩ := ih bs h3
        refine ⟨?_, ?_⟩
        · intro x hx
          rcases List.mem_cons.1 hx with rfl | hx
          · exact h1
          · exact g1 x hx
        · have : Builds reg (b :: bs) (d :: ds) ↔ reg.parse b.kind.ns b.name b.args = .ok d ∧ Builds reg bs ds := by
            simp [Builds]
          rw [this, g2, h1, List.forall_mem_cons]
          refine and_congr ?_ Iff.rfl
          constructor
          · intro h; exact ⟨_, _, h2.symm, h⟩
          · rintro ⟨n, a, e1, e2⟩
            rw [← h2] at e1
            injection e1 with e1
            injection e1 with e1 e3
            rw [e1, e3]; exact e2
  rw [lines, List.map_append, List.map_map, List.map_map] at hk
  obtain ⟨as1, as2, rfl, h1, h2⟩ := List.map_eq_append_iff.1 hk
  obtain ⟨a1, b1⟩ := gen .enh _ as1 h1
  obtain ⟨a2, b2⟩ := gen .opt _ as2 h2
  have f1 : ofKind .enh (as1 ++ as2) = as1 := by
    rw [ofKind, List.filter_append, List.filter_eq_self.2 (by simpa using a1), List.filter_eq_nil_iff.2, List.append_nil]
    intro b hb
    simp [a2 b hb]
  have f2 : ofKind .opt (as1 ++ as2) = as2 := by
    rw [ofKind, List.filter_append, List.filter_eq_nil_iff.2, List.nil_append, List.filter_eq_self.2 (by simpa using a2)]
    intro b hb
    simp [a1 b hb]
  rw [f1, f2, b1, b2]
  refine ⟨?_, ?_, ?_, ?_⟩
  · intro a ha
    rcases List.mem_append.1 ha with ha | ha
    · rw [a1 a ha]; simp
    · rw [a2 a ha]; simp
  · have := congrArg List.length h1
    simp only [List.length_map] at this
    rw [this]
    cases (payloads adv).1 <;> simp
  · have e1 := congrArg List.length h1
    have e2 := congrArg List.length h2
    simp only [List.length_map] at e1 e2
    simp only [ne_eq, ← List.length_eq_zero_iff, List.length_append, lines, List.length_map, e1, e2]
  · simp only [lines, List.mem_append, List.mem_map]
    constructor
    · rintro ⟨g1, g2⟩ p (⟨d, hd, rfl⟩ | ⟨d, hd, rfl⟩)
      · exact g1 d hd
      · exact g2 d hd
    · intro g
      exact ⟨fun d hd => g _ (.inl ⟨d, hd, rfl⟩), fun d hd => g _ (.inr ⟨d, hd, rfl⟩)⟩

/-- C37, exactly: whatever the options, the addenda written for an advanced extension are read back as the invocations its
payloads were explained by and give these payloads again, exactly if each of its payloads survives. -/
theorem C37_addenda_survive_iff [UTab] [FTab] (hA : AsciiPrintable) (hF : FloatsShown) (h : List Op) (o : Opts)
    (reg : Registry ExtArgs (List Nat)) (adv : Option AdvExt) :
    (∃ inv adv', ReadAs ⟨run h, o, reg⟩ adv inv ∧ standardAdv reg (inv.map (·.2)) = .ok adv' ∧ payloads adv' = payloads adv) ↔
      ∀ p ∈ lines adv, PayloadSurvives ⟨run h, o, reg⟩ p.1 p.2 := by
  constructor
  · rintro ⟨inv, adv', ⟨h1, h2, h3, h4⟩, h5, h6⟩ p hp
    rw [advAddenda_lines, List.map_map] at h1
    obtain ⟨name, args, g1, g2, g3, g4⟩ := readAs_iff hA hF h o reg _ inv ⟨h1, h2, h3, h4⟩ p hp
    obtain ⟨-, -, b3, b4, -⟩ := (C37_addenda_collected reg _ adv').1 h5
    rw [h6] at b3 b4
    have hb := (builds_of_lines reg adv (inv.map (·.2)) (by rw [List.map_map]; exact h3)).2.2.2.1 ⟨b3, b4⟩ p hp
    obtain ⟨n', a', e1, e2⟩ := hb
    rw [g1] at e1
    injection e1 with e1
    injection e1 with e1 e3
    subst e1 e3
    exact ⟨name, args, g1, g2, g3, g4, e2⟩
  · intro hs
    obtain ⟨inv, i1, i2, i3, i4⟩ := readAs_of hA h o reg (lines adv) fun p hp => by
      obtain ⟨name, args, g1, g2, g3, g4, -⟩ := hs p hp
      exact ⟨name, args, g1, g2, g3, g4⟩
    obtain ⟨b1, b2, b3, b4⟩ := builds_of_lines reg adv (inv.map (·.2)) (by rw [List.map_map]; exact i3)
    obtain ⟨c1, c2⟩ := b4.2 fun p hp => by
      obtain ⟨name, args, g1, -, -, -, g2⟩ := hs p hp
      exact ⟨name, args, g1, g2⟩
    have hr : ReadAs ⟨run h, o, reg⟩ adv inv := ⟨by rw [advAddenda_lines, List.map_map]; exact i1, i2, i3, i4⟩
    by_cases hn : lines adv = []
    · refine ⟨inv, none, hr, (C37_addenda_collected reg _ none).2 ⟨b1, b2, ?_, ?_, ?_⟩, ?_⟩
      all_goals
        have he : payloads adv = (none, []) := by
          obtain ⟨e1, e2⟩ := List.append_eq_nil_iff.1 hn
          rw [List.map_eq_nil_iff] at e1 e2
          generalize payloads adv = q at e1 e2
          obtain ⟨q1, q2⟩ := q
          cases q1
          · simp only at e2; rw [e2]
          · simp at e1
      · rw [he] at c1; exact c1
      · rw [he] at c2; exact c2
      · simp only [Option.isSome_none, Bool.false_eq_true, false_iff, b3, hn]; simp
      · rw [he]; rfl
    · refine ⟨inv, adv, hr, (C37_addenda_collected reg _ adv).2 ⟨b1, b2, c1, c2, ?_⟩, rfl⟩
      rw [b3]
      cases adv with
      | none => exact absurd rfl hn
      | some x => simp [hn]

/-- The sample payloads survive under every option. -/
example [UTab] [FTab] (h : List Op) (o : Opts) :
    ∀ p ∈ lines (some ⟨some (note 2), [note 1, note 3]⟩), PayloadSurvives ⟨run h, o, sampleReg⟩ p.1 p.2 := by
  intro p hp
  simp only [lines, payloads, Option.toList_some, List.map_cons, List.map_nil, List.cons_append, List.nil_append, List.mem_cons,
    List.not_mem_nil, or_false] at hp
  have hh : ∀ n : Nat, n < 10 → SurvivesList (run h) o [.integer n] [] := by
    intro n hn
    refine ⟨?_, by simp, by simp, by simp⟩
    simp only [SurvivesValues, SurvivesValue, InI64, and_true]
    omega
  rcases hp with rfl | rfl | rfl <;>
    exact ⟨cs!"Note", ⟨[.integer _], [], []⟩, rfl, by decide, hh _ (by decide), rfl, rfl⟩

end Verif
