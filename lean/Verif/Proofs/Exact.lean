import Verif.Proofs.Canonical
import Verif.Proofs.Image
/-!
# Texts that grow when they are read and written again
-/

namespace Verif
open StoreSpec TextSpec RelSpec PlanSpec ExactSpec ImageSpec

set_option autoImplicit false

variable [UTab] [FTab]

/-- How long a text is. -/
def Out.size (a : Out) : Nat := a.text.length

omit [UTab] [FTab] in
theorem Out.size_append (a b : Out) : (a ++ b).size = a.size + b.size := by simp [Out.size]

theorem amount_longer {st : Store} {o : Opts} (ho : o.litTypes = .always) (i : Int) :
    (textCount st o (.deprecated i)).size < (textExpr st o (number i)).size := by
  simp [textCount, number, textExpr, textLit, showSuffix, ho, textValue, textSuffix, Lit.suffix, Out.size]

theorem amounts_longer {st : Store} {o : Opts} (ho : o.litTypes = .always) {c c' : Count} (h : amount c = amount c')
    (hc : ∀ i, c' ≠ .deprecated i) :
    (textCount st o c).size ≤ (textCount st o c').size ∧
      ((∃ i, c = .deprecated i) → (textCount st o c).size < (textCount st o c').size) := by
  have e := textCount_amount (st := st) (o := o) c' (.inr hc)
  rw [e, ← h]
  cases c with
  | expr x => exact ⟨Nat.le_refl _, fun ⟨i, hi⟩ => by cases hi⟩
  | deprecated i =>
    have := amount_longer (st := st) ho i
    exact ⟨Nat.le_of_lt this, fun _ => this⟩

/-- The header of a relation that does not use the deprecated fields, beside one that means the same: all but the
length is the same. -/
theorem longerHead {env : Env} (ho : env.o.showEmit = false) (hl : env.o.litTypes = .always) {ws : List Nat} {op op' : RelOp}
    (hn : ¬ OldOp op') (h : OpOk env ws op) (he : OpEquiv env.reg ws op op') :
    (relHead env (ws.map some) op').emitted = (relHead env (ws.map some) op).emitted ∧
    (relHead env (ws.map some) op').addenda = (relHead env (ws.map some) op).addenda ∧
    op'.keepsInputs = op.keepsInputs ∧ ∀ lvl,
      (textHeader env.o lvl (relHead env (ws.map some) op)).size ≤ (textHeader env.o lvl (relHead env (ws.map some) op')).size ∧
      (OldOp op → (textHeader env.o lvl (relHead env (ws.map some) op)).size <
        (textHeader env.o lvl (relHead env (ws.map some) op')).size) := by
  by_cases hold : OldOp op
  · have key : ∀ c l o a, op = .fetch c l o a → (relHead env (ws.map some) op').emitted = (relHead env (ws.map some) op).emitted ∧
        (relHead env (ws.map some) op').addenda = (relHead env (ws.map some) op).addenda ∧
        op'.keepsInputs = op.keepsInputs ∧ ∀ lvl, (textHeader env.o lvl (relHead env (ws.map some) op)).size <
          (textHeader env.o lvl (relHead env (ws.map some) op')).size := by
      rintro c l o a rfl
      cases op' with
      | fetch c' l' o' a' =>
        obtain ⟨h1, h2, h3, h4, h5⟩ := he
        have hs := sameHead (env := env) ho (ws := ws) (op := .fetch c none none a) (op' := .fetch c' none none a')
          (.inr ⟨nofun, nofun⟩) ⟨h.1, nofun, nofun, h.2.2.2⟩ ⟨h1, h2, rfl, rfl, h5⟩
        refine ⟨(hs.1.emitted ho).symm, hs.1.addenda.symm, rfl, ?_⟩
        intro lvl
        have hout : textOutput env.o (relHead env (ws.map some) (.fetch c' l' o' a')) =
            textOutput env.o (relHead env (ws.map some) (.fetch c l o a)) := hs.1.output.symm
        have hl' : ∀ i, l' ≠ some (.deprecated i) := fun i hi => hn (by rw [hi]; exact .count _ _ _ _)
        have ho' : ∀ i, o' ≠ some (.deprecated i) := fun i hi => hn (by rw [hi]; exact .offset _ _ _ _)
        have g1 : ∀ x x', l = some x → l' = some x' → (textCount env.st env.o x).size ≤ (textCount env.st env.o x').size ∧
            ((∃ i, x = .deprecated i) → (textCount env.st env.o x).size < (textCount env.st env.o x').size) := by
          rintro x x' rfl rfl
          exact amounts_longer hl (by simpa using h3) fun i hi => hl' i (by rw [hi])
        have g2 : ∀ x x', o = some x → o' = some x' → (textCount env.st env.o x).size ≤ (textCount env.st env.o x').size ∧
            ((∃ i, x = .deprecated i) → (textCount env.st env.o x).size < (textCount env.st env.o x').size) := by
          rintro x x' rfl rfl
          exact amounts_longer hl (by simpa using h4) fun i hi => ho' i (by rw [hi])
        have hd : (∃ i, l = some (.deprecated i)) ∨ (∃ i, o = some (.deprecated i)) := by
          generalize hop : RelOp.fetch c l o a = op at hold
          cases hold with
          | count => cases hop; exact .inl ⟨_, rfl⟩
          | offset => cases hop; exact .inr ⟨_, rfl⟩
        have hargs : ∀ (c : Option Common) (l o : Option Count) (a : Option AdvExt),
            (textHeader env.o lvl (relHead env (ws.map some) (.fetch c l o a))).size =
            (Out.s (indentAt env.o lvl)).size + (Out.s cs!"Fetch").size + (Out.s cs!"[").size +
              (textArgList [] ((l.toList.map fun c => textNamedArg cs!"limit" (textCount env.st env.o c)) ++
                (o.toList.map fun c => textNamedArg cs!"offset" (textCount env.st env.o c)))).size +
              (Out.s cs!" ").size + (textOutput env.o (relHead env (ws.map some) (.fetch c l o a))).size + (Out.s cs!"]").size := by
          intro c l o a
          simp only [textHeader, relHead, Out.size_append]
        rw [hargs, hargs, hout]
        clear hargs hout hs
        cases l with
        | none =>
          cases l' with
          | some _ => cases h3
          | none =>
            cases o with
            | none => rcases hd with ⟨i, hi⟩ | ⟨i, hi⟩ <;> cases hi
            | some x =>
              cases o' with
              | none => cases h4
              | some x' =>
                obtain ⟨i, hi⟩ := hd.resolve_left (by rintro ⟨i, hi⟩; cases hi)
                cases hi
                have := (g2 _ _ rfl rfl).2 ⟨i, rfl⟩
                simp [textArgList, Out.sep, textNamedArg, Out.size_append]
                omega
        | some y =>
          cases l' with
          | none => cases h3
          | some y' =>
            have g3 := g1 _ _ rfl rfl
            cases o with
            | none =>
              cases o' with
              | some _ => cases h4
              | none =>
                obtain ⟨i, hi⟩ := hd.resolve_right (by rintro ⟨i, hi⟩; cases hi)
                cases hi
                have := g3.2 ⟨i, rfl⟩
                simp [textArgList, Out.sep, textNamedArg, Out.size_append]
                omega
            | some x =>
              cases o' with
              | none => cases h4
              | some x' =>
                have g4 := g2 _ _ rfl rfl
                simp [textArgList, Out.sep, textNamedArg, Out.size_append]
                rcases hd with ⟨i, hi⟩ | ⟨i, hi⟩
                · cases hi
                  have := g3.2 ⟨i, rfl⟩
                  omega
                · cases hi
                  have := g4.2 ⟨i, rfl⟩
                  omega
      | _ => cases he
    have : ∃ c l o a, op = .fetch c l o a := by cases hold <;> exact ⟨_, _, _, _, rfl⟩
    obtain ⟨c, l, o, a, hop⟩ := this
    obtain ⟨k1, k2, k3, k4⟩ := key c l o a hop
    exact ⟨k1, k2, k3, fun lvl => ⟨Nat.le_of_lt (k4 lvl), fun _ => k4 lvl⟩⟩
  · obtain ⟨h1, h2⟩ := sameHead ho (.inr ⟨hold, hn⟩) h he
    refine ⟨(h1.emitted ho).symm, h1.addenda.symm, h2.symm, fun lvl => ?_⟩
    rw [h1.header]
    exact ⟨Nat.le_refl _, fun h => absurd h hold⟩

theorem longerTree (hA : AsciiPrintable) {env : Env} (hst : env.st.Ordered) (ho : Readable env.o) (hl : env.o.litTypes = .always)
    {r r' : Rel} (he : Equiv env.reg r r') : Supported env r → ¬ OldRel r' →
      relWidth env r' = relWidth env r ∧ ∀ lvl, (textRel env lvl r).size ≤ (textRel env lvl r').size ∧
        (OldRel r → (textRel env lvl r).size < (textRel env lvl r').size) := by
  induction he with
  | node op op' inputs hqs hop ih =>
    intro hs hn
    obtain ⟨l, h1, h2, h3⟩ := supported_node hs
    have hl' : l = inputs.map (·.1) := by
      have : (inputs.map (·.1)).map some = l.map some := by rw [← h1]; simp
      exact ((List.map_inj_right (by intro a b h; exact Option.some.inj h)).1 this).symm
    subst hl'
    have hsup : ∀ p ∈ inputs, Supported env p.1 := fun p hp => h2 _ (List.mem_map_of_mem hp)
    have hmod : ∀ p ∈ inputs, ¬ OldRel p.2 := fun p hp h' => hn (.under _ _ _ (List.mem_map_of_mem hp) h')
    have hmodOp : ¬ OldOp op' := fun h' => hn (.here _ _ h')
    have hkids : op.keepsInputs = true ∨ inputs = [] := by
      generalize hr : Rel.node op (inputs.map fun p => some p.1) = r at hs
      cases hs with
      | node op₁ l₁ ha _ hok =>
        injection hr with hr1 hr2
        subst hr1
        have hlen : inputs.length = l₁.length := by simpa using congrArg List.length hr2
        cases op with
        | read =>
          have ha : l₁.length = 0 := ha
          exact .inr (List.length_eq_zero_iff.1 (by omega))
        | other => exact absurd hok id
        | _ => exact .inl rfl
    have hw : ∀ p ∈ inputs, relWidth env p.1 = width env.reg p.1 := by
      intro p hp
      obtain ⟨_, _, _, _, h, _⟩ := treeRT hA hst ho (hsup p hp)
      exact h
    have hws : inputWidths env (inputs.map fun p => some p.1) = (inputs.map fun p => width env.reg p.1).map some := by
      have : (inputs.map fun p => some p.1) = (inputs.map (·.1)).map some := by simp
      rw [this, inputWidths_rels]
      · simp
      · intro r hr
        obtain ⟨p, hp, rfl⟩ := List.mem_map.1 hr
        exact hw p hp
    have hws' : inputWidths env (inputs.map fun p => some p.2) = (inputs.map fun p => width env.reg p.1).map some := by
      rw [← hws]
      clear hqs hop h1 h2 h3 hs hws hn hkids
      induction inputs with
      | nil => rfl
      | cons p l ih' =>
        simp only [List.map_cons, inputWidths]
        rw [(ih p (by simp) (hsup p (by simp)) (hmod p (by simp))).1, ih' (fun q hq => ih q (by simp [hq])) (fun q hq => hsup q (by simp [hq]))
          (fun q hq => hmod q (by simp [hq])) (fun q hq => hw q (by simp [hq]))]
    rw [List.map_map] at h3
    obtain ⟨k1, k2, k3, k4⟩ := longerHead ho.2.2.2 hl hmodOp h3 hop
    have k1' : (relHead env ((inputs.map fun p => width env.reg p.1).map some) op').emitted =
        (relHead env ((inputs.map fun p => width env.reg p.1).map some) op).emitted := k1
    have k2' : (relHead env ((inputs.map fun p => width env.reg p.1).map some) op').addenda =
        (relHead env ((inputs.map fun p => width env.reg p.1).map some) op).addenda := k2
    refine ⟨by rw [relWidth, relWidth, hws, hws', k1'], ?_⟩
    intro lvl
    have k5 := k4 lvl
    have k6 : (textHeader env.o lvl (relHead env ((inputs.map fun p => width env.reg p.1).map some) op)).size ≤
        (textHeader env.o lvl (relHead env ((inputs.map fun p => width env.reg p.1).map some) op')).size ∧
        (OldOp op → (textHeader env.o lvl (relHead env ((inputs.map fun p => width env.reg p.1).map some) op)).size <
          (textHeader env.o lvl (relHead env ((inputs.map fun p => width env.reg p.1).map some) op')).size) := k5
    have hin : ∀ lvl, (textInputs env lvl (inputs.map fun p => some p.1)).size ≤ (textInputs env lvl (inputs.map fun p => some p.2)).size ∧
        ((∃ p ∈ inputs, OldRel p.1) →
          (textInputs env lvl (inputs.map fun p => some p.1)).size < (textInputs env lvl (inputs.map fun p => some p.2)).size) := by
      intro lvl
      clear hqs hop h1 h2 h3 hs hws hws' hn k1 k2 k3 k4 k1' k2' k5 k6 hkids
      induction inputs with
      | nil => exact ⟨Nat.le_refl _, fun ⟨p, hp, _⟩ => by cases hp⟩
      | cons p l ih' =>
        have a1 := (ih p (by simp) (hsup p (by simp)) (hmod p (by simp))).2 lvl
        have a2 := ih' (fun q hq => ih q (by simp [hq])) (fun q hq => hsup q (by simp [hq]))
          (fun q hq => hmod q (by simp [hq])) (fun q hq => hw q (by simp [hq]))
        simp only [List.map_cons, textInputs, Out.size_append]
        refine ⟨by omega, ?_⟩
        rintro ⟨q, hq, hold⟩
        rcases List.mem_cons.1 hq with rfl | hq
        · have := a1.2 hold
          omega
        · have := a2.2 ⟨q, hq, hold⟩
          omega
    rw [textRel, textRel, hws, hws', k2', k3]
    simp only [Out.size_append]
    have hin' := hin (lvl + 1)
    rcases hkids with hk | rfl
    · rw [if_pos hk, if_pos hk]
      refine ⟨by omega, fun hold => ?_⟩
      generalize hr : Rel.node op (inputs.map fun p => some p.1) = r at hold
      cases hold with
      | here _ _ h' => cases hr; have := k6.2 h'; omega
      | under _ _ q hq h' =>
        cases hr
        obtain ⟨p, hp, hpq⟩ := List.mem_map.1 hq
        cases hpq
        have := hin'.2 ⟨p, hp, h'⟩
        omega
    · simp only [List.map_nil] at k6 ⊢
      refine ⟨by omega, fun hold => ?_⟩
      generalize hr : Rel.node op [] = r at hold
      cases hold with
      | here _ _ h' => cases hr; have := k6.2 h'; omega
      | under _ _ q hq h' => cases hr; cases hq

theorem longerTop (hA : AsciiPrintable) {env : Env} (hst : env.st.Ordered) (ho : Readable env.o) (hl : env.o.litTypes = .always)
    {r r' : PlanRel} (he : TopEquiv env.reg r r') (h : TopOk env r) (hn : ¬ OldTop r') :
    (textPlanRel env r).size ≤ (textPlanRel env r').size ∧ (OldTop r → (textPlanRel env r).size < (textPlanRel env r').size) := by
  cases he with
  | rel r r' he =>
    have := (longerTree hA hst ho hl he h (fun x => hn (.rel _ x))).2 0
    exact ⟨this.1, fun hold => by cases hold with | rel _ x => exact this.2 x⟩
  | root names r r' he =>
    have := (longerTree hA hst ho hl he h.2 (fun x => hn (.root _ _ x))).2 1
    simp only [textPlanRel, Out.size_append]
    refine ⟨by omega, fun hold => ?_⟩
    cases hold with
    | root _ _ x => have := this.2 x; omega

theorem longerTops (hA : AsciiPrintable) {env : Env} (hst : env.st.Ordered) (ho : Readable env.o) (hl : env.o.litTypes = .always)
    (l : List (PlanRel × PlanRel)) (he : ∀ q ∈ l, TopEquiv env.reg q.1 q.2) (h : ∀ q ∈ l, TopOk env q.1)
    (hn : ∀ q ∈ l, ¬ OldTop q.2) :
    (textPlanRels env (l.map (·.1))).size ≤ (textPlanRels env (l.map (·.2))).size ∧
    ((∃ q ∈ l, OldTop q.1) → (textPlanRels env (l.map (·.1))).size < (textPlanRels env (l.map (·.2))).size) := by
  induction l with
  | nil => exact ⟨Nat.le_refl _, fun ⟨q, hq, _⟩ => by cases hq⟩
  | cons q l ih =>
    have h1 := longerTop hA hst ho hl (he q (by simp)) (h q (by simp)) (hn q (by simp))
    have h2 := ih (fun x hx => he x (by simp [hx])) (fun x hx => h x (by simp [hx])) (fun x hx => hn x (by simp [hx]))
    have h3 : (∃ x ∈ q :: l, OldTop x.1) → OldTop q.1 ∨ ∃ x ∈ l, OldTop x.1 := by
      rintro ⟨x, hx, hold⟩
      rcases List.mem_cons.1 hx with rfl | hx
      · exact .inl hold
      · exact .inr ⟨x, hx, hold⟩
    cases l with
    | nil =>
      simp only [List.map_cons, List.map_nil, textPlanRels]
      refine ⟨h1.1, fun hx => h1.2 ((h3 hx).resolve_right ?_)⟩
      rintro ⟨x, hx, _⟩
      cases hx
    | cons x l =>
      simp only [List.map_cons, textPlanRels, Out.size_append] at h2 ⊢
      refine ⟨by omega, fun hx => ?_⟩
      rcases h3 hx with hx | hx
      · have := h1.2 hx; omega
      · have := h2.2 hx; omega

/-! ## What is read does not use the deprecated fields -/

omit [UTab] [FTab] in
theorem not_oldOp {st : Store} {reg : Registry ExtArgs (List Nat)} {ws : List Nat} {w : Nat} {op : RelOp}
    (h : OpImage st reg ws w op) : ¬ OldOp op := by
  intro ho
  cases ho with
  | count => obtain ⟨-, -, -, -, h, -⟩ := h; obtain ⟨e, he, -⟩ := h _ rfl; cases he
  | offset => obtain ⟨-, -, -, -, -, h⟩ := h; obtain ⟨e, he, -⟩ := h _ rfl; cases he

omit [UTab] [FTab] in
theorem not_oldRel {st : Store} {reg : Registry ExtArgs (List Nat)} {r : Rel} {w : Nat} (h : RelImage st reg r w) : ¬ OldRel r := by
  induction h with
  | node op kids w hk hop ih =>
    intro ho
    generalize hr : Rel.node op (kids.map fun k => some k.1) = r at ho
    cases ho with
    | here _ _ h => cases hr; exact not_oldOp hop h
    | under _ _ q hq h =>
      cases hr
      obtain ⟨k, hk, e⟩ := List.mem_map.1 hq
      cases e
      exact ih k hk h

omit [UTab] [FTab] in
theorem not_oldTop {st : Store} {reg : Registry ExtArgs (List Nat)} {r : PlanRel} (h : TopImage st reg r) : ¬ OldTop r := by
  intro ho
  cases ho with
  | rel r ho => obtain ⟨w, h⟩ := h; exact not_oldRel h ho
  | root ns r ho => obtain ⟨w, h⟩ := h; exact not_oldRel h ho

end Verif
