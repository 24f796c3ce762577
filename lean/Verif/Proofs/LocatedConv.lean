import Verif.Proofs.Located
/-!
# Errors of the conversion name the line that cannot be converted
-/

namespace Verif

set_option autoImplicit false

open LocSpec

variable [FTab]

omit [FTab] in
theorem Res.at_err {ε α : Type} {r : Res ε α} {c : Ctx} {e : ε × Ctx} (h : r.at c = .err e) :
    r = .err e.1 ∧ e.2 = c := by
  cases r <;> cases h
  exact ⟨rfl, rfl⟩

/-- What is known about an error that names an addendum. -/
def AddErr (as : List (SAddendum × Ctx)) (e : RErr × Ctx) : Prop :=
  ∃ a ∈ as, e.2 = a.2 ∧ ∀ name, e.1 = .unregistered name → a.1.name = name

/-- The converted addenda keep contexts and names. -/
def SameAdds (as : List (SAddendum × Ctx)) (bs : List (Addendum × Ctx)) : Prop :=
  ∀ b ∈ bs, ∃ a ∈ as, a.2 = b.2 ∧ a.1.name = b.1.name

theorem convAddendaAt_err {st : Store} {as : List (SAddendum × Ctx)} {e : RErr × Ctx}
    (h : convAddendaAt st as = .err e) : (∃ x, e.1 = .conv x) ∧ ∃ a ∈ as, e.2 = a.2 := by
  induction as with
  | nil => cases h
  | cons a l ih =>
    simp only [convAddendaAt] at h
    rcases Res.bind_err_iff.1 h with h | ⟨x, -, h⟩
    · obtain ⟨h1, h2⟩ := Res.at_err h
      refine ⟨?_, a, by simp, h2⟩
      obtain ⟨e, c⟩ := e
      simp only at h1 ⊢
      cases hp : convExtArgs st a.1.args [] with
      | ok _ => rw [hp] at h1; cases h1
      | panic => rw [hp] at h1; cases h1
      | err x => rw [hp] at h1; cases h1; exact ⟨x, rfl⟩
    · rcases Res.bind_err_iff.1 h with h | ⟨x, -, h⟩
      · obtain ⟨h1, b, hb, h2⟩ := ih h
        exact ⟨h1, b, by simp [hb], h2⟩
      · cases h

theorem convAddendaAt_same {st : Store} {as : List (SAddendum × Ctx)} {bs : List (Addendum × Ctx)}
    (h : convAddendaAt st as = .ok bs) : SameAdds as bs := by
  induction as generalizing bs with
  | nil => cases h; intro b hb; cases hb
  | cons a l ih =>
    simp only [convAddendaAt] at h
    obtain ⟨x, -, h⟩ := Res.bind_ok_iff.1 h
    obtain ⟨l', hl, h⟩ := Res.bind_ok_iff.1 h
    cases h
    intro b hb
    rcases List.mem_cons.1 hb with rfl | hb
    · exact ⟨a, by simp, rfl, rfl⟩
    · obtain ⟨a', ha, h1⟩ := ih hl b hb
      exact ⟨a', by simp [ha], h1⟩

/-- Errors of resolving a name. -/
def IsResolve (name : Str) : RErr → Prop
  | .unregistered n => n = name
  | .detail _ => True
  | _ => False

omit [FTab] in
theorem resolveAddendumAt_err {reg : Registry ExtArgs (List Nat)} {a : Addendum × Ctx} {e : RErr × Ctx}
    (h : resolveAddendumAt reg a = .err e) : e.2 = a.2 ∧ IsResolve a.1.name e.1 := by
  obtain ⟨h1, h2⟩ := Res.at_err h
  refine ⟨h2, ?_⟩
  obtain ⟨e, c⟩ := e
  simp only [resolveAddendum] at h1
  cases hp : reg.parse a.1.kind.ns a.1.name a.1.args with
  | ok d => rw [hp] at h1; cases h1
  | error x =>
    rw [hp] at h1
    cases x <;> cases h1 <;> simp [IsResolve]

/-- What an error of the addenda can be. -/
def AdvErr (as : List (Addendum × Ctx)) (e : RErr × Ctx) : Prop :=
  ∃ a ∈ as, e.2 = a.2 ∧ (e.1 = .doubleEnhancement ∨ e.1 = .misplacedExt ∨ IsResolve a.1.name e.1)

omit [FTab] in
theorem standardLoopAt_err {reg : Registry ExtArgs (List Nat)} {enh : Option AnyMsg} {opts : List AnyMsg}
    {as : List (Addendum × Ctx)} {e : RErr × Ctx} (h : standardLoopAt reg enh opts as = .err e) : AdvErr as e := by
  induction as generalizing enh opts with
  | nil => cases h
  | cons a l ih =>
    have tail : AdvErr l e → AdvErr (a :: l) e := by
      rintro ⟨b, hb, h⟩; exact ⟨b, by simp [hb], h⟩
    simp only [standardLoopAt] at h
    split at h
    · split at h
      · cases h; exact ⟨a, by simp, rfl, .inl rfl⟩
      · rcases Res.bind_err_iff.1 h with h | ⟨x, -, h⟩
        · obtain ⟨h1, h2⟩ := resolveAddendumAt_err h
          exact ⟨a, by simp, h1, .inr (.inr h2)⟩
        · exact tail (ih h)
    · rcases Res.bind_err_iff.1 h with h | ⟨x, -, h⟩
      · obtain ⟨h1, h2⟩ := resolveAddendumAt_err h
        exact ⟨a, by simp, h1, .inr (.inr h2)⟩
      · exact tail (ih h)
    · cases h; exact ⟨a, by simp, rfl, .inr (.inl rfl)⟩

omit [FTab] in
theorem standardAdvAt_err {reg : Registry ExtArgs (List Nat)} {as : List (Addendum × Ctx)} {e : RErr × Ctx}
    (h : standardAdvAt reg as = .err e) : AdvErr as e := by
  simp only [standardAdvAt] at h
  rcases Res.bind_err_iff.1 h with h | ⟨x, -, h⟩
  · exact standardLoopAt_err h
  · split at h <;> cases h

omit [FTab] in
theorem extReadPartsAt_err {reg : Registry ExtArgs (List Nat)} {c : Ctx} {as : List (Addendum × Ctx)} {e : RErr × Ctx}
    (h : extReadPartsAt reg c as = .err e) :
    AdvErr as e ∨ (e.1 = .extCount ∧ (e.2 = c ∨ ∃ a ∈ as, e.2 = a.2)) := by
  simp only [extReadPartsAt] at h
  split at h
  · cases h; exact .inr ⟨rfl, .inl rfl⟩
  · rename_i a ha
    have hm : a ∈ as := (List.mem_filter.1 (by rw [ha]; simp)).1
    rcases Res.bind_err_iff.1 h with h | ⟨x, -, h⟩
    · obtain ⟨h1, h2⟩ := resolveAddendumAt_err h
      exact .inl ⟨a, hm, h1, .inr (.inr h2)⟩
    · rcases Res.bind_err_iff.1 h with h | ⟨x, -, h⟩
      · obtain ⟨b, hb, h⟩ := standardAdvAt_err h
        exact .inl ⟨b, (List.mem_filter.1 hb).1, h⟩
      · cases h
  · rename_i b l hb
    cases h
    exact .inr ⟨rfl, .inr ⟨b, (List.mem_filter.1 (by rw [hb]; simp)).1, rfl⟩⟩

/-- Errors of a relation itself. -/
def BodyErr : RErr → Prop
  | .conv _ | .arity | .inputFields | .widths | .badInteger | .negative | .notGrouping => True
  | _ => False

omit [FTab] in
theorem plain_err {α : Type} {r : Res Err α} {e : RErr} (h : plain r = .err e) : BodyErr e := by
  cases r <;> cases h; trivial

omit [FTab] in
theorem dropPanics_err {α : Type} {r : Res Err α} {e : RErr} (h : dropPanics r = .err e) : BodyErr e := by
  cases r <;> cases h

omit [FTab] in
/-- Errors of a sequence. -/
theorem body_bind {α β : Type} {r : Res RErr α} {f : α → Res RErr β} (hr : ∀ e, r = .err e → BodyErr e)
    (hf : ∀ a e, f a = .err e → BodyErr e) : ∀ e, r.bind f = .err e → BodyErr e := by
  intro e h
  rcases Res.bind_err_iff.1 h with h | ⟨a, -, h⟩
  · exact hr _ h
  · exact hf _ _ h

omit [FTab] in
theorem body_ok {α : Type} (a : α) : ∀ e, (Res.ok a : Res RErr α) = .err e → BodyErr e := by
  intro e h; cases h

omit [FTab] in
theorem convRefs_err (l : List IntTok) : ∀ e, convRefs l = .err e → BodyErr e := by
  induction l with
  | nil => exact body_ok _
  | cons i l ih =>
    exact body_bind (fun _ h => plain_err h) fun _ => body_bind ih fun _ => body_ok _

omit [FTab] in
theorem convEmit_err (l : List IntTok) (n : Nat) : ∀ e, convEmit l n = .err e → BodyErr e :=
  body_bind (convRefs_err l) fun _ => body_ok _

omit [FTab] in
theorem convOutput_err (st : Store) (o : SOutput) : ∀ e, convOutput st o = .err e → BodyErr e := by
  cases o with
  | implicit cols => exact body_bind (fun _ h => plain_err h) fun _ => body_ok _
  | direct cols suffix =>
    refine body_bind (fun _ h => dropPanics_err h) fun _ => ?_
    cases suffix with
    | none => exact body_ok _
    | some refs => exact body_bind (convRefs_err refs) fun _ => body_ok _

theorem convProj_err (st : Store) (n k : Nat) (l : List SProj) : ∀ e, convProj st n k l = .err e → BodyErr e := by
  induction l generalizing k with
  | nil => exact body_ok _
  | cons p l ih =>
    cases p with
    | ref i => exact body_bind (fun _ h => plain_err h) fun _ => body_bind (ih k) fun _ => body_ok _
    | expr i => exact body_bind (fun _ h => plain_err h) fun _ => body_bind (ih (k + 1)) fun _ => body_ok _

theorem convOuts_err (st : Store) (g : List Expr) (k : Nat) (l : List SExpr) :
    ∀ e, convOuts st g k l = .err e → BodyErr e := by
  induction l generalizing k with
  | nil => exact body_ok _
  | cons s l ih =>
    refine body_bind (fun _ h => plain_err h) fun x => ?_
    split
    · exact body_bind (ih k) fun _ => body_ok _
    · split
      · exact body_bind (ih (k + 1)) fun _ => body_ok _
      · intro e h; cases h; trivial

theorem convSortFields_err (st : Store) (l : List (SExpr × Str)) : ∀ e, convSortFields st l = .err e → BodyErr e := by
  induction l with
  | nil => exact body_ok _
  | cons f l ih =>
    refine body_bind ?_ fun _ => body_bind ih fun _ => body_ok _
    refine body_bind (fun _ h => dropPanics_err h) fun _ => ?_
    split
    · exact body_ok _
    · intro e h; cases h; trivial

theorem convFetchValue_err (st : Store) (v : Option SFetch) :
    ∀ e, convOptR (convFetchValue st) v = .err e → BodyErr e := by
  cases v with
  | none => exact body_ok _
  | some v =>
    refine body_bind ?_ fun _ => body_ok _
    cases v with
    | int i =>
      simp only [convFetchValue]
      split
      · intro e h; cases h; trivial
      · split
        · intro e h; cases h; trivial
        · exact body_ok _
    | expr x => exact body_bind (fun _ h => plain_err h) fun _ => body_ok _

omit [FTab] in
theorem oneChild_err (kids : List Rel) : ∀ e, oneChild kids = .err e → BodyErr e := by
  intro e h
  simp only [oneChild] at h
  split at h
  · cases h
  · cases h; trivial

omit [FTab] in
theorem grammarName_err {α : Type} (r : Option α) : ∀ e, grammarName r = .err e → BodyErr e := by
  intro e h; cases r <;> cases h

theorem convBody_err (st : Store) (adv : Option AdvExt) (kids : List Rel) (n : Nat) (line : SLine) :
    ∀ e, convBody st adv kids n line = .err e → BodyErr e := by
  cases line
  case root => intro e h; cases h
  case readExt => intro e h; cases h
  case set => intro e h; cases h
  case ext => intro e h; cases h
  case read =>
    simp only [convBody]
    split
    · intro e h; cases h; trivial
    · split
      · intro e h; cases h; trivial
      · exact body_bind (convOutput_err _ _) fun _ => body_ok _
  case readVirtual =>
    simp only [convBody]
    split
    · intro e h; cases h; trivial
    · exact body_bind (fun _ h => dropPanics_err h) fun _ => body_bind (fun _ h => plain_err h) fun _ =>
        body_bind (fun _ h => plain_err h) fun _ => body_ok _
  case filter =>
    exact body_bind (oneChild_err _) fun _ => body_bind (fun _ h => dropPanics_err h) fun _ =>
      body_bind (convEmit_err _ _) fun _ => body_ok _
  case project =>
    exact body_bind (oneChild_err _) fun _ => body_bind (convProj_err _ _ _ _) fun _ => body_ok _
  case aggregate =>
    exact body_bind (oneChild_err _) fun _ => body_bind (fun _ h => plain_err h) fun _ =>
      body_bind (convOuts_err _ _ _ _) fun _ => body_ok _
  case sort =>
    exact body_bind (oneChild_err _) fun _ => body_bind (convSortFields_err _ _) fun _ =>
      body_bind (convEmit_err _ _) fun _ => body_ok _
  case fetch =>
    refine body_bind (oneChild_err _) fun _ => ?_
    split
    · intro e h; cases h
    · exact body_bind (convEmit_err _ _) fun _ => body_bind (convFetchValue_err _ _) fun _ =>
        body_bind (convFetchValue_err _ _) fun _ => body_ok _
  case join =>
    simp only [convBody]
    split
    · exact body_bind (grammarName_err _) fun _ => body_bind (fun _ h => dropPanics_err h) fun _ =>
        body_bind (fun _ h => dropPanics_err h) fun _ => body_bind (convEmit_err _ _) fun _ => body_ok _
    · intro e h; cases h; trivial
  case cross =>
    simp only [convBody]
    split
    · exact body_bind (convEmit_err _ _) fun _ => body_ok _
    · intro e h; cases h; trivial

omit [FTab] in
theorem convSet_err (adv : Option AdvExt) (kids : List Rel) (ws : List Nat) (op : Str) (refs : List IntTok) :
    ∀ e, convSet adv kids ws op refs = .err e → BodyErr e := by
  simp only [convSet]
  split
  · intro e h; cases h; trivial
  · split
    · intro e h; cases h
    · split
      · exact body_bind (grammarName_err _) fun _ => body_bind (convEmit_err _ _) fun _ => body_ok _
      · intro e h; cases h; trivial

omit [FTab] in
theorem convReadExt_err (st : Store) (kids : List Rel) (n : Nat) (d : AnyMsg) (adv : Option AdvExt) (cols : List SColumn) :
    ∀ e, convReadExt st kids n d adv cols = .err e → BodyErr e := by
  simp only [convReadExt]
  split
  · intro e h; cases h; trivial
  · split
    · intro e h; cases h; trivial
    · exact body_bind (fun _ h => plain_err h) fun _ => body_ok _

theorem convExtRel_err {st : Store} {reg : Registry ExtArgs (List Nat)} {kids : List Rel} {kind : ExtKind} {name : Str}
    {args : SArgs} {cols : List SCol} {e : RErr} (h : convExtRel st reg [] kids kind name args cols = .err e) :
    BodyErr e ∨ IsResolve name e := by
  simp only [convExtRel, ne_eq, not_true_eq_false, if_false] at h
  rcases Res.bind_err_iff.1 h with h | ⟨x, -, h⟩
  · exact .inl (plain_err h)
  · split at h
    · rcases Res.bind_err_iff.1 h with h | ⟨x, -, h⟩
      · cases hp : reg.parse .relation name x with
        | ok d => rw [hp] at h; cases h
        | error y => rw [hp] at h; cases y <;> cases h <;> exact .inr (by simp [IsResolve])
      · cases h
    · cases h; exact .inl trivial

/-- What is known about an error of a relation with converted addenda. -/
structure LineErr (c : Ctx) (as : List (Addendum × Ctx)) (line : SLine) (e : RErr × Ctx) : Prop where
  where_ : e.2 = c ∨ ∃ a ∈ as, e.2 = a.2
  relation : OnRelation e.1 → e.2 = c
  addendum : OnAddendum e.1 → ∃ a ∈ as, e.2 = a.2
  mentions : ∀ name, e.1 = .unregistered name →
    (e.2 = c ∧ ∃ kind args cols, line = .ext kind name args cols) ∨ ∃ a ∈ as, e.2 = a.2 ∧ a.1.name = name

omit [FTab] in
theorem lineErr_adv {c : Ctx} {as : List (Addendum × Ctx)} {line : SLine} {e : RErr × Ctx} (h : AdvErr as e) :
    LineErr c as line e := by
  obtain ⟨a, ha, h1, h2⟩ := h
  obtain ⟨e, c'⟩ := e
  refine ⟨.inr ⟨a, ha, h1⟩, ?_, fun _ => ⟨a, ha, h1⟩, ?_⟩
  · intro hr
    rcases h2 with h2 | h2 | h2
    · simp only at h2; subst h2; cases hr
    · simp only at h2; subst h2; cases hr
    · cases e <;> first | exact False.elim h2 | exact False.elim hr
  · rintro name h
    simp only at h
    subst h
    rcases h2 with h2 | h2 | h2
    · cases h2
    · cases h2
    · exact .inr ⟨a, ha, h1, h2.symm⟩

omit [FTab] in
theorem lineErr_body {c : Ctx} {as : List (Addendum × Ctx)} {line : SLine} {e : RErr × Ctx} (h : BodyErr e.1)
    (hc : e.2 = c) : LineErr c as line e := by
  obtain ⟨e, c'⟩ := e
  refine ⟨.inl hc, fun _ => hc, ?_, ?_⟩
  · intro ha
    cases e <;> first | exact False.elim h | exact False.elim ha
  · rintro name h'
    simp only at h'
    subst h'
    exact False.elim h

theorem convLineAt_err {st : Store} {reg : Registry ExtArgs (List Nat)} {c : Ctx} {as : List (Addendum × Ctx)}
    {kids : List (Rel × Nat)} {line : SLine} {e : RErr × Ctx} (h : convLineAt st reg c as kids line = .err e) :
    LineErr c as line e := by
  cases line
  case ext kind name args cols =>
    simp only [convLineAt] at h
    split at h
    · cases h
      rename_i a l
      refine ⟨.inr ⟨a, by simp, rfl⟩, (fun h => by cases h), fun _ => ⟨a, by simp, rfl⟩, (fun _ h => by cases h)⟩
    · obtain ⟨h1, h2⟩ := Res.at_err h
      rcases convExtRel_err h1 with h1 | h1
      · exact lineErr_body h1 h2
      · obtain ⟨e, c'⟩ := e
        refine ⟨.inl h2, fun _ => h2, ?_, ?_⟩
        · intro ha
          cases e <;> first | exact False.elim h1 | exact False.elim ha
        · rintro n h'
          simp only at h'
          subst h'
          have : n = name := h1
          subst this
          exact .inl ⟨h2, kind, args, cols, rfl⟩
  case set =>
    simp only [convLineAt] at h
    rcases Res.bind_err_iff.1 h with h | ⟨x, -, h⟩
    · exact lineErr_adv (standardAdvAt_err h)
    · obtain ⟨h1, h2⟩ := Res.at_err h
      exact lineErr_body (convSet_err _ _ _ _ _ _ h1) h2
  case readExt =>
    simp only [convLineAt] at h
    rcases Res.bind_err_iff.1 h with h | ⟨x, -, h⟩
    · rcases extReadPartsAt_err h with h | ⟨h1, h2⟩
      · exact lineErr_adv h
      · obtain ⟨e, c'⟩ := e
        simp only at h1
        subst h1
        exact ⟨h2, (fun h => by cases h), (fun h => by cases h), (fun _ h => by cases h)⟩
    · obtain ⟨h1, h2⟩ := Res.at_err h
      exact lineErr_body (convReadExt_err _ _ _ _ _ _ _ h1) h2
  all_goals
    simp only [convLineAt] at h
    rcases Res.bind_err_iff.1 h with h | ⟨x, -, h⟩
    · exact lineErr_adv (standardAdvAt_err h)
    · obtain ⟨h1, h2⟩ := Res.at_err h
      exact lineErr_body (convBody_err _ _ _ _ _ _ h1) h2

omit [FTab] in
theorem mapErr_err {ε ε' α : Type} {g : ε → ε'} {r : Res ε α} {e : ε} (h : r = .err e) : r.mapErr g = .err (g e) := by
  subst h; rfl

omit [FTab] in
theorem mapErr_eq_err {ε ε' α : Type} {g : ε → ε'} {r : Res ε α} {e : ε'} (h : r.mapErr g = .err e) :
    ∃ x, r = .err x ∧ g x = e := by
  cases r <;> cases h
  exact ⟨_, rfl, rfl⟩

omit [FTab] in
theorem mapErr_ok {ε ε' α : Type} {g : ε → ε'} {r : Res ε α} {a : α} (h : r = .ok a) : r.mapErr g = .ok a := by
  subst h; rfl

mutual
theorem convNodeAt_err (st : Store) (reg : Registry ExtArgs (List Nat)) (t : LNode) (e : RErr × Ctx)
    (h : convNodeAt st reg t = .err e) : ∃ u, Within t u ∧ Blames st reg u e.1 e.2 := by
  obtain ⟨r, as, ks⟩ := t
  have hf := convNodeAt_bare st reg (.mk r as ks)
  rw [mapErr_err h] at hf
  simp only [convNodeAt] at h
  rcases Res.bind_err_iff.1 h with h | ⟨kids, hk, h⟩
  · obtain ⟨k, hk, u, hw, hb⟩ := convKidsAt_err st reg ks e h
    exact ⟨u, .kid hk hw, hb⟩
  · have hbelow : ∃ ks', convKids st reg (forgets ks) = .ok ks' := by
      rw [← convKidsAt_bare, mapErr_ok hk]; exact ⟨_, rfl⟩
    suffices hh : (e.2 = r.2 ∨ ∃ a ∈ as, e.2 = a.2) ∧ (OnRelation e.1 → e.2 = r.2) ∧
        (OnAddendum e.1 → ∃ a ∈ as, e.2 = a.2) ∧ Mentions (.mk r as ks) e.2 e.1 from
      ⟨_, .self, ⟨hbelow, hf.symm, hh.1, hh.2.1, hh.2.2.1, hh.2.2.2⟩⟩
    rcases Res.bind_err_iff.1 h with h | ⟨bs, hb, h⟩
    · obtain ⟨⟨x, hx⟩, a, ha, h2⟩ := convAddendaAt_err h
      rw [hx]
      exact ⟨.inr ⟨a, ha, h2⟩, (fun h => by cases h), (fun h => by cases h), trivial⟩
    · have hs := convAddendaAt_same hb
      obtain ⟨h1, h2, h3, h4⟩ := convLineAt_err h
      refine ⟨?_, h2, ?_, ?_⟩
      · rcases h1 with h1 | ⟨b, hb, h1⟩
        · exact .inl h1
        · obtain ⟨a, ha, h5, -⟩ := hs b hb
          exact .inr ⟨a, ha, by rw [h1, h5]⟩
      · intro ho
        obtain ⟨b, hb, h1⟩ := h3 ho
        obtain ⟨a, ha, h5, -⟩ := hs b hb
        exact ⟨a, ha, by rw [h1, h5]⟩
      · obtain ⟨e, c⟩ := e
        cases e with
        | unregistered name =>
          rcases h4 name rfl with ⟨h5, h6⟩ | ⟨b, hb, h5, h6⟩
          · exact .inl ⟨h5.symm, h6⟩
          · obtain ⟨a, ha, h7, h8⟩ := hs b hb
            exact .inr ⟨a, ha, by rw [h7, h5], by rw [h8, h6]⟩
        | _ => trivial
theorem convKidsAt_err (st : Store) (reg : Registry ExtArgs (List Nat)) (l : List LNode) (e : RErr × Ctx)
    (h : convKidsAt st reg l = .err e) : ∃ k ∈ l, ∃ u, Within k u ∧ Blames st reg u e.1 e.2 := by
  cases l with
  | nil => cases h
  | cons k l =>
    simp only [convKidsAt] at h
    rcases Res.bind_err_iff.1 h with h | ⟨x, -, h⟩
    · exact ⟨k, by simp, convNodeAt_err st reg k e h⟩
    · rcases Res.bind_err_iff.1 h with h | ⟨x, -, h⟩
      · obtain ⟨k', hk, h⟩ := convKidsAt_err st reg l e h
        exact ⟨k', by simp [hk], h⟩
      · cases h
end

theorem convPlanRelAt_err {st : Store} {reg : Registry ExtArgs (List Nat)} {t : LNode} {e : RErr × Ctx}
    (h : convPlanRelAt st reg t = .err e) : BlamesTop st reg t e.1 e.2 := by
  have hrel : ∀ t', (convNodeAt st reg t').bind (fun r => Res.ok (PlanRel.rel r.1)) = .err e → BlamesTop st reg t' e.1 e.2 := by
    intro t' h
    rcases Res.bind_err_iff.1 h with h | ⟨x, -, h⟩
    · obtain ⟨u, h1, h2⟩ := convNodeAt_err st reg t' e h
      exact .below h1 h2
    · cases h
  obtain ⟨⟨line, c⟩, as, ks⟩ := t
  cases line
  case root names =>
    simp only [convPlanRelAt] at h
    cases as with
    | cons a as => cases h; exact .addenda
    | nil =>
      match ks, h with
      | [], h => cases h; exact .children (by simp)
      | [k], h =>
        rcases Res.bind_err_iff.1 h with h | ⟨x, -, h⟩
        · obtain ⟨u, h1, h2⟩ := convNodeAt_err st reg k e h
          exact .below (.kid (by simp) h1) h2
        · cases h
      | _ :: _ :: _, h => cases h; exact .children (by simp)
  all_goals
    simp only [convPlanRelAt] at h
    exact hrel _ h

theorem convPlanRelsAt_err {st : Store} {reg : Registry ExtArgs (List Nat)} {l : List LNode} {e : RErr × Ctx}
    (h : convPlanRelsAt st reg l = .err e) :
    ∃ pre t post rs, l = pre ++ t :: post ∧ convPlanRels st reg (pre.map forget) = .ok rs ∧
      convPlanRel st reg (forget t) = .err e.1 ∧ BlamesTop st reg t e.1 e.2 := by
  induction l with
  | nil => cases h
  | cons t l ih =>
    simp only [convPlanRelsAt] at h
    rcases Res.bind_err_iff.1 h with h | ⟨x, hx, h⟩
    · refine ⟨[], t, l, [], rfl, rfl, ?_, convPlanRelAt_err h⟩
      rw [← convPlanRelAt_bare, mapErr_err h]
    · rcases Res.bind_err_iff.1 h with h | ⟨y, -, h⟩
      · obtain ⟨pre, u, post, rs, h1, h2, h3, h4⟩ := ih h
        refine ⟨t :: pre, u, post, x :: rs, by rw [h1]; rfl, ?_, h3, h4⟩
        simp only [List.map_cons, convPlanRels]
        rw [← convPlanRelAt_bare, mapErr_ok hx, h2]
        rfl
      · cases h

end Verif
