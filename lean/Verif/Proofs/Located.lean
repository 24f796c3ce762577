import Verif.Spec.Located
import Verif.Proofs.Sections
import Verif.Proofs.Tree
import Verif.Proofs.GrammarRel
import Verif.Proofs.HazardsRel
/-!
# Contexts are an annotation
-/

namespace Verif

set_option autoImplicit false

open LocSpec ChunkSpec Grammar TreeSpec

section forget

theorem forgets_eq (l : List LNode) : forgets l = l.map forget := by
  induction l with
  | nil => rfl
  | cons t l ih => simp [forgets, ih]

/-- A tree under construction without contexts. -/
def TreeBuilder.bare (t : TreeBuilder (SLine × Ctx) (SAddendum × Ctx)) : TreeBuilder SLine SAddendum :=
  ⟨t.current.map forget, t.completed.map forget⟩

/-- A parser without contexts. -/
def PState.bare (st : PState locLang) : PState planLang :=
  ⟨st.sec, st.version, st.ext, TreeBuilder.bare st.tree⟩

theorem finish_bare (t : TreeBuilder (SLine × Ctx) (SAddendum × Ctx)) : t.bare.finish = t.finish.map forget := by
  obtain ⟨c, d⟩ := t
  cases c <;> simp [TreeBuilder.bare, TreeBuilder.finish]

theorem updateAt_forget (d : Nat) (f : LNode → Except TreeError LNode)
    (g : RNode SLine SAddendum → Except TreeError (RNode SLine SAddendum))
    (h : ∀ t, g (forget t) = (f t).map forget) (t : LNode) :
    TreeBuilder.updateAt d g (forget t) = (TreeBuilder.updateAt d f t).map (·.map forget) := by
  induction d generalizing t with
  | zero =>
    obtain ⟨r, as, cs⟩ := t
    have := h (.mk r as cs)
    simp only [forget] at this
    simp [TreeBuilder.updateAt, forget, this]
  | succ d ih =>
    obtain ⟨r, as, cs⟩ := t
    simp only [TreeBuilder.updateAt, forget, forgets_eq, List.getLast?_map]
    cases hl : cs.getLast? with
    | none => rfl
    | some k =>
      simp only [Option.map_some, ih]
      cases hu : TreeBuilder.updateAt d f k with
      | none => rfl
      | some x =>
        cases x with
        | error e => rfl
        | ok k' =>
          simp [Except.map, forget, forgets_eq, List.map_dropLast]

theorem addLine_bare (t : TreeBuilder (SLine × Ctx) (SAddendum × Ctx)) (d : Nat) (n : LLine) :
    t.bare.addLine d (bare n) = (t.addLine d n).map TreeBuilder.bare := by
  obtain ⟨cur, done⟩ := t
  cases n with
  | relation r =>
    simp only [TreeBuilder.addLine, bare]
    split
    · cases cur <;> simp [TreeBuilder.bare, Except.map, forget, forgets]
    · have := fun u => updateAt_forget (d - 1) (TreeBuilder.pushChild (.mk r [] [])) (TreeBuilder.pushChild (.mk r.1 [] []))
        (by intro u; obtain ⟨a, b, c⟩ := u; simp [TreeBuilder.pushChild, Except.map, forget, forgets_eq, RNode.rel,
          RNode.addenda, RNode.children]) u
      cases cur with
      | none => rfl
      | some u =>
        simp only [TreeBuilder.bare, Option.map_some, Option.bind_some, this]
        cases TreeBuilder.updateAt (d - 1) (TreeBuilder.pushChild (.mk r [] [])) u with
        | none => rfl
        | some x => cases x <;> rfl
  | addendum a =>
    simp only [TreeBuilder.addLine, bare]
    split
    · rfl
    · have := fun u => updateAt_forget (d - 1) (TreeBuilder.pushAddendum a) (TreeBuilder.pushAddendum a.1)
        (by
          intro u; obtain ⟨x, b, c⟩ := u
          cases c <;> simp [TreeBuilder.pushAddendum, Except.map, forget, forgets_eq, RNode.rel,
            RNode.addenda, RNode.children]) u
      cases cur with
      | none => rfl
      | some u =>
        simp only [TreeBuilder.bare, Option.map_some, Option.bind_some, this]
        cases TreeBuilder.updateAt (d - 1) (TreeBuilder.pushAddendum a) u with
        | none => rfl
        | some x => cases x <;> rfl

theorem nodeLineAt_bare (n : Nat) (s : Str) : (nodeLineAt n s).map bare = nodeLine s := by
  simp only [nodeLineAt, nodeLine]
  cases pRelLine s with
  | none => cases pAddendum s <;> rfl
  | some r => rfl

theorem topLineAt_bare (n : Nat) (s : Str) : (topLineAt n s).map bare = topLine s := by
  simp only [topLineAt, topLine]
  cases pRoot s with
  | none => exact nodeLineAt_bare n s
  | some r => rfl

/-- A result without contexts. -/
def bareRes {ε : Type} (r : Res (ε × Ctx) (PState locLang)) : Res ε (PState planLang) :=
  match r with
  | .ok st => .ok st.bare
  | .err e => .err e.1
  | .panic => .panic

namespace PState

theorem planLineAt_bare (st : PState locLang) (n : Nat) (l : Indented) :
    bareRes (st.planLineAt n l) = st.bare.planLine l := by
  simp only [planLineAt, planLine]
  have h : (if l.depth = 0 then planLang.top l.body else planLang.node l.body) =
      (if l.depth = 0 then topLineAt n l.body else nodeLineAt n l.body).map LocSpec.bare := by
    split
    · exact (topLineAt_bare n _).symm
    · exact (nodeLineAt_bare n _).symm
  rw [h]
  cases (if l.depth = 0 then topLineAt n l.body else nodeLineAt n l.body) with
  | none => rfl
  | some x =>
    have := addLine_bare st.tree l.depth x
    simp only [Option.map_some]
    have h2 : TreeBuilder.addLine (ρ := planLang.Rel) (α := planLang.Add) st.bare.tree l.depth (LocSpec.bare x) =
      (TreeBuilder.addLine (ρ := SLine × Ctx) (α := SAddendum × Ctx) st.tree l.depth x).map TreeBuilder.bare := this
    rw [h2]
    cases TreeBuilder.addLine (ρ := SLine × Ctx) (α := SAddendum × Ctx) st.tree l.depth x <;> rfl

theorem sectionHeader_bare (st : PState locLang) (s : Str) :
    st.bare.sectionHeader s = (st.sectionHeader s).map fun r => (r.1.bare, r.2) := by
  simp only [sectionHeader]
  split
  · rfl
  · split
    · rfl
    · cases stripPrefix versionPrefix s with
      | none => rfl
      | some rest =>
        simp only
        split
        · cases versionHeader rest <;> rfl
        · rfl

theorem versionLine_bare (st : PState locLang) (l : Indented) :
    st.bare.versionLine l = match st.versionLine l with
      | .ok st => .ok st.bare
      | .err e => .err e
      | .panic => .panic := by
  obtain ⟨sec, v, x, t⟩ := st
  simp only [versionLine, bare]
  split
  · rfl
  · split
    · simp only [versionDetail]
      cases splitColon l.body with
      | none => rfl
      | some p =>
        cases v with
        | none => rfl
        | some v =>
          simp only
          split
          · rfl
          · split <;> rfl
    · rfl

theorem parseLineAt_bare (st : PState locLang) (n : Nat) (chunk : Str) :
    bareRes (st.parseLineAt n chunk) = st.bare.parseLine chunk := by
  simp only [parseLineAt, parseLine]
  split
  · rw [sectionHeader_bare]
    cases st.sectionHeader (indentedLine chunk).body with
    | error e => rfl
    | ok r =>
      simp only [Except.map]
      have : st.bare.sec = st.sec := rfl
      rw [this]
      split <;> rfl
  · have hs : st.bare.sec = st.sec := rfl
    rw [hs]
    cases st.sec with
    | initial => simp only; split <;> rfl
    | version =>
      simp only [versionLine_bare]
      cases st.versionLine (indentedLine chunk) <;> rfl
    | extensions =>
      simp only
      have : planLang.extLine st.bare.ext (indentedLine chunk) = locLang.extLine st.ext (indentedLine chunk) := rfl
      rw [this]
      cases locLang.extLine st.ext (indentedLine chunk) <;> rfl
    | plan => exact planLineAt_bare st n _

/-- The driver over physical lines, the first of which has number `n`. -/
def runLinesAt (n : Nat) (st : PState locLang) (ls : List Str) : Res (PErr × Ctx) (PState locLang) :=
  match ls with
  | [] => .ok st
  | f :: ls =>
    let chunk := trimNl (f :: ls.takeWhile (continues st.sec f)).flatten
    let m := n + 1 + (ls.takeWhile (continues st.sec f)).length
    if (trim chunk).isEmpty then runLinesAt m st (ls.dropWhile (continues st.sec f))
    else
      match st.parseLineAt n chunk with
      | .err e => .err e
      | .panic => .panic
      | .ok st' => runLinesAt m st' (ls.dropWhile (continues st.sec f))
  termination_by ls.length
  decreasing_by
    all_goals
      have := (List.dropWhile_sublist (continues st.sec f) (l := ls)).length_le
      simp; omega

theorem parseLoopAt_eq (fuel : Nat) (st : PState locLang) (text : Str) (n : Nat) (hf : text.length ≤ fuel) :
    parseLoopAt fuel st (Cursor.new text n) = runLinesAt n st (physLines text) := by
  induction fuel generalizing st text n with
  | zero =>
    have : text = [] := List.length_eq_zero_iff.1 (by omega)
    subst this
    simp [Cursor.new, parseLoopAt, runLinesAt, physLines]
  | succ fuel ih =>
    cases hp : physLines text with
    | nil =>
      have := physLines_flatten text
      rw [hp] at this
      subst this
      simp [Cursor.new, parseLoopAt, runLinesAt]
    | cons f ls =>
      have hne : text ≠ [] := by rintro rfl; simp [physLines] at hp
      have hnew : Cursor.new text n = some ⟨text, 0, n, n⟩ := by simp [Cursor.new, hne]
      rw [hnew, parseLoopAt, takeChunk_continues st.sec text n f ls hp, runLinesAt]
      simp only
      have hrest : ∀ (sec : Sec), physLines (ls.dropWhile (continues sec f)).flatten =
          ls.dropWhile (continues sec f) := by
        intro sec
        apply physLines_append_suffix (pre := f :: ls.takeWhile (continues sec f)) (s := text)
        rw [hp, List.cons_append, List.takeWhile_append_dropWhile]
      have hlen : ∀ (sec : Sec), (ls.dropWhile (continues sec f)).flatten.length ≤ fuel := by
        intro sec
        have h1 := (physLines_cons hp).1
        have hne : f ≠ [] := by
          rcases (physLines_cons hp).2.2 with ⟨a, rfl, _⟩ | h
          · simp
          · exact h.1
        have h2 : ls.flatten.length = (ls.takeWhile (continues sec f)).flatten.length +
            (ls.dropWhile (continues sec f)).flatten.length := by
          rw [← List.length_append, ← List.flatten_append, List.takeWhile_append_dropWhile]
        have h3 := congrArg List.length h1
        rw [List.length_append] at h3
        have h4 := List.length_pos_iff.2 hne
        omega
      split
      · rw [ih _ _ _ (hlen _), hrest]
      · cases st.parseLineAt n (trimNl (f :: ls.takeWhile (continues st.sec f)).flatten) with
        | err e => rfl
        | panic => rfl
        | ok st' => simp only; rw [ih _ _ _ (hlen _), hrest]

theorem runLinesAt_bare (n : Nat) (st : PState locLang) (ls : List Str) :
    bareRes (runLinesAt n st ls) = runLines st.bare ls := by
  fun_induction runLinesAt n st ls with
  | case1 => simp [runLines, bareRes]
  | case2 n st f ls chunk m hb ih =>
    rw [runLines]
    have : st.bare.sec = st.sec := rfl
    simp only [this]
    rw [if_pos hb]
    exact ih
  | case3 n st f ls chunk hb e he =>
    rw [runLines]
    have : st.bare.sec = st.sec := rfl
    simp only [this]
    rw [if_neg hb, ← parseLineAt_bare st n, he]
    rfl
  | case4 n st f ls chunk hb he =>
    rw [runLines]
    have : st.bare.sec = st.sec := rfl
    simp only [this]
    rw [if_neg hb, ← parseLineAt_bare st n, he]
    rfl
  | case5 n st f ls chunk m hb st' he ih =>
    rw [runLines]
    have : st.bare.sec = st.sec := rfl
    simp only [this]
    rw [if_neg hb, ← parseLineAt_bare st n, he]
    exact ih

end PState
end forget

/-! ## Conversion -/

section conversion

theorem Res.at_bare {ε α : Type} (r : Res ε α) (c : Ctx) : (r.at c).mapErr (·.1) = r := by
  cases r <;> rfl

theorem Res.mapErr_bind {ε ε' α β : Type} (g : ε → ε') (r : Res ε α) (f : α → Res ε β) :
    (r.bind f).mapErr g = (r.mapErr g).bind fun a => (f a).mapErr g := by
  cases r <;> rfl

variable [FTab]

theorem convAddendaAt_bare (st : Store) (as : List (SAddendum × Ctx)) :
    convAddenda st (as.map (·.1)) =
      match convAddendaAt st as with
      | .ok l => .ok (l.map (·.1))
      | .err e => .err e.1
      | .panic => .panic := by
  induction as with
  | nil => rfl
  | cons a l ih =>
    simp only [List.map_cons, convAddenda, convAddendaAt, ih]
    cases plain (convExtArgs st a.1.args []) with
    | err e => rfl
    | panic => rfl
    | ok x => cases convAddendaAt st l <;> rfl

omit [FTab] in
theorem resolveAddendumAt_bare (reg : Registry ExtArgs (List Nat)) (a : Addendum × Ctx) :
    (resolveAddendumAt reg a).mapErr (·.1) = resolveAddendum reg a.1 := Res.at_bare _ _

omit [FTab] in
theorem standardLoopAt_bare (reg : Registry ExtArgs (List Nat)) (enh : Option AnyMsg) (opts : List AnyMsg)
    (as : List (Addendum × Ctx)) :
    (standardLoopAt reg enh opts as).mapErr (·.1) = standardLoop reg enh opts (as.map (·.1)) := by
  induction as generalizing enh opts with
  | nil => rfl
  | cons a l ih =>
    simp only [List.map_cons, standardLoop, standardLoopAt]
    cases a.1.kind with
    | enh =>
      simp only
      split
      · rfl
      · rw [Res.mapErr_bind, resolveAddendumAt_bare]; simp only [ih]
    | opt => simp only; rw [Res.mapErr_bind, resolveAddendumAt_bare]; simp only [ih]
    | ext => rfl

omit [FTab] in
theorem standardAdvAt_bare (reg : Registry ExtArgs (List Nat)) (as : List (Addendum × Ctx)) :
    (standardAdvAt reg as).mapErr (·.1) = standardAdv reg (as.map (·.1)) := by
  simp only [standardAdvAt, standardAdv]
  rw [Res.mapErr_bind, standardLoopAt_bare]
  congr 1; funext r
  split <;> rfl

omit [FTab] in
theorem extReadPartsAt_bare (reg : Registry ExtArgs (List Nat)) (c : Ctx) (as : List (Addendum × Ctx)) :
    (extReadPartsAt reg c as).mapErr (·.1) = extReadParts reg (as.map (·.1)) := by
  simp only [extReadPartsAt, extReadParts, List.filter_map]
  have h1 : ((fun a : Addendum => decide (a.kind = .ext)) ∘ fun x : Addendum × Ctx => x.1) =
    fun a => decide (a.1.kind = .ext) := rfl
  have h2 : ((fun a : Addendum => decide (a.kind ≠ .ext)) ∘ fun x : Addendum × Ctx => x.1) =
    fun a => decide (a.1.kind ≠ .ext) := rfl
  rw [h1, h2]
  generalize as.filter (fun a => decide (a.1.kind = .ext)) = xs
  match xs with
  | [] => rfl
  | [a] =>
    simp only [List.map_cons, List.map_nil]
    rw [Res.mapErr_bind, resolveAddendumAt_bare]
    congr 1; funext d
    rw [Res.mapErr_bind, standardAdvAt_bare]
    rfl
  | _ :: _ :: _ => rfl

theorem convLineAt_bare (st : Store) (reg : Registry ExtArgs (List Nat)) (c : Ctx) (as : List (Addendum × Ctx))
    (kids : List (Rel × Nat)) (line : SLine) :
    (convLineAt st reg c as kids line).mapErr (·.1) = convLine st reg (as.map (·.1)) kids line := by
  cases line
  case ext =>
    simp only [convLineAt, convLine]
    cases as with
    | nil => simp only [Res.at_bare, List.map_nil]
    | cons a l => simp [convExtRel, Res.mapErr]
  all_goals
    simp only [convLineAt, convLine]
    rw [Res.mapErr_bind]
    simp only [Res.at_bare, standardAdvAt_bare, extReadPartsAt_bare]

mutual
theorem convNodeAt_bare (st : Store) (reg : Registry ExtArgs (List Nat)) (t : LNode) :
    (convNodeAt st reg t).mapErr (·.1) = convNode st reg (forget t) := by
  obtain ⟨r, as, ks⟩ := t
  simp only [convNodeAt, convNode, forget]
  rw [Res.mapErr_bind, convKidsAt_bare st reg ks]
  congr 1; funext ks'
  rw [Res.mapErr_bind, convAddendaAt_bare]
  cases convAddendaAt st as with
  | err e => rfl
  | panic => rfl
  | ok l => exact convLineAt_bare st reg r.2 l ks' r.1
theorem convKidsAt_bare (st : Store) (reg : Registry ExtArgs (List Nat)) (l : List LNode) :
    (convKidsAt st reg l).mapErr (·.1) = convKids st reg (forgets l) := by
  cases l with
  | nil => rfl
  | cons k l =>
    simp only [convKidsAt, convKids, forgets]
    rw [Res.mapErr_bind, convNodeAt_bare st reg k]
    congr 1; funext k'
    rw [Res.mapErr_bind, convKidsAt_bare st reg l]
    rfl
end

theorem convPlanRelAt_bare (st : Store) (reg : Registry ExtArgs (List Nat)) (t : LNode) :
    (convPlanRelAt st reg t).mapErr (·.1) = convPlanRel st reg (forget t) := by
  obtain ⟨⟨line, c⟩, as, ks⟩ := t
  cases line
  case root names =>
    simp only [convPlanRelAt, convPlanRel, forget]
    cases as with
    | cons a as => simp [Res.mapErr]
    | nil =>
      match ks with
      | [] => rfl
      | [k] =>
        simp only [List.map_nil, forgets]
        rw [Res.mapErr_bind, convNodeAt_bare]
        rfl
      | _ :: _ :: _ => rfl
  all_goals
    have := fun line => convNodeAt_bare st reg (.mk (line, c) as ks)
    simp only [forget] at this
    simp only [convPlanRelAt, convPlanRel, forget]
    rw [Res.mapErr_bind, this]
    rfl

theorem convPlanRelsAt_bare (st : Store) (reg : Registry ExtArgs (List Nat)) (l : List LNode) :
    (convPlanRelsAt st reg l).mapErr (·.1) = convPlanRels st reg (l.map forget) := by
  induction l with
  | nil => rfl
  | cons t l ih =>
    simp only [convPlanRelsAt, convPlanRels, List.map_cons]
    rw [Res.mapErr_bind, convPlanRelAt_bare]
    congr 1; funext r
    rw [Res.mapErr_bind, ih]
    rfl

theorem buildPlanAt_bare (reg : Registry ExtArgs (List Nat)) (st : PState locLang) :
    (buildPlanAt reg st).mapErr (·.1) = buildPlan reg st.bare := by
  simp only [buildPlanAt, buildPlan]
  have h := convPlanRelsAt_bare (st.ext : ExtState).store reg (TreeBuilder.finish (ρ := SLine × Ctx) (α := SAddendum × Ctx) st.tree)
  have h2 : TreeBuilder.finish (ρ := planLang.Rel) (α := planLang.Add) st.bare.tree =
    (TreeBuilder.finish (ρ := SLine × Ctx) (α := SAddendum × Ctx) st.tree).map forget := finish_bare st.tree
  have h3 : (st.bare.ext : ExtState) = st.ext := rfl
  rw [Res.mapErr_bind, h2, h3, ← h]
  have key : ∀ z : Res (RErr × Ctx) (List PlanRel),
      (((z.mapErr fun e => (PlanErr.rel e.1, e.2)).mapErr (·.1)).bind fun rels => Res.mapErr (·.1) (ε := PlanErr × Ctx)
        (.ok (⟨st.version, (st.ext : ExtState).store.toUrns, (st.ext : ExtState).store.toDecls, rels⟩ : Plan))) =
      ((z.mapErr (·.1)).mapErr PlanErr.rel).bind fun rels =>
        .ok ⟨st.bare.version, (st.ext : ExtState).store.toUrns, (st.ext : ExtState).store.toDecls, rels⟩ := by
    intro z; cases z <;> rfl
  exact key _

/-- Without its contexts the located parser is the parser. -/
theorem parsePlanAt_bare (reg : Registry ExtArgs (List Nat)) (text : Str) :
    (parsePlanAt reg text).mapErr (·.1) = parsePlan reg text := by
  simp only [parsePlanAt, parsePlan, PState.parseSections_eq]
  rw [PState.parseLoopAt_eq _ _ _ _ (Nat.le_refl _)]
  have := PState.runLinesAt_bare 1 PState.init (physLines text)
  have hi : (PState.init : PState locLang).bare = PState.init := rfl
  rw [hi] at this
  rw [← this]
  cases h : PState.runLinesAt 1 PState.init (physLines text) with
  | err e => rfl
  | panic => rfl
  | ok st => exact buildPlanAt_bare reg st

end conversion
end Verif
