import Verif.Proofs.RelNames
import Verif.Props.Literals
/-!
# Reading relation lines: C21, C23, C24, C26 to C30 and part of C22 and C53
-/

namespace Verif

set_option autoImplicit false

open RelSpec

/-- A line for the examples. -/
def lineOf (s : Str) : SLine :=
  match topLine s with
  | some (.relation l) => l
  | _ => .root []

/-- A relation with two columns for the examples. -/
def twoColumns : Rel :=
  .node (.read (mkCommon .direct) (some (buildStruct [(cs!"a", .simple .i64 .required 0), (cs!"b", .simple .i64 .required 0)]))
    none (.named [cs!"t"] 0) none 0) []

/-- Run a check on the result of a conversion. -/
def onOk {α : Type} (r : Res RErr α) (f : α → Bool) : Bool :=
  match r with
  | .ok a => f a
  | _ => false

/-! ## C21 -/

/-- C21: a relation that passes its input on emits exactly the columns written after `=>`, in that
order, whatever the input columns are; `Direct` is used exactly for the identity.  Widths are below
`2^31`, as the references are `i32`. -/
theorem C21_outputs_as_written [FTab] (st : Store) (reg : Registry ExtArgs (List Nat)) (as : List Addendum)
    (kids : List (Rel × Nat)) (line : SLine) (refs : List IntTok) (r : Rel) (w : Nat)
    (hw : written line = some refs) (hn : inputColumns line (kids.map (·.2)) ≤ 2 ^ 31)
    (h : convLine st reg as kids line = .ok (r, w)) :
    ∃ e, emitOf r = some e ∧ w = refs.length ∧
      indices (inputColumns line (kids.map (·.2))) e = refs.map IntTok.toInt ∧
      (e = .direct ↔ refs.map IntTok.toInt = identity (inputColumns line (kids.map (·.2)))) ∧
      ∀ (α : Type) (cols : List α), cols.length = inputColumns line (kids.map (·.2)) →
        outputs cols e = refs.map fun i => at? cols i.toInt := by
  suffices hs : ∃ m n, n = inputColumns line (kids.map (·.2)) ∧ convRefs refs = .ok m ∧
      emitOf r = some (makeEmit m n) ∧ w = m.length by
    obtain ⟨m, n, hnn, hm, he, hwm⟩ := hs
    subst hnn
    rw [convRefs_ok hm] at he hwm
    refine ⟨_, he, by simpa using hwm, makeEmit_indices hn, makeEmit_direct_iff hn, ?_⟩
    intro α cols hc
    rw [outputs_makeEmit hn hc, List.map_map]
    rfl
  cases convLine_ok h with
  | body _ adv _ _ hb =>
    generalize kids.map (·.1) = ks at hb
    cases hb <;> cases hw
    all_goals exact ⟨_, _, rfl, by assumption, rfl, rfl⟩
  | set op refs adv w o m _ hl hws _ hm =>
    cases hw
    refine ⟨_, _, ?_, hm, rfl, rfl⟩
    cases kids with
    | nil => simp at hl
    | cons k l => simpa [inputColumns] using (hws k List.mem_cons_self).symm
  | readExt => cases hw
  | ext => cases hw

/-- The identity becomes `Direct`, anything else is kept. -/
example : letI := halfTab
    onOk (convLine (.empty) {} [] [(twoColumns, 2)] (lineOf cs!"Filter[$0 => $0, $1]")) (fun x => emitOf x.1 == some .direct && x.2 == 2) &&
    onOk (convLine (.empty) {} [] [(twoColumns, 2)] (lineOf cs!"Filter[$0 => $0]")) (fun x => emitOf x.1 == some (.emit [0]) && x.2 == 1) &&
    onOk (convLine (.empty) {} [] [(twoColumns, 2), (twoColumns, 2)] (lineOf cs!"Set[&UnionAll => $1, $1, $0]"))
      (fun x => emitOf x.1 == some (.emit [1, 1, 0]) && x.2 == 3) = true := by decide +kernel

/-! ## C22 -/

/-- C22, the reading half: the output columns of a project are what its items say, a reference being
the column with that number and an expression itself, in the written order. -/
theorem C22_project_items_partial [FTab] (st : Store) (reg : Registry ExtArgs (List Nat)) (as : List Addendum)
    (kids : List (Rel × Nat)) (args : List SProj) (r : Rel) (w : Nat)
    (h : convLine st reg as kids (.project args) = .ok (r, w)) :
    ∃ c exprs adv ins e, r = .node (.project c exprs adv) ins ∧ c.bind (·.emit) = some e ∧ w = args.length ∧
      ((kids.map (·.2)).sum + exprs.length ≤ 2 ^ 31 →
        outputs (projectColumns (kids.map (·.2)).sum exprs) e =
          args.map (projItem st (projectColumns (kids.map (·.2)).sum exprs))) := by
  cases convLine_ok h with
  | body _ adv _ _ hb =>
    generalize kids.map (·.1) = ks at hb
    cases hb with
    | project _ k es m hp =>
      have hs := convProj_spec args 0 es m hp [] rfl
      simp only [List.append_nil] at hs
      refine ⟨_, es, adv, _, _, rfl, rfl, ?_, ?_⟩
      · simpa using congrArg List.length hs
      · intro hn
        rw [outputs_makeEmit hn (by simp [projectColumns])]
        exact hs

/-- A mapping that repeats and reorders. -/
example : letI := halfTab
    onOk (convLine (.empty) {} [] [(twoColumns, 2)] (lineOf cs!"Project[$1, 7, $0, $1, 8]"))
      (fun x => emitOf x.1 == some (.emit [1, 2, 0, 1, 3]) && x.2 == 5) = true := by decide +kernel

/-! ## C23 -/

/-- C23: the grouping expressions of a parsed aggregate are the written ones without repetition,
every reference is in range, and dereferencing the sets gives the written sets. -/
theorem C23_grouping_sets [FTab] (st : Store) (reg : Registry ExtArgs (List Nat)) (as : List Addendum)
    (kids : List (Rel × Nat)) (group : SGroup) (outs : List SExpr) (r : Rel) (w : Nat)
    (h : convLine st reg as kids (.aggregate group outs) = .ok (r, w)) :
    ∃ sets c gexprs groupings ms adv ins, convGroup st group = .ok sets ∧
      r = .node (.aggregate c gexprs groupings ms adv) ins ∧ gexprs.Nodup ∧
      (∀ e, e ∈ gexprs ↔ ∃ s ∈ sets, e ∈ s) ∧
      (∀ g ∈ groupings, ∀ i ∈ g.refs, i < gexprs.length) ∧
      groupings.map (setOf gexprs) = sets.map (·.map some) := by
  cases convLine_ok h with
  | body _ adv _ _ hb =>
    generalize kids.map (·.1) = ks at hb
    cases hb with
    | aggregate _ _ k sets ms m hs ho =>
      obtain ⟨h1, ⟨more, h2, h3⟩, h4, _⟩ := internSets_spec sets [] (by simp)
      refine ⟨sets, _, _, _, ms, adv, _, hs, rfl, h1, ?_, ?_, h4⟩
      · intro e
        constructor
        · intro he
          rw [h2] at he
          exact h3 e (by simpa using he)
        · rintro ⟨s, hs', he⟩
          have hmem : s.map some ∈ sets.map (·.map some) := List.mem_map_of_mem hs'
          rw [← h4] at hmem
          obtain ⟨g, _, hgs⟩ := List.mem_map.mp hmem
          have he' : some e ∈ setOf (internSets [] sets).2 g := by
            rw [hgs]; exact List.mem_map_of_mem he
          obtain ⟨i, _, hi⟩ := List.mem_map.mp he'
          exact List.mem_of_getElem? hi
      · intro g hg i hi
        have hmem : setOf (internSets [] sets).2 g ∈ sets.map (·.map some) := by
          rw [← h4]; exact List.mem_map_of_mem hg
        obtain ⟨s, _, hgs⟩ := List.mem_map.mp hmem
        have : (internSets [] sets).2[i]? ∈ s.map some := by
          rw [hgs]; exact List.mem_map_of_mem (f := fun i => (internSets [] sets).2[i]?) hi
        obtain ⟨e, _, he⟩ := List.mem_map.mp this
        exact lt_of_getElem?_some he.symm

/-- Three sets over two expressions. -/
example : letI := halfTab
    onOk (convLine (.empty) {} [] [(twoColumns, 2)] (lineOf cs!"Aggregate[($1, $0), ($1), _, ($0, $0) => $0]"))
      (fun x => match x.1 with
        | .node (.aggregate _ g gs ms _) _ =>
          decide (g = [inputRef 1, inputRef 0]) && decide (gs.map (·.refs) = [[0, 1], [0], [], [1, 1]]) && ms.isEmpty
        | _ => false) = true := by decide +kernel

/-! ## C24 -/

/-- C24: the output columns of a parsed aggregate are exactly the written items; the measures are
the items that are not grouping expressions, in order; all indexes are in range. -/
theorem C24_aggregate_outputs [FTab] (st : Store) (reg : Registry ExtArgs (List Nat)) (as : List Addendum)
    (kids : List (Rel × Nat)) (group : SGroup) (outs : List SExpr) (r : Rel) (w : Nat)
    (h : convLine st reg as kids (.aggregate group outs) = .ok (r, w)) :
    ∃ es c gexprs groupings ms adv ins e, convExprs st outs = .ok es ∧
      r = .node (.aggregate c gexprs groupings ms adv) ins ∧ c.bind (·.emit) = some e ∧ w = es.length ∧
      ms.map callOf = (es.filter fun e => decide (e ∉ gexprs)).map some ∧
      (gexprs.length + ms.length ≤ 2 ^ 31 →
        outputs (aggregateColumns gexprs ms) e = es.map fun e => some (some e)) := by
  cases convLine_ok h with
  | body _ adv _ _ hb =>
    generalize kids.map (·.1) = ks at hb
    cases hb with
    | aggregate _ _ k sets ms m hs ho =>
      obtain ⟨es, h1, h2, _, h4⟩ := convOuts_spec outs 0 ms m ho
      have h4 := h4 [] rfl
      refine ⟨es, _, _, _, ms, adv, _, _, h1, rfl, rfl, ?_, h2, ?_⟩
      · simpa using congrArg List.length h4
      · intro hn
        rw [outputs_makeEmit hn (by simp [aggregateColumns])]
        exact h4

/-- C24: an item that is neither a grouping expression nor a call is rejected, wherever it stands. -/
theorem C24_other_items_rejected [FTab] (st : Store) (reg : Registry ExtArgs (List Nat)) (as : List Addendum)
    (kid : Rel × Nat) (group : SGroup) (outs : List SExpr) (sets : List (List Expr)) (es : List Expr)
    (adv : Option AdvExt) (ha : standardAdv reg as = .ok adv)
    (hg : convGroup st group = .ok sets) (he : convExprs st outs = .ok es)
    (hx : ∃ p ∈ outs.zip es, p.1.isCall = false ∧ ∀ s ∈ sets, p.2 ∉ s) :
    convLine st reg as [kid] (.aggregate group outs) = .err .notGrouping := by
  obtain ⟨p, hp, hcall, hmem⟩ := hx
  obtain ⟨_, ⟨more, h2, h3⟩, _, _⟩ := internSets_spec sets [] (by simp)
  have hni : p.2 ∉ (internSets [] sets).2 := by
    intro hm
    rw [h2] at hm
    obtain ⟨s, hs, hin⟩ := h3 _ (by simpa using hm)
    exact hmem s hs hin
  simp only [convLine, ha, Res.bind, convBody, List.map_cons, List.map_nil, oneChild, hg, plain,
    convExprs_calls outs es 0 he ⟨p, hp, hni, hcall⟩]

example : letI := halfTab
    (match convLine (.empty) {} [] [(twoColumns, 2)] (lineOf cs!"Aggregate[$0 => $0, $1]") with
      | .err .notGrouping => true | _ => false) = true := by decide +kernel

/-- Grouping expressions and measures in any order, one of them twice. -/
example : letI := halfTab
    onOk (convLine (StoreSpec.run [.urn cs!"u" 1, .ext .function 1 5 cs!"sum"]) {} [] [(twoColumns, 2)]
      (lineOf cs!"Aggregate[$1 => sum($0):i64, $1, sum($1):i64, $1]"))
      (fun x => emitOf x.1 == some (.emit [1, 0, 2, 0]) && x.2 == 4) = true := by decide +kernel

/-! ## C26, C27 -/

/-- C26, what is true of it: parser and formatter compute the same width, at every depth, when joins
without an output mapping put out the columns of both inputs and registered relations report the
columns they were built with. -/
theorem C26_widths_agree_partial [UTab] [FTab] (st : Store) (env : Env) (t : RNode SLine SAddendum) (r : Rel)
    (w : Nat) (h : convNode st env.reg t = .ok (r, w)) (hr : StableWidths env.reg) (hj : FullJoins r) :
    relWidth env r = w := convNode_width env hr t (r, w) h hj

/-- A tree for the examples. -/
def joinTree (kind : Str) : RNode SLine SAddendum :=
  .mk (lineOf (cs!"Join[&" ++ kind ++ cs!", true => $0, $1, $2, $3]")) []
    [.mk (lineOf cs!"Read[t => a:i64, b:i64]") [] [], .mk (lineOf cs!"Read[u => c:i64, d:i64]") [] []]

/-- C26 fails as stated: for a semi join written with the columns of both inputs the parser counts
four columns and the formatter two. -/
theorem C26_semi_join_widths_differ : letI := asciiTab; letI := halfTab
    onOk (convNode .empty {} (joinTree cs!"LeftSemi"))
      (fun x => x.2 == 4 && relWidth ⟨.empty, .default, {}⟩ x.1 == 2) = true := by decide +kernel

mutual
/-- A check of `FullJoins` for the example. -/
def isFull : Rel → Bool
  | .node op ins =>
    (match op with
      | .join _ (.known .inner) _ _ _ => true
      | .join _ _ _ _ _ => false
      | _ => true) && areFull ins
/-- The same for inputs. -/
def areFull : List (Option Rel) → Bool
  | [] => true
  | none :: l => areFull l
  | some r :: l => isFull r && areFull l
end

mutual
theorem isFull_sound : ∀ r, isFull r = true → FullJoins r
  | .node op ins, h => by
    simp only [isFull, Bool.and_eq_true] at h
    refine .node op ins ?_ (areFull_sound ins h.2)
    rintro c t e p a rfl _
    have h1 := h.1
    split at h1
    · rename_i heq; cases heq; trivial
    · cases h1
    · rename_i h2
      exact (h2 c t e p a rfl).elim
theorem areFull_sound : ∀ l, areFull l = true → ∀ r, some r ∈ l → FullJoins r
  | [], _, r, h => by simp at h
  | none :: l, h, r, hr => areFull_sound l (by simpa [areFull] using h) r (by simpa using hr)
  | some r' :: l, h, r, hr => by
    simp only [areFull, Bool.and_eq_true] at h
    simp only [List.mem_cons, Option.some.injEq] at hr
    rcases hr with rfl | hr
    · exact isFull_sound r h.1
    · exact areFull_sound l h.2 r hr
end

theorem onOk_true {α : Type} {r : Res RErr α} {f : α → Bool} (h : onOk r f = true) :
    ∃ a, r = .ok a ∧ f a = true := by
  cases r with
  | ok a => exact ⟨a, rfl, h⟩
  | err _ => cases h
  | panic => cases h

/-- The hypotheses are satisfiable: an inner join of two reads. -/
example : letI := asciiTab; letI := halfTab
    StableWidths {} ∧ ∃ x, convNode .empty {} (joinTree cs!"Inner") = .ok x ∧ FullJoins x.1 ∧ x.2 = 4 := by
  letI := asciiTab; letI := halfTab
  refine And.intro (fun n a d ws h => by simp [Registry.parse, hGet] at h) ?_
  have h : onOk (convNode .empty {} (joinTree cs!"Inner")) (fun x => x.2 == 4 && isFull x.1) = true := by
    decide +kernel
  obtain ⟨x, h1, h2⟩ := onOk_true h
  simp only [Bool.and_eq_true, beq_iff_eq] at h2
  exact ⟨x, h1, isFull_sound _ h2.2, h2.1⟩

/-- C27: a `Set` is accepted only with at least two inputs, all of one width, and then the formatter
computes that width as well. -/
theorem C27_set_widths [UTab] [FTab] (st : Store) (reg : Registry ExtArgs (List Nat)) (as : List Addendum)
    (kids : List (Rel × Nat)) (op : Str) (refs : List IntTok) (r : Rel) (w : Nat)
    (h : convLine st reg as kids (.set op refs) = .ok (r, w)) :
    2 ≤ kids.length ∧ ∃ n, (∀ k ∈ kids, k.2 = n) ∧ ∃ c o adv, r = .node (.set c o adv) (kids.map (some ·.1)) ∧
      ∀ env : Env, (relHead env (kids.map (some ·.2)) (.set c o adv)).columns.length = n := by
  cases convLine_ok h with
  | body _ adv _ _ hb => cases hb
  | set _ _ adv n o m _ hl hw _ _ =>
    refine ⟨hl, n, hw, mkCommon (makeEmit m n), .known o, adv, ?_, ?_⟩
    · rw [List.map_map]; rfl
    · intro env
      have hs : (kids.map (·.2)).sum = kids.length * n := by
        rw [sum_const (w := n) (by simpa using fun x r h => hw (r, x) h)]
        simp
      have hne : kids ≠ [] := by
        intro hk; simp [hk] at hl
      have hpos : 0 < kids.length := by omega
      have hm : kids.map (fun k => some k.2) = (kids.map (·.2)).map some := by simp
      simp only [relHead, length_references, hm, totalWidth_some, hs, List.length_map]
      rw [if_neg (by simpa using hne), Nat.mul_div_cancel_left _ hpos]

/-- C27: any other inputs are an error. -/
theorem C27_set_rejects [FTab] (st : Store) (reg : Registry ExtArgs (List Nat)) (as : List Addendum)
    (kids : List (Rel × Nat)) (op : Str) (refs : List IntTok) (adv : Option AdvExt)
    (ha : standardAdv reg as = .ok adv) :
    (kids.length < 2 → convLine st reg as kids (.set op refs) = .err .arity) ∧
    (∀ k ∈ kids, ∀ k' ∈ kids, k.2 ≠ k'.2 → convLine st reg as kids (.set op refs) = .err .widths) := by
  simp only [convLine, ha, Res.bind, convSet, List.length_map]
  constructor
  · intro h; simp [h]
  · intro k hk k' hk' hne
    have hl : ¬ kids.length < 2 := by
      intro hl
      match kids, hl with
      | [a], _ => simp at hk hk'; subst hk; subst hk'; exact hne rfl
    rw [if_neg hl]
    cases hks : kids with
    | nil => rw [hks] at hk; cases hk
    | cons a l =>
      simp only [List.map_cons]
      rw [if_neg]
      intro hall
      have : ∀ x ∈ kids, x.2 = a.2 := by
        intro x hx
        rw [hks] at hx
        rcases List.mem_cons.mp hx with rfl | hx
        · rfl
        · simpa using List.all_eq_true.mp hall _ (List.mem_map_of_mem (f := (·.2)) hx)
      exact hne ((this k hk).trans (this k' hk').symm)

example : letI := halfTab
    (match convLine .empty {} [] [(twoColumns, 2), (twoColumns, 3)] (lineOf cs!"Set[&UnionAll => $0]") with
      | .err .widths => true | _ => false) = true ∧
    onOk (convLine .empty {} [] [(twoColumns, 2), (twoColumns, 2), (twoColumns, 2)] (lineOf cs!"Set[&UnionAll => $0]"))
      (fun x => x.2 == 1) = true := by decide +kernel

/-! ## C28 -/

/-- C28: every relation of a tree the parser builds has the number of inputs its kind requires, and
every line of the text the number of child lines. -/
theorem C28_arity [FTab] (st : Store) (reg : Registry ExtArgs (List Nat)) (t : RNode SLine SAddendum) (r : Rel)
    (w : Nat) (h : convNode st reg t = .ok (r, w)) : WellShaped r ∧ TreeArity t :=
  ⟨(convNode_shape t (r, w) h).1, (convNode_shape t (r, w) h).2.1⟩

/-- C28 for the relations of a plan. -/
theorem C28_plan_arity [FTab] (st : Store) (reg : Registry ExtArgs (List Nat)) (t : RNode SLine SAddendum)
    (p : PlanRel) (h : convPlanRel st reg t = .ok p) :
    TreeArity t ∧ ∃ r, WellShaped r ∧ (p = .rel r ∨ ∃ names, p = .root names (some r)) := by
  obtain ⟨line, as, kids⟩ := t
  unfold convPlanRel at h
  split at h
  · rename_i names as' kids' heq
    cases heq
    split at h
    · cases h
    · split at h
      · rename_i k
        simp only [Res.bind_ok_iff] at h
        obtain ⟨x, hx, hh⟩ := h
        cases hh
        obtain ⟨h1, h2, h3⟩ := convNode_shape k x hx
        exact ⟨.mk _ _ _ rfl (by simpa using h2) (by simpa using h3), x.1, h1, .inr ⟨_, rfl⟩⟩
      · cases h
  · simp only [Res.bind_ok_iff] at h
    obtain ⟨x, hx, hh⟩ := h
    cases hh
    obtain ⟨h1, h2, h3⟩ := convNode_shape _ x hx
    exact ⟨h2, x.1, h1, .inl rfl⟩

/-- C28: a line with any other number of inputs is an arity error, when its addenda are fine. -/
theorem C28_wrong_count_is_error [FTab] (st : Store) (reg : Registry ExtArgs (List Nat)) (as : List Addendum)
    (kids : List (Rel × Nat)) (line : SLine) (hroot : ∀ ns, line ≠ .root ns)
    (hadv : ∀ cols, line ≠ .readExt cols → ∃ adv, standardAdv reg as = .ok adv)
    (hext : ∀ cols, line = .readExt cols → ∃ p, extReadParts reg as = .ok p)
    (hargs : ∀ k n a cols, line = .ext k n a cols → as = [] ∧ ∃ x, convExtArgs st a cols = .ok x)
    (h : ¬ LineArity line kids.length) : convLine st reg as kids line = .err .arity := by
  cases line with
  | root ns => exact absurd rfl (hroot ns)
  | set op refs =>
    obtain ⟨adv, ha⟩ := hadv [] (by simp)
    exact (C27_set_rejects st reg as kids op refs adv ha).1 (by simpa [LineArity] using h)
  | readExt cols =>
    obtain ⟨p, hp⟩ := hext _ rfl
    have hk : kids.map (·.1) ≠ [] := by simpa [LineArity] using h
    simp [convLine, hp, Res.bind, convReadExt, hk]
  | ext k n a cols =>
    obtain ⟨has, x, hx⟩ := hargs _ _ _ _ rfl
    have hk : k.arityOk kids.length = false := by
      cases k <;> simp_all [LineArity, ExtKind.arityOk]
    simp [convLine, convExtRel, has, hx, plain, Res.bind, hk]
  | read t o =>
    obtain ⟨adv, ha⟩ := hadv [] (by simp)
    have hk : kids.map (·.1) ≠ [] := by simpa [LineArity] using h
    simp [convLine, ha, Res.bind, convBody, hk]
  | readVirtual _ _ _ =>
    obtain ⟨adv, ha⟩ := hadv [] (by simp)
    have hk : kids.map (·.1) ≠ [] := by simpa [LineArity] using h
    simp [convLine, ha, Res.bind, convBody, hk]
  | filter _ _ =>
    obtain ⟨adv, ha⟩ := hadv [] (by simp)
    have := oneChild_wrong (kids.map (·.1)) (by simpa [LineArity] using h)
    simp [convLine, ha, Res.bind, convBody, this]
  | project _ =>
    obtain ⟨adv, ha⟩ := hadv [] (by simp)
    have := oneChild_wrong (kids.map (·.1)) (by simpa [LineArity] using h)
    simp [convLine, ha, Res.bind, convBody, this]
  | aggregate _ _ =>
    obtain ⟨adv, ha⟩ := hadv [] (by simp)
    have := oneChild_wrong (kids.map (·.1)) (by simpa [LineArity] using h)
    simp [convLine, ha, Res.bind, convBody, this]
  | sort _ _ =>
    obtain ⟨adv, ha⟩ := hadv [] (by simp)
    have := oneChild_wrong (kids.map (·.1)) (by simpa [LineArity] using h)
    simp [convLine, ha, Res.bind, convBody, this]
  | fetch _ _ =>
    obtain ⟨adv, ha⟩ := hadv [] (by simp)
    have := oneChild_wrong (kids.map (·.1)) (by simpa [LineArity] using h)
    simp [convLine, ha, Res.bind, convBody, this]
  | join _ _ _ _ =>
    obtain ⟨adv, ha⟩ := hadv [] (by simp)
    simp only [convLine, ha, Res.bind, convBody]
    split
    · rename_i hk
      have := congrArg List.length hk
      simp [LineArity] at h this
      exact absurd this h
    · rfl
  | cross _ =>
    obtain ⟨adv, ha⟩ := hadv [] (by simp)
    simp only [convLine, ha, Res.bind, convBody]
    split
    · rename_i hk
      have := congrArg List.length hk
      simp [LineArity] at h this
      exact absurd this h
    · rfl

example : letI := halfTab
    (match convNode .empty {} (.mk (lineOf cs!"Filter[$0 => $0]") [] []) with
      | .err .arity => true | _ => false) = true ∧
    onOk (convNode .empty {} (joinTree cs!"Inner")) (fun _ => true) = true := by decide +kernel

/-! ## C29 -/

/-- C29: the arguments of `Fetch` can be written in any order with the same result. -/
theorem C29_fetch_order [FTab] (st : Store) (reg : Registry ExtArgs (List Nat)) (as : List Addendum)
    (kids : List (Rel × Nat)) (args args' : List (Str × SFetch)) (refs : List IntTok) (hp : args.Perm args') :
    convLine st reg as kids (.fetch args refs) = convLine st reg as kids (.fetch args' refs) := by
  simp only [convLine, convBody]
  have hd : hasDup (args.map (·.1)) = hasDup (args'.map (·.1)) := by
    rw [Bool.eq_iff_iff, ← Bool.not_eq_false, ← Bool.not_eq_false, hasDup_iff, hasDup_iff, (hp.map _).nodup_iff]
  cases hx : hasDup (args.map (·.1)) with
  | true => rw [← hd, hx]; rfl
  | false =>
    have hn := (hasDup_iff _).mp hx
    rw [← hd, hx, fetchArg_perm hp hn, fetchArg_perm hp hn]

/-- C29: an accepted `Fetch` line has only `limit` and `offset`, each at most once; numbers are not
negative and fit 64 bits; and the relation has exactly these counts. -/
theorem C29_fetch_accepted [FTab] (st : Store) (reg : Registry ExtArgs (List Nat)) (as : List Addendum)
    (kids : List (Rel × Nat)) (s : Str) (args : List (Str × SFetch)) (refs : List IntTok) (r : Rel) (w : Nat)
    (hs : nodeLine s = some (.relation (.fetch args refs)))
    (h : convLine st reg as kids (.fetch args refs) = .ok (r, w)) :
    (∀ a ∈ args, a.1 = cs!"limit" ∨ a.1 = cs!"offset") ∧ (args.map (·.1)).Nodup ∧
    (∀ n i, (n, SFetch.int i) ∈ args → 0 ≤ i.toInt ∧ i.toInt < 2 ^ 63) ∧
    ∃ c count offset adv ins, r = .node (.fetch c count offset adv) ins ∧
      (count = none ↔ ∀ v, (cs!"limit", v) ∉ args) ∧ (offset = none ↔ ∀ v, (cs!"offset", v) ∉ args) ∧
      (∀ v, (cs!"limit", v) ∈ args → convFetchValue st v = .ok (count.getD (.deprecated 0)) ∧ count ≠ none) ∧
      (∀ v, (cs!"offset", v) ∈ args → convFetchValue st v = .ok (offset.getD (.deprecated 0)) ∧ offset ≠ none) := by
  have hnames : ∀ a ∈ args, a.1 = cs!"limit" ∨ a.1 = cs!"offset" := by
    obtain ⟨r, hr⟩ := nodeLine_relation hs
    obtain ⟨_, _, heq, hall⟩ := pFetch_names ((pRelLine_kind hr).2 _ _ rfl)
    cases heq
    exact hall
  cases convLine_ok h with
  | body _ adv _ _ hb =>
    generalize kids.map (·.1) = ks at hb
    cases hb with
    | fetch _ _ k l o m hd _ hl ho =>
      have hn := (hasDup_iff _).mp hd
      have key : ∀ (n : Str) (c : Option Count), convOptR (convFetchValue st) (fetchArg args n) = .ok c →
          (c = none ↔ ∀ v, (n, v) ∉ args) ∧
          (∀ v, (n, v) ∈ args → convFetchValue st v = .ok (c.getD (.deprecated 0)) ∧ c ≠ none) := by
        intro n c hc
        cases hf : fetchArg args n with
        | none =>
          rw [hf] at hc
          cases hc
          have hno : ∀ v, (n, v) ∉ args := by
            intro v hv
            rw [(fetchArg_mem hn n v).mpr hv] at hf
            cases hf
          exact ⟨by simpa using hno, fun v hv => absurd hv (hno v)⟩
        | some v =>
          rw [hf] at hc
          simp only [convOptR, Res.bind_ok_iff] at hc
          obtain ⟨b, hb, hh⟩ := hc
          cases hh
          have hm := (fetchArg_mem hn n v).mp hf
          refine ⟨by simpa using ⟨v, hm⟩, ?_⟩
          intro v' hv'
          rw [(fetchArg_mem hn n v').mpr hv'] at hf
          cases hf
          exact ⟨hb, by simp⟩
      refine ⟨hnames, hn, ?_, _, l, o, adv, _, rfl, (key _ _ hl).1, (key _ _ ho).1, (key _ _ hl).2, (key _ _ ho).2⟩
      intro n i hi
      have hv : ∃ c, convFetchValue st (.int i) = .ok c := by
        rcases hnames _ hi with h | h <;> simp only at h <;> subst h
        · exact ⟨_, ((key _ _ hl).2 _ hi).1⟩
        · exact ⟨_, ((key _ _ ho).2 _ hi).1⟩
      obtain ⟨c, hc⟩ := hv
      simp only [convFetchValue] at hc
      split at hc
      · cases hc
      · rename_i j hj
        split at hc
        · cases hc
        · rename_i hneg
          unfold IntTok.toI64 at hj
          split at hj
          · cases hj; omega
          · cases hj

/-- C29: negative and oversized numbers are errors. -/
theorem C29_bad_counts_rejected [FTab] (st : Store) (i : IntTok) :
    (i.toInt < 0 ∨ 2 ^ 63 ≤ i.toInt) → ∃ e, convFetchValue st (.int i) = .err e := by
  intro h
  simp only [convFetchValue]
  split
  · exact ⟨_, rfl⟩
  · rename_i j hj
    unfold IntTok.toI64 at hj
    split at hj
    · cases hj
      rw [if_pos (by omega)]
      exact ⟨_, rfl⟩
    · cases hj

/-- C29 fails in one point: a repeated argument is not reported but panics (the error leaves the
argument iterator unconsumed, parser/common.rs L303-313, L329). -/
theorem C29_duplicate_panics [FTab] (st : Store) (reg : Registry ExtArgs (List Nat)) (as : List Addendum)
    (kid : Rel × Nat) (args : List (Str × SFetch)) (refs : List IntTok) (adv : Option AdvExt)
    (ha : standardAdv reg as = .ok adv) (h : ¬ (args.map (·.1)).Nodup) :
    convLine st reg as [kid] (.fetch args refs) = .panic := by
  have : hasDup (args.map (·.1)) = true := by
    rw [← Bool.not_eq_false, hasDup_iff]; exact h
  simp [convLine, ha, Res.bind, convBody, oneChild, this]

example : letI := halfTab
    onOk (convLine .empty {} [] [(twoColumns, 2)] (lineOf cs!"Fetch[offset=3, limit=7 => $0]"))
      (fun x => match x.1 with
        | .node (.fetch _ (some (.expr l)) (some (.expr o)) _) _ => decide (l = i64Expr 7) && decide (o = i64Expr 3)
        | _ => false) = true ∧
    (match convLine .empty {} [] [(twoColumns, 2)] (lineOf cs!"Fetch[limit=3, limit=7 => $0]") with
      | .panic => true | _ => false) = true ∧
    (match convLine .empty {} [] [(twoColumns, 2)] (lineOf cs!"Fetch[limit=-3 => $0]") with
      | .err .negative => true | _ => false) = true ∧
    nodeLine cs!"Fetch[limits=3 => $0]" = none := by
  refine ⟨by decide +kernel, by decide +kernel, by decide +kernel, rfl⟩

/-! ## C30 -/

/-- C30, join types: what is printed without an error is read as the same join type, whatever
follows that is not a letter; the keywords of the grammar are exactly what is printed. -/
theorem C30_join_types (v : EnumVal JoinType) :
    ((textJoinType v).errs = [] ↔ ∃ t, v = .known t ∧ t ≠ .unspecified) ∧
    ((textJoinType v).errs = [] → ∃ t, v = .known t ∧ JoinType.ofName (trimAmp (textJoinType v).text) = some t ∧
      ∀ rest, NextNot Char.isAlpha rest →
        pFirst joinNames ((textJoinType v).text ++ rest) = some ((textJoinType v).text, rest)) ∧
    (∀ k ∈ joinNames, ∃ t, JoinType.ofName (trimAmp k) = some t ∧ (textJoinType (.known t)).text = k) := by
  have hsome : ∀ t, t ≠ .unspecified → (textJoinType (.known t)).errs = [] ∧
      JoinType.ofName (trimAmp (textJoinType (.known t)).text) = some t ∧
      firstOf (textJoinType (.known t)).text joinNames = true := by
    intro t ht
    cases t <;> first | exact absurd rfl ht | decide
  have hnone : (textJoinType (.known .unspecified)).errs ≠ [] := by decide
  refine ⟨?_, ?_, by
    intro k hk
    simp only [joinNames, List.mem_cons, List.not_mem_nil, or_false] at hk
    rcases hk with rfl | rfl | rfl | rfl | rfl | rfl | rfl | rfl | rfl | rfl | rfl | rfl <;> exact ⟨_, rfl, rfl⟩⟩
  · cases v with
    | unknown i => simp [textJoinType, Out.fail]
    | known t =>
      by_cases ht : t = .unspecified
      · subst ht; simp [hnone]
      · simp [(hsome t ht).1, ht]
  · intro h
    cases v with
    | unknown i => simp [textJoinType, Out.fail] at h
    | known t =>
      by_cases ht : t = .unspecified
      · subst ht; exact absurd h hnone
      · exact ⟨t, rfl, (hsome t ht).2.1, fun rest hr => pFirst_firstOf (hsome t ht).2.2 hr⟩

/-- C30, set operations. -/
theorem C30_set_operations (v : EnumVal SetOp) :
    ((textSetOp v).errs = [] ↔ ∃ t, v = .known t ∧ t ≠ .unspecified) ∧
    ((textSetOp v).errs = [] → ∃ t, v = .known t ∧ SetOp.ofName (trimAmp (textSetOp v).text) = some t ∧
      ∀ rest, NextNot Char.isAlpha rest →
        pFirst setNames ((textSetOp v).text ++ rest) = some ((textSetOp v).text, rest)) ∧
    (∀ k ∈ setNames, ∃ t, SetOp.ofName (trimAmp k) = some t ∧ (textSetOp (.known t)).text = k) := by
  have hsome : ∀ t, t ≠ .unspecified → (textSetOp (.known t)).errs = [] ∧
      SetOp.ofName (trimAmp (textSetOp (.known t)).text) = some t ∧
      firstOf (textSetOp (.known t)).text setNames = true := by
    intro t ht
    cases t <;> first | exact absurd rfl ht | decide
  have hnone : (textSetOp (.known .unspecified)).errs ≠ [] := by decide
  refine ⟨?_, ?_, by
    intro k hk
    simp only [setNames, List.mem_cons, List.not_mem_nil, or_false] at hk
    rcases hk with rfl | rfl | rfl | rfl | rfl | rfl | rfl | rfl <;> exact ⟨_, rfl, rfl⟩⟩
  · cases v with
    | unknown i => simp [textSetOp, Out.fail]
    | known t =>
      by_cases ht : t = .unspecified
      · subst ht; simp [hnone]
      · simp [(hsome t ht).1, ht]
  · intro h
    cases v with
    | unknown i => simp [textSetOp, Out.fail] at h
    | known t =>
      by_cases ht : t = .unspecified
      · subst ht; exact absurd h hnone
      · exact ⟨t, rfl, (hsome t ht).2.1, fun rest hr => pFirst_firstOf (hsome t ht).2.2 hr⟩

/-- C30, sort directions, what is true of it: all but `Clustered`. -/
theorem C30_sort_directions_partial (v : SortKind) :
    ((textSortKind v).errs = [] ↔ ∃ t, v = .direction (.known t) ∧ t ≠ .unspecified) ∧
    ((textSortKind v).errs = [] → v ≠ .direction (.known .clustered) →
      ∃ t, v = .direction (.known t) ∧ SortDir.ofName (trimAmp (textSortKind v).text) = some t ∧
      ∀ rest, NextNot Char.isAlpha rest →
        pFirst sortNames ((textSortKind v).text ++ rest) = some ((textSortKind v).text, rest)) ∧
    (∀ k ∈ sortNames, ∃ t, SortDir.ofName (trimAmp k) = some t ∧ (textSortKind (.direction (.known t))).text = k) := by
  have hsome : ∀ t, t ≠ .unspecified → (textSortKind (.direction (.known t))).errs = [] ∧ (t ≠ .clustered →
      SortDir.ofName (trimAmp (textSortKind (.direction (.known t))).text) = some t ∧
      firstOf (textSortKind (.direction (.known t))).text sortNames = true) := by
    intro t ht
    cases t <;> first | exact absurd rfl ht | decide
  have hnone : (textSortKind (.direction (.known .unspecified))).errs ≠ [] := by decide
  refine ⟨?_, ?_, by
    intro k hk
    simp only [sortNames, List.mem_cons, List.not_mem_nil, or_false] at hk
    rcases hk with rfl | rfl | rfl | rfl <;> exact ⟨_, rfl, rfl⟩⟩
  · cases v with
    | function f => simp [textSortKind, Out.fail]
    | direction d =>
      cases d with
      | unknown i => simp [textSortKind, Out.fail]
      | known t =>
        by_cases ht : t = .unspecified
        · subst ht; simp [hnone]
        · simp [(hsome t ht).1, ht]
  · intro h hc
    cases v with
    | function f => simp [textSortKind, Out.fail] at h
    | direction d =>
      cases d with
      | unknown i => simp [textSortKind, Out.fail] at h
      | known t =>
        by_cases ht : t = .unspecified
        · subst ht; exact absurd h hnone
        · have h2 := (hsome t ht).2 (by rintro rfl; exact hc rfl)
          exact ⟨t, rfl, h2.1, fun rest hr => pFirst_firstOf h2.2 hr⟩

/-- C30 fails as stated: `Clustered` is printed without an error and no text after it makes it
readable. -/
theorem C30_clustered_unreadable (rest : Str) :
    (textSortKind (.direction (.known .clustered))).errs = [] ∧
    (textSortKind (.direction (.known .clustered))).text = cs!"&Clustered" ∧
    pFirst sortNames ((textSortKind (.direction (.known .clustered))).text ++ rest) = none := ⟨rfl, rfl, rfl⟩

/-- A keyword that begins another one, before what the printer puts after it. -/
example : pFirst joinNames cs!"&Left, $0" = some (cs!"&Left", cs!", $0") ∧
    pFirst joinNames cs!"&LeftSemi, $0" = some (cs!"&LeftSemi", cs!", $0") ∧
    pFirst setNames cs!"&MinusPrimary => $0" = some (cs!"&MinusPrimary", cs!" => $0") := ⟨rfl, rfl, rfl⟩

/-! ## C53 -/

/-- C53: `Root` is never read below the top, and at the top only with one child and no addenda;
the relation has the names of the line. -/
theorem C53_root_conditions [FTab] (st : Store) (reg : Registry ExtArgs (List Nat)) :
    (∀ s ns, nodeLine s ≠ some (.relation (.root ns))) ∧
    (∀ names as kids p, convPlanRel st reg (.mk (.root names) as kids) = .ok p →
      as = [] ∧ ∃ k r w, kids = [k] ∧ convNode st reg k = .ok (r, w) ∧ p = .root names (some r)) ∧
    (∀ names as kids, as ≠ [] → convPlanRel st reg (.mk (.root names) as kids) = .err .rootAddenda) ∧
    (∀ names kids, kids.length ≠ 1 → convPlanRel st reg (.mk (.root names) [] kids) = .err .rootChildren) ∧
    (∀ names as kids x, convNode st reg (.mk (.root names) as kids) ≠ .ok x) := by
  refine ⟨?_, ?_, ?_, ?_, ?_⟩
  · intro s ns h
    obtain ⟨r, hr⟩ := nodeLine_relation h
    exact (pRelLine_kind hr).1 ns rfl
  · intro names as kids p h
    simp only [convPlanRel] at h
    split at h
    · cases h
    · rename_i has
      split at h
      · simp only [Res.bind_ok_iff] at h
        obtain ⟨x, hx, hh⟩ := h
        cases hh
        exact ⟨by simpa using has, _, x.1, x.2, rfl, hx, rfl⟩
      · cases h
  · intro names as kids h
    simp [convPlanRel, h]
  · intro names kids h
    simp only [convPlanRel, ne_eq, not_true, if_false]
    split
    · simp at h
    · rfl
  · intro names as kids x h
    exact (convNode_shape _ _ h).2.2 names rfl

example : letI := halfTab
    onOk (convPlanRel .empty {} (.mk (lineOf cs!"Root[x, y]") [] [.mk (lineOf cs!"Read[t => a:i64, b:i64]") [] []]))
      (fun p => match p with | .root names (some _) => decide (names = [cs!"x", cs!"y"]) | _ => false) = true := by
  decide +kernel

end Verif
