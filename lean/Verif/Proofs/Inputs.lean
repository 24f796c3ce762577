import Verif.Spec.Inputs
import Verif.Proofs.Apart
/-!
# A relation takes from its inputs only their number of columns
-/

namespace Verif

set_option autoImplicit false

open InputSpec

variable [FTab] (st : Store) (reg : Registry ExtArgs (List Nat))

/-- A relation with other inputs. -/
def withInputs (rs : List (Rel × Nat)) (r : Rel × Nat) : Rel × Nat :=
  match r.1 with
  | .node op _ => (.node op (rs.map fun x => some x.1), r.2)

theorem Res.map_bind {ε α β γ : Type} (r : Res ε α) (f : α → Res ε β) (g : β → γ) :
    (r.bind f).map g = r.bind fun a => (f a).map g := by
  cases r <;> rfl

theorem Res.map_ok {ε α γ : Type} (a : α) (g : α → γ) : (Res.ok a : Res ε α).map g = .ok (g a) := rfl
theorem Res.map_err {ε α γ : Type} (e : ε) (g : α → γ) : (Res.err e : Res ε α).map g = .err e := rfl
theorem Res.map_panic {ε α γ : Type} (g : α → γ) : (Res.panic : Res ε α).map g = .panic := rfl
theorem Res.bind_error {ε α γ : Type} (e : ε) (g : α → Res ε γ) : (Res.err e : Res ε α).bind g = .err e := rfl

theorem convBody_inputs (adv : Option AdvExt) (ks ks' : List (Rel × Nat)) (h : ks.map (·.2) = ks'.map (·.2)) (l : SLine) :
    convBody st adv (ks'.map (·.1)) (ks'.map (·.2)).sum l =
      (convBody st adv (ks.map (·.1)) (ks.map (·.2)).sum l).map (withInputs ks') := by
  rw [← h]
  match ks, ks', h with
  | [], [], _ =>
    cases l <;> simp [convBody, oneChild, Res.map_bind, Res.map_ok, Res.map_err, Res.map_panic, Res.bind_ok, Res.bind_error, withInputs]
  | [a], [b], h =>
    cases l <;> simp [convBody, oneChild, Res.map_bind, Res.map_ok, Res.map_err, Res.map_panic, Res.bind_ok, Res.bind_error, withInputs]
    case fetch => split <;> simp [Res.map_bind, Res.map_ok, Res.map_panic, withInputs, Function.comp_def]
  | [_], _ :: _ :: _, h | [_, _], [_], h | [_, _], _ :: _ :: _ :: _, h | _ :: _ :: _ :: _, [_], h
  | _ :: _ :: _ :: _, [_, _], h => simp at h
  | [a, b], [c, d], h =>
    cases l <;> simp [convBody, oneChild, Res.map_bind, Res.map_ok, Res.map_err, Res.map_panic, Res.bind_ok, Res.bind_error, withInputs]
  | a :: b :: c :: m, a' :: b' :: c' :: m', h =>
    cases l <;> simp [convBody, oneChild, Res.map_err, Res.map_panic, Res.bind_error]

theorem convLine_inputs (as : List Addendum) (ks ks' : List (Rel × Nat)) (h : ks.map (·.2) = ks'.map (·.2)) (l : SLine) :
    convLine st reg as ks' l = (convLine st reg as ks l).map (withInputs ks') := by
  have hl : ks'.length = ks.length := by simpa using (congrArg List.length h).symm
  have body : ∀ l, ((standardAdv reg as).bind fun adv => convBody st adv (ks'.map (·.1)) (ks'.map (·.2)).sum l) =
      ((standardAdv reg as).bind fun adv => convBody st adv (ks.map (·.1)) (ks.map (·.2)).sum l).map (withInputs ks') := by
    intro l
    rw [Res.map_bind]
    congr 1
    funext adv
    exact convBody_inputs st adv ks ks' h l
  cases l with
  | set op refs =>
    simp only [convLine, Res.map_bind, convSet, ← h, List.length_map, hl]
    congr 1
    funext adv
    split
    · rfl
    · split
      · rfl
      · split
        · simp [Res.map_bind, Res.map_ok, Res.map_panic, withInputs, Function.comp_def]
        · rfl
  | readExt cols =>
    simp only [convLine, Res.map_bind, convReadExt, ← h]
    congr 1
    funext adv
    match ks, ks', hl with
    | [], [], _ => simp [Res.map_bind, Res.map_ok, Res.map_panic, withInputs, Function.comp_def]
    | a :: m, b :: m', _ => simp [Res.map_err]
  | ext kind name args cols =>
    simp only [convLine, convExtRel, List.length_map, hl]
    split
    · rfl
    · rw [Res.map_bind]
      congr 1
      funext a
      split
      · simp [Res.map_bind, Res.map_ok, Res.map_panic, withInputs, Function.comp_def]
      · rfl
  | _ => exact body _

/-- What a line with its addenda says when its inputs have these numbers of columns. -/
def ownConv (l : SLine) (as : List SAddendum) (ws : List Nat) : Res RErr (RelOp × Nat) :=
  ((convAddenda st as).bind fun as =>
    convLine st reg as (ws.map fun w => (.node (.sort none [] none) [], w)) l).map fun r =>
      match r.1 with
      | .node op _ => (op, r.2)

theorem convKids_ok {kids : List (RNode SLine SAddendum)} {rs : List (Rel × Nat)} :
    convKids st reg kids = .ok rs ↔ kids.map (convNode st reg) = rs.map .ok := by
  induction kids generalizing rs with
  | nil => cases rs <;> simp [convKids]
  | cons k l ih =>
    simp only [convKids, Res.bind_ok_iff, ih]
    constructor
    · rintro ⟨r, hr, m, hm, h⟩
      cases h
      simp [hr, hm]
    · intro h
      cases rs with
      | nil => simp at h
      | cons r m =>
        simp only [List.map_cons, List.cons.injEq] at h
        exact ⟨r, h.1, m, h.2, rfl⟩

theorem convNode_own (l : SLine) (as : List SAddendum) (kids : List (RNode SLine SAddendum)) (rs : List (Rel × Nat))
    (h : kids.map (convNode st reg) = rs.map .ok) :
    convNode st reg (.mk l as kids) =
      (ownConv st reg l as (rs.map (·.2))).map fun r => (.node r.1 (rs.map fun x => some x.1), r.2) := by
  rw [convNode, (convKids_ok st reg).2 h]
  show ((convAddenda st as).bind fun as => convLine st reg as rs l) = _
  unfold ownConv
  simp only [Res.map_bind]
  cases convAddenda st as with
  | err e => rfl
  | panic => rfl
  | ok as =>
    show convLine st reg as rs l = ((convLine st reg as _ l).map _).map _
    rw [convLine_inputs st reg as ((rs.map (·.2)).map fun w => (Rel.node (.sort none [] none) [], w)) rs (by simp)]
    cases convLine st reg as ((rs.map (·.2)).map fun w => (Rel.node (.sort none [] none) [], w)) l with
    | err e => rfl
    | panic => rfl
    | ok r =>
      obtain ⟨⟨op, ins⟩, w⟩ := r
      rfl

theorem convKids_err (a : List (RNode SLine SAddendum)) (k : RNode SLine SAddendum) (b : List (RNode SLine SAddendum))
    (rs : List (Rel × Nat)) (h : a.map (convNode st reg) = rs.map .ok) (hk : ∀ r, convNode st reg k ≠ .ok r) :
    (∀ e, convNode st reg k = .err e → convKids st reg (a ++ k :: b) = .err e) ∧
      (convNode st reg k = .panic → convKids st reg (a ++ k :: b) = .panic) := by
  induction a generalizing rs with
  | nil =>
    constructor
    · intro e he
      simp [convKids, he, Res.bind]
    · intro he
      simp [convKids, he, Res.bind]
  | cons x a ih =>
    cases rs with
    | nil => simp at h
    | cons r rs =>
      simp only [List.map_cons, List.cons.injEq] at h
      obtain ⟨h1, h2⟩ := ih rs h.2
      constructor
      · intro e he
        simp [convKids, h.1, Res.bind, h1 e he]
      · intro he
        simp [convKids, h.1, Res.bind, h2 he]

theorem map_split {α β : Type} {f : α → β} {a b : List α} {k : α} {γ : Type} {g : γ → β} {rs : List γ}
    (h : (a ++ k :: b).map f = rs.map g) :
    ∃ ra r rb, rs = ra ++ r :: rb ∧ a.map f = ra.map g ∧ f k = g r ∧ b.map f = rb.map g := by
  induction a generalizing rs with
  | nil =>
    cases rs with
    | nil => simp at h
    | cons r rb =>
      simp only [List.nil_append, List.map_cons, List.cons.injEq] at h
      exact ⟨[], r, rb, rfl, rfl, h.1, h.2⟩
  | cons x a ih =>
    cases rs with
    | nil => simp at h
    | cons r rs =>
      simp only [List.cons_append, List.map_cons, List.cons.injEq] at h
      obtain ⟨ra, q, rb, rfl, h1, h2, h3⟩ := ih h.2
      exact ⟨r :: ra, q, rb, rfl, by simp [h.1, h1], h2, h3⟩

theorem convNode_at {x y : RNode SLine SAddendum} {rx ry : Rel} {w : Nat} (hx : convNode st reg x = .ok (rx, w))
    (hy : convNode st reg y = .ok (ry, w)) {path : List Nat} {t t' : RNode SLine SAddendum} (h : At x y path t t') :
    ∀ {r : Rel} {n : Nat}, convNode st reg t = .ok (r, n) →
      ∃ r', convNode st reg t' = .ok (r', n) ∧ RelAt rx ry path r r' := by
  induction h with
  | here =>
    intro r n hr
    rw [hx] at hr
    cases hr
    exact ⟨ry, hy, .here⟩
  | @under path l as a t t' b _ ih =>
    intro r n hr
    have hkids : ∃ rs, convKids st reg (a ++ t :: b) = .ok rs := by
      rw [convNode] at hr
      obtain ⟨rs, hrs, -⟩ := Res.bind_ok_iff.1 hr
      exact ⟨rs, hrs⟩
    obtain ⟨rs, hrs⟩ := hkids
    have hrs := (convKids_ok st reg).1 hrs
    obtain ⟨ra, ⟨q, m⟩, rb, rfl, h1, h2, h3⟩ := map_split hrs
    obtain ⟨q', hq', hat⟩ := ih h2
    have hrs' : (a ++ t' :: b).map (convNode st reg) = (ra ++ (q', m) :: rb).map .ok := by simp [h1, hq', h3]
    rw [convNode_own st reg l as _ _ hrs] at hr
    rw [convNode_own st reg l as _ _ hrs']
    have hw : (ra ++ (q', m) :: rb).map (·.2) = (ra ++ (q, m) :: rb).map (·.2) := by simp
    rw [hw]
    obtain ⟨⟨op, n'⟩, ho, he⟩ := Res.map_ok_iff.1 hr
    rw [ho]
    cases he
    refine ⟨.node op (ra.map (fun x => some x.1) ++ some q' :: rb.map fun x => some x.1), by simp [Res.map], ?_⟩
    have hlen : a.length = (ra.map fun x => some x.1).length := by
      simpa using congrArg List.length h1
    rw [hlen]
    have := RelAt.under (op := op) (a := ra.map fun x => some x.1) (b := rb.map fun x => some x.1) hat
    simpa using this

theorem convPlanRel_at {x y : RNode SLine SAddendum} {rx ry : Rel} {w : Nat} (hx : convNode st reg x = .ok (rx, w))
    (hy : convNode st reg y = .ok (ry, w)) {path : List Nat} {t t' : RNode SLine SAddendum} (h : At x y path t t')
    {r : PlanRel} (hr : convPlanRel st reg t = .ok r) :
    ∃ r', convPlanRel st reg t' = .ok r' ∧ TopAt rx ry r r' := by
  have nodes : ∀ (line : SLine) (as : List SAddendum) kids, (∀ ns, line ≠ .root ns) →
      convPlanRel st reg (.mk line as kids) = (convNode st reg (.mk line as kids)).bind fun r => .ok (.rel r.1) := by
    intro line as kids hn
    cases line <;> first | rfl | exact absurd rfl (hn _)
  have rootFails : ∀ ns as kids r, convNode st reg (.mk (.root ns) as kids) ≠ .ok r := by
    intro ns as kids r hc
    rw [convNode] at hc
    obtain ⟨rs, -, hc⟩ := Res.bind_ok_iff.1 hc
    obtain ⟨as', -, hc⟩ := Res.bind_ok_iff.1 hc
    rw [convLine] at hc
    · obtain ⟨adv, -, hc⟩ := Res.bind_ok_iff.1 hc
      simp [convBody] at hc
    all_goals simp
  cases h with
  | here =>
    obtain ⟨l, as, kids⟩ := x
    obtain ⟨l', as', kids'⟩ := y
    have h1 : ∀ ns, l ≠ .root ns := by rintro ns rfl; exact rootFails _ _ _ _ hx
    have h2 : ∀ ns, l' ≠ .root ns := by rintro ns rfl; exact rootFails _ _ _ _ hy
    rw [nodes _ _ _ h1, hx] at hr
    rw [nodes _ _ _ h2, hy]
    cases hr
    exact ⟨_, rfl, .rel .here⟩
  | @under path l as a t t' b hat =>
    by_cases hl : ∃ ns, l = .root ns
    · obtain ⟨ns, rfl⟩ := hl
      simp only [convPlanRel] at hr ⊢
      by_cases has : as ≠ []
      · rw [if_pos has] at hr
        cases hr
      · rw [if_neg has] at hr ⊢
        match a, b with
        | [], [] =>
          obtain ⟨⟨q, n⟩, hq, he⟩ := Res.bind_ok_iff.1 hr
          cases he
          obtain ⟨q', hq', hat'⟩ := convNode_at st reg hx hy hat hq
          refine ⟨.root ns (some q'), ?_, .root hat'⟩
          show (convNode st reg t').bind _ = _
          rw [hq']
          rfl
        | [], _ :: _ => cases hr
        | [_], _ => cases hr
        | _ :: _ :: _, _ => cases hr
    · have hl : ∀ ns, l ≠ .root ns := fun ns e => hl ⟨ns, e⟩
      rw [nodes _ _ _ hl] at hr ⊢
      obtain ⟨⟨q, n⟩, hq, he⟩ := Res.bind_ok_iff.1 hr
      cases he
      obtain ⟨q', hq', hat'⟩ := convNode_at st reg hx hy (.under hat) hq
      rw [hq']
      exact ⟨_, rfl, .rel hat'⟩

end Verif
