import Verif.Proofs.RawLines
/-!
# The least number of lines of a text
-/

namespace Verif
open StoreSpec TextSpec RelSpec PlanSpec PanicSpec RawSpec NestSpec

set_option autoImplicit false

theorem le_nls_tailed (o : Opts) (n : Nat) : ∀ l : List (Nat × Str), l.length ≤ nls (tailed o n l)
  | [] => Nat.zero_le _
  | x :: l => by
    have := le_nls_tailed o n l
    rw [tailed, nls_append, nls_append, nls_append]
    simp only [List.length_cons]
    have e : nls cs!"\n" = 1 := by decide
    omega

theorem le_nls_laid (o : Opts) (n : Nat) (l : List (Nat × Str)) : l.length ≤ nls (laid o.indent n l) + 1 := by
  cases l with
  | nil => exact Nat.zero_le _
  | cons x l =>
    have := le_nls_tailed o n l
    rw [laid_tailed, nls_append, nls_append]
    simp only [List.length_cons]
    omega

section
variable [UTab] [FTab]

theorem le_nls_textRel (env : Env) (n : Nat) (r : Rel) : relLines env.o r ≤ nls (textRel env n r).text + 1 := by
  rw [textRel_laid, ← relLaid_length]
  exact le_nls_laid _ _ _

theorem le_nls_top (env : Env) (r : PlanRel) : topLines env.o r ≤ nls (textPlanRel env r).text + 1 := by
  cases r with
  | rel r => exact le_nls_textRel env 0 r
  | missing => exact Nat.le_refl _
  | root names input =>
    cases input with
    | none => simp [topLines]
    | some r =>
      have := le_nls_textRel env 1 r
      simp only [textPlanRel, Out.text_append, Out.text_s, topLines, nls_append]
      have e : nls cs!"\n" = 1 := by decide
      omega

theorem le_nls_tops (env : Env) : ∀ l : List PlanRel,
    (if l = [] then 1 else (l.map (topLines env.o)).sum + (l.length - 1)) ≤ nls (textPlanRels env l).text + 1
  | [] => Nat.le_refl _
  | [r] => by
    have := le_nls_top env r
    rw [textPlanRels]
    simpa using this
  | r :: x :: l => by
    have h1 := le_nls_top env r
    have h2 := le_nls_tops env (x :: l)
    rw [textPlanRels]
    simp only [Out.text_append, Out.text_s]
    rw [nls_append, nls_append]
    simp only [if_neg (List.cons_ne_nil _ _), List.map_cons, List.sum_cons, List.length_cons] at h2 ⊢
    have : nls cs!"\n\n" = 2 := by decide
    omega

end

theorem le_nls_version (indent : Str) (v : Option Version) : versionLines v ≤ nls (writeVersion indent v) := by
  cases v with
  | none => exact Nat.le_refl _
  | some v =>
    obtain ⟨ma, mi, pa, git, prod⟩ := v
    unfold writeVersion versionLines
    simp only [Version.empty]
    split
    · exact Nat.le_refl _
    · have e3 : nls cs!"\n" = 1 := by decide
      cases prod <;> cases git <;>
        simp only [List.isEmpty_nil, List.isEmpty_cons, if_true, if_false, Bool.false_eq_true, nls_append, e3,
          reduceCtorEq] <;> omega

theorem le_nls_flatMap {α : Type} {f : α → Str} {l : List α} (h : ∀ a ∈ l, 1 ≤ nls (f a)) : l.length ≤ nls (l.flatMap f) := by
  induction l with
  | nil => exact Nat.zero_le _
  | cons a l ih =>
    have h1 := h a List.mem_cons_self
    have h2 := ih fun x hx => h x (List.mem_cons_of_mem _ hx)
    rw [List.flatMap_cons, nls_append, List.length_cons]
    omega

theorem le_nls_kind (st : Store) (indent : Str) (k : Kind) :
    headed (st.exts.countP (·.1.2 == k)) ≤ nls (writeKind st indent k) := by
  unfold writeKind headed
  rw [List.countP_eq_length_filter]
  have e4 : nls cs!"\n" = 1 := by decide
  have key : ∀ l : OMap (Nat × Kind) (Nat × Str), l.length ≤ nls (l.flatMap (declLine indent)) := by
    intro l
    refine le_nls_flatMap fun e _ => ?_
    simp only [declLine, nls_append, e4]
    omega
  generalize st.exts.filter (fun e => e.1.2 == k) = l
  cases l with
  | nil => exact Nat.le_refl _
  | cons e l =>
    have := key (e :: l)
    simp only [List.length_cons] at this
    simp only [nls_append, e4]
    simp only [List.length_cons, Nat.add_eq_zero_iff, Nat.succ_ne_self, and_false, if_false]
    omega

theorem le_nls_exts (st : Store) (indent : Str) :
    extLines st ≤ nls (writeExts st indent) + nls (if st.isEmpty then [] else cs!"\n") := by
  have e4 : nls cs!"\n" = 1 := by decide
  have hurns : headed st.urns.length ≤
      nls (if st.urns.isEmpty then [] else urnsHeader ++ cs!"\n" ++ st.urns.flatMap (urnLine indent)) := by
    have key : st.urns.length ≤ nls (st.urns.flatMap (urnLine indent)) := by
      refine le_nls_flatMap fun e _ => ?_
      simp only [urnLine, nls_append, e4]
      omega
    unfold headed
    cases hu : st.urns with
    | nil => exact Nat.le_refl _
    | cons e l =>
      rw [hu] at key
      simp only [List.length_cons] at key
      simp only [List.isEmpty_cons, Bool.false_eq_true, if_false, nls_append, e4]
      simp only [List.length_cons, Nat.add_eq_zero_iff, Nat.succ_ne_self, and_false, if_false]
      omega
  unfold writeExts extLines
  have he : (st.isEmpty = true) ↔ st.urns = [] ∧ st.exts = [] := by
    simp [Store.isEmpty, List.isEmpty_iff]
  by_cases hs : st.urns = [] ∧ st.exts = []
  · rw [if_pos hs]; exact Nat.zero_le _
  · rw [if_neg (fun h => hs (he.1 h)), if_neg (fun h => hs (he.1 h)), if_neg hs]
    have k1 := le_nls_kind st indent .function
    have k2 := le_nls_kind st indent .type
    have k3 := le_nls_kind st indent .typeVariation
    simp only [nls_append, e4] at hurns ⊢
    omega

theorem le_nls_textPlan [UTab] [FTab] (reg : Registry ExtArgs (List Nat)) (o : Opts) (p : Plan) :
    planLines o p ≤ nls (textPlan reg o p).text := by
  have k1 := le_nls_version o.indent p.version
  have k2 := le_nls_exts (run (history p)) o.indent
  have k3 := le_nls_tops ⟨run (history p), o, reg⟩ p.rels
  have hp : nls (planHeader ++ cs!"\n") = 1 := by decide
  have e4 : nls cs!"\n" = 1 := by decide
  unfold textPlan planLines
  simp only [plan_store, Out.text_append, Out.text_s]
  simp only [nls_append] at hp ⊢
  simp only [List.count_nil] at *
  omega

end Verif
