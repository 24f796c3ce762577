import Verif.Spec.Nested
import Verif.Model.RelConv
/-!
# Relations are written alike at every depth
-/

namespace Verif

set_option autoImplicit false

open NestSpec

/-- Lines, each after a line end. -/
def tailed (o : Opts) (n : Nat) : List (Nat × Str) → Str
  | [] => []
  | l :: ls => cs!"\n" ++ indentAt o (n + l.1) ++ l.2 ++ tailed o n ls

theorem tailed_append (o : Opts) (n : Nat) (a b : List (Nat × Str)) :
    tailed o n (a ++ b) = tailed o n a ++ tailed o n b := by
  induction a with
  | nil => rfl
  | cons l a ih => simp [tailed, ih]

theorem laid_tailed (o : Opts) (n : Nat) (l : Nat × Str) (ls : List (Nat × Str)) :
    laid o.indent n (l :: ls) = indentAt o (n + l.1) ++ l.2 ++ tailed o n ls := by
  induction ls generalizing l with
  | nil => simp [laid, tailed, indentAt]
  | cons m ls ih =>
    have := ih m
    simp only [laid, List.map_cons, List.intersperse, List.flatten_cons, tailed] at this ⊢
    rw [this]
    simp [indentAt]

theorem tailed_cons (o : Opts) (n : Nat) (l : Nat × Str) (ls : List (Nat × Str)) :
    tailed o n (l :: ls) = cs!"\n" ++ laid o.indent n (l :: ls) := by
  rw [laid_tailed]; simp [tailed]

theorem tailed_deeper (o : Opts) (n : Nat) (ls : List (Nat × Str)) :
    tailed o n (deeper ls) = tailed o (n + 1) ls := by
  induction ls with
  | nil => rfl
  | cons l ls ih =>
    have : n + (l.1 + 1) = n + 1 + l.1 := by omega
    simp only [deeper, List.map_cons, tailed, this]
    rw [← ih]; rfl

/-- The lines of rows. -/
def rowsLaid (more : Bool) : List Out → List (Nat × Str)
  | [] => []
  | [r] => [(1, cs!"- " ++ r.text ++ if more then cs!"," else [])]
  | r :: s :: l => (1, cs!"- " ++ r.text ++ cs!",") :: rowsLaid more (s :: l)

theorem rowsLaid_depth (more : Bool) (l : List Out) : ∀ x ∈ rowsLaid more l, x.1 = 1 := by
  induction l with
  | nil => simp [rowsLaid]
  | cons r l ih =>
    cases l with
    | nil => simp [rowsLaid]
    | cons s l =>
      intro x hx
      rcases List.mem_cons.1 hx with rfl | hx
      · rfl
      · exact ih x hx

theorem textRows_laid (o : Opts) (n : Nat) (more : Bool) (l : List Out) :
    cs!"\n" ++ (textRows (indentAt o (n + 1)) more l).text = tailed o n (rowsLaid more l) ++ cs!"\n" := by
  induction l with
  | nil => rfl
  | cons r l ih =>
    cases l with
    | nil => cases more <;> simp [textRows, rowsLaid, tailed]
    | cons s l =>
      simp only [textRows, rowsLaid, tailed, Out.text_append, Out.text_s, List.append_assoc] at ih ⊢
      rw [← ih]
      simp

theorem textRows_sameErrs (p q : Str) (more : Bool) (l : List Out) : (textRows p more l).errs = (textRows q more l).errs := by
  induction l with
  | nil => rfl
  | cons r l ih =>
    cases l with
    | nil => simp [textRows]
    | cons s l => simp only [textRows, Out.errs_append, ih, Out.errs_s]

/-- The lines of a header. -/
def headLaid (o : Opts) (h : Head) : List (Nat × Str) :=
  match h.args with
  | .rows rows named =>
    (0, h.name.text ++ cs!"[") :: (rowsLaid (named ≠ []) rows ++ rowsLaid false named ++
      [(1, cs!"- " ++ (textOutput o h).text ++ cs!"]")])
  | _ => [(0, (textHeader o 0 h).text)]

theorem headLaid_own (o : Opts) (h : Head) : Own (headLaid o h) := by
  unfold headLaid
  split
  · refine ⟨_, _, rfl, fun l hl => ?_⟩
    rcases List.mem_append.1 hl with hl | hl
    · rcases List.mem_append.1 hl with hl | hl
      · exact rowsLaid_depth _ _ l hl
      · exact rowsLaid_depth _ _ l hl
    · rw [List.mem_singleton.1 hl]
  · exact ⟨_, [], rfl, by simp⟩

theorem textHeader_laid (o : Opts) (n : Nat) (h : Head) :
    (textHeader o n h).text = laid o.indent n (headLaid o h) := by
  unfold headLaid
  split
  · next rows named he =>
    rw [laid_tailed]
    have h1 := textRows_laid o n (decide (named ≠ [])) rows
    have h2 := textRows_laid o n false named
    rw [tailed_append, tailed_append]
    simp only [textHeader, he, Out.text_append, Out.text_s, tailed, List.append_assoc, Nat.add_zero, List.append_nil]
    congr 2
    rw [show cs!"[\n" = cs!"[" ++ cs!"\n" from rfl]
    simp only [List.append_assoc]
    congr 1
    rw [← List.append_assoc cs!"\n", h1, List.append_assoc]
    congr 1
    rw [← List.append_assoc cs!"\n", h2, List.append_assoc]
  · next hne =>
    rw [laid_tailed]
    unfold textHeader
    split
    · simp [tailed, indentAt]
    · simp [tailed, indentAt]
    · next he => exact absurd he (hne _ _)

theorem textHeader_sameErrs (o : Opts) (n m : Nat) (h : Head) : (textHeader o n h).errs = (textHeader o m h).errs := by
  unfold textHeader
  split
  · simp
  · simp
  · simp only [Out.errs_append, Out.errs_s]
    rw [textRows_sameErrs _ (indentAt o (m + 1)), textRows_sameErrs _ (indentAt o (m + 1)) false]

theorem textAddenda_laid (o : Opts) (n : Nat) (l : List Out) :
    (textAddenda (indentAt o (n + 1)) l).text = tailed o n (l.map fun a => (1, a.text)) := by
  induction l with
  | nil => rfl
  | cons a l ih => simp [textAddenda, tailed, ih]

theorem textAddenda_sameErrs (p q : Str) (l : List Out) : (textAddenda p l).errs = (textAddenda q l).errs := by
  induction l with
  | nil => rfl
  | cons a l ih => simp [textAddenda, ih]

section
variable [UTab] [FTab]

/-- The lines of a relation without its inputs. -/
def ownLaid (env : Env) (h : Head) : List (Nat × Str) := headLaid env.o h ++ h.addenda.map fun a => (1, a.text)

omit [UTab] [FTab] in
theorem ownLaid_own (env : Env) (h : Head) : Own (ownLaid env h) := by
  obtain ⟨s, rest, he, hr⟩ := headLaid_own env.o h
  refine ⟨s, rest ++ h.addenda.map fun a => (1, a.text), by rw [ownLaid, he]; rfl, fun l hl => ?_⟩
  rcases List.mem_append.1 hl with hl | hl
  · exact hr l hl
  · obtain ⟨a, -, rfl⟩ := List.mem_map.1 hl
    rfl

mutual
/-- The lines of a relation. -/
def relLaid (env : Env) : Rel → List (Nat × Str)
  | .node op ins => ownLaid env (relHead env (inputWidths env ins) op) ++
      if op.keepsInputs then inputLaid env ins else []
def inputLaid (env : Env) : List (Option Rel) → List (Nat × Str)
  | [] => []
  | none :: l => inputLaid env l
  | some r :: l => deeper (relLaid env r) ++ inputLaid env l
end

theorem inputLaid_flatMap (env : Env) (l : List (Option Rel)) :
    inputLaid env l = (l.filterMap id).flatMap fun r => deeper (relLaid env r) := by
  induction l with
  | nil => rfl
  | cons x l ih => cases x <;> simp [inputLaid, ih]

theorem relLaid_ne (env : Env) (r : Rel) : ∃ l ls, relLaid env r = l :: ls := by
  cases r with
  | node op ins =>
    obtain ⟨s, rest, he, -⟩ := ownLaid_own env (relHead env (inputWidths env ins) op)
    exact ⟨(0, s), rest ++ _, by rw [relLaid, he]; rfl⟩

mutual
theorem textRel_laid (env : Env) (n : Nat) (r : Rel) :
    (textRel env n r).text = laid env.o.indent n (relLaid env r) := by
  cases r with
  | node op ins =>
    obtain ⟨s, rest, he, -⟩ := headLaid_own env.o (relHead env (inputWidths env ins) op)
    simp only [textRel, relLaid, ownLaid, Out.text_append]
    rw [textHeader_laid, textAddenda_laid, he]
    simp only [List.cons_append]
    rw [laid_tailed, laid_tailed, tailed_append, tailed_append]
    split
    · rw [textInputs_laid env n ins]; simp
    · simp [tailed]
theorem textInputs_laid (env : Env) (n : Nat) (l : List (Option Rel)) :
    (textInputs env (n + 1) l).text = tailed env.o n (inputLaid env l) := by
  match l with
  | [] => rfl
  | none :: l => rw [textInputs, inputLaid]; exact textInputs_laid env n l
  | some r :: l =>
    obtain ⟨x, ls, hx⟩ := relLaid_ne env r
    rw [textInputs, inputLaid, tailed_append, tailed_deeper, ← textInputs_laid env n l, hx, tailed_cons, ← hx]
    simp only [Out.text_append, Out.text_s]
    rw [textRel_laid env (n + 1) r]
end

mutual
theorem textRel_sameErrs (env : Env) (n m : Nat) (r : Rel) : (textRel env n r).errs = (textRel env m r).errs := by
  cases r with
  | node op ins =>
    simp only [textRel, Out.errs_append]
    rw [textHeader_sameErrs _ n m, textAddenda_sameErrs _ (indentAt env.o (m + 1))]
    split
    · rw [textInputs_sameErrs env (n + 1) (m + 1) ins]
    · rfl
theorem textInputs_sameErrs (env : Env) (n m : Nat) (l : List (Option Rel)) :
    (textInputs env n l).errs = (textInputs env m l).errs := by
  match l with
  | [] => rfl
  | none :: l => rw [textInputs, textInputs]; exact textInputs_sameErrs env n m l
  | some r :: l =>
    rw [textInputs, textInputs]
    simp only [Out.errs_append, Out.errs_s]
    rw [textInputs_sameErrs env n m l, textRel_sameErrs env n m r]
end
end

end Verif
