import Verif.Proofs.Blocks
import Verif.Proofs.Store
import Verif.Spec.Plan
/-!
# Reading the written extensions section
-/

namespace Verif
open ChunkSpec SectionSpec PlanSpec

set_option autoImplicit false

theorem skipSp_width3 (n : Nat) (r : Str) : skipSp (width3 n ++ r) = dec n ++ r := by
  unfold width3
  have h : ∀ k, skipSp (List.replicate k ' ' ++ (dec n ++ r)) = dec n ++ r := by
    intro k
    induction k with
    | zero =>
      rw [List.replicate_zero, List.nil_append]
      apply skipSp_of_not
      apply NextNot.append (dec_ne_nil n)
      intro c hc
      have := dec_all_digits n c (List.mem_of_mem_head? hc)
      cases hq : (c == ' ')
      · exact hq
      · rw [beq_iff_eq] at hq; subst hq; revert this; decide
    | succ k ih => rw [List.replicate_succ, List.cons_append, skipSp_space, ih]
  rw [List.append_assoc]
  exact h _

theorem flat_width3 (n : Nat) : Flat (width3 n) := by
  unfold width3
  rw [flat_append]
  refine ⟨?_, flat_dec n⟩
  intro hx
  exact absurd (List.mem_replicate.1 hx).2 (by decide)

theorem pUrnDecl_text {a : Nat} {u : Str} (hu : UrnText u) :
    pUrnDecl ('@' :: (width3 a ++ cs!": " ++ u)) = some ((⟨false, a⟩, u), []) := by
  obtain ⟨hne, hs, -, -⟩ := hu
  have h1 : pUrnAnchor ('@' :: (width3 a ++ cs!": " ++ u)) = some (⟨false, a⟩, ':' :: ' ' :: u) := by
    simp only [pUrnAnchor, lit_cons, lit_nil, if_true, Option.bind_eq_bind, Option.bind_some, List.append_assoc]
    rw [skipSp_width3]
    exact pInteger_dec a (':' :: ' ' :: u) ((nextNot_cons _ _ _).2 (by decide))
  have h2 : ∀ c ∈ u, (c != ' ') = true := by
    intro c hc
    simp only [bne_iff_ne, ne_eq]
    rintro rfl
    exact hs hc
  have h3 : skipSp (' ' :: u) = u := by
    rw [skipSp_space]
    apply skipSp_of_not
    intro c hc
    have := h2 c (List.mem_of_mem_head? hc)
    simpa using this
  have h4 := takeWhile_append_of_all (s := []) h2 (NextNot.nil _)
  rw [List.append_nil] at h4
  simp only [pUrnDecl, h1, Option.bind_eq_bind, Option.bind_some, lit_cons, lit_nil, if_true, h3, h4.1, h4.2]
  rw [if_neg (by simpa using hne)]

theorem declName_function {k : Kind} {n : Str} (h : DeclName k n) : FunctionName n := by
  cases k
  · exact h
  · exact ⟨n, h, Or.inl rfl⟩
  · exact ⟨n, h, Or.inl rfl⟩

theorem functionName_head {n : Str} (h : FunctionName n) : ∃ c t, n = c :: t ∧ isAlpha c = true ∧
    ∀ r, lit cs!"u!" (n ++ r) = none ∨ r.head? = some '!' := by
  obtain ⟨b, hb, h⟩ := h
  obtain ⟨c, t, rfl, hc, ht⟩ := (isIdentifier_iff b).1 hb
  have hbang : ∀ d ∈ t, d ≠ '!' := by
    rintro d hd rfl
    exact absurd (ht _ hd) (by decide)
  have key : ∀ w : Str, w.head? ≠ some '!' → lit cs!"u!" (c :: (t ++ w)) = none := by
    intro w hw
    simp only [lit_cons]
    split
    · cases t with
      | nil =>
        cases w with
        | nil => rfl
        | cons x w =>
          simp only [List.head?_cons, ne_eq, Option.some.injEq] at hw
          simp [Ne.symm hw]
      | cons d t =>
        have := hbang d (by simp)
        simp [Ne.symm this]
    · rfl
  rcases h with rfl | rfl | ⟨r, -, rfl⟩
  · refine ⟨c, t, rfl, hc, fun w => ?_⟩
    by_cases hw : w.head? = some '!'
    · exact Or.inr hw
    · exact Or.inl (key w hw)
  · refine ⟨c, t ++ [':'], rfl, hc, fun w => Or.inl ?_⟩
    have := key (':' :: w) (by simp)
    simpa using this
  · refine ⟨c, t ++ ':' :: r, rfl, hc, fun w => Or.inl ?_⟩
    have := key (':' :: (r ++ w)) (by simp)
    simpa using this

theorem alpha_not_space {c : Char} (h : isAlpha c = true) : c ≠ ' ' := by
  rintro rfl; exact absurd h (by decide)

theorem pExtName_text {n : Str} (h : FunctionName n) : pExtName n = some (n, []) := by
  obtain ⟨c, t, -, -, hl⟩ := functionName_head h
  have h1 : lit cs!"u!" n = none := by
    have := hl []
    rw [List.append_nil] at this
    rcases this with h | h
    · exact h
    · cases h
  have h2 := pFunSig_text (r := []) h (NextNot.nil _)
  rw [List.append_nil] at h2
  simp [pExtName, h1, h2]

theorem pDecl_text {a u : Nat} {n : Str} (h : FunctionName n) :
    pDecl ('#' :: (width3 a ++ cs!" @" ++ width3 u ++ cs!": " ++ n)) = some ((⟨false, a⟩, ⟨false, u⟩, n), []) := by
  obtain ⟨c, t, hn, hc, -⟩ := functionName_head h
  have h1 : pAnchor ('#' :: (width3 a ++ (cs!" @" ++ (width3 u ++ (cs!": " ++ n))))) =
      some (⟨false, a⟩, cs!" @" ++ (width3 u ++ (cs!": " ++ n))) := by
    simp only [pAnchor, lit_cons, lit_nil, if_true, Option.bind_eq_bind, Option.bind_some]
    rw [skipSp_width3]
    exact pInteger_dec a (' ' :: '@' :: (width3 u ++ (cs!": " ++ n))) ((nextNot_cons _ _ _).2 (by decide))
  have h2 : pUrnAnchor (skipSp (cs!" @" ++ (width3 u ++ (cs!": " ++ n)))) = some (⟨false, u⟩, ':' :: ' ' :: n) := by
    show pUrnAnchor (skipSp (' ' :: '@' :: (width3 u ++ (cs!": " ++ n)))) = _
    rw [skipSp_space, skipSp_cons _ _ (by decide)]
    simp only [pUrnAnchor, lit_cons, lit_nil, if_true, Option.bind_eq_bind, Option.bind_some]
    rw [skipSp_width3]
    exact pInteger_dec u (':' :: ' ' :: n) ((nextNot_cons _ _ _).2 (by decide))
  have h3 : skipSp (' ' :: n) = n := by
    rw [skipSp_space, hn]
    exact skipSp_cons _ _ (alpha_not_space hc)
  simp only [List.append_assoc]
  simp only [pDecl, h1, h2, Option.bind_eq_bind, Option.bind_some]
  rw [skipSp_cons _ _ (by decide)]
  simp only [lit_cons, lit_nil, if_true, Option.bind_some, h3, pExtName_text h]

theorem hasUBang_lit (n : Str) : Store.hasUBang n = (lit cs!"u!" n).isSome := by
  unfold Store.hasUBang
  split
  · simp
  · next h =>
    match n, h with
    | [], _ => rfl
    | [c], _ => simp only [lit_cons]; split <;> rfl
    | c :: d :: t, h =>
      simp only [lit_cons]
      split
      · split
        · next h1 h2 => subst h1 h2; exact absurd rfl (h t)
        · rfl
      · rfl

theorem functionName_noBang {n : Str} (h : FunctionName n) : Store.hasUBang n = false := by
  obtain ⟨c, t, -, -, hl⟩ := functionName_head h
  rw [hasUBang_lit]
  have := hl []
  rw [List.append_nil] at this
  rcases this with h | h
  · rw [h]; rfl
  · cases h

theorem normName_declName {k : Kind} {n : Str} (h : DeclName k n) : Store.normName k n = some n := by
  have hb := functionName_noBang (declName_function h)
  unfold Store.normName
  split
  · congr 1
    unfold Store.stripUBang
    split
    · simp [Store.hasUBang] at hb
    · rfl
  · simp [hb]

theorem declName_colon {k : Kind} {n : Str} (h : DeclName k n) : ¬ (k ≠ .function ∧ hasColon n) := by
  rintro ⟨hk, hc⟩
  have hi : isIdentifier n = true := by
    cases k
    · exact absurd rfl hk
    · exact h
    · exact h
  obtain ⟨c, t, rfl, h1, h2⟩ := (isIdentifier_iff n).1 hi
  simp only [hasColon, List.contains_iff_mem, List.mem_cons] at hc
  rcases hc with hc | hc
  · subst hc; exact absurd h1 (by decide)
  · exact absurd (h2 _ hc) (by decide)

theorem not_ws_of_ident {c : Char} (h : isIdentChar c = true) : isWs c = false := by
  simp only [isIdentChar, isAlnum, isAlpha, isUpper, isLower, isDigit, Bool.or_eq_true, Bool.and_eq_true, decide_eq_true_eq,
    beq_iff_eq] at h
  cases hw : isWs c with
  | false => rfl
  | true =>
    simp only [isWs, Bool.or_eq_true, Bool.and_eq_true, decide_eq_true_eq, beq_iff_eq] at hw
    rcases h with h | rfl
    · omega
    · exact absurd hw (by decide)

theorem alnum_ident {c : Char} (h : isAlnum c = true) : isIdentChar c = true := by
  simp [isIdentChar, h]

theorem argCodes_chars {r : Str} (h : ArgCodes r) : r ≠ [] ∧ ∀ c ∈ r, isWs c = false := by
  have h1 : ∀ p, ArgCode p → p ≠ [] ∧ ∀ c ∈ p, isWs c = false := by
    rintro p ⟨u, c, t, rfl, hc, ht⟩
    refine ⟨by simp, ?_⟩
    intro x hx
    rcases List.mem_append.1 hx with hx | hx
    · cases u <;> simp at hx
      rcases hx with rfl | rfl <;> decide
    · rcases List.mem_cons.1 hx with rfl | hx
      · exact not_ws_of_ident (alnum_ident (by simp [isAlnum, hc]))
      · exact not_ws_of_ident (alnum_ident (ht x hx))
  induction h with
  | one p hp => exact h1 p hp
  | more p r hp _ ih =>
    refine ⟨by simp, ?_⟩
    intro x hx
    rcases List.mem_append.1 hx with hx | hx
    · exact (h1 p hp).2 x hx
    · rcases List.mem_cons.1 hx with rfl | hx
      · decide
      · exact ih.2 x hx

theorem functionName_chars {n : Str} (h : FunctionName n) : n ≠ [] ∧ ∀ c ∈ n, isWs c = false := by
  obtain ⟨b, hb, h⟩ := h
  obtain ⟨c, t, rfl, hc, ht⟩ := (isIdentifier_iff b).1 hb
  have h1 : ∀ x ∈ c :: t, isWs x = false := by
    intro x hx
    rcases List.mem_cons.1 hx with rfl | hx
    · exact not_ws_of_ident (alnum_ident (by simp [isAlnum, hc]))
    · exact not_ws_of_ident (ht x hx)
  rcases h with rfl | rfl | ⟨r, hr, rfl⟩
  · exact ⟨by simp, h1⟩
  · refine ⟨by simp, ?_⟩
    intro x hx
    rcases List.mem_append.1 hx with hx | hx
    · exact h1 x hx
    · simp at hx; subst hx; decide
  · refine ⟨by simp, ?_⟩
    intro x hx
    rcases List.mem_append.1 hx with hx | hx
    · exact h1 x hx
    · rcases List.mem_cons.1 hx with rfl | hx
      · decide
      · exact (argCodes_chars hr).2 x hx

theorem endClean_append {a b : Str} (h : b ≠ []) (hb : ∀ c, b.getLast? = some c → isWs c = false) : EndClean (a ++ b) := by
  intro c hc
  rw [getLast?_append_ne _ _ h] at hc
  exact hb c hc

namespace PState

/-- A line of the extensions section. -/
theorem runLines_ext {st : PState planLang} (hs : st.sec = .extensions) (d : Nat) {c : Char} {s : Str}
    (hf : Flat (c :: s)) (hc : isWs c = false) (hne : c ≠ '=') (hcl : EndClean (c :: s)) {e : ExtState}
    (he : ExtState.line st.ext ⟨d, c :: s⟩ = .ok e) (rest : Str) :
    runLines st (physLines ((List.replicate (2 * d) ' ' ++ c :: s) ++ '\n' :: rest)) =
      runLines { st with ext := e } (physLines rest) := by
  have hflat : Flat (List.replicate (2 * d) ' ' ++ c :: s) := by
    rw [flat_append]
    refine ⟨?_, hf⟩
    intro hx
    exact absurd (List.mem_replicate.1 hx).2 (by decide)
  have hind := indentedLine_at d s hc
  rw [trimEnd_clean _ hcl] at hind
  rw [physLines_nl _ _ hflat, runLines_cons st _ _ (takeWhile_not_plan _ (by rw [hs]; simp) _ _), parseLine_nl]
  · have : st.parseLine (List.replicate (2 * d) ' ' ++ c :: s) = .ok { st with ext := e } := by
      unfold parseLine
      rw [hind]
      simp only
      rw [if_neg, hs]
      · simp only [planLang, he, Res.mapErr]
      · rintro ⟨-, h4⟩
        simp [stripPrefix, Ne.symm hne] at h4
    rw [this]
    rfl
  · rw [trimEnd_append_ws _ _ (by intro x hx; simp at hx; subst hx; decide)]
    intro hx
    rw [trimEnd_eq_nil_iff] at hx
    rw [hx c (by simp)] at hc
    cases hc

/-- The header of a section. -/
theorem runLines_header {L : Lang} {st : PState L} {h : Str} {next : Sec}
    (hh : (h = extensionsHeader ∧ next = .extensions) ∨ (h = planHeader ∧ next = .plan))
    (hr : st.sec.rank < next.rank) {rest : Str} (hd : NoDash rest) :
    runLines st (physLines (h ++ '\n' :: rest)) = runLines { st with sec := next } (physLines rest) := by
  have hflat : Flat h := by rcases hh with ⟨rfl, -⟩ | ⟨rfl, -⟩ <;> decide
  rw [physLines_nl _ _ hflat, runLines_cons st _ _ (not_continues _ _ hd), parseLine_nl]
  · have : st.parseLine h = .ok { st with sec := next } := by
      rcases hh with ⟨rfl, rfl⟩ | ⟨rfl, rfl⟩
      · have : indentedLine extensionsHeader = ⟨0, extensionsHeader⟩ := by decide
        unfold parseLine
        rw [this]
        simp only
        rw [if_pos ⟨trivial, by decide⟩]
        simp only [sectionHeader, if_true]
        rw [if_neg (by omega)]
      · have : indentedLine planHeader = ⟨0, planHeader⟩ := by decide
        unfold parseLine
        rw [this]
        simp only
        rw [if_pos ⟨trivial, by decide⟩]
        simp only [sectionHeader, if_true]
        rw [if_neg (by decide)]
        simp only
        rw [if_neg (by omega)]
    rw [this]
    rfl
  · rcases hh with ⟨rfl, -⟩ | ⟨rfl, -⟩ <;> decide

theorem runLines_urns (l : OMap Nat Str) (hl : ∀ e ∈ l, e.1 < 2 ^ 32 ∧ UrnText e.2) {st : PState planLang}
    (hs : st.sec = .extensions) {s0 : Store} (he : st.ext = (⟨.urns, s0⟩ : ExtState))
    (hsort : OMap.Sorted (s0.urns ++ l)) (rest : Str) :
    runLines st (physLines (l.flatMap (urnLine cs!"  ") ++ rest)) =
      runLines { st with ext := (⟨.urns, { s0 with urns := s0.urns ++ l }⟩ : ExtState) } (physLines rest) := by
  induction l generalizing st s0 with
  | nil =>
    simp only [List.flatMap_nil, List.nil_append, List.append_nil]
    rw [← he]
  | cons e l ih =>
    obtain ⟨a, u⟩ := e
    obtain ⟨ha, hu⟩ := hl (a, u) (by simp)
    have hlt : ∀ e ∈ s0.urns, Key.rank e.1 < Key.rank a := fun e he =>
      (List.pairwise_append.1 hsort).2.2 e he (a, u) List.mem_cons_self
    have hnone : OMap.find? s0.urns a = none := by
      cases hf : OMap.find? s0.urns a with
      | none => rfl
      | some x => have := hlt _ (OMap.find?_mem hf); simp only at this; omega
    have hline : ExtState.line ⟨.urns, s0⟩ ⟨1, '@' :: (width3 a ++ cs!": " ++ u)⟩ =
        .ok ⟨.urns, { s0 with urns := s0.urns ++ [(a, u)] }⟩ := by
      unfold ExtState.line
      rw [if_neg (by simp)]
      simp only
      rw [if_neg (by decide), if_pos trivial]
      unfold ExtState.urn
      rw [pUrnDecl_text hu]
      have : (⟨false, a⟩ : IntTok).toU32 = some a := by simp [IntTok.toU32, ha]
      simp only [this]
      rw [if_neg (by simp)]
      simp only [Store.addUrn, hnone, ExtState.inserted]
      rw [OMap.insertNew_last hlt]
    have hstep := runLines_ext (st := st) hs 1 (c := '@') (s := width3 a ++ cs!": " ++ u)
      (by have := flat_width3 a; simp [this]; exact hu.2.2.1) (by decide) (by decide)
      (by rw [← List.cons_append]; exact endClean_append hu.1 hu.2.2.2) (by rw [he]; exact hline)
      (l.flatMap (urnLine cs!"  ") ++ rest)
    have htext : List.flatMap (urnLine cs!"  ") ((a, u) :: l) ++ rest =
        (List.replicate (2 * 1) ' ' ++ '@' :: (width3 a ++ cs!": " ++ u)) ++ '\n' :: (l.flatMap (urnLine cs!"  ") ++ rest) := by
      simp [urnLine, List.replicate]
    rw [htext, hstep]
    have := ih (fun e he => hl e (by simp [he])) (st := { st with ext := (⟨.urns, { s0 with urns := s0.urns ++ [(a, u)] }⟩ : ExtState) })
      hs (s0 := { s0 with urns := s0.urns ++ [(a, u)] }) rfl (by simpa using hsort)
    rw [this]
    simp

theorem runLines_decls (k : Kind) (l : List ((Nat × Kind) × (Nat × Str)))
    (hl : ∀ e ∈ l, e.1.2 = k ∧ e.1.1 < 2 ^ 32 ∧ e.2.1 < 2 ^ 32 ∧ DeclName k e.2.2) {st : PState planLang}
    (hs : st.sec = .extensions) {s0 : Store} (he : st.ext = (⟨.decls k, s0⟩ : ExtState))
    (hdecl : ∀ e ∈ l, (s0.urns.find? e.2.1).isSome)
    (hsort : OMap.Sorted s0.exts) (hnew : ∀ e ∈ l, s0.exts.find? e.1 = none) (hdis : OMap.Sorted l) (rest : Str) :
    ∃ s1 : Store, s1.urns = s0.urns ∧ OMap.Sorted s1.exts ∧ (∀ e, e ∈ s1.exts ↔ e ∈ s0.exts ∨ e ∈ l) ∧
    runLines st (physLines (l.flatMap (declLine cs!"  ") ++ rest)) =
      runLines { st with ext := (⟨.decls k, s1⟩ : ExtState) } (physLines rest) := by
  induction l generalizing st s0 with
  | nil =>
    refine ⟨s0, rfl, hsort, by simp, ?_⟩
    simp only [List.flatMap_nil, List.nil_append]
    rw [← he]
  | cons e l ih =>
    obtain ⟨⟨a, k'⟩, ⟨u, n⟩⟩ := e
    obtain ⟨hk, ha, hu, hn⟩ := hl ((a, k'), (u, n)) (by simp)
    simp only at hk ha hu hn
    subst hk
    have hfn := declName_function hn
    have hnone : s0.exts.find? (a, k') = none := hnew ((a, k'), (u, n)) (by simp)
    have hurn := hdecl ((a, k'), (u, n)) (by simp)
    have hline : ExtState.line ⟨.decls k', s0⟩ ⟨1, '#' :: (width3 a ++ cs!" @" ++ width3 u ++ cs!": " ++ n)⟩ =
        .ok ⟨.decls k', { s0 with exts := s0.exts.insertNew (a, k') (u, n) }⟩ := by
      unfold ExtState.line
      rw [if_neg (by simp)]
      simp only
      rw [if_neg (by decide), if_pos trivial]
      unfold ExtState.decl
      rw [pDecl_text hfn]
      have h1 : (⟨false, a⟩ : IntTok).toU32 = some a := by simp [IntTok.toU32, ha]
      have h2 : (⟨false, u⟩ : IntTok).toU32 = some u := by simp [IntTok.toU32, hu]
      simp only [h1, h2]
      rw [if_neg (by simp), if_neg (by simp [functionName_noBang hfn]), if_neg (declName_colon hn)]
      have hm : (s0.urns.find? u).isNone = false := by
        cases h : s0.urns.find? u with
        | none => simp [h] at hurn
        | some => rfl
      simp [Store.addExt, normName_declName hn, hnone, ExtState.inserted, hm]
    have hch := functionName_chars hfn
    have hstep := runLines_ext (st := st) hs 1 (c := '#') (s := width3 a ++ cs!" @" ++ width3 u ++ cs!": " ++ n)
      (by simp [flat_width3, flat_functionName hfn]) (by decide) (by decide)
      (by rw [← List.cons_append]; exact endClean_append hch.1 (fun c hc => hch.2 c (List.mem_of_getLast? hc)))
      (by rw [he]; exact hline)
      (l.flatMap (declLine cs!"  ") ++ rest)
    have htext : List.flatMap (declLine cs!"  ") (((a, k'), (u, n)) :: l) ++ rest =
        (List.replicate (2 * 1) ' ' ++ '#' :: (width3 a ++ cs!" @" ++ width3 u ++ cs!": " ++ n)) ++
          '\n' :: (l.flatMap (declLine cs!"  ") ++ rest) := by
      simp [declLine, List.replicate]
    rw [htext, hstep]
    have hins : ∀ e, e ∈ s0.exts.insertNew (a, k') (u, n) ↔ e ∈ s0.exts ∨ e = ((a, k'), (u, n)) := by
      intro e
      constructor
      · intro h
        rcases OMap.mem_insertNew h with h | h
        · exact Or.inr h
        · exact Or.inl h
      · rintro (h | rfl)
        · exact OMap.mem_insertNew_of_mem h
        · apply OMap.find?_mem
          rw [OMap.find?_insertNew hsort, hnone]
          simp
    have hp := List.pairwise_cons.1 hdis
    obtain ⟨s1, h1, h2, h3, h4⟩ := ih (fun e he => hl e (by simp [he]))
      (st := { st with ext := (⟨.decls k', { s0 with exts := s0.exts.insertNew (a, k') (u, n) }⟩ : ExtState) })
      hs (s0 := { s0 with exts := s0.exts.insertNew (a, k') (u, n) }) rfl (fun e he => hdecl e (by simp [he]))
      (OMap.sorted_insertNew hsort)
      (by
        intro e he
        simp only
        rw [OMap.find?_insertNew hsort, hnew e (by simp [he])]
        have := hp.1 e he
        simp only
        rw [if_neg (by simp only at this; omega)])
      hp.2
    refine ⟨s1, h1, h2, ?_, h4⟩
    intro e
    rw [h3 e]
    simp only [hins, List.mem_cons]
    constructor
    · rintro ((h | h) | h)
      · exact Or.inl h
      · exact Or.inr (Or.inl h)
      · exact Or.inr (Or.inr h)
    · rintro (h | h | h)
      · exact Or.inl (Or.inl h)
      · exact Or.inl (Or.inr h)
      · exact Or.inr h

theorem runLines_kind (s : Store) (hso : s.Ordered) (hsp : Sound s) (k : Kind) {st : PState planLang}
    (hs : st.sec = .extensions) {x : ExtExpect} {s0 : Store} (he : st.ext = (⟨x, s0⟩ : ExtState))
    (hu : s0.urns = s.urns) (hsort : OMap.Sorted s0.exts) (hsub : ∀ e ∈ s0.exts, e ∈ s.exts ∧ e.1.2 ≠ k) (rest : Str) :
    ∃ (y : ExtExpect) (s1 : Store), s1.urns = s.urns ∧ OMap.Sorted s1.exts ∧
      (∀ e, e ∈ s1.exts ↔ e ∈ s0.exts ∨ (e ∈ s.exts ∧ e.1.2 = k)) ∧
      runLines st (physLines (writeKind s cs!"  " k ++ rest)) =
        runLines { st with ext := (⟨y, s1⟩ : ExtState) } (physLines rest) := by
  unfold writeKind
  generalize hfl : s.exts.filter (fun e => e.1.2 == k) = l
  have hmem : ∀ e, e ∈ l ↔ e ∈ s.exts ∧ e.1.2 = k := by
    intro e; rw [← hfl]; simp
  cases l with
  | nil =>
    refine ⟨x, s0, hu, hsort, ?_, ?_⟩
    · intro e
      have := hmem e
      simp only [List.not_mem_nil, false_iff] at this
      simp [this]
    · simp only [List.nil_append]
      rw [← he]
  | cons e0 l =>
    have hdis : OMap.Sorted (e0 :: l) := by
      rw [← hfl]
      exact List.Pairwise.filter _ hso.2
    simp only
    have hhead : ExtState.line ⟨x, s0⟩ ⟨0, k.header⟩ = .ok ⟨.decls k, s0⟩ := by
      unfold ExtState.line
      cases k <;> cases x <;> rfl
    obtain ⟨c, t, hct, hc, hc', hfl', hcl⟩ : ∃ c t, k.header = c :: t ∧ isWs c = false ∧ c ≠ '=' ∧ Flat (c :: t) ∧
        EndClean (c :: t) := by
      cases k
      · exact ⟨'F', _, rfl, by decide, by decide, by decide, by intro c hc; cases hc; decide⟩
      · exact ⟨'T', _, rfl, by decide, by decide, by decide, by intro c hc; cases hc; decide⟩
      · exact ⟨'T', _, rfl, by decide, by decide, by decide, by intro c hc; cases hc; decide⟩
    rw [hct] at hhead
    have hstep := runLines_ext (st := st) hs 0 hfl' hc hc' hcl (by rw [he]; exact hhead)
      ((e0 :: l).flatMap (declLine cs!"  ") ++ rest)
    obtain ⟨s1, h1, h2, h3, h4⟩ := runLines_decls k (e0 :: l)
      (by
        intro e he
        obtain ⟨hm, hk⟩ := (hmem e).1 he
        obtain ⟨u, hu'⟩ := hsp.declared e hm
        have := hsp.decls e hm
        rw [hk] at this
        exact ⟨hk, this.1, (hsp.urns _ hu').1, this.2⟩)
      (st := { st with ext := (⟨.decls k, s0⟩ : ExtState) }) hs (s0 := s0) rfl
      (by
        intro e he
        obtain ⟨hm, -⟩ := (hmem e).1 he
        obtain ⟨u, hu'⟩ := hsp.declared e hm
        rw [hu, OMap.mem_find? hso.1 hu']
        rfl)
      hsort
      (by
        intro e he
        cases hf : s0.exts.find? e.1 with
        | none => rfl
        | some v =>
          have := (hsub _ (OMap.find?_mem hf)).2
          exact absurd ((hmem e).1 he).2 this)
      hdis rest
    refine ⟨.decls k, s1, h1.trans hu, h2, ?_, ?_⟩
    · intro e; rw [h3 e, hmem e]
    · have htext : k.header ++ cs!"\n" ++ List.flatMap (declLine cs!"  ") (e0 :: l) ++ rest =
          (List.replicate (2 * 0) ' ' ++ c :: t) ++ '\n' :: (List.flatMap (declLine cs!"  ") (e0 :: l) ++ rest) := by
        rw [hct]; simp
      rw [htext, hstep, h4]

/-- Reading back a written extensions section. -/
theorem runLines_writeExts (s : Store) (hso : s.Ordered) (hsp : Sound s) (hne : s.isEmpty = false)
    {st : PState planLang} (hs : st.sec.rank < 2) (he : st.ext = ExtState.init) {rest : Str} (hr : NoDash rest) :
    ∃ x : ExtExpect, runLines st (physLines (writeExts s cs!"  " ++ rest)) =
      runLines { st with sec := .extensions, ext := (⟨x, s⟩ : ExtState) } (physLines rest) := by
  have hempty : ∀ (t : Str), ∃ x : ExtExpect, runLines { st with sec := .extensions }
        (physLines ((if s.urns.isEmpty then [] else urnsHeader ++ cs!"\n" ++ s.urns.flatMap (urnLine cs!"  ")) ++ t)) =
      runLines { st with sec := .extensions, ext := (⟨x, ⟨s.urns, []⟩⟩ : ExtState) } (physLines t) := by
    intro t
    cases hu : s.urns with
    | nil =>
      refine ⟨.extensions, ?_⟩
      simp only [List.isEmpty_nil, if_true, List.nil_append]
      have : ({ st with sec := .extensions } : PState planLang) = { st with sec := .extensions, ext := (⟨.extensions, ⟨[], []⟩⟩ : ExtState) } := by
        rw [he]; rfl
      rw [this]
    | cons e0 l =>
      refine ⟨.urns, ?_⟩
      rw [if_neg (by simp), ← hu]
      have hstep := runLines_ext (st := { st with sec := .extensions }) rfl 0 (c := 'U') (s := cs!"RNs:") (by decide)
        (by decide) (by decide) (by intro c hc; cases hc; decide) (e := ⟨.urns, .empty⟩)
        (by
          show ExtState.line st.ext _ = _
          rw [he]; rfl)
        (s.urns.flatMap (urnLine cs!"  ") ++ t)
      have htext : urnsHeader ++ cs!"\n" ++ s.urns.flatMap (urnLine cs!"  ") ++ t =
          (List.replicate (2 * 0) ' ' ++ 'U' :: cs!"RNs:") ++ '\n' :: (s.urns.flatMap (urnLine cs!"  ") ++ t) := by
        simp [urnsHeader]
      rw [htext, hstep]
      exact runLines_urns s.urns hsp.urns (st := { st with sec := .extensions, ext := (⟨.urns, .empty⟩ : ExtState) }) rfl rfl
        (by simpa [Store.empty] using hso.1) t
  have htext : writeExts s cs!"  " ++ rest = extensionsHeader ++ '\n' ::
      ((if s.urns.isEmpty then [] else urnsHeader ++ cs!"\n" ++ s.urns.flatMap (urnLine cs!"  ")) ++
        (writeKind s cs!"  " .function ++ (writeKind s cs!"  " .type ++ (writeKind s cs!"  " .typeVariation ++ rest)))) := by
    unfold writeExts
    rw [if_neg (by simp [hne])]
    simp
  have hkind : ∀ k t, NoDash t → NoDash (writeKind s cs!"  " k ++ t) := by
    intro k t ht
    unfold writeKind
    split
    · exact ht
    · cases k
      · exact noDash_spaces 0 (c := 'F') _ (by decide) (by decide)
      · exact noDash_spaces 0 (c := 'T') _ (by decide) (by decide)
      · exact noDash_spaces 0 (c := 'T') _ (by decide) (by decide)
  have hd : NoDash ((if s.urns.isEmpty then [] else urnsHeader ++ cs!"\n" ++ s.urns.flatMap (urnLine cs!"  ")) ++
        (writeKind s cs!"  " .function ++ (writeKind s cs!"  " .type ++ (writeKind s cs!"  " .typeVariation ++ rest)))) := by
    split
    · exact hkind _ _ (hkind _ _ (hkind _ _ hr))
    · exact noDash_spaces 0 (c := 'U') _ (by decide) (by decide)
  rw [htext, runLines_header (Or.inl ⟨rfl, rfl⟩) hs hd]
  obtain ⟨x0, h0⟩ := hempty (writeKind s cs!"  " .function ++ (writeKind s cs!"  " .type ++ (writeKind s cs!"  " .typeVariation ++ rest)))
  rw [h0]
  obtain ⟨x1, s1, hu1, ho1, hm1, h1⟩ := runLines_kind s hso hsp .function
    (st := { st with sec := .extensions, ext := (⟨x0, ⟨s.urns, []⟩⟩ : ExtState) }) rfl rfl rfl (by simp [OMap.Sorted]) (by simp)
    (writeKind s cs!"  " .type ++ (writeKind s cs!"  " .typeVariation ++ rest))
  rw [h1]
  obtain ⟨x2, s2, hu2, ho2, hm2, h2⟩ := runLines_kind s hso hsp .type
    (st := { st with sec := .extensions, ext := (⟨x1, s1⟩ : ExtState) }) rfl rfl hu1 ho1
    (by intro e he; have := (hm1 e).1 he; simp at this; exact ⟨this.1, by rw [this.2]; decide⟩)
    (writeKind s cs!"  " .typeVariation ++ rest)
  rw [h2]
  obtain ⟨x3, s3, hu3, ho3, hm3, h3⟩ := runLines_kind s hso hsp .typeVariation
    (st := { st with sec := .extensions, ext := (⟨x2, s2⟩ : ExtState) }) rfl rfl hu2 ho2
    (by
      intro e he
      have := (hm2 e).1 he
      rw [hm1 e] at this
      simp at this
      rcases this with h | h
      · exact ⟨h.1, by rw [h.2]; decide⟩
      · exact ⟨h.1, by rw [h.2]; decide⟩)
    rest
  rw [h3]
  refine ⟨x3, ?_⟩
  have : s3 = s := by
    have hx : s3.exts = s.exts := by
      apply OMap.sorted_ext ho3 hso.2
      intro e
      rw [hm3 e, hm2 e, hm1 e]
      have hk : e.1.2 = .function ∨ e.1.2 = .type ∨ e.1.2 = .typeVariation := by cases e.1.2 <;> simp
      simp only [List.not_mem_nil, false_or]
      constructor
      · rintro ((h | h) | h) <;> exact h.1
      · intro h
        rcases hk with hk | hk | hk
        · exact Or.inl (Or.inl ⟨h, hk⟩)
        · exact Or.inl (Or.inr ⟨h, hk⟩)
        · exact Or.inr ⟨h, hk⟩
    cases s; cases s3; simp only at hu3 hx; rw [hu3, hx]
  rw [this]

end PState
end Verif
