import Verif.Proofs.TypesErr
/-!
# Property C12: types, and the type part of C38
-/

namespace Verif
open StoreSpec

set_option autoImplicit false

/-- C12 (for the types the parser supports).  Whatever declarations are in force, the text of a
writable type is read back as the same type, in any context that does not continue the type. -/
theorem C12_type_round_trip_partial (h : List Op) (o : Opts) (ho : o.anchors ≠ .never) (t : Ty)
    (ht : Writable (run h) t) (rest : Str) (hr : NextNot typeContinues rest) :
    ∃ s, pType ((textTy (run h) o t).text ++ rest) = some (s, rest) ∧ convTy (run h) s = .ok t := by
  obtain ⟨s, h1, h2⟩ := pType_text (Store.ordered_run h) o ho t ht
  exact ⟨s, h2 rest hr, h1⟩

/-- C12: different writable types have different texts. -/
theorem C12_type_text_injective (h : List Op) (o : Opts) (ho : o.anchors ≠ .never) (t t' : Ty)
    (ht : Writable (run h) t) (ht' : Writable (run h) t')
    (he : (textTy (run h) o t).text = (textTy (run h) o t').text) : t = t' := by
  obtain ⟨s, h1, h2⟩ := C12_type_round_trip_partial h o ho t ht [] (NextNot.nil _)
  obtain ⟨s', h1', h2'⟩ := C12_type_round_trip_partial h o ho t' ht' [] (NextNot.nil _)
  rw [he, h1'] at h1
  cases h1
  rw [h2'] at h2
  cases h2
  rfl

/-- C12: whatever text is read, the type built is one of the supported kinds, without type
variation, with a precision in range and referring to declared types only. -/
theorem C12_parser_builds_supported (h : List Op) (s : STy) (t : Ty) (hc : convTy (run h) s = .ok t) :
    Producible (run h) t := convTy_image (Store.ordered_run h) s t hc

/-- C12 fails as stated: `map`, `struct`, `decimal` and the other kinds the parser does not build are
printed without any error, but no text at all reads back as them. -/
theorem C12_unsupported_kinds_unreadable (h : List Op) (s : STy) (a b : Option Ty) (ts : List Ty)
    (k : LenKind) (i j : Int) (n : Nul) (v r : Nat) :
    convTy (run h) s ≠ .ok (.map a b n v) ∧ convTy (run h) s ≠ .ok (.struct ts n v) ∧
    convTy (run h) s ≠ .ok (.len k i n v) ∧ convTy (run h) s ≠ .ok (.decimal i j n v) ∧
    convTy (run h) s ≠ .ok (.intervalCompound i n v) ∧ convTy (run h) s ≠ .ok (.userRef r) ∧
    convTy (run h) s ≠ .ok (.intervalDay none n v) := by
  have key := C12_parser_builds_supported h s
  refine ⟨?_, ?_, ?_, ?_, ?_, ?_, ?_⟩ <;>
    (intro hc; have := key _ hc; simp [Producible] at this)

/-- C12: the printer reports nothing for `map<i64, i64>`, and reading the text panics. -/
theorem C12_map_panics : ∃ s, (textTy (run []) .default (.map (some (.simple .i64 .required 0)) (some (.simple .i64 .required 0)) .required 0)) =
      .s cs!"map<i64, i64>" ∧
    pType cs!"map<i64, i64>" = some (s, []) ∧ convTy (run []) s = .panic :=
  ⟨_, rfl, rfl, rfl⟩

/-- C12: a declared user-defined type whose name merely begins like a built-in type is printed
without error but read as the built-in type followed by left-over text. -/
theorem C12_prefix_name_misread : let h := [Op.urn cs!"u" 1, .ext .type 1 5 cs!"timeline"]
    textTy (run h) .default (.user 5 [] .required 0) = .s cs!"timeline" ∧
    pType cs!"timeline" = some (.simple cs!"time" .required, cs!"line") := ⟨by rfl, rfl⟩

/-- C12: a declared type called `list` with one parameter is read as the built-in list. -/
theorem C12_list_name_misread : let h := [Op.urn cs!"u" 1, .ext .type 1 5 cs!"list"]
    textTy (run h) .default (.user 5 [.ty (.simple .i64 .required 0)] .required 0) = .s cs!"list<i64>" ∧
    ∃ s, pType cs!"list<i64>" = some (s, []) ∧
      convTy (run h) s = .ok (.list (some (.simple .i64 .required 0)) .required 0) :=
  ⟨by rfl, _, rfl, rfl⟩

/-- A type that meets the hypotheses: a nullable list of a parameterized user-defined type. -/
example : Writable (run [Op.urn cs!"u" 1, .ext .type 1 5 cs!"point"])
    (.list (some (.user 5 [.ty (.prec .timestamp 9 .nullable 0)] .required 0)) .nullable 0) := by
  have hd : Declared (run [Op.urn cs!"u" 1, .ext .type 1 5 cs!"point"]) .type 5 cs!"point" := ⟨1, by decide⟩
  have hn : TypeName cs!"point" ([Param.ty (.prec .timestamp 9 .nullable 0)] = []) :=
    ⟨by decide, by decide, Or.inr (by decide)⟩
  simp only [Writable, WritableParams, true_and, and_true]
  exact ⟨by decide, ⟨_, hd, hn⟩, by decide, by decide⟩

/-- C38, types.  The textifier reports no error exactly when the type is complete: nothing missing,
nullabilities given, all references declared, and no function or alias type.  Failure tokens are
only ever written together with an error. -/
theorem C38_type_errors_exact (h : List Op) (o : Opts) (t : Ty) :
    (textTy (run h) o t).errs = [] ↔ CompleteTy (run h) t := textTy_errs (Store.ordered_run h) o t

example : (textTy (run []) .default (.list (some (.user 3 [] .nullable 0)) .required 0)) =
    ⟨cs!"list<!{type}#3?>", [cs!"type"]⟩ := by decide +kernel

theorem bareName_iff (n b : Str) : BareName n b ↔ baseName n = b := by
  constructor
  · rintro ⟨h, rfl | ⟨sig, rfl⟩⟩
    · exact baseName_of_not_mem h
    · exact baseName_append h
  · rintro rfl
    refine ⟨not_mem_baseName n, ?_⟩
    by_cases hc : ':' ∈ n
    · exact .inr (split_colon hc)
    · exact .inl (baseName_of_not_mem hc).symm

theorem any_twin {s : Store} (hs : s.Ordered) (k : Kind) (a : Nat) (n : Str) :
    (s.exts.any fun e => e.1.2 == k && e.1.1 != a && e.2.2 == n) = true ↔ Twin s k a n := by
  rw [Store.any_other_iff hs k a (fun x => x == n)]
  constructor
  · rintro ⟨b, m, h1, h2, h3⟩
    have : m = n := by simpa using h3
    exact ⟨b, h1, this ▸ h2⟩
  · rintro ⟨b, h1, h2⟩
    exact ⟨b, n, h1, h2, by simp⟩

theorem any_rival {s : Store} (hs : s.Ordered) (a : Nat) (n : Str) :
    (s.exts.any fun e => e.1.2 == .function && e.1.1 != a && baseName e.2.2 == baseName n) = true ↔ Rival s a n := by
  rw [Store.any_other_iff hs .function a (fun x => baseName x == baseName n)]
  constructor
  · rintro ⟨b, m, h1, h2, h3⟩
    exact ⟨b, m, baseName n, h1, h2, (bareName_iff _ _).2 rfl, (bareName_iff _ _).2 (by simpa using h3)⟩
  · rintro ⟨b, m, x, h1, h2, h3, h4⟩
    exact ⟨b, m, h1, h2, by simp [(bareName_iff _ _).1 h3, (bareName_iff _ _).1 h4]⟩

theorem bool_false {b : Bool} {P : Prop} (h : b = true ↔ P) (n : ¬ P) : b = false := by
  cases b with
  | true => exact absurd (h.1 rfl) n
  | false => rfl

/-- C09, exactly what is written for a reference to a declared function `n` with the number `a`; `b` is the name
without the signature.  The signature shows when another function shares the name `b`, the number when this does
not help, and both when the options say so. -/
theorem C09_function_text (h : List Op) (o : Opts) (a : Nat) (n b : Str) (hd : Declared (run h) .function a n)
    (hb : BareName n b) :
    (o.anchors = .never → textAnchor (run h) o .function a = .s b) ∧
    (o.anchors = .always → textAnchor (run h) o .function a = .s (n ++ '#' :: dec a)) ∧
    (o.anchors = .required → ¬ Rival (run h) a n → textAnchor (run h) o .function a = .s b) ∧
    (o.anchors = .required → Rival (run h) a n → ':' ∈ n → ¬ Twin (run h) .function a n →
      textAnchor (run h) o .function a = .s n) ∧
    (o.anchors = .required → Rival (run h) a n → ':' ∉ n ∨ Twin (run h) .function a n →
      textAnchor (run h) o .function a = .s (n ++ '#' :: dec a)) := by
  have hord := Store.ordered_run h
  obtain ⟨u, hu⟩ := hd
  have hl := Store.lookupFunction_ok hord hu
  have hbn := (bareName_iff _ _).1 hb
  have ht := any_twin hord .function a n
  have hr := any_rival hord a n
  have e : ∀ k, k = Kind.function → textAnchor (run h) o k a = .s (NamedAnchor.shownName o.anchors
      ⟨n, a, !((run h).exts.any fun e => e.1.2 == .function && e.1.1 != a && e.2.2 == n),
        !((run h).exts.any fun e => e.1.2 == .function && e.1.1 != a && baseName e.2.2 == baseName n)⟩ ++
      showAnchor (NamedAnchor.shownAnchor o.anchors
        ⟨n, a, !((run h).exts.any fun e => e.1.2 == .function && e.1.1 != a && e.2.2 == n),
        !((run h).exts.any fun e => e.1.2 == .function && e.1.1 != a && baseName e.2.2 == baseName n)⟩)) := by
    rintro _ rfl
    unfold textAnchor NamedAnchor.lookup
    rw [if_pos rfl, hl]
  rw [e _ rfl]
  refine ⟨fun hv => ?_, fun hv => ?_, fun hv h1 => ?_, fun hv h1 h2 h3 => ?_, fun hv h1 h2 => ?_⟩
  · simp [hv, NamedAnchor.shownName, NamedAnchor.shownAnchor, showAnchor, hbn]
  · simp [hv, NamedAnchor.shownName, NamedAnchor.shownAnchor, showAnchor]
  · have h4 : ¬ Twin (run h) .function a n := by
      rintro ⟨c, h5, h6⟩
      exact h1 ⟨c, n, b, h5, h6, hb, hb⟩
    rw [bool_false ht h4, bool_false hr h1]
    simp [hv, NamedAnchor.shownName, NamedAnchor.shownAnchor, showAnchor, hbn]
  · rw [hr.2 h1, bool_false ht h3]
    simp [hv, NamedAnchor.shownName, NamedAnchor.shownAnchor, showAnchor, (hasColon_iff n).2 h2]
  · rw [hr.2 h1]
    rcases h2 with h2 | h2
    · have hc : hasColon n = false := bool_false (hasColon_iff n) h2
      simp [hv, NamedAnchor.shownName, NamedAnchor.shownAnchor, showAnchor, hc]
    · rw [ht.2 h2]
      simp [hv, NamedAnchor.shownName, NamedAnchor.shownAnchor, showAnchor]

/-- C11, exactly what is written for a reference to a declared type or type variation: the name up to a `:`,
which only the options bring to light, and the number when another declaration has the same name. -/
theorem C11_reference_text (h : List Op) (o : Opts) (k : Kind) (hk : k ≠ .function) (a : Nat) (n b : Str)
    (hd : Declared (run h) k a n) (hb : BareName n b) :
    (o.anchors = .never → textAnchor (run h) o k a = .s b) ∧
    (o.anchors = .always → textAnchor (run h) o k a = .s (n ++ '#' :: dec a)) ∧
    (o.anchors = .required → ¬ Twin (run h) k a n → textAnchor (run h) o k a = .s b) ∧
    (o.anchors = .required → Twin (run h) k a n → textAnchor (run h) o k a = .s (b ++ '#' :: dec a)) := by
  have hord := Store.ordered_run h
  have hun := Store.isNameUnique_spec hord hd
  obtain ⟨u, hu⟩ := hd
  have hbn := (bareName_iff _ _).1 hb
  have ht := any_twin hord k a n
  have e : textAnchor (run h) o k a = .s (NamedAnchor.shownName o.anchors
      ⟨n, a, !((run h).exts.any fun e => e.1.2 == k && e.1.1 != a && e.2.2 == n), true⟩ ++
      showAnchor (NamedAnchor.shownAnchor o.anchors
        ⟨n, a, !((run h).exts.any fun e => e.1.2 == k && e.1.1 != a && e.2.2 == n), true⟩)) := by
    unfold textAnchor NamedAnchor.lookup
    rw [if_neg hk, hu]
    simp only [hun]
  rw [e]
  refine ⟨fun hv => ?_, fun hv => ?_, fun hv h1 => ?_, fun hv h1 => ?_⟩
  · simp [hv, NamedAnchor.shownName, NamedAnchor.shownAnchor, showAnchor, hbn]
  · simp [hv, NamedAnchor.shownName, NamedAnchor.shownAnchor, showAnchor]
  · rw [bool_false ht h1]
    simp [hv, NamedAnchor.shownName, NamedAnchor.shownAnchor, showAnchor, hbn]
  · rw [ht.2 h1]
    simp [hv, NamedAnchor.shownName, NamedAnchor.shownAnchor, showAnchor, hbn]

/-- The text of a type from the text of its name and those of its parameters. -/
theorem textifyType_text (st : Store) (o : Opts) (name : Out) (n : Nul) (m : Str) (v : Nat) (l : List Out)
    (hn : nulMark n = some m) : (textifyType st o name n v l).text =
      name.text ++ m ++ (if v = 0 then [] else cs!"[" ++ (textAnchor st o .typeVariation v).text ++ cs!"]") ++
        if l.map (·.text) = [] then [] else cs!"<" ++ (List.intersperse cs!", " (l.map (·.text))).flatten ++ cs!">" := by
  have hm : (textNul n).text = m := by cases n <;> cases hn <;> rfl
  have hs : ∀ l : List Out, (Out.sep cs!", " l).text = (List.intersperse cs!", " (l.map (·.text))).flatten := by
    intro l
    induction l with
    | nil => rfl
    | cons a l ih =>
      cases l with
      | nil => simp [Out.sep]
      | cons b l =>
        simp only [Out.sep, List.map_cons, List.intersperse, List.flatten_cons, Out.text_append, Out.text_s] at ih ⊢
        rw [ih]
        simp
  have hv : (textVariation st o v).text =
      if v = 0 then [] else cs!"[" ++ (textAnchor st o .typeVariation v).text ++ cs!"]" := by
    unfold textVariation
    split <;> simp
  cases l with
  | nil => simp [textifyType, textParamList, hm, hv]
  | cons a l => simp [textifyType, textParamList, hm, hs, hv]

/-- C12, the kinds that cannot be read included: a built-in type is written as its name, the mark of its
nullability, its variation in square brackets and its parameters in angle brackets.  `C11_reference_text` says what
is written for the variation. -/
theorem C12_written_form (st : Store) (o : Opts) (t : Ty) (name : Str) (n : Nul) (ps : List Str) (m : Str)
    (v : Nat) (h : writtenTy (fun t => (textTy st o t).text) t = some (name, n, v, ps)) (hn : nulMark n = some m) :
    (textTy st o t).text = name ++ m ++ (if v = 0 then [] else cs!"[" ++ (textAnchor st o .typeVariation v).text ++ cs!"]") ++
      if ps = [] then [] else cs!"<" ++ (List.intersperse cs!", " ps).flatten ++ cs!">" := by
  have key := fun name l => textifyType_text st o (.s name) n m v l hn
  have htys : ∀ ts, (textTys st o ts).map (·.text) = ts.map fun t => (textTy st o t).text := by
    intro ts
    induction ts with
    | nil => rfl
    | cons t ts ih => simp [textTys, ih]
  match t, h with
  | .simple k _ _, h => cases k <;> cases h <;> exact key _ []
  | .intervalDay (some p) _ _, h => cases h; exact key _ [textIntParam p]
  | .intervalDay none _ _, h => 
    cases h
    have h6 : decInt 6 = cs!"6" := by decide +kernel
    rw [← h6]
    exact key _ [textIntParam 6]
  | .intervalCompound p _ _, h => cases h; exact key _ [textIntParam p]
  | .len k l _ _, h => cases k <;> cases h <;> exact key _ [textIntParam l]
  | .decimal p s _ _, h => cases h; exact key _ [textIntParam p, textIntParam s]
  | .prec k p _ _, h => cases k <;> cases h <;> exact key _ [textIntParam p]
  | .struct ts _ _, h =>
    cases h
    rw [textTy, key, htys]
    rfl
  | .list (some t) _ _, h => cases h; exact key _ [textTy st o t]
  | .map (some a) (some b) _ _, h => cases h; exact key _ [textTy st o a, textTy st o b]

example : (textTy (run []) .default (.map (some (.simple .string .required 0))
    (some (.struct [.decimal 10 2 .nullable 0, .len .varchar 5 .required 0] .required 0)) .nullable 0)).text =
    cs!"map?<string, struct<decimal?<10, 2>, varchar<5>>>" := by decide +kernel

example : let h := [Op.urn cs!"u" 1, .ext .typeVariation 1 5 cs!"dict", .ext .typeVariation 1 6 cs!"dict"]
    (textTy (run h) .default (.list (some (.simple .i8 .required 5)) .nullable 0)).text = cs!"list?<i8[dict#5]>" := by
  decide +kernel

/-- C12.  A user-defined type is written in the same way, with the reference to its declaration as the name;
`C11_reference_text` says what that is.  A parameter is written as `null`, `true`, `false`, a decimal number, the bare
characters of a string or an enumeration value, or a type. -/
theorem C12_user_written (st : Store) (o : Opts) (ref : Nat) (ps : List Param) (n : Nul) (v : Nat) (m : Str)
    (texts : List Str) (hn : nulMark n = some m)
    (hp : ps.map (writtenParam fun t => (textTy st o t).text) = texts.map some) :
    (textTy st o (.user ref ps n v)).text = (textAnchor st o .type ref).text ++ m ++
      (if v = 0 then [] else cs!"[" ++ (textAnchor st o .typeVariation v).text ++ cs!"]") ++
      if texts = [] then [] else cs!"<" ++ (List.intersperse cs!", " texts).flatten ++ cs!">" := by
  have h : (textParams st o ps).map (·.text) = texts := by
    induction ps generalizing texts with
    | nil => cases texts with
      | nil => rfl
      | cons t ts => cases hp
    | cons p ps ih => cases texts with
      | nil => cases hp
      | cons t ts =>
        simp only [List.map_cons, List.cons.injEq] at hp
        simp only [textParams, List.map_cons, ih ts hp.2, List.cons.injEq, and_true]
        have h1 := hp.1
        match p, h1 with
        | .null, h1 => cases h1; rfl
        | .bool true, h1 => cases h1; rfl
        | .bool false, h1 => cases h1; rfl
        | .int i, h1 => cases h1; rfl
        | .enum e, h1 => cases h1; rfl
        | .str e, h1 => cases h1; rfl
        | .ty u, h1 => cases h1; rfl
  rw [textTy, textUser, textifyType_text st o _ n m v _ hn, h]

example : let h := [Op.urn cs!"u" 1, .ext .type 1 5 cs!"point"]
    let ps := [Param.null, .bool false, .bool true, .int (-3), .enum cs!"E", .str cs!"s", .ty (.simple .i8 .nullable 0)]
    (ps.map (writtenParam fun t => (textTy (run h) .default t).text) =
      [cs!"null", cs!"false", cs!"true", cs!"-3", cs!"E", cs!"s", cs!"i8?"].map some) ∧
    (textTy (run h) .default (.user 5 ps .nullable 0)).text = cs!"point?<null, false, true, -3, E, s, i8?>" := by
  decide +kernel

end Verif
