import Verif.Proofs.RelLine
import Verif.Proofs.SectionRun
/-!
# Printed values stay on one line
-/

namespace Verif
open StoreSpec TextSpec RelSpec

set_option autoImplicit false

/-- No line break. -/
def Flat (s : Str) : Prop := '\n' ∉ s

@[simp] theorem flat_nil : Flat [] := by simp [Flat]
@[simp] theorem flat_cons (c : Char) (s : Str) : Flat (c :: s) ↔ c ≠ '\n' ∧ Flat s := by
  simp [Flat, eq_comm]
@[simp] theorem flat_append (a b : Str) : Flat (a ++ b) ↔ Flat a ∧ Flat b := by simp [Flat]

theorem flat_of_forall {p : Char → Bool} (hp : p '\n' = false) {s : Str} (h : ∀ c ∈ s, p c = true) : Flat s := by
  intro hm
  rw [h _ hm] at hp
  cases hp

theorem flat_dec (n : Nat) : Flat (dec n) := newline_not_dec n

theorem flat_decInt (i : Int) : Flat (decInt i) := by
  unfold decInt
  split <;> simp [flat_dec]

theorem flat_identifier {s : Str} (h : isIdentifier s = true) : Flat s := by
  obtain ⟨c, t, rfl, hc, ht⟩ := (isIdentifier_iff s).1 h
  refine (flat_cons _ _).2 ⟨?_, flat_of_forall (by decide) ht⟩
  rintro rfl
  exact absurd hc (by decide)

theorem hexChar_ne_nl (n : Nat) (h : n < 16) : hexChar n ≠ '\n' := by
  have key : ∀ m : Fin 16, hexChar m.1 ≠ '\n' := by decide
  exact key ⟨n, h⟩

theorem flat_hex (n : Nat) : Flat (hex n) := by
  induction n using Nat.strongRecOn with
  | _ n ih =>
    rw [hex]
    split
    · rename_i h
      exact (flat_cons _ _).2 ⟨hexChar_ne_nl n h, flat_nil⟩
    · rename_i h
      refine (flat_append _ _).2 ⟨ih _ (by omega), (flat_cons _ _).2 ⟨hexChar_ne_nl _ (by omega), flat_nil⟩⟩

theorem flat_escChar [UTab] (first : Bool) (c : Char) : Flat (escChar first c) := by
  unfold escChar
  repeat' split
  all_goals first
    | decide
    | (simp [escUnicode, flat_hex]; done)
    | (simp only [flat_cons, flat_nil, and_true]; assumption)

instance (s : Str) : Decidable (Flat s) := by unfold Flat; infer_instance

theorem flat_escape [UTab] (s : Str) : Flat (escape s) := by
  cases s with
  | nil => exact flat_nil
  | cons c s =>
    refine (flat_append _ _).2 ⟨flat_escChar _ _, ?_⟩
    intro h
    obtain ⟨d, _, hd⟩ := List.mem_flatMap.1 h
    exact flat_escChar _ _ hd

theorem flat_showString [UTab] (s : Str) : Flat (showString s) := by
  simp [showString, flat_escape]

theorem flat_showName [UTab] (s : Str) : Flat (showName s) := by
  unfold showName
  split
  · exact flat_identifier ‹_›
  · simp [flat_escape]

theorem flat_floatText {x : Str} (h : FloatText x) : Flat x := by
  obtain ⟨neg, ds, fs, -, -, hd, hf, rfl⟩ := h
  have h1 := flat_of_forall (p := isDigit) (by decide) hd
  have h2 := flat_of_forall (p := isDigit) (by decide) hf
  cases neg <;> simp [h1, h2]

theorem flat_argCode {p : Str} (h : ArgCode p) : Flat p := by
  obtain ⟨u, c, t, rfl, hc, ht⟩ := h
  have h1 := flat_of_forall (p := isAlnum) (by decide) ht
  have h2 : c ≠ '\n' := by rintro rfl; exact absurd hc (by decide)
  cases u <;> simp [h1, h2]

theorem flat_argCodes {p : Str} (h : ArgCodes p) : Flat p := by
  induction h with
  | one p h => exact flat_argCode h
  | more p r h _ ih => simp [flat_argCode h, ih]

theorem flat_functionName {n : Str} (h : FunctionName n) : Flat n := by
  obtain ⟨b, hb, rfl | rfl | ⟨r, hr, rfl⟩⟩ := h
  · exact flat_identifier hb
  · simp [flat_identifier hb]
  · simp [flat_identifier hb, flat_argCodes hr]

theorem flat_showAnchor (a : Option Nat) : Flat (showAnchor a) := by
  cases a <;> simp [showAnchor, flat_dec]

theorem flat_joinS {sp : Str} (hs : Flat sp) {l : List Str} (h : ∀ x ∈ l, Flat x) : Flat (joinS sp l) := by
  induction l with
  | nil => exact flat_nil
  | cons a l ih =>
    cases l with
    | nil => exact h a (by simp)
    | cons b l =>
      simp only [joinS, flat_append]
      exact ⟨⟨h a (by simp), hs⟩, ih fun x hx => h x (by simp [hx])⟩

theorem flat_sep {sp : Str} (hs : Flat sp) {l : List Out} (h : ∀ x ∈ l, Flat x.text) : Flat (Out.sep sp l).text := by
  rw [Out.text_sep]
  exact flat_joinS hs (by simpa using h)

/-! ### Types -/

theorem flat_textNul (n : Nul) : Flat (textNul n).text := by cases n <;> decide

theorem flat_paramList {l : List Out} (h : ∀ x ∈ l, Flat x.text) : Flat (textParamList l).text := by
  cases l with
  | nil => exact flat_nil
  | cons a l =>
    have := flat_sep (sp := cs!", ") (by decide) h
    simp [textParamList, this]

theorem flat_textifyType {st : Store} {o : Opts} {name : Out} {n : Nul} {ps : List Out} (hn : Flat name.text)
    (h : ∀ x ∈ ps, Flat x.text) : Flat (textifyType st o name n 0 ps).text := by
  simp [textifyType, textVariation_zero, hn, flat_textNul, flat_paramList h]

mutual
theorem flat_textTy {st : Store} (hst : st.Ordered) (o : Opts) (ho : o.anchors ≠ .never) :
    ∀ t, Writable st t → Flat (textTy st o t).text
  | .simple k n v, h => by
    cases (show v = 0 from h)
    exact flat_textifyType (by cases k <;> decide) (by simp)
  | .intervalDay (some p) n v, h => by
    obtain ⟨rfl, _⟩ := (h : v = 0 ∧ _)
    exact flat_textifyType (by decide) (by simp [textIntParam, flat_decInt])
  | .prec k p n v, h => by
    obtain ⟨rfl, _⟩ := (h : v = 0 ∧ _)
    exact flat_textifyType (by cases k <;> decide) (by simp [textIntParam, flat_decInt])
  | .list (some t) n v, h => by
    obtain ⟨rfl, h⟩ := (h : v = 0 ∧ _)
    exact flat_textifyType (by decide) (by simp [textTyOpt, flat_textTy hst o ho t h])
  | .user ref ps n v, h => by
    obtain ⟨rfl, _, ⟨name, hd, hn⟩, hp⟩ := (h : v = 0 ∧ _)
    obtain ⟨a, ha, _⟩ := textAnchor_type hst o ho ref name hd hn.1
    refine flat_textifyType ?_ (flat_textParams hst o ho ps hp)
    rw [ha]
    simp [flat_identifier hn.1, flat_showAnchor]
  | .missing, h => by cases h
  | .intervalDay none _ _, h => by cases h
  | .intervalCompound .., h => by cases h
  | .len .., h => by cases h
  | .decimal .., h => by cases h
  | .struct .., h => by cases h
  | .list none _ _, h => by cases h
  | .map .., h => by cases h
  | .userRef _, h => by cases h
  | .func, h => by cases h
  | .alias, h => by cases h
theorem flat_textParams {st : Store} (hst : st.Ordered) (o : Opts) (ho : o.anchors ≠ .never) :
    ∀ ps, WritableParams st ps → ∀ x ∈ textParams st o ps, Flat x.text
  | [], _ => by simp [textParams]
  | .ty t :: ps, h => by
    intro x hx
    rcases List.mem_cons.1 hx with rfl | hx
    · exact flat_textTy hst o ho t h.1
    · exact flat_textParams hst o ho ps h.2 x hx
  | .missing :: _, h => by cases h
  | .null :: _, h => by cases h
  | .bool _ :: _, h => by cases h
  | .int _ :: _, h => by cases h
  | .enum _ :: _, h => by cases h
  | .str _ :: _, h => by cases h
end

/-! ### Literals -/

theorem flat_precLit [UTab] (p : Int) (x : Option Str) : Flat (textPrecLit p x).text := by
  cases x with
  | none => simp [textPrecLit, litFail]
  | some s => exact flat_showString s

theorem flat_interval [UTab] (i : Interval) : Flat (textInterval i).text := by
  unfold textInterval
  split
  · decide
  · dsimp only
    split
    · split <;> simp [flat_showString, litFail]
    · simp [flat_showString]

theorem flat_value [UTab] [FTab] {st : Store} (o : Opts) (nullable : Bool) (v : Lit) (h : Spelled st nullable v) :
    Flat (textValue o v).text := by
  cases v with
  | bool b => cases b <;> simp [textValue]
  | int k i => exact flat_decInt i
  | fp32 f => exact flat_floatText h.1
  | fp64 f => exact flat_floatText h.1
  | string s => exact flat_showString s
  | binary bs => cases h
  | date d =>
    simp only [textValue]
    split
    · exact flat_showString _
    · exact flat_nil
  | time us => exact flat_precLit _ _
  | timestamp us => exact flat_precLit _ _
  | interval i => exact flat_interval i
  | prec k p v => cases k <;> exact flat_precLit _ _
  | null t => simp [textValue]
  | other s => cases h

theorem flat_suffix (v : Lit) (nullable : Bool) : Flat (textSuffix v nullable).text := by
  unfold textSuffix
  split
  · exact flat_nil
  · rename_i name p h
    have hn : Flat name := by
      cases v with
      | int k i => cases k <;> cases h <;> decide
      | prec k p v => cases k <;> cases h <;> decide
      | null t => cases h
      | other s => cases h
      | _ => cases h; decide
    cases p <;> cases nullable <;> simp [hn, flat_decInt]

theorem flat_literal [UTab] [FTab] {st : Store} (hst : st.Ordered) (o : Opts) (ho : o.anchors ≠ .never) (l : Literal)
    (h : Survives st l) : Flat (textLit st o l).text := by
  obtain ⟨-, v, hv, hs⟩ := h
  have hval := flat_value (st := st) o l.nullable v hs
  have hsuf := flat_suffix v l.nullable
  unfold textLit
  rw [hv]
  split
  · contradiction
  · rename_i t hvt
    cases hvt
    have := flat_textTy hst o ho t hs.1
    simp [this]
  · rename_i hvt
    cases hvt
    split <;> simp_all

/-! ### Expressions -/

theorem flat_ref (i : Int) : Flat (textRef i).text := by simp [textRef, flat_decInt]

theorem flat_invocation {st : Store} (hst : st.Ordered) (o : Opts) (ho : o.anchors ≠ .never) {f : Nat} {name : Str}
    (hd : Declared st .function f name) (hn : FunctionName name) {args : List Out} (ha : ∀ x ∈ args, Flat x.text) :
    Flat (textInvocation st o f args []).text := by
  obtain ⟨n, a, h1, h2, -⟩ := textAnchor_function' hst o ho f name hd hn
  have := flat_sep (sp := cs!", ") (by decide) ha
  simp [textInvocation, h1, flat_functionName h2, flat_showAnchor, this, Out.sep]

mutual
theorem flat_expr [UTab] [FTab] {st : Store} (hst : st.Ordered) (o : Opts) (ho : o.anchors ≠ .never) :
    ∀ e, Faithful st e → Flat (textExpr st o e).text
  | .literal l, h => flat_literal hst o ho l h
  | .selection (.field i none), _ => flat_ref i
  | .call f args opts (some t), h => by
    obtain ⟨_, rfl, ⟨n, hd, hn⟩, ha, ht⟩ := (h : _ ∧ _ ∧ _)
    have h1 := flat_invocation hst o ho hd hn (flat_args hst o ho args ha)
    have h2 := flat_textTy hst o ho t ht
    simp [textExpr, textOutType, h1, h2]
  | .cast (some e) (some t) fb, h => by
    obtain ⟨hb, he, ht⟩ := (h : _ ∧ _ ∧ _)
    have h1 := flat_expr hst o ho e he
    have h2 := flat_textTy hst o ho t ht
    have h3 : Flat (textBehavior fb).text := by rcases hb with rfl | rfl | rfl <;> decide
    simp [textExpr, textExprReq, textTyReq, h1, h2, h3]
  | .ifThen ifs (some e), h => by
    obtain ⟨_, hc, he⟩ := (h : _ ∧ _ ∧ _)
    have h1 := flat_expr hst o ho e he
    have h2 := flat_clauses hst o ho ifs hc
    simp [textExpr, textExprReq, h1, h2]
  | .missing, h => by cases h
  | .selection (.field _ (some _)), h => by cases h
  | .selection .badReference, h => by cases h
  | .selection .badSegment, h => by cases h
  | .call _ _ _ none, h => by cases h
  | .cast none _ _, h => by cases h
  | .cast (some _) none _, h => by cases h
  | .ifThen _ none, h => by cases h
  | .other, h => by cases h
theorem flat_args [UTab] [FTab] {st : Store} (hst : st.Ordered) (o : Opts) (ho : o.anchors ≠ .never) :
    ∀ l, FaithfulArgs st l → ∀ x ∈ textArgs st o l, Flat x.text
  | [], _ => by simp [textArgs]
  | .value e :: l, h => by
    intro x hx
    rcases List.mem_cons.1 hx with rfl | hx
    · exact flat_expr hst o ho e h.1
    · exact flat_args hst o ho l h.2 x hx
  | .missing :: _, h => by cases h
  | .ty _ :: _, h => by cases h
  | .enum _ :: _, h => by cases h
theorem flat_clauses [UTab] [FTab] {st : Store} (hst : st.Ordered) (o : Opts) (ho : o.anchors ≠ .never) :
    ∀ l, FaithfulClauses st l → Flat (textClauses st o l).text
  | [], _ => flat_nil
  | .mk (some c) (some r) :: l, h => by
    have h1 := flat_expr hst o ho c h.1
    have h2 := flat_expr hst o ho r h.2.1
    have h3 := flat_clauses hst o ho l h.2.2
    simp [textClauses, textExprReq, h1, h2, h3]
  | .mk none _ :: _, h => by cases h
  | .mk (some _) none :: _, h => by cases h
end

/-! ### Extension arguments -/

mutual
theorem flat_extValue [UTab] [FTab] {st : Store} (hst : st.Ordered) (o : Opts) (ho : o.anchors ≠ .never) :
    ∀ v, ValueOk st o v → Flat (textExtValue st o v).text
  | .string s, _ => flat_showString s
  | .integer i, _ => flat_decInt i
  | .float f, h => flat_floatText h.1
  | .boolean b, _ => by cases b <;> simp [textExtValue]
  | .null, _ => by simp [textExtValue]
  | .error _, h => by cases h
  | .expr e, h => flat_expr hst o ho e h.1
  | .enum s, h => by simpa [textExtValue] using flat_identifier h
  | .tuple vs, h => by
    have h1 := flat_extValues hst o ho vs h
    have h2 : Flat (textTupleItems st o vs).text := by
      rw [textTupleItems_text]
      have h3 : ∀ x ∈ (textExtValues st o vs).map Out.text, Flat x := by simpa using h1
      have h4 := flat_joinS (sp := cs!", ") (by decide) h3
      revert h3 h4
      generalize (textExtValues st o vs).map Out.text = l
      intro h3 h4
      match l with
      | [] => exact flat_nil
      | [x] => simpa [tupleText] using h3
      | x :: y :: l => exact h4
    simp [textExtValue, h2]
theorem flat_extValues [UTab] [FTab] {st : Store} (hst : st.Ordered) (o : Opts) (ho : o.anchors ≠ .never) :
    ∀ l, ValuesOk st o l → ∀ x ∈ textExtValues st o l, Flat x.text
  | [], _ => by simp [textExtValues]
  | v :: l, h => by
    intro x hx
    rcases List.mem_cons.1 hx with rfl | hx
    · exact flat_extValue hst o ho v h.1
    · exact flat_extValues hst o ho l h.2 x hx
end

theorem flat_argList {pos named : List Out} (hp : ∀ x ∈ pos, Flat x.text) (hn : ∀ x ∈ named, Flat x.text) :
    Flat (textArgList pos named).text := by
  unfold textArgList
  split
  · simp
  · exact flat_sep (by decide) (by
      intro x hx
      rcases List.mem_append.1 hx with h | h
      · exact hp x h
      · exact hn x h)

theorem flat_named [UTab] [FTab] {st : Store} (hst : st.Ordered) (o : Opts) (ho : o.anchors ≠ .never)
    (p : Str × ExtValue) (h : NamedOk st o p) : Flat (textNamed st o p).text := by
  have := flat_extValue hst o ho p.2 h.2.2
  simp [textNamed, flat_identifier h.1, this]

theorem flat_extColumn [UTab] [FTab] {st : Store} (hst : st.Ordered) (o : Opts) (ho : o.anchors ≠ .never)
    (c : ExtColumn) (h : ColumnOk st c) : Flat (textExtColumn st o c).text := by
  cases c with
  | named n t =>
    have := flat_textTy hst o ho t h.2
    simp [textExtColumn, flat_showName, this]
  | expr e => exact flat_expr hst o ho e h.1

theorem flat_addendum [UTab] [FTab] {env : Env} (hst : env.st.Ordered) (ho : env.o.anchors ≠ .never)
    {k : AddKind} {d : AnyMsg} (h : AddendumOk env k d) :
    Flat (textAddendum env.st env.o k (env.reg.decode k.ns d [])).text := by
  obtain ⟨name, args, h1, -, hn, hc, hv, hna, -, -⟩ := h
  have h2 := flat_argList (flat_extValues hst env.o ho _ hv) (named := args.named.map (textNamed env.st env.o)) (by
    intro x hx
    obtain ⟨p, hp, rfl⟩ := List.mem_map.1 hx
    exact flat_named hst env.o ho p (hna p hp))
  have hk : Flat k.spell := by cases k <;> decide
  rw [h1]
  simp [textAddendum, textExtArgs, hc, h2, hk, flat_identifier hn]

end Verif
