import Verif.Spec.Tokens
import Verif.Proofs.NoNewline
/-!
# Failure tokens in printed values
-/

namespace Verif
open StoreSpec TextSpec TokenSpec

set_option autoImplicit false

/-! ### Text without tokens -/

/-- Text without tokens in front of any text. -/
def Silent (s : Str) : Prop := ∀ rest, tokens (s ++ rest) = tokens rest

theorem silent_nil : Silent [] := fun _ => rfl

theorem silent_append {a b : Str} (ha : Silent a) (hb : Silent b) : Silent (a ++ b) := fun rest => by
  rw [List.append_assoc, ha, hb]

theorem tokens_char {c : Char} (h1 : c ≠ '\'') (h2 : c ≠ '"') (s : Str) (h : c = '!' → s.head? ≠ some '{') :
    tokens (c :: s) = tokens s := by
  unfold tokens
  cases s with
  | nil => simp [tokensFrom, h1, h2]
  | cons d s =>
    rw [tokensFrom, if_neg (by simp [h1, h2])]
    rintro s' rfl he
    cases he
    exact h rfl rfl

theorem tokens_open {q : Char} (hq : q = '\'' ∨ q = '"') (s : Str) : tokens (q :: s) = tokensFrom (some q) s := by
  unfold tokens
  rw [tokensFrom, if_pos hq]
  rintro s' rfl
  rcases hq with h | h <;> cases h

theorem silent_char {c : Char} (h1 : c ≠ '\'') (h2 : c ≠ '"') (h3 : c ≠ '!') : Silent [c] := fun _ =>
  tokens_char h1 h2 _ fun h => absurd h h3

theorem silent_inert {s : Str} (h : Inert s) : Silent s := by
  induction s with
  | nil => exact silent_nil
  | cons c s ih =>
    intro rest
    have hc := h.1 c (by simp)
    refine (tokens_char hc.1 hc.2.1 _ ?_).trans (ih ⟨fun d hd => h.1 d (by simp [hd]), ?_⟩ rest)
    · rintro rfl
      cases s with
      | nil => exact absurd rfl h.2
      | cons d s => simpa using (h.1 d (by simp)).2.2
    · cases s with
      | nil => simp
      | cons d s => simpa using h.2

/-- Characters that can stand anywhere. -/
def dull (c : Char) : Bool := c != '\'' && c != '"' && c != '{' && c != '!'

theorem inert_of_dull {s : Str} (h : ∀ c ∈ s, dull c = true) : Inert s := by
  refine ⟨fun c hc => ?_, fun hl => ?_⟩
  · have := h c hc
    simp [dull] at this
    exact ⟨this.1.1.1, this.1.1.2, this.1.2⟩
  · exact absurd (h _ (List.mem_of_getLast? hl)) (by decide)

theorem silent_dull {s : Str} (h : ∀ c ∈ s, dull c = true) : Silent s := silent_inert (inert_of_dull h)

theorem dull_digit {c : Char} (h : isDigit c = true) : dull c = true := by
  simp only [dull, bne_iff_ne, Bool.and_eq_true, ne_eq]
  refine ⟨⟨⟨?_, ?_⟩, ?_⟩, ?_⟩ <;> · rintro rfl; exact absurd h (by decide)

theorem silent_dec (n : Nat) : Silent (dec n) := silent_dull fun c hc => dull_digit (dec_all_digits n c hc)

theorem silent_decInt (i : Int) : Silent (decInt i) := by
  unfold decInt
  split
  · exact silent_append (a := ['-']) (silent_char (by decide) (by decide) (by decide)) (silent_dec _)
  · exact silent_dec _

theorem dull_identChar {c : Char} (h : isIdentChar c = true) : dull c = true := by
  simp only [dull, bne_iff_ne, Bool.and_eq_true, ne_eq]
  refine ⟨⟨⟨?_, ?_⟩, ?_⟩, ?_⟩ <;> · rintro rfl; exact absurd h (by decide)

theorem dull_alpha {c : Char} (h : isAlpha c = true) : dull c = true := by
  simp only [dull, bne_iff_ne, Bool.and_eq_true, ne_eq]
  refine ⟨⟨⟨?_, ?_⟩, ?_⟩, ?_⟩ <;> · rintro rfl; exact absurd h (by decide)

theorem dull_hex (n : Nat) (h : n < 16) : dull (hexChar n) = true := by
  have key : ∀ m : Fin 16, dull (hexChar m.1) = true := by decide
  exact key ⟨n, h⟩

/-! ### Quoted text -/

/-- Text inside quotes that leaves the quotes open. -/
def Inside (q : Char) (s : Str) : Prop := ∀ rest, tokensFrom (some q) (s ++ rest) = tokensFrom (some q) rest

theorem inside_append {q : Char} {a b : Str} (ha : Inside q a) (hb : Inside q b) : Inside q (a ++ b) := fun rest => by
  rw [List.append_assoc, ha, hb]

theorem inside_char {q c : Char} (h1 : c ≠ '\\') (h2 : c ≠ q) : Inside q [c] := fun rest => by
  show tokensFrom (some q) (c :: rest) = _
  cases rest with
  | nil => simp [tokensFrom, h2]
  | cons d r =>
    rw [tokensFrom, if_neg h2]
    rintro _ _ rfl
    exact absurd rfl h1

theorem inside_escaped (q c : Char) : Inside q ['\\', c] := fun rest => by
  show tokensFrom (some q) ('\\' :: c :: rest) = _
  rw [tokensFrom]

theorem inside_all {q : Char} {s : Str} (h : ∀ c ∈ s, c ≠ '\\' ∧ c ≠ q) : Inside q s := by
  induction s with
  | nil => exact fun _ => rfl
  | cons c s ih =>
    exact inside_append (a := [c]) (inside_char (h c (by simp)).1 (h c (by simp)).2) (ih fun d hd => h d (by simp [hd]))

theorem inside_escUnicode {q : Char} (hq : q = '\'' ∨ q = '"') (c : Char) : Inside q (escUnicode c) := by
  unfold escUnicode
  refine inside_append (inside_append (a := ['\\', 'u', '{']) ?_ (inside_all fun d hd => ?_)) (inside_char ?_ ?_)
  · refine inside_append (a := ['\\', 'u']) (inside_escaped _ _) (inside_char (by decide) ?_)
    rcases hq with rfl | rfl <;> decide
  · have h := hex_chars c.toNat d hd
    refine ⟨h.2.2, ?_⟩
    rintro rfl
    rcases hq with rfl | rfl <;> exact absurd h.1 (by decide)
  · decide
  · rcases hq with rfl | rfl <;> decide

theorem inside_escChar [UTab] {q : Char} (hq : q = '\'' ∨ q = '"') (first : Bool) (c : Char) :
    Inside q (escChar first c) := by
  unfold escChar
  repeat' split
  all_goals first
    | exact inside_escaped _ _
    | exact inside_escUnicode hq c
    | skip
  rename_i h1 h2 h3 _ _
  refine inside_char h1 ?_
  rcases hq with rfl | rfl
  · exact h3
  · exact h2

theorem inside_escape [UTab] {q : Char} (hq : q = '\'' ∨ q = '"') (s : Str) : Inside q (escape s) := by
  cases s with
  | nil => exact fun _ => rfl
  | cons c s =>
    refine inside_append (inside_escChar hq _ _) ?_
    induction s with
    | nil => exact fun _ => rfl
    | cons d s ih => exact inside_append (inside_escChar hq _ _) ih

theorem silent_quoted [UTab] {q : Char} (hq : q = '\'' ∨ q = '"') (s : Str) : Silent ([q] ++ escape s ++ [q]) := by
  intro rest
  show tokens (q :: ((escape s ++ [q]) ++ rest)) = _
  rw [tokens_open hq, List.append_assoc, inside_escape hq]
  have hb : q ≠ '\\' := by rcases hq with rfl | rfl <;> decide
  show tokensFrom (some q) (q :: rest) = _
  cases rest with
  | nil => simp [tokensFrom, tokens]
  | cons d r =>
    rw [tokensFrom, if_pos rfl]; rfl
    rintro _ _ h
    exact absurd h hb

theorem silent_showString [UTab] (s : Str) : Silent (showString s) := silent_quoted (q := '\'') (.inl rfl) s

theorem silent_showName [UTab] (s : Str) : Silent (showName s) := by
  unfold showName
  split
  · rename_i h
    obtain ⟨c, t, rfl, hc, ht⟩ := (isIdentifier_iff s).1 h
    refine silent_dull fun d hd => ?_
    rcases List.mem_cons.1 hd with rfl | hd
    · exact dull_alpha hc
    · exact dull_identChar (ht d hd)
  · exact silent_quoted (.inr rfl) s

theorem silent_joinS {sp : Str} (hs : Silent sp) {l : List Str} (h : ∀ x ∈ l, Silent x) : Silent (joinS sp l) := by
  induction l with
  | nil => exact silent_nil
  | cons a l ih =>
    cases l with
    | nil => exact h a (by simp)
    | cons b l => exact silent_append (silent_append (h a (by simp)) hs) (ih fun x hx => h x (by simp [hx]))

/-! ### Output whose tokens are reported -/

/-- All tokens of the output are among its errors, in order. -/
def Told (x : Out) : Prop := ∃ ts, ts.Sublist x.errs ∧ ∀ rest, tokens (x.text ++ rest) = ts ++ tokens rest

theorem told_s {s : Str} (h : Silent s) : Told (.s s) := ⟨[], List.nil_sublist _, h⟩

theorem told_silent {x : Out} (h : Silent x.text) : Told x := ⟨[], List.nil_sublist _, h⟩

theorem told_append {a b : Out} (ha : Told a) (hb : Told b) : Told (a ++ b) := by
  obtain ⟨ta, sa, ea⟩ := ha
  obtain ⟨tb, sb, eb⟩ := hb
  refine ⟨ta ++ tb, sa.append sb, fun rest => ?_⟩
  rw [Out.text_append, List.append_assoc, ea, eb, List.append_assoc]

theorem takeWhile_stop {p : Char → Bool} {a : Str} (h : ∀ c ∈ a, p c = true) {d : Char} (hd : p d = false) (r : Str) :
    (a ++ d :: r).takeWhile p = a := by
  induction a with
  | nil => simp [hd]
  | cons c a ih => simp [h c (by simp), ih fun c hc => h c (by simp [hc])]

theorem told_fail {n : Str} (h : ∀ c ∈ n, dull c = true ∧ c ≠ '}') : Told (.fail n) := by
  refine ⟨[n], by simp [Out.fail], fun rest => ?_⟩
  show tokens ('!' :: '{' :: (n ++ ['}'] ++ rest)) = _
  unfold tokens
  rw [tokensFrom]
  congr 1
  · rw [List.append_assoc]
    exact takeWhile_stop (fun c hc => by simpa using (h c hc).2) (by decide) _
  · exact silent_append (silent_dull fun c hc => (h c hc).1) (silent_char (by decide) (by decide) (by decide)) rest

theorem told_sep {sp : Str} (hs : Silent sp) {l : List Out} (h : ∀ x ∈ l, Told x) : Told (Out.sep sp l) := by
  induction l with
  | nil => exact told_s silent_nil
  | cons a l ih =>
    cases l with
    | nil => exact h a (by simp)
    | cons b l => exact told_append (told_append (h a (by simp)) (told_s hs)) (ih fun x hx => h x (by simp [hx]))

theorem told_expect {n : Str} (hn : ∀ c ∈ n, dull c = true ∧ c ≠ '}') {x : Option Out} (h : ∀ y, x = some y → Told y) :
    Told (.expect n x) := by
  cases x with
  | none => exact told_fail hn
  | some y => exact h y rfl

/-- A fixed text. -/
macro "fixed" : tactic => `(tactic| exact told_s (silent_dull (by decide)))

/-- A fixed token. -/
macro "token" : tactic => `(tactic| exact told_fail (by decide))

/-! ### Names and types -/

theorem lookup_declared {st : Store} {k : Kind} {a : Nat} {na : NamedAnchor}
    (h : NamedAnchor.lookup st k a = some na) : Declared st k a na.name := by
  unfold NamedAnchor.lookup at h
  split at h
  · subst k
    split at h
    · rename_i r hr
      cases h
      unfold Store.lookupFunction at hr
      simp only [bind, Except.bind] at hr
      split at hr
      · cases hr
      · rename_i x hx
        obtain ⟨u, n⟩ := x
        dsimp only at hr
        split at hr
        · cases hr
        · split at hr
          · cases hr
          · cases hr
            exact ⟨u, hx⟩
    · cases h
  · split at h
    · rename_i u n hx
      split at h <;> · cases h; exact ⟨u, hx⟩
    · cases h

theorem inert_shown {st : Store} (hs : InertStore st) {k : Kind} {a : Nat} {na : NamedAnchor}
    (h : NamedAnchor.lookup st k a = some na) (v : Visibility) :
    Inert (na.shownName v) ∧ na.shownName v ≠ [] := by
  have hn := hs _ _ _ (lookup_declared h)
  have hb : baseName na.name = na.name.takeWhile (· != ':') := by
    unfold baseName
    congr 1
    funext c
    by_cases hc : c = ':' <;> simp [hc]
  have h0 : na.name ≠ [] := by
    intro he
    have := hn.2.2
    simp [he] at this
  unfold NamedAnchor.shownName
  dsimp only
  rw [hb]
  split <;> split
  all_goals first | exact ⟨hn.1, h0⟩ | exact hn.2

theorem silent_anchor (a : Option Nat) : Silent (showAnchor a) := by
  cases a with
  | none => exact silent_nil
  | some a => exact silent_append (a := ['#']) (silent_char (by decide) (by decide) (by decide)) (silent_dec _)

theorem kindName_dull (k : Kind) : ∀ c ∈ k.name, dull c = true ∧ c ≠ '}' := by cases k <;> decide

theorem told_textAnchor {st : Store} (hs : InertStore st) (o : Opts) (k : Kind) (a : Nat) :
    Told (textAnchor st o k a) := by
  unfold textAnchor
  split
  · rename_i na h
    exact told_s (silent_append (silent_inert (inert_shown hs h _).1) (silent_anchor _))
  · refine told_append (told_fail (kindName_dull k)) (told_s ?_)
    split
    · exact silent_nil
    · exact silent_anchor (some a)

/-- Text that begins with something other than a brace. -/
def Begins (s : Str) : Prop := ∃ c t, s = c :: t ∧ c ≠ '{'

theorem begins_append {a : Str} (h : Begins a) (b : Str) : Begins (a ++ b) := by
  obtain ⟨c, t, rfl, hc⟩ := h
  exact ⟨c, t ++ b, rfl, hc⟩

theorem begins_textAnchor {st : Store} (hs : InertStore st) (o : Opts) (k : Kind) (a : Nat) :
    Begins (textAnchor st o k a).text := by
  unfold textAnchor
  split
  · rename_i na h
    obtain ⟨h1, h2⟩ := inert_shown hs h o.anchors
    refine begins_append ?_ _
    cases hn : na.shownName o.anchors with
    | nil => exact absurd hn h2
    | cons c t => exact ⟨c, t, rfl, (h1.1 c (by simp [hn])).2.2⟩
  · exact ⟨'!', _, rfl, by decide⟩

theorem told_textNul (n : Nul) : Told (textNul n) := by
  cases n
  · exact told_silent (silent_dull (by decide))
  · fixed
  · fixed

theorem told_textVariation {st : Store} (hs : InertStore st) (o : Opts) (v : Nat) : Told (textVariation st o v) := by
  unfold textVariation
  split
  · exact told_s silent_nil
  · exact told_append (told_append (by fixed) (told_textAnchor hs _ _ _)) (by fixed)

theorem told_paramList {l : List Out} (h : ∀ x ∈ l, Told x) : Told (textParamList l) := by
  cases l with
  | nil => exact told_s silent_nil
  | cons a l => exact told_append (told_append (by fixed) (told_sep (silent_dull (by decide)) h)) (by fixed)

theorem told_textifyType {st : Store} (hs : InertStore st) (o : Opts) {name : Out} (n : Nul) (v : Nat) {ps : List Out}
    (hn : Told name) (hp : ∀ x ∈ ps, Told x) : Told (textifyType st o name n v ps) :=
  told_append (told_append (told_append hn (told_textNul n)) (told_textVariation hs o v)) (told_paramList hp)

theorem told_intParam (i : Int) : Told (textIntParam i) := told_s (silent_decInt i)

mutual
theorem told_textTy {st : Store} (hs : InertStore st) (o : Opts) : ∀ t, InertTy t → Told (textTy st o t)
  | .missing, _ => by unfold textTy; token
  | .simple k n v, _ => by
    unfold textTy
    exact told_textifyType hs o n v (by cases k <;> fixed) (by simp)
  | .intervalDay p n v, _ => by
    unfold textTy
    exact told_textifyType hs o n v (by fixed) (by simp [told_intParam])
  | .intervalCompound p n v, _ => by
    unfold textTy
    exact told_textifyType hs o n v (by fixed) (by simp [told_intParam])
  | .len k l n v, _ => by
    unfold textTy
    exact told_textifyType hs o n v (by cases k <;> fixed) (by simp [told_intParam])
  | .decimal p s n v, _ => by
    unfold textTy
    exact told_textifyType hs o n v (by fixed) (by simp [told_intParam])
  | .prec k p n v, _ => by
    unfold textTy
    exact told_textifyType hs o n v (by cases k <;> fixed) (by simp [told_intParam])
  | .struct ts n v, h => by
    unfold textTy
    exact told_textifyType hs o n v (by fixed) (told_textTys hs o ts (by simpa [InertTy] using h))
  | .list t n v, h => by
    unfold textTy
    have := told_textTyOpt hs o t (by simpa [InertTy] using h)
    exact told_textifyType hs o n v (by fixed) (by simpa using this)
  | .map a b n v, h => by
    unfold textTy
    have h : InertTyOpt a ∧ InertTyOpt b := by simpa [InertTy] using h
    have h1 := told_textTyOpt hs o a h.1
    have h2 := told_textTyOpt hs o b h.2
    exact told_textifyType hs o n v (by fixed) (by simp [h1, h2])
  | .user ref ps n v, h => by
    unfold textTy textUser
    exact told_textifyType hs o n v (told_textAnchor hs _ _ _) (told_textParams hs o ps (by simpa [InertTy] using h))
  | .userRef ref, _ => by
    unfold textTy textUser
    exact told_textifyType hs o _ _ (told_textAnchor hs _ _ _) (by simp)
  | .func, _ => by unfold textTy; token
  | .alias, _ => by unfold textTy; token
theorem told_textTyOpt {st : Store} (hs : InertStore st) (o : Opts) : ∀ t, InertTyOpt t → Told (textTyOpt st o t)
  | none, _ => by unfold textTyOpt; token
  | some t, h => by unfold textTyOpt; exact told_textTy hs o t (by simpa [InertTyOpt] using h)
theorem told_textTys {st : Store} (hs : InertStore st) (o : Opts) : ∀ ts, InertTys ts → ∀ x ∈ textTys st o ts, Told x
  | [], _ => by simp [textTys]
  | t :: ts, h => by
    have h : InertTy t ∧ InertTys ts := by simpa [InertTys] using h
    simp only [textTys, List.mem_cons, forall_eq_or_imp]
    exact ⟨told_textTy hs o t h.1, told_textTys hs o ts h.2⟩
theorem told_textParam {st : Store} (hs : InertStore st) (o : Opts) : ∀ p, InertParam p → Told (textParam st o p)
  | .missing, _ => by unfold textParam; token
  | .null, _ => by unfold textParam; fixed
  | .bool true, _ => by unfold textParam; fixed
  | .bool false, _ => by unfold textParam; fixed
  | .int i, _ => by unfold textParam; exact told_intParam i
  | .enum s, h => by unfold textParam; exact told_s (silent_inert (by simpa [InertParam] using h))
  | .str s, h => by unfold textParam; exact told_s (silent_inert (by simpa [InertParam] using h))
  | .ty t, h => by unfold textParam; exact told_textTy hs o t (by simpa [InertParam] using h)
theorem told_textParams {st : Store} (hs : InertStore st) (o : Opts) :
    ∀ ps, InertParams ps → ∀ x ∈ textParams st o ps, Told x
  | [], _ => by simp [textParams]
  | p :: ps, h => by
    have h : InertParam p ∧ InertParams ps := by simpa [InertParams] using h
    simp only [textParams, List.mem_cons, forall_eq_or_imp]
    exact ⟨told_textParam hs o p h.1, told_textParams hs o ps h.2⟩
end

theorem begins_textifyType {st : Store} {o : Opts} {name : Out} (h : Begins name.text) (n : Nul) (v : Nat)
    (ps : List Out) : Begins (textifyType st o name n v ps).text :=
  begins_append (begins_append (begins_append h _) _) _

theorem begins_textTy {st : Store} (hs : InertStore st) (o : Opts) (t : Ty) : Begins (textTy st o t).text := by
  cases t <;> unfold textTy
  case missing => exact ⟨'!', _, rfl, by decide⟩
  case func => exact ⟨'!', _, rfl, by decide⟩
  case alias => exact ⟨'!', _, rfl, by decide⟩
  case user => exact begins_textifyType (begins_textAnchor hs _ _ _) _ _ _
  case userRef => exact begins_textifyType (begins_textAnchor hs _ _ _) _ _ _
  case simple k n v => exact begins_textifyType (by cases k <;> exact ⟨_, _, rfl, by decide⟩) _ _ _
  case len k _ n v => exact begins_textifyType (by cases k <;> exact ⟨_, _, rfl, by decide⟩) _ _ _
  case prec k _ n v => exact begins_textifyType (by cases k <;> exact ⟨_, _, rfl, by decide⟩) _ _ _
  all_goals exact begins_textifyType ⟨_, _, rfl, by decide⟩ _ _ _

/-! ### Literals -/

theorem told_litFail : Told litFail := told_fail (by decide)

theorem told_precLit [UTab] (p : Int) (s : Option Str) : Told (textPrecLit p s) := by
  cases s with
  | none => exact told_litFail
  | some s => exact told_silent (silent_showString s)

theorem told_interval [UTab] (i : Interval) : Told (textInterval i) := by
  unfold textInterval
  split
  · exact told_litFail
  · dsimp only
    split
    · split
      · exact told_append (told_silent silent_nil) told_litFail
      · exact told_append (told_append (told_silent silent_nil) (told_silent silent_nil)) (told_s (silent_showString _))
    · exact told_append (told_silent silent_nil) (told_s (silent_showString _))

theorem silent_braced : Silent cs!"{binary}" := by
  intro rest
  simp only [tokens]
  rfl

theorem told_textValue [UTab] [FTab] (hf : InertFloats) (o : Opts) (l : Lit) : Told (textValue o l) := by
  cases l with
  | bool b => cases b <;> · unfold textValue; fixed
  | int _ i => exact told_s (silent_decInt i)
  | fp32 f => exact told_s (silent_inert (hf f).1)
  | fp64 f => exact told_s (silent_inert (hf f).2)
  | string s => exact told_s (silent_showString s)
  | binary bs =>
    show Told (textBinary o bs)
    unfold textBinary
    refine told_s ?_
    split
    · refine silent_append (silent_dull (by decide)) (silent_dull fun c hc => ?_)
      obtain ⟨b, _, hb⟩ := List.mem_flatMap.1 hc
      simp only [hex2, List.mem_cons, List.not_mem_nil, or_false] at hb
      rcases hb with rfl | rfl <;> exact dull_hex _ (by omega)
    · exact silent_braced
  | date d =>
    simp only [textValue]
    split
    · exact told_s (silent_showString _)
    · exact told_silent silent_nil
  | time us => exact told_precLit _ _
  | timestamp us => exact told_precLit _ _
  | interval i => exact told_interval i
  | prec k p v => cases k <;> exact told_precLit _ _
  | null t => unfold textValue; fixed
  | other v => exact told_litFail

theorem told_textSuffix (l : Lit) (nullable : Bool) : Told (textSuffix l nullable) := by
  have hn : ∀ name p, l.suffix = some (name, p) → ∀ c ∈ name, dull c = true := by
    intro name p h
    unfold Lit.suffix at h
    split at h <;> cases h <;> decide
  unfold textSuffix
  split
  · exact told_s silent_nil
  · rename_i name p h
    refine told_s (silent_append (silent_append (silent_append (silent_dull (by decide)) (silent_dull (hn _ _ h))) ?_) ?_)
    · split <;> exact silent_dull (by decide)
    · split
      · exact silent_append (silent_append (silent_dull (by decide)) (silent_decInt _)) (silent_dull (by decide))
      · exact silent_nil

theorem told_textLit [UTab] [FTab] (hf : InertFloats) {st : Store} (hs : InertStore st) (o : Opts) (l : Literal)
    (h : InertLit l) : Told (textLit st o l) := by
  unfold textLit
  split
  · token
  · rename_i t ht
    exact told_append (told_append (by fixed) (by fixed)) (told_textTy hs o t (h t ht))
  · refine told_append (told_textValue hf o _) ?_
    split
    · exact told_textSuffix _ _
    · exact told_s silent_nil

/-! ### Expressions -/

theorem told_textRef (i : Int) : Told (textRef i) :=
  told_s (silent_append (silent_dull (by decide)) (silent_decInt i))

theorem told_textOption {f : FOption} (h : Inert f.name ∧ ∀ v ∈ f.prefs, Inert v) : Told (textOption f) :=
  told_s (silent_append (silent_append (silent_append (silent_inert h.1) (silent_dull (by decide)))
    (silent_joinS (silent_dull (by decide)) fun x hx => silent_inert (h.2 x hx))) (silent_dull (by decide)))

theorem told_outType {st : Store} (hs : InertStore st) (o : Opts) (t : Option Ty) (h : InertTyOpt t) :
    Told (textOutType st o t) := by
  cases t with
  | none => unfold textOutType; token
  | some t => exact told_append (by fixed) (told_textTy hs o t (by simpa [InertTyOpt] using h))

theorem told_invocation {st : Store} (hs : InertStore st) (o : Opts) (f : Nat) {args opts : List Out}
    (ha : ∀ x ∈ args, Told x) (hp : ∀ x ∈ opts, Told x) : Told (textInvocation st o f args opts) := by
  unfold textInvocation
  refine told_append (told_append (told_append (told_append (told_append (told_textAnchor hs _ _ _) (by fixed))
    (told_sep (silent_dull (by decide)) ha)) ?_) (told_sep (silent_dull (by decide)) hp)) (by fixed)
  split <;> fixed

theorem told_castType {st : Store} (hs : InertStore st) (o : Opts) (fb : Int) (t : Option Ty) (h : InertTyOpt t) :
    Told (textBehavior fb ++ textTyReq st o t) := by
  have hb : Begins (textTyReq st o t).text := by
    cases t with
    | none => exact ⟨'!', _, rfl, by decide⟩
    | some t => exact begins_textTy hs o t
  have ht : Told (textTyReq st o t) := by
    cases t with
    | none => unfold textTyReq; token
    | some t => exact told_textTy hs o t (by simpa [InertTyOpt] using h)
  unfold textBehavior
  repeat' split
  · exact told_append (told_s silent_nil) ht
  · exact told_append (by fixed) ht
  · obtain ⟨ts, h1, h2⟩ := ht
    refine ⟨ts, by simpa using h1, fun rest => ?_⟩
    rw [← h2 rest]
    obtain ⟨c, t', he, hc⟩ := hb
    simp only [Out.text_append, Out.text_s, he]
    exact tokens_char (by decide) (by decide) _ fun _ => by simpa using hc
  · exact told_append (by token) ht

mutual
theorem told_textExpr [UTab] [FTab] (hf : InertFloats) {st : Store} (hs : InertStore st) (o : Opts) :
    ∀ e, InertExpr e → Told (textExpr st o e)
  | .missing, _ => by unfold textExpr; token
  | .literal l, h => by unfold textExpr; exact told_textLit hf hs o l (by simpa [InertExpr] using h)
  | .selection f, _ => by
    unfold textExpr
    cases f with
    | field i c => exact told_textRef i
    | badReference => unfold textFieldRef; token
    | badSegment => unfold textFieldRef; token
  | .call f args opts out, h => by
    unfold textExpr
    have h : InertArgs args ∧ (∀ f ∈ opts, Inert f.name ∧ ∀ v ∈ f.prefs, Inert v) ∧ InertTyOpt out := by
      simpa only [InertExpr] using h
    refine told_append (told_invocation hs o f (told_textArgs hf hs o args h.1) ?_) (told_outType hs o out h.2.2)
    intro x hx
    obtain ⟨p, hp, rfl⟩ := List.mem_map.1 hx
    exact told_textOption (h.2.1 p hp)
  | .cast input ty fb, h => by
    unfold textExpr
    have h : InertExprOpt input ∧ InertTyOpt ty := by simpa only [InertExpr] using h
    have h1 := told_append (told_append (by fixed : Told (.s cs!"(")) (told_textExprReq hf hs o input h.1))
      (by fixed : Told (.s cs!")::"))
    have h2 := told_append h1 (told_castType hs o fb ty h.2)
    have he : ∀ a b c : Out, a ++ b ++ c = a ++ (b ++ c) := fun a b c => by
      show Out.mk _ _ = Out.mk _ _
      simp [List.append_assoc]
    rw [he (_ ++ _ ++ _) (textBehavior fb)]
    exact h2
  | .ifThen ifs els, h => by
    unfold textExpr
    have h : InertClauses ifs ∧ InertExprOpt els := by simpa only [InertExpr] using h
    exact told_append (told_append (told_append (told_append (by fixed) (told_textClauses hf hs o ifs h.1)) (by fixed))
      (told_textExprReq hf hs o els h.2)) (by fixed)
  | .other, _ => by unfold textExpr; token
theorem told_textExprReq [UTab] [FTab] (hf : InertFloats) {st : Store} (hs : InertStore st) (o : Opts) :
    ∀ e, InertExprOpt e → Told (textExprReq st o e)
  | none, _ => by unfold textExprReq; token
  | some e, h => by unfold textExprReq; exact told_textExpr hf hs o e (by simpa only [InertExprOpt] using h)
theorem told_textArgs [UTab] [FTab] (hf : InertFloats) {st : Store} (hs : InertStore st) (o : Opts) :
    ∀ l, InertArgs l → ∀ x ∈ textArgs st o l, Told x
  | [], _ => by simp [textArgs]
  | .missing :: l, h => by
    simp only [textArgs, List.mem_cons, forall_eq_or_imp]
    exact ⟨by unfold textArg; token, told_textArgs hf hs o l (by simpa only [InertArgs] using h)⟩
  | .ty t :: l, h => by
    have h : InertTy t ∧ InertArgs l := by simpa only [InertArgs] using h
    simp only [textArgs, List.mem_cons, forall_eq_or_imp]
    exact ⟨by unfold textArg; exact told_textTy hs o t h.1, told_textArgs hf hs o l h.2⟩
  | .value e :: l, h => by
    have h : InertExpr e ∧ InertArgs l := by simpa only [InertArgs] using h
    simp only [textArgs, List.mem_cons, forall_eq_or_imp]
    exact ⟨by unfold textArg; exact told_textExpr hf hs o e h.1, told_textArgs hf hs o l h.2⟩
  | .enum s :: l, h => by
    simp only [textArgs, List.mem_cons, forall_eq_or_imp]
    refine ⟨?_, told_textArgs hf hs o l (by simpa only [InertArgs] using h)⟩
    unfold textArg textEnum
    exact told_s (silent_append (silent_dull (by decide)) (silent_showName s))
theorem told_textClauses [UTab] [FTab] (hf : InertFloats) {st : Store} (hs : InertStore st) (o : Opts) :
    ∀ l, InertClauses l → Told (textClauses st o l)
  | [], _ => by unfold textClauses; fixed
  | .mk c t :: l, h => by
    have h : InertExprOpt c ∧ InertExprOpt t ∧ InertClauses l := by simpa only [InertClauses] using h
    unfold textClauses
    exact told_append (told_append (told_append (told_append (told_textExprReq hf hs o c h.1) (by fixed))
      (told_textExprReq hf hs o t h.2.1)) (by fixed)) (told_textClauses hf hs o l h.2.2)
end

/-! ### Extension arguments -/

mutual
theorem told_extValue [UTab] [FTab] (hf : InertFloats) {st : Store} (hs : InertStore st) (o : Opts) :
    ∀ v, InertValue v → Told (textExtValue st o v)
  | .string s, _ => by unfold textExtValue; exact told_s (silent_showString s)
  | .integer i, _ => by unfold textExtValue; exact told_s (silent_decInt i)
  | .float f, _ => by unfold textExtValue; exact told_s (silent_inert (hf f).2)
  | .boolean b, _ => by cases b <;> · unfold textExtValue; fixed
  | .null, _ => by unfold textExtValue; fixed
  | .error _, _ => by unfold textExtValue; token
  | .expr e, h => by unfold textExtValue; exact told_textExpr hf hs o e (by simpa only [InertValue] using h)
  | .enum s, h => by
    unfold textExtValue
    exact told_s (silent_append (silent_dull (by decide)) (silent_inert (by simpa only [InertValue] using h)))
  | .tuple vs, h => by
    unfold textExtValue
    refine told_append (told_append (by fixed) ?_) (by fixed)
    have h : InertValues vs := by simpa only [InertValue] using h
    match vs, h with
    | [], _ => unfold textTupleItems; fixed
    | [v], h =>
      have h : InertValue v ∧ InertValues [] := by simpa only [InertValues] using h
      unfold textTupleItems
      exact told_append (told_extValue hf hs o v h.1) (by fixed)
    | v :: w :: l, h =>
      have h : InertValue v ∧ InertValues (w :: l) := by simpa only [InertValues] using h
      unfold textTupleItems
      exact told_append (told_append (told_extValue hf hs o v h.1) (by fixed))
        (told_sep (silent_dull (by decide)) (told_extValues hf hs o (w :: l) h.2))
theorem told_extValues [UTab] [FTab] (hf : InertFloats) {st : Store} (hs : InertStore st) (o : Opts) :
    ∀ l, InertValues l → ∀ x ∈ textExtValues st o l, Told x
  | [], _ => by simp [textExtValues]
  | v :: l, h => by
    have h : InertValue v ∧ InertValues l := by simpa only [InertValues] using h
    simp only [textExtValues, List.mem_cons, forall_eq_or_imp]
    exact ⟨told_extValue hf hs o v h.1, told_extValues hf hs o l h.2⟩
end

theorem told_named [UTab] [FTab] (hf : InertFloats) {st : Store} (hs : InertStore st) (o : Opts) {a : Str × ExtValue}
    (h : Inert a.1 ∧ InertValue a.2) : Told (textNamed st o a) :=
  told_append (told_s (silent_append (silent_inert h.1) (silent_dull (by decide)))) (told_extValue hf hs o a.2 h.2)

theorem told_column [UTab] [FTab] (hf : InertFloats) {st : Store} (hs : InertStore st) (o : Opts) {c : ExtColumn}
    (h : match c with | .named _ t => InertTy t | .expr e => InertExpr e) : Told (textExtColumn st o c) := by
  cases c with
  | named n t =>
    exact told_append (told_s (silent_append (silent_showName n) (silent_dull (by decide)))) (told_textTy hs o t h)
  | expr e => exact told_textExpr hf hs o e h

theorem told_argList {pos named : List Out} (hp : ∀ x ∈ pos, Told x) (hn : ∀ x ∈ named, Told x) :
    Told (textArgList pos named) := by
  unfold textArgList
  split
  · fixed
  · refine told_sep (silent_dull (by decide)) fun x hx => ?_
    rcases List.mem_append.1 hx with h | h
    · exact hp x h
    · exact hn x h

theorem told_extArgs [UTab] [FTab] (hf : InertFloats) {st : Store} (hs : InertStore st) (o : Opts) {name : Str}
    {a : ExtArgs} (h : InertDecoded name a) : Told (textExtArgs st o a) := by
  refine told_append (told_argList (told_extValues hf hs o _ h.positional) ?_) ?_
  · intro x hx
    obtain ⟨p, hp, rfl⟩ := List.mem_map.1 hx
    exact told_named hf hs o (h.named p hp)
  · split
    · exact told_s silent_nil
    · refine told_append (by fixed) (told_sep (silent_dull (by decide)) fun x hx => ?_)
      obtain ⟨c, hc, rfl⟩ := List.mem_map.1 hx
      exact told_column hf hs o (h.columns c hc)

end Verif
