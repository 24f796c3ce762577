import Verif.Model.ExtArgs
/-!
# The recursive rules with their attempts counted

pest keeps no table of earlier results: an alternative that fails after a nested rule matched is given
up, and the next alternative runs the nested rule again at the same place.  The rules `type`,
`expression` and `extension_argument` of `src/parser/expression_grammar.pest` are written here a second
time, alternative by alternative as in `Model/Types`, `Model/Exprs` and `Model/ExtArgs`, together with
the number of times the rule itself is tried.  The work done by the other rules is not counted, so the
number is a lower bound of the time pest takes.  `extension_argument` is written twice, as in the file and
as pest's code generator rewrites it.
-/

namespace Verif

/-- The outcome of a match and the number of attempts it took. -/
structure Counted (α : Type) where
  val : Option α
  tries : Nat

namespace Counted
variable {α β : Type}

/-- A match that tries no counted rule. -/
def free (x : Option α) : Counted α := ⟨x, 0⟩

/-- One more attempt. -/
def tick (m : Counted α) : Counted α := ⟨m.val, m.tries + 1⟩

/-- pest `~`: the second part runs where the first one stopped; nothing is undone in the count when
either part fails. -/
def bind (m : Counted α) (f : α → Counted β) : Counted β :=
  match m.val with
  | none => ⟨none, m.tries⟩
  | some a => ⟨(f a).val, m.tries + (f a).tries⟩

instance : Monad Counted where
  pure a := free (some a)
  bind := bind

/-- pest `|`: the second alternative runs only if the first one failed, whose attempts were made all
the same. -/
def or (m k : Counted α) : Counted α :=
  match m.val with
  | some a => ⟨some a, m.tries⟩
  | none => ⟨k.val, m.tries + k.tries⟩

/-- Change the value of a match. -/
def mapFst (f : α → β) (m : Counted (α × Str)) : Counted (β × Str) := ⟨Verif.mapFst f m.val, m.tries⟩

/-- pest `?`. -/
def opt (p : Str → Counted (α × Str)) (s : Str) : Counted (Option α × Str) := ⟨some (pOpt (fun s => (p s).val) s), (p s).tries⟩

/-- pest `(sep ~ p)*`, as `pStarN`. -/
def starN (sep : Str → Option Str) (p : Str → Counted (α × Str)) : Nat → Str → Counted (List α × Str)
  | 0, s => pure ([], s)
  | n + 1, s =>
    match sep s with
    | none => pure ([], s)
    | some s1 =>
      match (p s1).val with
      | none => ⟨some ([], s), (p s1).tries⟩
      | some (a, s2) => do
        let (l, r) ← ⟨(starN sep p n s2).val, (p s1).tries + (starN sep p n s2).tries⟩
        pure (a :: l, r)

/-- pest `p ~ (sep ~ p)*`, as `pSep1`. -/
def sep1 (sep : Str → Option Str) (p : Str → Counted (α × Str)) (s : Str) : Counted (List α × Str) := do
  let (a, s) ← p s
  let (l, s) ← starN sep p s.length s
  pure (a :: l, s)

/-- pest `(p ~ (sep ~ p)*)?`, as `pSep`. -/
def sep0 (sep : Str → Option Str) (p : Str → Counted (α × Str)) (s : Str) : Counted (List α × Str) :=
  (sep1 sep p s).or (pure ([], s))

/-- pest `p*`, as `pManyN`. -/
def manyN (p : Str → Counted (α × Str)) : Nat → Str → Counted (List α × Str)
  | 0, s => pure ([], s)
  | n + 1, s =>
    match (p s).val with
    | none => ⟨some ([], s), (p s).tries⟩
    | some (a, s1) => do
      let (l, r) ← ⟨(manyN p n s1).val, (p s).tries + (manyN p n s1).tries⟩
      pure (a :: l, r)

/-! ## `type` -/

/-- `parameter` (L64). -/
def param (ty : Str → Counted (STy × Str)) (s : Str) : Counted (SParam × Str) :=
  ((mapFst .ty (ty s)).or (free (Verif.mapFst .int (pInteger s)))).or (free (Verif.mapFst .name (pName s)))

/-- The part of `parameters` (L74) after the opening bracket. -/
def paramsTail (ty : Str → Counted (STy × Str)) (s : Str) : Counted (List SParam × Str) := do
  let (ps, s) ← sep0 commaSp (param ty) s
  let s ← free (lit cs!">" s)
  pure (ps, s)

/-- `parameters` (L74). -/
def params (ty : Str → Counted (STy × Str)) (s : Str) : Counted (List SParam × Str) := do
  let s ← free (lit cs!"<" s)
  paramsTail ty s

/-- `list_type` (L114). -/
def listType (ty : Str → Counted (STy × Str)) (s : Str) : Counted (STy × Str) := do
  let (n, s) ← free (pKwOpen cs!"list" s)
  let (t, s) ← ty s
  let s ← free (lit cs!">" s)
  pure (.list n t, s)

/-- `map_type` (L118). -/
def mapType (ty : Str → Counted (STy × Str)) (s : Str) : Counted (STy × Str) := do
  let (n, s) ← free (pKwOpen cs!"map" s)
  let (a, s) ← ty s
  let s ← free (lit cs!"," s)
  let (b, s) ← ty (skipSp s)
  let s ← free (lit cs!">" s)
  pure (.map n a b, s)

/-- `struct_type` (L120). -/
def structType (ty : Str → Counted (STy × Str)) (s : Str) : Counted (STy × Str) := do
  let (n, s) ← free (pKwOpen cs!"struct" s)
  let (ps, s) ← paramsTail ty s
  pure (.struct n ps, s)

/-- `compound_type` (L135). -/
def compound (ty : Str → Counted (STy × Str)) (s : Str) : Counted (STy × Str) :=
  ((((((listType ty s).or (mapType ty s)).or (structType ty s)).or
    (free (pIntType cs!"precisiontimestamptz" (.prec .timestampTz) s))).or
    (free (pIntType cs!"precisiontimestamp" (.prec .timestamp) s))).or
    (free (pIntType cs!"precisiontime" (.prec .time) s))).or
    (free (pIntType cs!"interval_day" .intervalDay s))

/-- `user_defined_type` (L142-144). -/
def user (ty : Str → Counted (STy × Str)) (s : Str) : Counted (STy × Str) := do
  let (name, s) ← free (pIdent (skipUBang s))
  let (a, s) := pOpt pAnchor s
  let (u, s) := pOpt pUrnAnchor s
  let (n, s) := pNullability s
  let (ps, s) ← opt (params ty) s
  pure (.user name a u n ps, s)

/-- `type` (L147) with nesting at most `n`; every attempt counts one. -/
def typeN : Nat → Str → Counted (STy × Str)
  | 0, _ => ⟨none, 1⟩
  | n + 1, s => tick (((free (pSimpleType s)).or (compound (typeN n) s)).or (user (typeN n) s))

/-- `type` (L147). -/
def type (s : Str) : Counted (STy × Str) := typeN (s.length + 1) s

/-! ## `expression` -/

/-- `argument_list` (L151). -/
def args (e : Str → Counted (SExpr × Str)) (s : Str) : Counted (List SExpr × Str) := do
  let s ← free (lit cs!"(" s)
  let (args, s) ← sep0 spCommaSp e s
  let s ← free (lit cs!")" s)
  pure (args, s)

/-- `function_call` (L164). -/
def call (e : Str → Counted (SExpr × Str)) (s : Str) : Counted (SExpr × Str) := do
  let (name, s) ← free (pFunSig s)
  let (a, s) := pOpt pAnchor (skipSp s)
  let (u, s) := pOpt pUrnAnchor (skipSp s)
  let (args, s) ← args e (skipSp s)
  let s ← free (lit cs!":" s)
  let (t, s) ← free (pType (skipSp s))
  pure (.call name a u args t, s)

/-- `if_clause` (L168). -/
def clause (e : Str → Counted (SExpr × Str)) (s : Str) : Counted ((SExpr × SExpr) × Str) := do
  let (c, s) ← e s
  let s ← free (lit cs!"->" (skipSp s))
  let (r, s) ← e (skipSp s)
  pure ((c, r), s)

/-- `if_clause ~ sp ~ "," ~ sp` (L173). -/
def clauseComma (e : Str → Counted (SExpr × Str)) (s : Str) : Counted ((SExpr × SExpr) × Str) := do
  let (x, s) ← clause e s
  let s ← free (lit cs!"," (skipSp s))
  pure (x, skipSp s)

/-- `if_then` (L173). -/
def ifThen (e : Str → Counted (SExpr × Str)) (s : Str) : Counted (SExpr × Str) := do
  let s ← free (lit cs!"if_then(" s)
  let (x, s) ← clauseComma e (skipSp s)
  let (xs, s) ← manyN (clauseComma e) s.length s
  let s ← free (lit cs!"_" (skipSp s))
  let s ← free (lit cs!"->" (skipSp s))
  let (y, s) ← e (skipSp s)
  let s ← free (lit cs!")" s)
  pure (.ifThen (x :: xs) y, s)

/-- `cast_expression` (L188). -/
def cast (e : Str → Counted (SExpr × Str)) (s : Str) : Counted (SExpr × Str) := do
  let s ← free (lit cs!"(" s)
  let (x, s) ← e (skipSp s)
  let s ← free (lit cs!")" (skipSp s))
  let s ← free (lit cs!"::" (skipSp s))
  let (fb, s) := pBehavior (skipSp s)
  let (t, s) ← free (pType (skipSp s))
  pure (.cast x fb t, s)

/-- `expression` (L193) with nesting at most `n`; every attempt counts one. -/
def exprN : Nat → Str → Counted (SExpr × Str)
  | 0, _ => ⟨none, 1⟩
  | n + 1, s =>
    tick (((((ifThen (exprN n) s).or (cast (exprN n) s)).or (call (exprN n) s)).or
      (free (Verif.mapFst .ref (pRef s)))).or (free (Verif.mapFst .lit (pLiteral s))))

/-- `expression` (L193). -/
def expr (s : Str) : Counted (SExpr × Str) := exprN (s.length + 1) s

/-! ## `extension_argument` -/

/-- Second alternative of `tuple` (L391-400). -/
def tuple1 (p : Str → Counted (SArg × Str)) (s : Str) : Counted (List SArg × Str) := do
  let s ← free (lit cs!"(" s)
  let (a, s) ← p (skipSp s)
  let s ← free (lit cs!"," (skipSp s))
  let s ← free (lit cs!")" (skipSp s))
  pure ([a], s)

/-- Third alternative of `tuple` (L391-400). -/
def tuple2 (p : Str → Counted (SArg × Str)) (s : Str) : Counted (List SArg × Str) := do
  let s ← free (lit cs!"(" s)
  let (l, s) ← sep1 spCommaSp p (skipSp s)
  if l.length < 2 then free none
  let (_, s) := pOpt spComma s
  let s ← free (lit cs!")" (skipSp s))
  pure (l, s)

/-- `tuple` (L391-400). -/
def tuple (p : Str → Counted (SArg × Str)) (s : Str) : Counted (List SArg × Str) :=
  ((free (pTuple0 s)).or (tuple1 p s)).or (tuple2 p s)

/-- `extension_argument` (L401) with nesting at most `n`; every attempt counts one. -/
def argN : Nat → Str → Counted (SArg × Str)
  | 0, _ => ⟨none, 1⟩
  | n + 1, s =>
    tick (((((free (Verif.mapFst .enum (pEnumValue s))).or (free (Verif.mapFst .lit (pParamLit s)))).or
      (free (Verif.mapFst .ref (pRef s)))).or (free (Verif.mapFst .expr (pExpr s)))).or
      (mapFst .tuple (tuple (argN n) s)))

/-- `extension_argument` (L401). -/
def arg (s : Str) : Counted (SArg × Str) := argN (s.length + 1) s

/-! ### With the common beginning of two alternatives shared

pest's code generator turns `(a ~ b) | (a ~ c)` into `a ~ (b | c)` (the `factorizer` of `pest_meta`, which
is not part of the repository).  The second and the third alternative of `tuple` begin with the same
three parts. -/

/-- The second and the third alternative of `tuple` (L391-400), after their common beginning. -/
def tupleRest (p : Str → Counted (SArg × Str)) (a : SArg) (s : Str) : Counted (List SArg × Str) :=
  (do
    let s ← free (lit cs!"," (skipSp s))
    let s ← free (lit cs!")" (skipSp s))
    pure ([a], s)).or
  (do
    let (l, s) ← starN spCommaSp p s.length s
    if l.length < 1 then free none
    let (_, s) := pOpt spComma s
    let s ← free (lit cs!")" (skipSp s))
    pure (a :: l, s))

/-- `tuple` (L391-400) with the common beginning tried once. -/
def tupleShared (p : Str → Counted (SArg × Str)) (s : Str) : Counted (List SArg × Str) :=
  (free (pTuple0 s)).or (do
    let s ← free (lit cs!"(" s)
    let (a, s) ← p (skipSp s)
    tupleRest p a s)

/-- `extension_argument` (L401) with nesting at most `n` and the common beginning tried once. -/
def argSharedN : Nat → Str → Counted (SArg × Str)
  | 0, _ => ⟨none, 1⟩
  | n + 1, s =>
    tick (((((free (Verif.mapFst .enum (pEnumValue s))).or (free (Verif.mapFst .lit (pParamLit s)))).or
      (free (Verif.mapFst .ref (pRef s)))).or (free (Verif.mapFst .expr (pExpr s)))).or
      (mapFst .tuple (tupleShared (argSharedN n) s)))

/-- `extension_argument` (L401) with the common beginning tried once. -/
def argShared (s : Str) : Counted (SArg × Str) := argSharedN (s.length + 1) s

end Counted

end Verif
