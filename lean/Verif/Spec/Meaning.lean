import Verif.Model.RelConv
import Verif.Spec.Store
import Verif.Spec.Literals
import Verif.Spec.Temporal
import Verif.Spec.ExtArgs
import Verif.Spec.PlanLines
import Verif.Spec.Image
/-!
# Specification: what a text means

What each piece of syntax stands for, as a relation between parse trees and protobuf values.  Nothing here says
how the value is computed, or what happens to a text that means nothing.
-/

namespace Verif.MeaningSpec

open StoreSpec TemporalSpec Grammar ImageSpec NamedSpec

set_option autoImplicit false

/-- Two lists of the same length, related item by item. -/
inductive All2 {α β : Type} (R : α → β → Prop) : List α → List β → Prop
  | nil : All2 R [] []
  | cons {a : α} {b : β} {l : List α} {m : List β} : R a b → All2 R l m → All2 R (a :: l) (b :: m)

/-- Both there, or both not. -/
inductive Opt2 {α β : Type} (R : α → β → Prop) : Option α → Option β → Prop
  | none : Opt2 R none none
  | some {a : α} {b : β} : R a b → Opt2 R (some a) (some b)

/-! ## Types -/

/-- The names of types without parameters.  The grammar also knows `u8`, `u16`, `u32` and `u64`, which mean
nothing. -/
def builtIn : List (Str × SimpleKind) :=
  [(cs!"boolean", .boolean), (cs!"i8", .i8), (cs!"i16", .i16), (cs!"i32", .i32), (cs!"i64", .i64), (cs!"fp32", .fp32),
   (cs!"fp64", .fp64), (cs!"string", .string), (cs!"binary", .binary), (cs!"timestamp", .timestamp),
   (cs!"timestamp_tz", .timestampTz), (cs!"date", .date), (cs!"time", .time), (cs!"interval_year", .intervalYear),
   (cs!"uuid", .uuid)]

/-- A type reference: an anchor declared under this name, up to a signature, or the only declaration of exactly
this name. -/
def TypeRef (st : Store) (name : Str) (a : Nat) : Option Nat → Prop
  | some b => b = a ∧ ∃ n, Declared st .type a n ∧ (n = name ∨ BareName n name)
  | none => Declared st .type a name ∧ ∀ b, Declared st .type b name → b = a

/-- A precision. -/
def PrecisionOf (i : IntTok) (p : Int) : Prop := i.toInt = p ∧ 0 ≤ p ∧ p ≤ 12

/-- What a type means.  Maps, structs and parameters that are not types mean nothing. -/
inductive TyMeans (st : Store) : STy → Ty → Prop
  | simple {name : Str} {k : SimpleKind} {n : Nul} : (name, k) ∈ builtIn → TyMeans st (.simple name n) (.simple k n 0)
  | list {n : Nul} {s : STy} {t : Ty} : TyMeans st s t → TyMeans st (.list n s) (.list (some t) n 0)
  | prec {k : PrecKind} {n : Nul} {i : IntTok} {p : Int} : PrecisionOf i p → TyMeans st (.prec k n i) (.prec k p n 0)
  | intervalDay {n : Nul} {i : IntTok} {p : Int} : PrecisionOf i p →
      TyMeans st (.intervalDay n i) (.intervalDay (some p) n 0)
  | user {name : Str} {a u : Option IntTok} {a' u' : Option Nat} {n : Nul} {ps : Option (List SParam)}
      {ss : List STy} {ts : List Ty} {r : Nat} : Opt2 U32 a a' → Opt2 U32 u u' → TypeRef st name r a' →
      ps.getD [] = ss.map .ty → All2 (TyMeans st) ss ts →
      TyMeans st (.user name a u n ps) (.user r (ts.map .ty) n 0)

/-! ## Literals -/

/-- The types of integers that are kept in 32 bits. -/
def narrow : List (SimpleKind × IntW) := [(.i8, .i8), (.i16, .i16), (.i32, .i32)]

/-- The types whose values are written as strings. -/
def QuotedType : Ty → Prop
  | .simple k _ _ => k = .date ∨ k = .time ∨ k = .timestamp
  | .intervalDay .. => True
  | .prec .. => True
  | _ => False

/-- A time of day in units of `10 ^ -p` seconds. -/
def TimeIn (x : Str) (p v : Int) : Prop :=
  p ∈ [(0 : Int), 3, 6, 9] ∧ InI64 v ∧ ∃ ns, TimeText x ns ∧ v * 1000000000 = ns * perSecond p

/-- A timestamp in units of `10 ^ -p` seconds since the epoch. -/
def StampIn (x : Str) (p v : Int) : Prop :=
  p ∈ [(0 : Int), 3, 6, 9] ∧ InI64 v ∧ ∃ (d : Int) (ns : Nat), (minDays ≤ d ∧ d ≤ maxDays) ∧
    StampText x (Date.ofDays d) ns ∧ v * 1000000000 = (d * 86400000000000 + ns) * perSecond p

/-- Everything but `required` makes a literal nullable. -/
def nullable (n : Nul) : Bool := match n with | .required => false | _ => true

/-- What a value with an optional type means. -/
inductive ValueMeans [FTab] : SVal → Option Ty → Literal → Prop
  | int {i : IntTok} : InI64 i.toInt → ValueMeans (.int i) none ⟨some (.int .i64 i.toInt), false, 0⟩
  | int64 {i : IntTok} {n : Nul} {v : Nat} : InI64 i.toInt →
      ValueMeans (.int i) (some (.simple .i64 n v)) ⟨some (.int .i64 i.toInt), nullable n, v⟩
  | int32 {i : IntTok} {k : SimpleKind} {w : IntW} {n : Nul} {v : Nat} {j : Int} : InI64 i.toInt → (k, w) ∈ narrow →
      InI32 j → 2 ^ 32 ∣ j - i.toInt →
      ValueMeans (.int i) (some (.simple k n v)) ⟨some (.int w j), nullable n, v⟩
  | float {x : Str} : ValueMeans (.float x) none ⟨some (.fp64 (FTab.parse64 x)), false, 0⟩
  | fp64 {x : Str} {n : Nul} {v : Nat} :
      ValueMeans (.float x) (some (.simple .fp64 n v)) ⟨some (.fp64 (FTab.parse64 x)), nullable n, v⟩
  | fp32 {x : Str} {n : Nul} {v : Nat} :
      ValueMeans (.float x) (some (.simple .fp32 n v)) ⟨some (.fp32 (FTab.to32 (FTab.parse64 x))), nullable n, v⟩
  | bool {b : Bool} : ValueMeans (.bool b) none ⟨some (.bool b), false, 0⟩
  | boolean {b : Bool} {n : Nul} {v : Nat} :
      ValueMeans (.bool b) (some (.simple .boolean n v)) ⟨some (.bool b), nullable n, v⟩
  | null {t : Ty} : ValueMeans .null (some t) ⟨some (.null t), false, 0⟩
  | date {x : Str} {sep : Char} {d : Int} {n : Nul} {v : Nat} : (minDays ≤ d ∧ d ≤ maxDays) → (sep = '-' ∨ sep = '/') →
      DateText sep x (Date.ofDays d) → ValueMeans (.str x) (some (.simple .date n v)) ⟨some (.date d), nullable n, v⟩
  | time {x : Str} {us : Int} {n : Nul} {v : Nat} : TimeIn x 6 us →
      ValueMeans (.str x) (some (.simple .time n v)) ⟨some (.time us), nullable n, v⟩
  | timestamp {x : Str} {us : Int} {n : Nul} {v : Nat} : StampIn x 6 us →
      ValueMeans (.str x) (some (.simple .timestamp n v)) ⟨some (.timestamp us), nullable n, v⟩
  | precTime {x : Str} {p u : Int} {n : Nul} {v : Nat} : TimeIn x p u →
      ValueMeans (.str x) (some (.prec .time p n v)) ⟨some (.prec .time p u), nullable n, v⟩
  | precStamp {x : Str} {k : PrecKind} {p u : Int} {n : Nul} {v : Nat} : k ≠ .time → StampIn x p u →
      ValueMeans (.str x) (some (.prec k p n v)) ⟨some (.prec k p u), nullable n, v⟩
  | interval {x : Str} {p : Precision} {i : Interval} {n : Nul} {v : Nat} : WritesInterval x p i →
      ValueMeans (.str x) (some (.intervalDay (some p.units) n v)) ⟨some (.interval i), nullable n, v⟩
  | string {x : Str} {t : Option Ty} : (∀ y, t = some y → ¬ QuotedType y) →
      ValueMeans (.str x) t ⟨some (.string x), false, 0⟩

/-- What a literal means. -/
def LitMeans [FTab] (st : Store) (s : SLit) (l : Literal) : Prop :=
  ∃ t, Opt2 (TyMeans st) s.ty t ∧ ValueMeans s.value t l

/-! ## Expressions -/

/-- A field. -/
def RefMeans (i : IntTok) (j : Int) : Prop := i.toInt = j ∧ InI32 j

/-- What an expression means. -/
inductive ExprMeans [FTab] (st : Store) : SExpr → Expr → Prop
  | lit {s : SLit} {l : Literal} : LitMeans st s l → ExprMeans st (.lit s) (.literal l)
  | ref {i : IntTok} {j : Int} : RefMeans i j → ExprMeans st (.ref i) (.selection (.field j none))
  | call {name : Str} {a u : Option IntTok} {a' u' : Option Nat} {ss : List SExpr} {es : List Expr} {s : STy} {t : Ty}
      {f : Nat} : Opt2 U32 a a' → Opt2 U32 u u' → Means st name a' f → All2 (ExprMeans st) ss es → TyMeans st s t →
      ExprMeans st (.call name a u ss s) (.call f (es.map .value) [] (some t))
  | cast {s : SExpr} {e : Expr} {ty : STy} {t : Ty} {fb : SBehavior} {n : Int} : ExprMeans st s e → TyMeans st ty t →
      (fb, n) ∈ [(SBehavior.unspecified, 0), (.null, 1), (.throw, 2)] →
      ExprMeans st (.cast s fb ty) (.cast (some e) (some t) n)
  | ifThen {ss : List (SExpr × SExpr)} {cs rs : List Expr} {s : SExpr} {e : Expr} :
      All2 (ExprMeans st) (ss.map (·.1)) cs → All2 (ExprMeans st) (ss.map (·.2)) rs → ExprMeans st s e →
      ExprMeans st (.ifThen ss s) (.ifThen (List.zipWith (fun c r => .mk (some c) (some r)) cs rs) (some e))

/-! ## Arguments of extensions -/

/-- What an argument means. -/
inductive ArgMeans [FTab] (st : Store) : SArg → ExtValue → Prop
  | enum {s : Str} : ArgMeans st (.enum s) (.enum s)
  | str {s : Str} : ArgMeans st (.lit (.str s)) (.string s)
  | int {i : IntTok} : InI64 i.toInt → ArgMeans st (.lit (.int i)) (.integer i.toInt)
  | float {x : Str} : ArgMeans st (.lit (.float x)) (.float (FTab.parse64 x))
  | bool {b : Bool} : ArgMeans st (.lit (.bool b)) (.boolean b)
  | null : ArgMeans st (.lit .null) .null
  | ref {i : IntTok} {j : Int} : RefMeans i j → ArgMeans st (.ref i) (.expr (.selection (.field j none)))
  | expr {s : SExpr} {e : Expr} : ExprMeans st s e → ArgMeans st (.expr s) (.expr e)
  | tuple {l : List SArg} {vs : List ExtValue} : All2 (ArgMeans st) l vs → ArgMeans st (.tuple l) (.tuple vs)

/-- What an output column of an extension means. -/
inductive ColMeans [FTab] (st : Store) : SCol → ExtColumn → Prop
  | named {n : Str} {s : STy} {t : Ty} : TyMeans st s t → ColMeans st (.named n s) (.named n t)
  | ref {i : IntTok} {j : Int} : RefMeans i j → ColMeans st (.ref i) (.expr (.selection (.field j none)))
  | expr {s : SExpr} {e : Expr} : ExprMeans st s e → ColMeans st (.expr s) (.expr e)

/-- What arguments mean: of several with one name the last counts, in the place of the first. -/
def ArgsMean [FTab] (st : Store) (s : SArgs) (cols : List SCol) (a : ExtArgs) : Prop :=
  All2 (ArgMeans st) s.positional a.positional ∧ All2 (ColMeans st) cols a.columns ∧
  ∃ l, All2 (fun x y => x.1 = y.1 ∧ ArgMeans st x.2 y.2) s.named l ∧ a.named.map (·.1) = names l ∧
    ∀ k v, (k, v) ∈ a.named ↔ Last l k v

/-! ## Addenda -/

/-- What an addendum means. -/
def AddMeans [FTab] (st : Store) (s : SAddendum) (a : Addendum) : Prop :=
  a.kind = s.kind ∧ a.name = s.name ∧ ArgsMean st s.args [] a.args

/-- The addenda of one kind, as messages that the handlers of the registry make of them. -/
def Made (reg : Registry ExtArgs (List Nat)) (k : AddKind) (ns : Ns) (as : List Addendum) (ds : List AnyMsg) : Prop :=
  All2 (fun a d => reg.parse ns a.name a.args = .ok d) (as.filter fun a => decide (a.kind = k)) ds

/-- The advanced extension: at most one enhancement and any number of optimizations, in order. -/
def AdvMeans (reg : Registry ExtArgs (List Nat)) (as : List Addendum) (adv : Option AdvExt) : Prop :=
  ∃ es os, Made reg .enh .enhancement as es ∧ Made reg .opt .optimization as os ∧
    ((es = [] ∧ os = [] ∧ adv = none) ∨ (es = [] ∧ os ≠ [] ∧ adv = some ⟨none, os⟩) ∨
      ∃ e, es = [e] ∧ adv = some ⟨some e, os⟩)

/-! ## Relations -/

/-- The mapping keeps `n` columns in order. -/
def InOrder (n : Nat) (m : List Int) : Prop :=
  m.length = n ∧ ∀ (k : Nat) (v : Int), m[k]? = some v → InI32 v ∧ 2 ^ 32 ∣ v - k

/-- What is put out of `n` columns. -/
def Puts (n : Nat) (m : List Int) (c : Option Common) : Prop :=
  (InOrder n m ∧ Plain c .direct) ∨ (¬ InOrder n m ∧ Plain c (.emit m))

/-- A list of references, the `w` columns that are put out of `n`. -/
def RefsMean (refs : List IntTok) (n : Nat) (c : Option Common) (w : Nat) : Prop :=
  ∃ m, All2 RefMeans refs m ∧ w = m.length ∧ Puts n m c

/-- The schema of columns. -/
def SchemaMeans (st : Store) (cols : List SColumn) (s : Option NamedStruct) (n : Nat) : Prop :=
  ∃ types, All2 (fun c t => TyMeans st c.2 t) cols types ∧ n = types.length ∧
    s = some ⟨cols.map (·.1), some ⟨types, 0, .required⟩⟩

/-- The expressions of a project and its mapping: an expression is the next column behind the input. -/
inductive ProjMeans [FTab] (st : Store) : Nat → List SProj → List Expr → List Int → Prop
  | nil {k : Nat} : ProjMeans st k [] [] []
  | ref {k : Nat} {i : IntTok} {j : Int} {l : List SProj} {es : List Expr} {m : List Int} : RefMeans i j →
      ProjMeans st k l es m → ProjMeans st k (.ref i :: l) es (j :: m)
  | expr {k : Nat} {s : SExpr} {e : Expr} {l : List SProj} {es : List Expr} {m : List Int} : ExprMeans st s e →
      ProjMeans st (k + 1) l es m → ProjMeans st k (.expr s :: l) (e :: es) ((k : Int) :: m)

/-- The sets of expressions by which is grouped. -/
def SetsMean [FTab] (st : Store) : SGroup → List (List Expr) → Prop
  | .exprs l, sets => ∃ es, sets = [es] ∧ All2 (ExprMeans st) l es
  | .sets l, sets => All2 (All2 (ExprMeans st)) l sets

/-- Each item once, where it first stands. -/
def firsts : List Expr → List Expr
  | [] => []
  | e :: l => e :: (firsts l).filter fun d => decide (d ≠ e)

/-- The grouping messages: every set as positions in the list of all expressions. -/
def GroupsMean (g : List Expr) (sets : List (List Expr)) (gs : List Grouping) : Prop :=
  All2 (fun s x => x.exprs = [] ∧ All2 (fun e i => g[i]? = some e) s x.refs) sets gs

/-- The measures of an aggregate and its mapping: an output is a grouping expression, or a call, which is the next
column. -/
inductive OutsMean [FTab] (st : Store) (g : List Expr) : Nat → List SExpr → List Measure → List Int → Prop
  | nil {k : Nat} : OutsMean st g k [] [] []
  | group {k i : Nat} {s : SExpr} {e : Expr} {l : List SExpr} {ms : List Measure} {m : List Int} : ExprMeans st s e →
      g[i]? = some e → OutsMean st g k l ms m → OutsMean st g k (s :: l) ms ((i : Int) :: m)
  | measure {k : Nat} {name : Str} {a u : Option IntTok} {ss : List SExpr} {ty : STy} {f : Nat} {args : List Arg}
      {out : Option Ty} {l : List SExpr} {ms : List Measure} {m : List Int} :
      ExprMeans st (.call name a u ss ty) (.call f args [] out) → .call f args [] out ∉ g → OutsMean st g (k + 1) l ms m →
      OutsMean st g k (.call name a u ss ty :: l) (⟨some ⟨f, args, [], out, 0⟩, 0⟩ :: ms) ((k : Int) :: m)

/-- A word of an enumeration, after `&`. -/
def Word {α : Type} (table : List (Str × α)) (s : Str) (a : α) : Prop :=
  ∃ k x, s = List.replicate k '&' ++ x ∧ (x, a) ∈ table

def sortWords : List (Str × SortDir) :=
  [(cs!"AscNullsFirst", .ascNullsFirst), (cs!"AscNullsLast", .ascNullsLast), (cs!"DescNullsFirst", .descNullsFirst),
   (cs!"DescNullsLast", .descNullsLast)]

def joinWords : List (Str × JoinType) :=
  [(cs!"Inner", .inner), (cs!"Outer", .outer), (cs!"Left", .left), (cs!"Right", .right), (cs!"LeftSemi", .leftSemi),
   (cs!"RightSemi", .rightSemi), (cs!"LeftAnti", .leftAnti), (cs!"RightAnti", .rightAnti),
   (cs!"LeftSingle", .leftSingle), (cs!"RightSingle", .rightSingle), (cs!"LeftMark", .leftMark),
   (cs!"RightMark", .rightMark)]

def setWords : List (Str × SetOp) :=
  [(cs!"MinusPrimary", .minusPrimary), (cs!"MinusPrimaryAll", .minusPrimaryAll), (cs!"MinusMultiset", .minusMultiset),
   (cs!"IntersectionPrimary", .intersectionPrimary), (cs!"IntersectionMultiset", .intersectionMultiset),
   (cs!"IntersectionMultisetAll", .intersectionMultisetAll), (cs!"UnionDistinct", .unionDistinct),
   (cs!"UnionAll", .unionAll)]

/-- What a sort field means. -/
def SortMeans [FTab] (st : Store) (s : SExpr × Str) (f : SortField) : Prop :=
  ∃ e d, ExprMeans st s.1 e ∧ Word sortWords s.2 d ∧ f = ⟨some e, some (.direction (.known d))⟩

/-- What the value of a limit means. -/
inductive CountMeans [FTab] (st : Store) : SFetch → Count → Prop
  | int {i : IntTok} : 0 ≤ i.toInt → InI64 i.toInt →
      CountMeans st (.int i) (.expr (.literal ⟨some (.int .i64 i.toInt), false, 0⟩))
  | expr {s : SExpr} {e : Expr} : ExprMeans st s e → CountMeans st (.expr s) (.expr e)

/-- What the argument of a name means. -/
def LimitMeans [FTab] (st : Store) (args : List (Str × SFetch)) (name : Str) (c : Option Count) : Prop :=
  (c = none ∧ ∀ v, (name, v) ∉ args) ∨ ∃ v x, (name, v) ∈ args ∧ c = some x ∧ CountMeans st v x

/-- What a line means, given what its addenda and its inputs mean; inputs come with the number of columns they put
out. -/
inductive LineMeans [FTab] (st : Store) (reg : Registry ExtArgs (List Nat)) (as : List Addendum) :
    SLine → List (Rel × Nat) → Rel → Nat → Prop
  | readAll {table : List Str} {cols : List SColumn} {adv : Option AdvExt} {s : Option NamedStruct} {n : Nat}
      {c : Option Common} {out : SOutput} : (∀ a ∈ as, a.kind ≠ .ext) → AdvMeans reg as adv → SchemaMeans st cols s n →
      Plain c .direct → (out = .implicit cols ∨ out = .direct cols none) →
      LineMeans st reg as (.read table out) [] (.node (.read c s none (.named table 0) adv 0) []) n
  | readSome {table : List Str} {cols : List SColumn} {refs : List IntTok} {m : List Int} {adv : Option AdvExt}
      {s : Option NamedStruct} {n : Nat} {c : Option Common} : (∀ a ∈ as, a.kind ≠ .ext) → AdvMeans reg as adv →
      SchemaMeans st cols s n → All2 RefMeans refs m → Plain c (.emit m) →
      LineMeans st reg as (.read table (.direct cols (some refs))) []
        (.node (.read c s none (.named table 0) adv 0) []) m.length
  | readVirtual {rows : List (List SExpr)} {rows' : List (List Expr)} {filter : Option SExpr} {filter' : Option Expr}
      {cols : List SColumn} {adv : Option AdvExt} {s : Option NamedStruct} {n : Nat} {c : Option Common} :
      (∀ a ∈ as, a.kind ≠ .ext) → AdvMeans reg as adv → SchemaMeans st cols s n →
      All2 (All2 (ExprMeans st)) rows rows' → Opt2 (ExprMeans st) filter filter' → Plain c .direct →
      LineMeans st reg as (.readVirtual rows filter cols) [] (.node (.read c s filter' (.virtual rows' 0) adv 0) []) n
  | readExt {cols : List SColumn} {d : AnyMsg} {adv : Option AdvExt} {s : Option NamedStruct} {n : Nat}
      {c : Option Common} : Made reg .ext .extensionTable as [d] → AdvMeans reg as adv → SchemaMeans st cols s n →
      Plain c .direct →
      LineMeans st reg as (.readExt cols) [] (.node (.read c s none (.extension (some d)) adv 0) []) n
  | filter {cond : SExpr} {e : Expr} {refs : List IntTok} {i : Rel} {n w : Nat} {adv : Option AdvExt}
      {c : Option Common} : (∀ a ∈ as, a.kind ≠ .ext) → AdvMeans reg as adv → ExprMeans st cond e → RefsMean refs n c w →
      LineMeans st reg as (.filter cond refs) [(i, n)] (.node (.filter c (some e) adv) [some i]) w
  | project {args : List SProj} {es : List Expr} {m : List Int} {i : Rel} {n : Nat} {adv : Option AdvExt}
      {c : Option Common} : (∀ a ∈ as, a.kind ≠ .ext) → AdvMeans reg as adv → ProjMeans st n args es m →
      Puts (n + es.length) m c →
      LineMeans st reg as (.project args) [(i, n)] (.node (.project c es adv) [some i]) m.length
  | aggregate {group : SGroup} {sets : List (List Expr)} {g : List Expr} {gs : List Grouping} {outs : List SExpr}
      {ms : List Measure} {m : List Int} {i : Rel} {n : Nat} {adv : Option AdvExt} {c : Option Common} :
      (∀ a ∈ as, a.kind ≠ .ext) → AdvMeans reg as adv → SetsMean st group sets → g = firsts sets.flatten →
      GroupsMean g sets gs → OutsMean st g g.length outs ms m → Puts (g.length + ms.length) m c →
      LineMeans st reg as (.aggregate group outs) [(i, n)] (.node (.aggregate c g gs ms adv) [some i]) m.length
  | sort {fields : List (SExpr × Str)} {fs : List SortField} {refs : List IntTok} {i : Rel} {n w : Nat}
      {adv : Option AdvExt} {c : Option Common} : (∀ a ∈ as, a.kind ≠ .ext) → AdvMeans reg as adv →
      All2 (SortMeans st) fields fs → RefsMean refs n c w →
      LineMeans st reg as (.sort fields refs) [(i, n)] (.node (.sort c fs adv) [some i]) w
  | fetch {args : List (Str × SFetch)} {l o : Option Count} {refs : List IntTok} {i : Rel} {n w : Nat}
      {adv : Option AdvExt} {c : Option Common} : (∀ a ∈ as, a.kind ≠ .ext) → AdvMeans reg as adv →
      (args.map (·.1)).Nodup → LimitMeans st args cs!"limit" l → LimitMeans st args cs!"offset" o → RefsMean refs n c w →
      LineMeans st reg as (.fetch args refs) [(i, n)] (.node (.fetch c l o adv) [some i]) w
  | join {word : Str} {t : JoinType} {cond : SExpr} {e : Expr} {post : Option SExpr} {p : Option Expr}
      {refs : List IntTok} {i j : Rel} {n k w : Nat} {adv : Option AdvExt} {c : Option Common} :
      (∀ a ∈ as, a.kind ≠ .ext) → AdvMeans reg as adv → Word joinWords word t → ExprMeans st cond e →
      Opt2 (ExprMeans st) post p → RefsMean refs (n + k) c w →
      LineMeans st reg as (.join word cond post refs) [(i, n), (j, k)]
        (.node (.join c (.known t) (some e) p adv) [some i, some j]) w
  | set {word : Str} {o : SetOp} {refs : List IntTok} {kids : List (Rel × Nat)} {n w : Nat} {adv : Option AdvExt}
      {c : Option Common} : (∀ a ∈ as, a.kind ≠ .ext) → AdvMeans reg as adv → 2 ≤ kids.length → (∀ k ∈ kids, k.2 = n) →
      Word setWords word o → RefsMean refs n c w →
      LineMeans st reg as (.set word refs) kids (.node (.set c (.known o) adv) (kids.map fun k => some k.1)) w
  | cross {refs : List IntTok} {i j : Rel} {n k w : Nat} {adv : Option AdvExt} {c : Option Common} :
      (∀ a ∈ as, a.kind ≠ .ext) → AdvMeans reg as adv → RefsMean refs (n + k) c w →
      LineMeans st reg as (.cross refs) [(i, n), (j, k)] (.node (.cross c adv) [some i, some j]) w
  | ext {kind : ExtKind} {name : Str} {args : SArgs} {cols : List SCol} {a : ExtArgs} {d : AnyMsg}
      {kids : List (Rel × Nat)} {c : Option Common} : as = [] → ArgsMean st args cols a →
      (kind = .leaf → kids.length = 0) → (kind = .single → kids.length = 1) →
      reg.parse .relation name a = .ok d → Plain c .direct →
      LineMeans st reg as (.ext kind name args cols) kids (.node (.ext kind c (some d)) (kids.map fun k => some k.1))
        a.columns.length

/-- What a tree of lines means: a relation and the number of columns it puts out. -/
inductive RelMeans [FTab] (st : Store) (reg : Registry ExtArgs (List Nat)) : RNode SLine SAddendum → Rel × Nat → Prop
  | node {line : SLine} {ss : List SAddendum} {as : List Addendum} {ts : List (RNode SLine SAddendum)}
      {kids : List (Rel × Nat)} {r : Rel} {w : Nat} : All2 (AddMeans st) ss as → All2 (RelMeans st reg) ts kids →
      LineMeans st reg as line kids r w → RelMeans st reg (.mk line ss ts) (r, w)

/-- What a tree at the top means. -/
inductive TopMeans [FTab] (st : Store) (reg : Registry ExtArgs (List Nat)) : RNode SLine SAddendum → PlanRel → Prop
  | root {names : List Str} {t : RNode SLine SAddendum} {r : Rel} {w : Nat} : RelMeans st reg t (r, w) →
      TopMeans st reg (.mk (.root names) [] [t]) (.root names (some r))
  | rel {t : RNode SLine SAddendum} {r : Rel} {w : Nat} : RelMeans st reg t (r, w) → TopMeans st reg t (.rel r)

end Verif.MeaningSpec
