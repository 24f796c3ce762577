import Verif.Model.RelLines
import Verif.Model.ExtSection
/-!
# The grammar

Which texts spell a given parse tree, as a context-free grammar transcribed from
`src/parser/expression_grammar.pest`: one constructor or equation per alternative, without the order
of alternatives, without fuel and without reference to the recognisers of the model.
-/

namespace Verif.Grammar

set_option autoImplicit false

/-! ## Terminals -/

/-- `sp`: any number of spaces. -/
def Sp (w : Str) : Prop := ∀ c ∈ w, c = ' '

/-- A decimal digit. -/
def Digit (c : Char) : Prop := '0'.toNat ≤ c.toNat ∧ c.toNat ≤ '9'.toNat

/-- `ds` is a nonempty sequence of digits with value `n`. -/
def Digits (n : Nat) (ds : Str) : Prop :=
  ds ≠ [] ∧ (∀ c ∈ ds, Digit c) ∧ ds.foldl (fun v c => 10 * v + (c.toNat - '0'.toNat)) 0 = n

/-- `identifier`. -/
def Ident (x : Str) : Prop :=
  ∃ c cs, x = c :: cs ∧ c.isAlpha = true ∧ ∀ d ∈ cs, d.isAlphanum = true ∨ d = '_'

/-- `integer`. -/
inductive IntText : IntTok → Str → Prop
  | pos {n : Nat} {ds : Str} : Digits n ds → IntText ⟨false, n⟩ ds
  | neg {n : Nat} {ds : Str} : Digits n ds → IntText ⟨true, n⟩ ('-' :: ds)

/-- `float`. -/
def FloatText (x : Str) : Prop :=
  ∃ m n sign ds fs, (sign = [] ∨ sign = ['-']) ∧ Digits m ds ∧ Digits n fs ∧
    x = sign ++ ds ++ ['.'] ++ fs

/-- What a backslash and a character stand for. -/
def escaped (c : Char) : Char :=
  match c with
  | 'n' => '\n'
  | 't' => '\t'
  | 'r' => '\r'
  | c => c

/-- `Quoted q v b`: between quotes `q`, the text `b` stands for `v`. -/
inductive Quoted (q : Char) : Str → Str → Prop
  | nil : Quoted q [] []
  | esc {c : Char} {v b : Str} : Quoted q v b → Quoted q (escaped c :: v) ('\\' :: c :: b)
  | plain {c : Char} {v b : Str} : c ≠ q → c ≠ '\\' → Quoted q v b → Quoted q (c :: v) (c :: b)

/-- `string_literal`. -/
def StringText (v x : Str) : Prop := ∃ b, Quoted '\'' v b ∧ x = ['\''] ++ b ++ ['\'']

/-- `name`. -/
inductive NameText : Str → Str → Prop
  | ident {x : Str} : Ident x → NameText x x
  | quoted {v b : Str} : Quoted '"' v b → NameText v (['"'] ++ b ++ ['"'])

/-! ## Repetition -/

/-- `(sep ~ p)*`. -/
inductive Rest {α : Type} (sep : Str → Prop) (G : α → Str → Prop) : List α → Str → Prop
  | nil : Rest sep G [] []
  | cons {a : α} {l : List α} {m x y : Str} : sep m → G a x → Rest sep G l y →
      Rest sep G (a :: l) (m ++ (x ++ y))

/-- `p ~ (sep ~ p)*`. -/
inductive SepBy {α : Type} (sep : Str → Prop) (G : α → Str → Prop) : List α → Str → Prop
  | mk {a : α} {l : List α} {x y : Str} : G a x → Rest sep G l y → SepBy sep G (a :: l) (x ++ y)

/-- `(p ~ (sep ~ p)*)?`. -/
inductive Sep0 {α : Type} (sep : Str → Prop) (G : α → Str → Prop) : List α → Str → Prop
  | nil : Sep0 sep G [] []
  | some {l : List α} {x : Str} : SepBy sep G l x → Sep0 sep G l x

/-- `p ~ sp ~ ("," ~ sp ~ p)*`. -/
inductive Loose {α : Type} (sep : Str → Prop) (G : α → Str → Prop) : List α → Str → Prop
  | mk {a : α} {l : List α} {x w y : Str} : G a x → Sp w → Rest sep G l y →
      Loose sep G (a :: l) (x ++ (w ++ y))

/-- `p?`. -/
inductive Maybe {α : Type} (G : α → Str → Prop) : Option α → Str → Prop
  | none : Maybe G none []
  | some {a : α} {x : Str} : G a x → Maybe G (some a) x

/-- `"," ~ sp`. -/
def Comma (m : Str) : Prop := ∃ w, Sp w ∧ m = ',' :: w

/-- `sp ~ "," ~ sp`. -/
def SpComma (m : Str) : Prop := ∃ v w, Sp v ∧ Sp w ∧ m = v ++ ',' :: w

/-- `sp ~ "=>" ~ sp`. -/
def Arrow (m : Str) : Prop := ∃ v w, Sp v ∧ Sp w ∧ m = v ++ cs!"=>" ++ w

/-! ## Types -/

/-- `anchor`. -/
def AnchorText (i : IntTok) (x : Str) : Prop := ∃ w y, Sp w ∧ IntText i y ∧ x = ['#'] ++ w ++ y

/-- `urn_anchor`. -/
def UrnAnchorText (i : IntTok) (x : Str) : Prop := ∃ w y, Sp w ∧ IntText i y ∧ x = ['@'] ++ w ++ y

/-- `nullability`. -/
inductive NulText : Nul → Str → Prop
  | required : NulText .required []
  | nullable : NulText .nullable ['?']
  | unspecified : NulText .unspecified ['⁉']

/-- A keyword in any case. -/
def KwI (kw x : Str) : Prop := x.map Char.toLower = kw

/-- The names of the types without parameters. -/
def SimpleName (x : Str) : Prop :=
  x ∈ [cs!"boolean", cs!"i8", cs!"i16", cs!"i32", cs!"i64", cs!"u8", cs!"u16", cs!"u32", cs!"u64",
    cs!"fp32", cs!"fp64", cs!"string", cs!"binary", cs!"timestamp_tz", cs!"timestamp", cs!"date",
    cs!"time", cs!"interval_year", cs!"uuid"]

/-- Names of the types with a precision. -/
def precKw : PrecKind → Str
  | .timestampTz => cs!"precisiontimestamptz"
  | .timestamp => cs!"precisiontimestamp"
  | .time => cs!"precisiontime"

mutual
/-- `type`. -/
inductive TyText : STy → Str → Prop
  | simple {name z : Str} {n : Nul} : SimpleName name → NulText n z → TyText (.simple name n) (name ++ z)
  | list {n : Nul} {t : STy} {k z x : Str} : KwI cs!"list" k → NulText n z → TyText t x →
      TyText (.list n t) (k ++ (z ++ (cs!"<" ++ (x ++ cs!">"))))
  | map {n : Nul} {a b : STy} {k z x m y : Str} : KwI cs!"map" k → NulText n z → TyText a x → Comma m →
      TyText b y → TyText (.map n a b) (k ++ (z ++ (cs!"<" ++ (x ++ (m ++ (y ++ cs!">"))))))
  | struct {n : Nul} {ps : List SParam} {k z x : Str} : KwI cs!"struct" k → NulText n z →
      Sep0 Comma ParamText ps x → TyText (.struct n ps) (k ++ (z ++ (cs!"<" ++ (x ++ cs!">"))))
  | prec {p : PrecKind} {n : Nul} {i : IntTok} {k z x : Str} : KwI (precKw p) k → NulText n z →
      IntText i x → TyText (.prec p n i) (k ++ (z ++ (cs!"<" ++ (x ++ cs!">"))))
  | intervalDay {n : Nul} {i : IntTok} {k z x : Str} : KwI cs!"interval_day" k → NulText n z →
      IntText i x → TyText (.intervalDay n i) (k ++ (z ++ (cs!"<" ++ (x ++ cs!">"))))
  | user {name u ax ux z px : Str} {a b : Option IntTok} {n : Nul} {ps : Option (List SParam)} :
      u = [] ∨ u = cs!"u!" → Ident name → Maybe AnchorText a ax → Maybe UrnAnchorText b ux →
      NulText n z → Maybe ParamsText ps px →
      TyText (.user name a b n ps) (u ++ (name ++ (ax ++ (ux ++ (z ++ px)))))
/-- `parameter`. -/
inductive ParamText : SParam → Str → Prop
  | ty {t : STy} {x : Str} : TyText t x → ParamText (.ty t) x
  | int {i : IntTok} {x : Str} : IntText i x → ParamText (.int i) x
  | name {n x : Str} : NameText n x → ParamText (.name n) x
/-- `parameters`. -/
inductive ParamsText : List SParam → Str → Prop
  | mk {ps : List SParam} {x : Str} : Sep0 Comma ParamText ps x →
      ParamsText ps (cs!"<" ++ (x ++ cs!">"))
end

/-! ## Literals -/

/-- The value of `expression_literal`. -/
inductive ValueText : SVal → Str → Prop
  | float {x : Str} : FloatText x → ValueText (.float x) x
  | int {i : IntTok} {x : Str} : IntText i x → ValueText (.int i) x
  | true : ValueText (.bool true) cs!"true"
  | false : ValueText (.bool false) cs!"false"
  | str {v x : Str} : StringText v x → ValueText (.str v) x
  | null : ValueText .null cs!"null"

/-- `":" ~ sp ~ type`. -/
def AscriptionText (t : STy) (x : Str) : Prop := ∃ w y, Sp w ∧ TyText t y ∧ x = [':'] ++ w ++ y

/-- `expression_literal`. -/
def LitText (l : SLit) (x : Str) : Prop :=
  ∃ y z, ValueText l.value y ∧ Maybe AscriptionText l.ty z ∧ x = y ++ z

/-! ## Expressions -/

/-- `reference`. -/
def RefText (i : IntTok) (x : Str) : Prop := ∃ y, IntText i y ∧ x = ['$'] ++ y

/-- `short_arg_type`. -/
def ShortArg (x : Str) : Prop :=
  ∃ u c cs, (u = [] ∨ u = cs!"u!") ∧ x = u ++ c :: cs ∧ c.isAlpha = true ∧ ∀ d ∈ cs, d.isAlphanum = true

/-- `argument_signature`. -/
def ArgSig (x : Str) : Prop := ∃ l, SepBy (· = ['_']) (fun a y => a = y ∧ ShortArg y) l x

/-- `function_signature`. -/
inductive FunSig : Str → Prop
  | plain {i : Str} : Ident i → FunSig i
  | colon {i : Str} : Ident i → FunSig (i ++ [':'])
  | sig {i a : Str} : Ident i → ArgSig a → FunSig (i ++ [':'] ++ a)

/-- `cast_failure_behavior?`. -/
inductive BehaviorText : SBehavior → Str → Prop
  | unspecified : BehaviorText .unspecified []
  | null : BehaviorText .null ['?']
  | throw : BehaviorText .throw ['!']

mutual
/-- `expression`. -/
inductive ExprText : SExpr → Str → Prop
  | ifThen {l : List (SExpr × SExpr)} {e : SExpr} {w x v u t y : Str} : l ≠ [] → Sp w →
      ClausesText l x → Sp v → Sp u → Sp t → ExprText e y →
      ExprText (.ifThen l e)
        (cs!"if_then(" ++ (w ++ (x ++ (v ++ (cs!"_" ++ (u ++ (cs!"->" ++ (t ++ (y ++ cs!")")))))))))
  | cast {e : SExpr} {fb : SBehavior} {t : STy} {w x v u q b p y : Str} : Sp w → ExprText e x → Sp v →
      Sp u → Sp q → BehaviorText fb b → Sp p → TyText t y →
      ExprText (.cast e fb t)
        (cs!"(" ++ (w ++ (x ++ (v ++ (cs!")" ++ (u ++ (cs!"::" ++ (q ++ (b ++ (p ++ y))))))))))
  | call {name : Str} {a u : Option IntTok} {args : List SExpr} {t : STy}
      {w1 x1 w2 x2 w3 x3 w4 y : Str} : FunSig name → Sp w1 → Maybe AnchorText a x1 → Sp w2 →
      Maybe UrnAnchorText u x2 → Sp w3 → Sep0 SpComma ExprText args x3 → Sp w4 → TyText t y →
      ExprText (.call name a u args t)
        (name ++ (w1 ++ (x1 ++ (w2 ++ (x2 ++ (w3 ++ (cs!"(" ++ (x3 ++ (cs!")" ++ (cs!":" ++ (w4 ++ y)))))))))))
  | ref {i : IntTok} {x : Str} : RefText i x → ExprText (.ref i) x
  | lit {l : SLit} {x : Str} : LitText l x → ExprText (.lit l) x
/-- `(if_clause ~ sp ~ "," ~ sp)*`. -/
inductive ClausesText : List (SExpr × SExpr) → Str → Prop
  | nil : ClausesText [] []
  | cons {c r : SExpr} {l : List (SExpr × SExpr)} {x w v y u t z : Str} : ExprText c x → Sp w → Sp v →
      ExprText r y → Sp u → Sp t → ClausesText l z →
      ClausesText ((c, r) :: l) (x ++ (w ++ (cs!"->" ++ (v ++ (y ++ (u ++ (cs!"," ++ (t ++ z))))))))
end

/-! ## Arguments of extensions -/

mutual
/-- `extension_argument`. -/
inductive ArgText : SArg → Str → Prop
  | enum {n : Str} : Ident n → ArgText (.enum n) ('&' :: n)
  | lit {v : SVal} {x : Str} : ValueText v x → ArgText (.lit v) x
  | ref {i : IntTok} {x : Str} : RefText i x → ArgText (.ref i) x
  | expr {e : SExpr} {x : Str} : ExprText e x → ArgText (.expr e) x
  | tuple {l : List SArg} {x : Str} : TupleText l x → ArgText (.tuple l) x
/-- `tuple`. -/
inductive TupleText : List SArg → Str → Prop
  | nil {w : Str} : Sp w → TupleText [] (cs!"(" ++ (w ++ cs!")"))
  | one {a : SArg} {w x v u : Str} : Sp w → ArgText a x → Sp v → Sp u →
      TupleText [a] (cs!"(" ++ (w ++ (x ++ (v ++ (cs!"," ++ (u ++ cs!")"))))))
  | many {l : List SArg} {w x c v : Str} : 2 ≤ l.length → Sp w → SepBy SpComma ArgText l x →
      (c = [] ∨ ∃ u, Sp u ∧ c = u ++ [',']) → Sp v →
      TupleText l (cs!"(" ++ (w ++ (x ++ (c ++ (v ++ cs!")")))))
end

/-- `extension_named_argument`. -/
def NamedArgText (a : Str × SArg) (x : Str) : Prop :=
  ∃ n w v y, NameText a.1 n ∧ Sp w ∧ Sp v ∧ ArgText a.2 y ∧ x = n ++ w ++ ['='] ++ v ++ y

/-- `extension_args`. -/
inductive ArgsText : SArgs → Str → Prop
  | nothing : ArgsText ⟨[], []⟩ []
  | empty : ArgsText ⟨[], []⟩ cs!"_"
  | positional {l : List SArg} {x : Str} : SepBy SpComma ArgText l x → ArgsText ⟨l, []⟩ x
  | both {l : List SArg} {n : List (Str × SArg)} {x m y : Str} : SepBy SpComma ArgText l x → SpComma m →
      SepBy SpComma NamedArgText n y → ArgsText ⟨l, n⟩ (x ++ (m ++ y))
  | named {n : List (Str × SArg)} {x : Str} : SepBy SpComma NamedArgText n x → ArgsText ⟨[], n⟩ x

/-- `named_column`. -/
def ColumnText (c : SColumn) (x : Str) : Prop :=
  ∃ n y, NameText c.1 n ∧ TyText c.2 y ∧ x = n ++ [':'] ++ y

/-- `extension_column`. -/
inductive ExtColumnText : SCol → Str → Prop
  | named {n : Str} {t : STy} {x : Str} : ColumnText (n, t) x → ExtColumnText (.named n t) x
  | ref {i : IntTok} {x : Str} : RefText i x → ExtColumnText (.ref i) x
  | expr {e : SExpr} {x : Str} : ExprText e x → ExtColumnText (.expr e) x

/-! ## Relations -/

/-- `named_column_list`. -/
abbrev ColumnsText : List SColumn → Str → Prop := Sep0 Comma ColumnText

/-- `reference_list`. -/
abbrev RefsText : List IntTok → Str → Prop := Sep0 SpComma RefText

/-- `expression_list`. -/
abbrev ExprsText : List SExpr → Str → Prop := Loose Comma ExprText

/-- `output`. -/
inductive OutputText : SOutput → Str → Prop
  | implicit {cols : List SColumn} {w x : Str} : Sp w → ColumnsText cols x →
      OutputText (.implicit cols) (cs!"=>" ++ (w ++ x))
  | direct {cols : List SColumn} {w x : Str} : Sp w → ColumnsText cols x →
      OutputText (.direct cols none) (cs!"+>" ++ (w ++ x))
  | emit {cols : List SColumn} {refs : List IntTok} {w x v u y : Str} : Sp w → ColumnsText cols x → Sp v →
      Sp u → RefsText refs y →
      OutputText (.direct cols (some refs)) (cs!"+>" ++ (w ++ (x ++ (v ++ (cs!"|>" ++ (u ++ y))))))

/-- `relation_line_cont`. -/
def ContText (m : Str) : Prop :=
  ∃ w nl v u, Sp w ∧ (nl = cs!"\n" ∨ nl = cs!"\r\n" ∨ nl = cs!"\r") ∧ Sp v ∧ Sp u ∧
    m = w ++ nl ++ v ++ cs!"- " ++ u

/-- `relation_comma`. -/
def RelComma (m : Str) : Prop := ∃ w v, Sp w ∧ (ContText v ∨ Sp v) ∧ m = w ++ ',' :: v

/-- `virtual_row`. -/
inductive RowText : List SExpr → Str → Prop
  | nil {w v : Str} : Sp w → Sp v → RowText [] (cs!"(" ++ (w ++ (v ++ cs!")")))
  | some {l : List SExpr} {w x v : Str} : Sp w → ExprsText l x → Sp v →
      RowText l (cs!"(" ++ (w ++ (x ++ (v ++ cs!")"))))

/-- `virtual_read_rows`. -/
inductive RowsText : List (List SExpr) → Str → Prop
  | empty : RowsText [] cs!"_"
  | rows {l : List (List SExpr)} {x : Str} : SepBy RelComma RowText l x → RowsText l x

/-- `relation_comma ~ virtual_read_filter`. -/
def VFilterText (e : SExpr) (x : Str) : Prop :=
  ∃ m w v y, RelComma m ∧ Sp w ∧ Sp v ∧ ExprText e y ∧ x = m ++ cs!"filter" ++ w ++ ['='] ++ v ++ y

/-- `project_argument`; a reference alone is not an expression. -/
inductive ProjText : SProj → Str → Prop
  | ref {i : IntTok} {x : Str} : RefText i x → ProjText (.ref i) x
  | expr {e : SExpr} {x : Str} : (∀ i, e ≠ .ref i) → ExprText e x → ProjText (.expr e) x

/-- `grouping_set`. -/
inductive SetText : List SExpr → Str → Prop
  | empty : SetText [] cs!"_"
  | exprs {l : List SExpr} {w x v : Str} : Sp w → ExprsText l x → Sp v →
      SetText l (cs!"(" ++ (w ++ (x ++ (v ++ cs!")"))))

/-- `aggregate_group_by`. -/
inductive GroupText : SGroup → Str → Prop
  | sets {l : List (List SExpr)} {x : Str} : Loose Comma SetText l x → GroupText (.sets l) x
  | exprs {l : List SExpr} {x : Str} : ExprsText l x → GroupText (.exprs l) x

/-- `sort_direction`. -/
def SortName (d : Str) : Prop :=
  d ∈ [cs!"&AscNullsFirst", cs!"&AscNullsLast", cs!"&DescNullsFirst", cs!"&DescNullsLast"]

/-- `sort_field`. -/
def SortText (f : SExpr × Str) (x : Str) : Prop :=
  ∃ w y v u t, Sp w ∧ ExprText f.1 y ∧ Sp v ∧ Sp u ∧ SortName f.2 ∧ Sp t ∧
    x = ['('] ++ w ++ y ++ v ++ [','] ++ u ++ f.2 ++ t ++ [')']

/-- `fetch_value`; an expression does not begin with a number. -/
inductive FetchValueText : SFetch → Str → Prop
  | int {i : IntTok} {x : Str} : IntText i x → FetchValueText (.int i) x
  | expr {e : SExpr} {x : Str} : (∀ i y z, IntText i y → x ≠ y ++ z) → ExprText e x → FetchValueText (.expr e) x

/-- `fetch_named_arg`. -/
def FetchArgText (a : Str × SFetch) (x : Str) : Prop :=
  ∃ w v y, (a.1 = cs!"limit" ∨ a.1 = cs!"offset") ∧ Sp w ∧ Sp v ∧ FetchValueText a.2 y ∧
    x = a.1 ++ w ++ ['='] ++ v ++ y

/-- `fetch_args`. -/
inductive FetchArgsText : List (Str × SFetch) → Str → Prop
  | empty : FetchArgsText [] cs!"_"
  | args {l : List (Str × SFetch)} {x : Str} : SepBy SpComma FetchArgText l x → FetchArgsText l x

/-- `join_type`. -/
def JoinName (d : Str) : Prop :=
  d ∈ [cs!"&Inner", cs!"&LeftSemi", cs!"&LeftAnti", cs!"&LeftSingle", cs!"&LeftMark", cs!"&Left",
    cs!"&RightSemi", cs!"&RightAnti", cs!"&RightSingle", cs!"&RightMark", cs!"&Right", cs!"&Outer"]

/-- `sp ~ "," ~ sp ~ join_post_join_filter`. -/
def PostFilterText (e : SExpr) (x : Str) : Prop :=
  ∃ m w v y, SpComma m ∧ Sp w ∧ Sp v ∧ ExprText e y ∧ x = m ++ cs!"post_filter" ++ w ++ ['='] ++ v ++ y

/-- `set_op`. -/
def SetName (d : Str) : Prop :=
  d ∈ [cs!"&IntersectionMultisetAll", cs!"&IntersectionMultiset", cs!"&IntersectionPrimary",
    cs!"&MinusPrimaryAll", cs!"&MinusPrimary", cs!"&MinusMultiset", cs!"&UnionAll", cs!"&UnionDistinct"]

/-- `extension_type`. -/
def kindKw : ExtKind → Str
  | .leaf => cs!"ExtensionLeaf"
  | .single => cs!"ExtensionSingle"
  | .multi => cs!"ExtensionMulti"

/-- `addendum_type`. -/
def addKw : AddKind → Str
  | .enh => cs!"Enh"
  | .opt => cs!"Opt"
  | .ext => cs!"Ext"

/-- `sp ~ "=>" ~ sp ~ extension_columns`. -/
def ExtColumnsText (l : List SCol) (x : Str) : Prop :=
  ∃ m y, Arrow m ∧ Sep0 SpComma ExtColumnText l y ∧ x = m ++ y

/-- `root_relation` and the relations of `planNode`.  The name of an extension relation is kept as
it is written. -/
inductive RelText : SLine → Str → Prop
  | root {names : List Str} {x : Str} : Sep0 SpComma NameText names x →
      RelText (.root names) (cs!"Root[" ++ (x ++ cs!"]"))
  | read {table : List Str} {out : SOutput} {x w y : Str} : SepBy (· = ['.']) NameText table x → Sp w →
      OutputText out y → RelText (.read table out) (cs!"Read[" ++ (x ++ (w ++ (y ++ cs!"]"))))
  | readExt {cols : List SColumn} {x : Str} : ColumnsText cols x →
      RelText (.readExt cols) (cs!"Read:Extension[" ++ (x ++ cs!"]"))
  | readVirtual {rows : List (List SExpr)} {f : Option SExpr} {cols : List SColumn} {k x y m w z v : Str} :
      k = [] ∨ ContText k → RowsText rows x → Maybe VFilterText f y → ContText m ∨ Sp m → Sp w →
      ColumnsText cols z → Sp v →
      RelText (.readVirtual rows f cols)
        (cs!"Read:Virtual" ++ (cs!"[" ++ (k ++ (x ++ (y ++ (m ++ (cs!"=>" ++ (w ++ (z ++ (cs!"]" ++ v))))))))))
  | filter {e : SExpr} {refs : List IntTok} {x m y : Str} : ExprText e x → Arrow m → RefsText refs y →
      RelText (.filter e refs) (cs!"Filter[" ++ (x ++ (m ++ (y ++ cs!"]"))))
  | project {args : List SProj} {x : Str} : Sep0 SpComma ProjText args x →
      RelText (.project args) (cs!"Project[" ++ (x ++ cs!"]"))
  | aggregate {g : SGroup} {outs : List SExpr} {x m y : Str} : GroupText g x → Arrow m →
      Sep0 SpComma ExprText outs y →
      RelText (.aggregate g outs) (cs!"Aggregate[" ++ (x ++ (m ++ (y ++ cs!"]"))))
  | sort {fields : List (SExpr × Str)} {refs : List IntTok} {x m y : Str} :
      Sep0 SpComma SortText fields x → Arrow m → RefsText refs y →
      RelText (.sort fields refs) (cs!"Sort[" ++ (x ++ (m ++ (y ++ cs!"]"))))
  | fetch {args : List (Str × SFetch)} {refs : List IntTok} {x m y : Str} : FetchArgsText args x → Arrow m →
      RefsText refs y → RelText (.fetch args refs) (cs!"Fetch[" ++ (x ++ (m ++ (y ++ cs!"]"))))
  | join {ty : Str} {e : SExpr} {post : Option SExpr} {refs : List IntTok} {c x p m y : Str} : JoinName ty →
      SpComma c → ExprText e x → Maybe PostFilterText post p → Arrow m → RefsText refs y →
      RelText (.join ty e post refs)
        (cs!"Join[" ++ (ty ++ (c ++ (x ++ (p ++ (m ++ (y ++ cs!"]")))))))
  | set {op : Str} {refs : List IntTok} {m y : Str} : SetName op → Arrow m → RefsText refs y →
      RelText (.set op refs) (cs!"Set[" ++ (op ++ (m ++ (y ++ cs!"]"))))
  | cross {refs : List IntTok} {y : Str} : RefsText refs y →
      RelText (.cross refs) (cs!"Cross[" ++ (y ++ cs!"]"))
  | ext {k : ExtKind} {n raw w x y : Str} {args : SArgs} {cols : Option (List SCol)} : NameText n raw →
      Sp w → ArgsText args x → Maybe ExtColumnsText cols y →
      RelText (.ext k raw args (cols.getD []))
        (kindKw k ++ (cs!":" ++ (raw ++ (cs!"[" ++ (w ++ (x ++ (y ++ cs!"]")))))))

/-- `addendum`. -/
def AddText (a : SAddendum) (x : Str) : Prop :=
  ∃ w n y, Sp w ∧ NameText a.name n ∧ ArgsText a.args y ∧
    x = ['+'] ++ w ++ addKw a.kind ++ [':'] ++ n ++ ['['] ++ y ++ [']']

/-- A line of the plan section. -/
inductive NodeText : LineNode SLine SAddendum → Str → Prop
  | relation {r : SLine} {x : Str} : RelText r x → NodeText (.relation r) x
  | addendum {a : SAddendum} {x : Str} : AddText a x → NodeText (.addendum a) x

/-! ## Other texts -/

/-- `extension_urn_declaration`. -/
def UrnDeclText (i : IntTok) (u x : Str) : Prop :=
  ∃ y w, UrnAnchorText i y ∧ Sp w ∧ u ≠ [] ∧ ' ' ∉ u ∧ x = y ++ [':'] ++ w ++ u

/-- `simple_extension`. -/
def DeclText (i j : IntTok) (n x : Str) : Prop :=
  ∃ y w z v u, AnchorText i y ∧ Sp w ∧ UrnAnchorText j z ∧ Sp v ∧ Sp u ∧
    (FunSig n ∨ ∃ m, FunSig m ∧ n = cs!"u!" ++ m) ∧ x = y ++ w ++ z ++ v ++ [':'] ++ u ++ n

/-- `interval_day_duration`. -/
def DurText (d : SDur) (x : Str) : Prop :=
  ∃ parts : List Str, parts ≠ [] ∧ x = joinS cs!" " parts ∧
    ∃ a b c, parts = a ++ b ++ c ∧
      (match d.days with | none => a = [] | some i => ∃ y, IntText i y ∧ a = [y ++ cs!"d"]) ∧
      (match d.secs with | none => b = [] | some i => ∃ y, IntText i y ∧ b = [y ++ cs!"s"]) ∧
      (match d.sub with
        | none => c = []
        | some (i, u) => u ∈ [cs!"ms", cs!"us", cs!"ns", cs!"ps"] ∧ ∃ y, IntText i y ∧ c = [y ++ u])

end Verif.Grammar
