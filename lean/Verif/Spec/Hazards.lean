import Verif.Spec.PlanLines
import Verif.Model.RelConv
/-!
# What can make the parser panic

Lists of the parts of a text at which `unwrap`, `unimplemented!`, `unreachable!` or the drop of a
half-read `RuleIter` can be reached.  There are three sorts: numbers out of range, types that are not
implemented, and parts that do not convert (`.err`) at places where an error is raised while other
parts are still to be read.
-/

namespace Verif.HazardSpec

open Grammar ChunkSpec SectionSpec

set_option autoImplicit false

/-- Not a signed number of 32 bits. -/
def Not32 (i : IntTok) : Prop := ¬ (-(2 ^ 31) ≤ i.toInt ∧ i.toInt < 2 ^ 31)

/-- Not a signed number of 64 bits. -/
def Not64 (i : IntTok) : Prop := ¬ (-(2 ^ 63) ≤ i.toInt ∧ i.toInt < 2 ^ 63)

/-- Not an unsigned number of 32 bits. -/
def NotAnchor (i : IntTok) : Prop := ¬ (i.neg = false ∧ i.val < 2 ^ 32)

/-- A result that is an error. -/
def Fails {α : Type} (r : Res Err α) : Prop := ∃ e, r = .err e

/-- Types at which the parser can panic. -/
inductive TyHazard (st : Store) : STy → Prop
  | unsigned {name : Str} {n : Nul} : name ∈ [cs!"u8", cs!"u16", cs!"u32", cs!"u64"] →
      TyHazard st (.simple name n)
  | list {n : Nul} {t : STy} : TyHazard st t → TyHazard st (.list n t)
  | map {n : Nul} {a b : STy} : TyHazard st (.map n a b)
  | struct {n : Nul} {ps : List SParam} : TyHazard st (.struct n ps)
  | anchor {name : Str} {a : IntTok} {u : Option IntTok} {n : Nul} {ps : Option (List SParam)} :
      NotAnchor a → TyHazard st (.user name (some a) u n ps)
  | urn {name : Str} {a : Option IntTok} {u : IntTok} {n : Nul} {ps : Option (List SParam)} :
      NotAnchor u → TyHazard st (.user name a (some u) n ps)
  | intParam {name : Str} {a u : Option IntTok} {n : Nul} {ps : List SParam} {i : IntTok} :
      .int i ∈ ps → TyHazard st (.user name a u n (some ps))
  | nameParam {name : Str} {a u : Option IntTok} {n : Nul} {ps : List SParam} {m : Str} :
      .name m ∈ ps → TyHazard st (.user name a u n (some ps))
  | param {name : Str} {a u : Option IntTok} {n : Nul} {ps : List SParam} {t : STy} :
      .ty t ∈ ps → TyHazard st t → TyHazard st (.user name a u n (some ps))
  /-- a parameter that does not convert, not being the last one -/
  | early {name : Str} {a u : Option IntTok} {n : Nul} {l r : List SParam} {t : STy} {q : SParam} :
      Fails (convTy st t) → TyHazard st (.user name a u n (some (l ++ .ty t :: q :: r)))

variable [FTab]

/-- Expressions at which the parser can panic. -/
inductive ExprHazard (st : Store) : SExpr → Prop
  | int {i : IntTok} {t : Option STy} : Not64 i → ExprHazard st (.lit ⟨.int i, t⟩)
  | ascription {v : SVal} {t : STy} : TyHazard st t → ExprHazard st (.lit ⟨v, some t⟩)
  | ref {i : IntTok} : Not32 i → ExprHazard st (.ref i)
  | anchor {name : Str} {a : IntTok} {u : Option IntTok} {args : List SExpr} {t : STy} :
      NotAnchor a → ExprHazard st (.call name (some a) u args t)
  | urn {name : Str} {a : Option IntTok} {u : IntTok} {args : List SExpr} {t : STy} :
      NotAnchor u → ExprHazard st (.call name a (some u) args t)
  | arg {name : Str} {a u : Option IntTok} {args : List SExpr} {t : STy} {e : SExpr} :
      e ∈ args → ExprHazard st e → ExprHazard st (.call name a u args t)
  | result {name : Str} {a u : Option IntTok} {args : List SExpr} {t : STy} :
      TyHazard st t → ExprHazard st (.call name a u args t)
  | castOf {e : SExpr} {fb : SBehavior} {t : STy} : ExprHazard st e → ExprHazard st (.cast e fb t)
  | castTo {e : SExpr} {fb : SBehavior} {t : STy} : TyHazard st t → ExprHazard st (.cast e fb t)
  | clause {l : List (SExpr × SExpr)} {y : SExpr} {p : SExpr × SExpr} {e : SExpr} :
      p ∈ l → e = p.1 ∨ e = p.2 → ExprHazard st e → ExprHazard st (.ifThen l y)
  /-- a condition or result that does not convert; the else branch is still to be read -/
  | clauseFails {l : List (SExpr × SExpr)} {y : SExpr} {p : SExpr × SExpr} {e : SExpr} :
      p ∈ l → e = p.1 ∨ e = p.2 → Fails (convExpr st e) → ExprHazard st (.ifThen l y)
  | otherwise {l : List (SExpr × SExpr)} {y : SExpr} : ExprHazard st y → ExprHazard st (.ifThen l y)

/-- Arguments of extensions. -/
inductive ArgHazard (st : Store) : SArg → Prop
  | int {i : IntTok} : Not64 i → ArgHazard st (.lit (.int i))
  | ref {i : IntTok} : Not32 i → ArgHazard st (.ref i)
  | expr {e : SExpr} : ExprHazard st e → ArgHazard st (.expr e)
  | tuple {l : List SArg} {a : SArg} : a ∈ l → ArgHazard st a → ArgHazard st (.tuple l)

/-- Some argument is one. -/
def ArgsHazard (st : Store) (a : SArgs) : Prop :=
  (∃ x ∈ a.positional, ArgHazard st x) ∨ ∃ x ∈ a.named, ArgHazard st x.2

/-- Output columns of extensions. -/
inductive ColHazard (st : Store) : SCol → Prop
  | named {n : Str} {t : STy} : TyHazard st t → ColHazard st (.named n t)
  | ref {i : IntTok} : Not32 i → ColHazard st (.ref i)
  | expr {e : SExpr} : ExprHazard st e → ColHazard st (.expr e)

/-- The columns of a read. -/
def outColumns : SOutput → List SColumn
  | .implicit cols => cols
  | .direct cols _ => cols

/-- The groups of an aggregate. -/
def groupLists : SGroup → List (List SExpr)
  | .exprs l => [l]
  | .sets l => l

/-- The output references of a line. -/
def lineRefs : SLine → List IntTok
  | .read _ (.direct _ (some refs)) => refs
  | .filter _ refs => refs
  | .sort _ refs => refs
  | .fetch _ refs => refs
  | .join _ _ _ refs => refs
  | .set _ refs => refs
  | .cross refs => refs
  | .project args => args.filterMap fun | .ref i => some i | .expr _ => none
  | _ => []

/-- The types of the columns of a line. -/
def lineTypes : SLine → List STy
  | .read _ out => (outColumns out).map (·.2)
  | .readVirtual _ _ cols => cols.map (·.2)
  | .readExt cols => cols.map (·.2)
  | _ => []

/-- The expressions of a line. -/
def lineExprs : SLine → List SExpr
  | .readVirtual rows f _ => f.toList ++ rows.flatten
  | .filter e _ => [e]
  | .project args => args.filterMap fun | .ref _ => none | .expr e => some e
  | .aggregate g outs => (groupLists g).flatten ++ outs
  | .sort fs _ => fs.map (·.1)
  | .fetch args _ => args.filterMap fun a => match a.2 with | .int _ => none | .expr e => some e
  | .join _ e p _ => e :: p.toList
  | _ => []

/-- The expressions of a line that are not the last thing to be read. -/
def guarded : SLine → List SExpr
  | .readVirtual _ f _ => f.toList
  | .filter e _ => [e]
  | .sort fs _ => fs.map (·.1)
  | .join _ e p _ => e :: p.toList
  | _ => []

/-- Relation lines at which the parser can panic. -/
inductive LineHazard (st : Store) : SLine → Prop
  | ref {l : SLine} {i : IntTok} : i ∈ lineRefs l → Not32 i → LineHazard st l
  | type {l : SLine} {t : STy} : t ∈ lineTypes l → TyHazard st t → LineHazard st l
  | expr {l : SLine} {e : SExpr} : e ∈ lineExprs l → ExprHazard st e → LineHazard st l
  | guarded {l : SLine} {e : SExpr} : e ∈ guarded l → Fails (convExpr st e) → LineHazard st l
  | column {table : List Str} {cols : List SColumn} {s : Option (List IntTok)} {c : SColumn} :
      c ∈ cols → Fails (convTy st c.2) → LineHazard st (.read table (.direct cols s))
  | repeated {args : List (Str × SFetch)} {refs : List IntTok} : ¬ (args.map (·.1)).Nodup →
      LineHazard st (.fetch args refs)
  | extArgs {k : ExtKind} {n : Str} {a : SArgs} {cols : List SCol} : ArgsHazard st a →
      LineHazard st (.ext k n a cols)
  | extColumn {k : ExtKind} {n : Str} {a : SArgs} {cols : List SCol} {c : SCol} : c ∈ cols →
      ColHazard st c → LineHazard st (.ext k n a cols)

/-- Lines of the plan section at which the parser can panic. -/
inductive NodeHazard (st : Store) : LineNode SLine SAddendum → Prop
  | relation {l : SLine} : LineHazard st l → NodeHazard st (.relation l)
  | addendum {a : SAddendum} : ArgsHazard st a.args → NodeHazard st (.addendum a)

omit [FTab] in
/-- A line that begins with a declaration but goes on with something else, or that has a number that is
not an anchor. -/
inductive DeclHazard : Str → Prop
  | urnTail {i : IntTok} {u x tail : Str} : UrnDeclText i u x → (∀ j v, ¬ UrnDeclText j v (x ++ tail)) →
      DeclHazard (cs!"  " ++ (x ++ tail))
  | urn {i : IntTok} {u x : Str} : UrnDeclText i u x → NotAnchor i → DeclHazard (cs!"  " ++ x)
  | declTail {i j : IntTok} {n x tail : Str} : DeclText i j n x → (∀ i' j' m, ¬ DeclText i' j' m (x ++ tail)) →
      DeclHazard (cs!"  " ++ (x ++ tail))
  | decl {i j : IntTok} {n x : Str} : DeclText i j n x → NotAnchor i ∨ NotAnchor j → DeclHazard (cs!"  " ++ x)

omit [FTab] in
/-- The extensions section has such a line. -/
def ExtHazard (text : Str) : Prop :=
  ∃ before header body l after, physLines text = before ++ header :: (body ++ l :: after) ∧
    trimEnd header = cs!"=== Extensions" ∧ (∀ b ∈ body, ∀ r, trimEnd b ≠ cs!"===" ++ r) ∧ DeclHazard (trimEnd l)

/-- The plan section has a line at which the parser can panic, given the declarations. -/
def PlanHazard (text : Str) : Prop :=
  ∃ v ops lines tails, TextSays text v ops lines tails ∧ StoreSpec.answers [] ops = [] ∧
    ∃ l ∈ lines, NodeHazard (StoreSpec.run ops) l.2

end Verif.HazardSpec
