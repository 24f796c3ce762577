import Verif.Spec.Accept
import Verif.Spec.Tree
import Verif.Spec.Pest
/-!
# Specification: which texts make the parser panic

The places at which reading ends in a panic, for each piece of syntax.  Pieces are looked at from left to right, and
whatever has no meaning ends the reading, with an error or a panic; so a panic further right needs a meaning of
everything before it.  Where an error is raised while other pieces are still waiting to be looked at (conditions,
clauses, parameters, columns before a mapping, ...), having no meaning is itself enough for a panic.
-/

namespace Verif.CrashSpec

open StoreSpec TemporalSpec Grammar MeaningSpec ChunkSpec DeclareSpec AcceptSpec TreeSpec PestSpec

set_option autoImplicit false

/-- Some item crashes, and all items before it are fine. -/
inductive First {α : Type} (Fine Crash : α → Prop) : List α → Prop
  | here {a : α} {l : List α} : Crash a → First Fine Crash (a :: l)
  | later {a : α} {l : List α} : Fine a → First Fine Crash l → First Fine Crash (a :: l)

/-- An anchor that is not a number of 32 bits. -/
def BadAnchor : Option IntTok → Prop
  | none => False
  | some i => ∀ n, ¬ U32 i n

/-- A type that means something. -/
def TyFine (st : Store) (s : STy) : Prop := ∃ t, TyMeans st s t

/-- A parameter that means something. -/
def ParamFine (st : Store) : SParam → Prop
  | .ty s => TyFine st s
  | _ => False

/-- Types that panic: the ones the grammar knows and the conversion does not; numbers that are no anchors; parameters
that are no types; parameters that mean nothing and are not the last. -/
inductive TyCrashes (st : Store) : STy → Prop
  | unknown {name : Str} {n : Nul} : (∀ k, (name, k) ∉ builtIn) → TyCrashes st (.simple name n)
  | list {n : Nul} {s : STy} : TyCrashes st s → TyCrashes st (.list n s)
  | map {n : Nul} {a b : STy} : TyCrashes st (.map n a b)
  | struct {n : Nul} {ps : List SParam} : TyCrashes st (.struct n ps)
  | anchor {name : Str} {a u : Option IntTok} {n : Nul} {ps : Option (List SParam)} : BadAnchor a →
      TyCrashes st (.user name a u n ps)
  | urn {name : Str} {a u : Option IntTok} {n : Nul} {ps : Option (List SParam)} : BadAnchor u →
      TyCrashes st (.user name a u n ps)
  | param {name : Str} {a u : Option IntTok} {n : Nul} {ps : List SParam} {pre post : List SParam} {s : STy} :
      ps = pre ++ .ty s :: post → (∀ p ∈ pre, ParamFine st p) → TyCrashes st s → TyCrashes st (.user name a u n (some ps))
  | notType {name : Str} {a u : Option IntTok} {n : Nul} {ps : List SParam} {pre post : List SParam} {p : SParam} :
      ps = pre ++ p :: post → (∀ p ∈ pre, ParamFine st p) → (∀ s, p ≠ .ty s) → TyCrashes st (.user name a u n (some ps))
  | notLast {name : Str} {a u : Option IntTok} {n : Nul} {ps : List SParam} {pre post : List SParam} {p : SParam} :
      ps = pre ++ p :: post → (∀ p ∈ pre, ParamFine st p) → ¬ ParamFine st p → post ≠ [] →
      TyCrashes st (.user name a u n (some ps))

variable [FTab]

/-- Literals that panic: the type does, or it means something and the value is an integer of more than 64 bits. -/
def LitCrashes (st : Store) (s : SLit) : Prop :=
  (∃ t, s.ty = some t ∧ TyCrashes st t) ∨
    ((∀ t, s.ty = some t → TyFine st t) ∧ ∃ i, s.value = .int i ∧ ¬ InI64 i.toInt)

/-- An expression that means something. -/
def ExprFine (st : Store) (s : SExpr) : Prop := ∃ e, ExprMeans st s e

/-- Expressions that panic. -/
inductive ExprCrashes (st : Store) : SExpr → Prop
  | lit {s : SLit} : LitCrashes st s → ExprCrashes st (.lit s)
  | ref {i : IntTok} : ¬ InI32 i.toInt → ExprCrashes st (.ref i)
  | anchor {name : Str} {a u : Option IntTok} {ss : List SExpr} {t : STy} : BadAnchor a → ExprCrashes st (.call name a u ss t)
  | urn {name : Str} {a u : Option IntTok} {ss : List SExpr} {t : STy} : BadAnchor u → ExprCrashes st (.call name a u ss t)
  | arg {name : Str} {a u : Option IntTok} {ss : List SExpr} {t : STy} : First (ExprFine st) (ExprCrashes st) ss →
      ExprCrashes st (.call name a u ss t)
  | result {name : Str} {a u : Option IntTok} {ss : List SExpr} {t : STy} : (∀ s ∈ ss, ExprFine st s) → TyCrashes st t →
      ExprCrashes st (.call name a u ss t)
  | castOf {s : SExpr} {fb : SBehavior} {t : STy} : ExprCrashes st s → ExprCrashes st (.cast s fb t)
  | castTo {s : SExpr} {fb : SBehavior} {t : STy} : ExprFine st s → TyCrashes st t → ExprCrashes st (.cast s fb t)
  /-- a clause that means nothing; the last expression is still waiting -/
  | clause {l : List (SExpr × SExpr)} {y : SExpr} {p : SExpr × SExpr} : p ∈ l → ¬ (ExprFine st p.1 ∧ ExprFine st p.2) →
      ExprCrashes st (.ifThen l y)
  | otherwise {l : List (SExpr × SExpr)} {y : SExpr} : ExprCrashes st y → ExprCrashes st (.ifThen l y)

/-! ## Arguments of extensions -/

/-- An argument that means something. -/
def ArgFine (st : Store) (s : SArg) : Prop := ∃ v, ArgMeans st s v

/-- Arguments that panic. -/
inductive ArgCrashes (st : Store) : SArg → Prop
  | int {i : IntTok} : ¬ InI64 i.toInt → ArgCrashes st (.lit (.int i))
  | ref {i : IntTok} : ¬ InI32 i.toInt → ArgCrashes st (.ref i)
  | expr {s : SExpr} : ExprCrashes st s → ArgCrashes st (.expr s)
  | tuple {l : List SArg} : First (ArgFine st) (ArgCrashes st) l → ArgCrashes st (.tuple l)

/-- Output columns of an extension that panic. -/
inductive ColCrashes (st : Store) : SCol → Prop
  | named {n : Str} {s : STy} : TyCrashes st s → ColCrashes st (.named n s)
  | ref {i : IntTok} : ¬ InI32 i.toInt → ColCrashes st (.ref i)
  | expr {s : SExpr} : ExprCrashes st s → ColCrashes st (.expr s)

/-- Arguments and columns of an extension: positional ones come first, then named ones, then columns. -/
def ArgsCrash (st : Store) (s : SArgs) (cols : List SCol) : Prop :=
  First (ArgFine st) (ArgCrashes st) s.positional ∨
  (∀ x ∈ s.positional, ArgFine st x) ∧
    (First (fun x => ArgFine st x.2) (fun x => ArgCrashes st x.2) s.named ∨
    (∀ x ∈ s.named, ArgFine st x.2) ∧ First (fun c => ∃ v, ColMeans st c v) (ColCrashes st) cols)

/-! ## Relations -/

omit [FTab] in
/-- A reference of more than 32 bits. -/
def RefsCrash (refs : List IntTok) : Prop := ∃ i ∈ refs, ¬ InI32 i.toInt

omit [FTab] in
/-- Columns with a type that panics. -/
def ColumnsCrash (st : Store) (cols : List SColumn) : Prop := First (fun c => TyFine st c.2) (fun c => TyCrashes st c.2) cols

/-- Lists of expressions. -/
def ExprsCrash (st : Store) (l : List SExpr) : Prop := First (ExprFine st) (ExprCrashes st) l

/-- Lists of lists of expressions. -/
def ListsCrash (st : Store) (l : List (List SExpr)) : Prop := First (fun r => ∀ s ∈ r, ExprFine st s) (ExprsCrash st) l

/-- The addenda make an advanced extension. -/
def Adorned (reg : Registry ExtArgs (List Nat)) (as : List Addendum) : Prop :=
  (∀ a ∈ as, a.kind ≠ .ext) ∧ ∃ adv, AdvMeans reg as adv

/-- Projected items that mean something. -/
def ProjFine (st : Store) : SProj → Prop
  | .ref i => InI32 i.toInt
  | .expr s => ExprFine st s

/-- Projected items that panic. -/
def ProjCrashes (st : Store) : SProj → Prop
  | .ref i => ¬ InI32 i.toInt
  | .expr s => ExprCrashes st s

/-- The sets of a group. -/
def GroupCrashes (st : Store) : SGroup → Prop
  | .exprs l => ExprsCrash st l
  | .sets l => ListsCrash st l

/-- An output of an aggregate: a grouping expression or a call. -/
def OutFine (st : Store) (g : List Expr) (s : SExpr) : Prop :=
  ∃ e, ExprMeans st s e ∧ (e ∈ g ∨ ∃ name a u ss t, s = .call name a u ss t)

/-- The argument of a limit or an offset that panics. -/
def LimitCrashes (st : Store) (args : List (Str × SFetch)) (name : Str) : Prop :=
  ∃ s, (name, .expr s) ∈ args ∧ ExprCrashes st s

/-- Lines that panic, the addenda and the inputs being fine. -/
inductive LineCrashes (st : Store) (reg : Registry ExtArgs (List Nat)) (as : List Addendum) :
    SLine → List (Rel × Nat) → Prop
  | readTypes {table : List Str} {cols : List SColumn} : Adorned reg as → ColumnsCrash st cols →
      LineCrashes st reg as (.read table (.implicit cols)) []
  /-- the mapping is still waiting -/
  | readColumn {table : List Str} {cols : List SColumn} {s : Option (List IntTok)} {c : SColumn} : Adorned reg as →
      c ∈ cols → ¬ TyFine st c.2 → LineCrashes st reg as (.read table (.direct cols s)) []
  | readRef {table : List Str} {cols : List SColumn} {refs : List IntTok} : Adorned reg as → RefsCrash refs →
      LineCrashes st reg as (.read table (.direct cols (some refs))) []
  /-- the rows are still waiting -/
  | virtualFilter {rows : List (List SExpr)} {f : SExpr} {cols : List SColumn} : Adorned reg as → ¬ ExprFine st f →
      LineCrashes st reg as (.readVirtual rows (some f) cols) []
  | virtualRows {rows : List (List SExpr)} {f : Option SExpr} {cols : List SColumn} : Adorned reg as →
      (∀ s, f = some s → ExprFine st s) → ListsCrash st rows → LineCrashes st reg as (.readVirtual rows f cols) []
  | virtualTypes {rows : List (List SExpr)} {f : Option SExpr} {cols : List SColumn} : Adorned reg as →
      (∀ s, f = some s → ExprFine st s) → (∀ r ∈ rows, ∀ s ∈ r, ExprFine st s) → ColumnsCrash st cols →
      LineCrashes st reg as (.readVirtual rows f cols) []
  | extTypes {cols : List SColumn} {d : AnyMsg} {adv : Option AdvExt} : Made reg .ext .extensionTable as [d] →
      AdvMeans reg as adv → ColumnsCrash st cols → LineCrashes st reg as (.readExt cols) []
  /-- the mapping is still waiting -/
  | filter {cond : SExpr} {refs : List IntTok} {i : Rel × Nat} : Adorned reg as → ¬ ExprFine st cond ∨ RefsCrash refs →
      LineCrashes st reg as (.filter cond refs) [i]
  | project {args : List SProj} {i : Rel × Nat} : Adorned reg as → First (ProjFine st) (ProjCrashes st) args →
      LineCrashes st reg as (.project args) [i]
  | group {group : SGroup} {outs : List SExpr} {i : Rel × Nat} : Adorned reg as → GroupCrashes st group →
      LineCrashes st reg as (.aggregate group outs) [i]
  | output {group : SGroup} {outs : List SExpr} {i : Rel × Nat} {sets : List (List Expr)} : Adorned reg as →
      SetsMean st group sets → First (OutFine st (sets.flatten)) (ExprCrashes st) outs →
      LineCrashes st reg as (.aggregate group outs) [i]
  /-- the direction is still waiting -/
  | sortField {fields : List (SExpr × Str)} {refs : List IntTok} {i : Rel × Nat} : Adorned reg as →
      First (fun f => ∃ x, SortMeans st f x) (fun f => ¬ ExprFine st f.1) fields →
      LineCrashes st reg as (.sort fields refs) [i]
  | sortRef {fields : List (SExpr × Str)} {refs : List IntTok} {i : Rel × Nat} : Adorned reg as →
      (∀ f ∈ fields, ∃ x, SortMeans st f x) → RefsCrash refs → LineCrashes st reg as (.sort fields refs) [i]
  | repeated {args : List (Str × SFetch)} {refs : List IntTok} {i : Rel × Nat} : Adorned reg as →
      ¬ (args.map (·.1)).Nodup → LineCrashes st reg as (.fetch args refs) [i]
  | fetchRef {args : List (Str × SFetch)} {refs : List IntTok} {i : Rel × Nat} : Adorned reg as → RefsCrash refs →
      LineCrashes st reg as (.fetch args refs) [i]
  | limit {args : List (Str × SFetch)} {refs : List IntTok} {i : Rel × Nat} : Adorned reg as →
      LimitCrashes st args cs!"limit" → LineCrashes st reg as (.fetch args refs) [i]
  | offset {args : List (Str × SFetch)} {refs : List IntTok} {i : Rel × Nat} {l : Option Count} : Adorned reg as →
      LimitMeans st args cs!"limit" l → LimitCrashes st args cs!"offset" → LineCrashes st reg as (.fetch args refs) [i]
  /-- the mapping is still waiting; the grammar allows only the words of the table -/
  | join {word : Str} {cond : SExpr} {post : Option SExpr} {refs : List IntTok} {i j : Rel × Nat} : Adorned reg as →
      (∀ t, ¬ Word joinWords word t) ∨ ¬ ExprFine st cond ∨ (∃ s, post = some s ∧ ¬ ExprFine st s) ∨ RefsCrash refs →
      LineCrashes st reg as (.join word cond post refs) [i, j]
  | set {word : Str} {refs : List IntTok} {kids : List (Rel × Nat)} {n : Nat} : Adorned reg as → 2 ≤ kids.length →
      (∀ k ∈ kids, k.2 = n) → (∀ o, ¬ Word setWords word o) ∨ RefsCrash refs → LineCrashes st reg as (.set word refs) kids
  | cross {refs : List IntTok} {i j : Rel × Nat} : Adorned reg as → RefsCrash refs →
      LineCrashes st reg as (.cross refs) [i, j]
  | ext {kind : ExtKind} {name : Str} {args : SArgs} {cols : List SCol} {kids : List (Rel × Nat)} : as = [] →
      ArgsCrash st args cols → LineCrashes st reg as (.ext kind name args cols) kids
  /-- a root that is not at the top; the grammar does not allow it -/
  | root {names : List Str} {kids : List (Rel × Nat)} : Adorned reg as → LineCrashes st reg as (.root names) kids

/-- Trees that panic: inputs come first, then addenda, then the line itself. -/
inductive NodeCrashes (st : Store) (reg : Registry ExtArgs (List Nat)) : RNode SLine SAddendum → Prop
  | input {line : SLine} {ss : List SAddendum} {ts : List (RNode SLine SAddendum)} :
      First (fun t => ∃ r, RelMeans st reg t r) (NodeCrashes st reg) ts → NodeCrashes st reg (.mk line ss ts)
  | addendum {line : SLine} {ss : List SAddendum} {ts : List (RNode SLine SAddendum)} :
      (∀ t ∈ ts, ∃ r, RelMeans st reg t r) → First (fun s => ∃ a, AddMeans st s a) (fun s => ArgsCrash st s.args []) ss →
      NodeCrashes st reg (.mk line ss ts)
  | line {line : SLine} {ss : List SAddendum} {as : List Addendum} {ts : List (RNode SLine SAddendum)}
      {kids : List (Rel × Nat)} : All2 (RelMeans st reg) ts kids → All2 (AddMeans st) ss as →
      LineCrashes st reg as line kids → NodeCrashes st reg (.mk line ss ts)

/-- Trees at the top that panic. -/
inductive TopCrashes (st : Store) (reg : Registry ExtArgs (List Nat)) : RNode SLine SAddendum → Prop
  | root {names : List Str} {t : RNode SLine SAddendum} : NodeCrashes st reg t →
      TopCrashes st reg (.mk (.root names) [] [t])
  | rel {line : SLine} {ss : List SAddendum} {ts : List (RNode SLine SAddendum)} : (∀ names, line ≠ .root names) →
      NodeCrashes st reg (.mk line ss ts) → TopCrashes st reg (.mk line ss ts)

/-! ## Texts -/

omit [FTab] in
/-- The title under which the line after `ls` stands. -/
def under (cur : Option (Option Kind)) : List Str → Option (Option Kind)
  | [] => cur
  | l :: ls =>
    under (if trimEnd l = cs!"URNs:" then some none
      else if trimEnd l = kindTitle .function then some (some .function)
      else if trimEnd l = kindTitle .type then some (some .type)
      else if trimEnd l = kindTitle .typeVariation then some (some .typeVariation)
      else cur) ls

omit [FTab] in
/-- A declaration that panics: the rule of the grammar file matches only a beginning, or a number is not an anchor. -/
inductive DeclCrashes : Option (Option Kind) → Str → Prop
  | urnTail {x : Str} {c : Char} {r : Str} : Peg R.extension_urn_declaration x (some (c :: r)) →
      DeclCrashes (some none) x
  | urn {x : Str} {i : IntTok} {u : Str} : UrnDeclText i u x → (∀ n, ¬ U32 i n) → DeclCrashes (some none) x
  | declTail {k : Kind} {x : Str} {c : Char} {r : Str} : Peg R.simple_extension x (some (c :: r)) →
      DeclCrashes (some (some k)) x
  | decl {k : Kind} {x : Str} {i j : IntTok} {n : Str} : DeclText i j n x → (∀ a, ¬ U32 i a) ∨ (∀ a, ¬ U32 j a) →
      DeclCrashes (some (some k)) x

omit [FTab] in
/-- The text has such a declaration, and everything before it is fine. -/
def DeclsCrash (text : Str) : Prop :=
  ∃ blanks r1 r2 v h ls ops l x rest, physLines text = blanks ++ r1 ∧ (∀ l ∈ blanks, trimEnd l = []) ∧
    VersionPart r2 r1 v ∧ r2 = h :: (ls ++ l :: rest) ∧ trimEnd h = cs!"=== Extensions" ∧ ExtSays none ls ops ∧ Sound ops ∧
    trimEnd l = cs!"  " ++ x ∧ DeclCrashes (under none ls) x

/-- The text has a relation that panics, and everything before it is fine; declarations are looked at before
relations. -/
def RelsCrash (reg : Registry ExtArgs (List Nat)) (text : Str) : Prop :=
  ∃ v ops lines forest, TextReads text v ops lines ∧ Sound ops ∧ lines = listings 0 forest ∧
    First (fun t => ∃ r, TopMeans (run ops) reg t r) (TopCrashes (run ops) reg) forest

end Verif.CrashSpec
