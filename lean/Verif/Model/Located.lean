import Verif.Model.Plan
/-!
# Where errors are reported

The parser of whole plans once more, with the `ParseContext` (`src/parser/errors.rs` L11-27) that every
error of `src/parser/structural.rs` carries: a line number and a text.  `Verif/Props/Located.lean` shows
that without the contexts it is `parsePlan`.
-/

namespace Verif

set_option autoImplicit false

/-- errors.rs L11-21 `ParseContext`. -/
structure Ctx where
  no : Nat
  line : Str
  deriving DecidableEq, Repr

/-- The text of a pair (`pair.as_str()`): what the rule matched. -/
def matched (s rest : Str) : Str := s.take (s.length - rest.length)

/-- structural.rs L97-125 `LineNode::parse`; L61-74: nodes hold their line number and their pair. -/
def nodeLineAt (n : Nat) (s : Str) : Option (LineNode (SLine × Ctx) (SAddendum × Ctx)) :=
  match pRelLine s with
  | some r => some (.relation (r.1, ⟨n, matched s r.2⟩))
  | none => (pAddendum s).map fun r => .addendum (r.1, ⟨n, matched s r.2⟩)

/-- structural.rs L128-164 `LineNode::parse_root`. -/
def topLineAt (n : Nat) (s : Str) : Option (LineNode (SLine × Ctx) (SAddendum × Ctx)) :=
  match pRoot s with
  | some r => some (.relation (r.1, ⟨n, matched s r.2⟩))
  | none => nodeLineAt n s

/-- The language whose nodes have contexts.  The line number is put in by `planLineAt`; the parsers of
lines given here are not used. -/
def locLang : Lang where
  Rel := SLine × Ctx
  Add := SAddendum × Ctx
  top := topLineAt 0
  node := nodeLineAt 0
  Ext := ExtState
  extInit := .init
  extLine st l := (st.line l).mapErr fun _ => ()

/-- The context of a node (structural.rs L76-83 `context`, L254-256). -/
def ctxOf : LineNode (SLine × Ctx) (SAddendum × Ctx) → Ctx
  | .relation r => r.2
  | .addendum a => a.2

namespace PState

/-- structural.rs L1067-1082, with L100-110, L134-140 and L233-276. -/
def planLineAt (st : PState locLang) (n : Nat) (l : Indented) : Res (PErr × Ctx) (PState locLang) :=
  match (if l.depth = 0 then topLineAt n l.body else nodeLineAt n l.body) with
  | none => .err (.relationSyntax, ⟨n, l.body⟩)
  | some x =>
    match TreeBuilder.addLine (ρ := SLine × Ctx) (α := SAddendum × Ctx) st.tree l.depth x with
    | .error e => .err (.tree e, ctxOf x)
    | .ok t => .ok { st with tree := t }

/-- structural.rs L1024-1084 `parse_line`.  Errors of headers (L1104-1111, L1117) and of the version
section (L1166, L1179) show the line without indentation; those of the order of sections (L1043) and of
the extensions section (L1066) show the whole line.  A line before the first header is reported with its
indentation instead of its number (L1056). -/
def parseLineAt (st : PState locLang) (n : Nat) (chunk : Str) : Res (PErr × Ctx) (PState locLang) :=
  let l := indentedLine chunk
  if l.depth = 0 ∧ (stripPrefix cs!"===" l.body).isSome then
    match st.sectionHeader l.body with
    | .error e => .err (e, ⟨n, l.body⟩)
    | .ok (st', next) =>
      if next.rank ≤ st.sec.rank then .err (.sectionOrder, ⟨n, chunk⟩)
      else .ok { st' with sec := next }
  else
    match st.sec with
    | .initial => if l.depth = 0 ∧ trim l.body = [] then .ok st else .err (.initialLine, ⟨l.depth, l.body⟩)
    | .version =>
      match st.versionLine l with
      | .err e => .err (e, ⟨n, l.body⟩)
      | .panic => .panic
      | .ok st' => .ok st'
    | .extensions =>
      match locLang.extLine st.ext l with
      | .err _ => .err (.extensionLine, ⟨n, chunk⟩)
      | .panic => .panic
      | .ok e => .ok { st with ext := e }
    | .plan => st.planLineAt n l

/-- structural.rs L963-986 `parse_plan`, up to `build_plan`; the fuel is as in `parseLoop`. -/
def parseLoopAt : Nat → PState locLang → Option Cursor → Res (PErr × Ctx) (PState locLang)
  | _, st, none => .ok st
  | 0, _, some _ => .panic
  | fuel + 1, st, some c =>
    match c.takeChunk (policy st.sec) with
    | none => .panic
    | some (chunk, n, rest) =>
      if (trim (trimNl chunk)).isEmpty then parseLoopAt fuel st rest
      else
        match st.parseLineAt n (trimNl chunk) with
        | .err e => .err e
        | .panic => .panic
        | .ok st' => parseLoopAt fuel st' rest

end PState

/-! ## Conversion -/

/-- An error with its context. -/
def Res.at {ε α : Type} (r : Res ε α) (c : Ctx) : Res (ε × Ctx) α := r.mapErr fun e => (e, c)

/-- structural.rs L343-352 `ParsedAddendum::parse`, L387-396 `Addenda::parse`. -/
def convAddendaAt [FTab] (st : Store) : List (SAddendum × Ctx) → Res (RErr × Ctx) (List (Addendum × Ctx))
  | [] => .ok []
  | a :: l =>
    ((plain (convExtArgs st a.1.args [])).at a.2).bind fun args =>
      (convAddendaAt st l).bind fun l => .ok ((⟨a.1.kind, a.1.name, args⟩, a.2) :: l)

/-- structural.rs L358-376: `relation_context`, `resolve_detail`. -/
def resolveAddendumAt (reg : Registry ExtArgs (List Nat)) (a : Addendum × Ctx) : Res (RErr × Ctx) AnyMsg :=
  (resolveAddendum reg a.1).at a.2

/-- structural.rs L412-449, the loop. -/
def standardLoopAt (reg : Registry ExtArgs (List Nat)) (enh : Option AnyMsg) (opts : List AnyMsg) :
    List (Addendum × Ctx) → Res (RErr × Ctx) (Option AnyMsg × List AnyMsg)
  | [] => .ok (enh, opts)
  | a :: l =>
    match a.1.kind with
    | .enh =>
      if enh.isSome then .err (.doubleEnhancement, a.2)
      else (resolveAddendumAt reg a).bind fun d => standardLoopAt reg (some d) opts l
    | .opt => (resolveAddendumAt reg a).bind fun d => standardLoopAt reg enh (opts ++ [d]) l
    | .ext => .err (.misplacedExt, a.2)

/-- structural.rs L412-449 `into_standard_advanced_extension`. -/
def standardAdvAt (reg : Registry ExtArgs (List Nat)) (as : List (Addendum × Ctx)) : Res (RErr × Ctx) (Option AdvExt) :=
  (standardLoopAt reg none [] as).bind fun r =>
    if r.1 = none ∧ r.2 = [] then .ok none else .ok (some ⟨r.1, r.2⟩)

/-- structural.rs L451-491 `into_extension_read_parts`: a second `+ Ext` is reported at its own line, a
missing one at the line of the relation. -/
def extReadPartsAt (reg : Registry ExtArgs (List Nat)) (c : Ctx) (as : List (Addendum × Ctx)) :
    Res (RErr × Ctx) (AnyMsg × Option AdvExt) :=
  match as.filter fun a => decide (a.1.kind = .ext) with
  | [] => .err (.extCount, c)
  | [a] =>
    (resolveAddendumAt reg a).bind fun d =>
      (standardAdvAt reg (as.filter fun a => decide (a.1.kind ≠ .ext))).bind fun adv => .ok (d, adv)
  | _ :: b :: _ => .err (.extCount, b.2)

/-- structural.rs L505-667: `parse_relation` and what it calls. -/
def convLineAt [FTab] (st : Store) (reg : Registry ExtArgs (List Nat)) (c : Ctx) (as : List (Addendum × Ctx))
    (kids : List (Rel × Nat)) : SLine → Res (RErr × Ctx) (Rel × Nat)
  | .set op refs =>
    (standardAdvAt reg as).bind fun adv => (convSet adv (kids.map (·.1)) (kids.map (·.2)) op refs).at c
  | .readExt cols =>
    (extReadPartsAt reg c as).bind fun p =>
      (convReadExt st (kids.map (·.1)) (kids.map (·.2)).sum p.1 p.2 cols).at c
  | .ext kind name args cols =>
    match as with
    | a :: _ => .err (.noAddenda, a.2)
    | [] => (convExtRel st reg [] (kids.map (·.1)) kind name args cols).at c
  | line => (standardAdvAt reg as).bind fun adv =>
      (convBody st adv (kids.map (·.1)) (kids.map (·.2)).sum line).at c

mutual
/-- structural.rs L673-697 `build_rel`. -/
def convNodeAt [FTab] (st : Store) (reg : Registry ExtArgs (List Nat)) :
    RNode (SLine × Ctx) (SAddendum × Ctx) → Res (RErr × Ctx) (Rel × Nat)
  | .mk line as kids =>
    (convKidsAt st reg kids).bind fun kids =>
      (convAddendaAt st as).bind fun as => convLineAt st reg line.2 as kids line.1
/-- structural.rs L679-683. -/
def convKidsAt [FTab] (st : Store) (reg : Registry ExtArgs (List Nat)) :
    List (RNode (SLine × Ctx) (SAddendum × Ctx)) → Res (RErr × Ctx) (List (Rel × Nat))
  | [] => .ok []
  | k :: l => (convNodeAt st reg k).bind fun k => (convKidsAt st reg l).bind fun l => .ok (k :: l)
end

/-- structural.rs L700-765 `build_plan_rel`. -/
def convPlanRelAt [FTab] (st : Store) (reg : Registry ExtArgs (List Nat)) (t : RNode (SLine × Ctx) (SAddendum × Ctx)) :
    Res (RErr × Ctx) PlanRel :=
  match t with
  | .mk (.root names, c) as kids =>
    match as with
    | a :: _ => .err (.rootAddenda, a.2)
    | [] =>
      match kids with
      | [k] => (convNodeAt st reg k).bind fun r => .ok (.root names (some r.1))
      | _ => .err (.rootChildren, c)
  | t => (convNodeAt st reg t).bind fun r => .ok (.rel r.1)

/-- structural.rs L768-778 `build`. -/
def convPlanRelsAt [FTab] (st : Store) (reg : Registry ExtArgs (List Nat)) :
    List (RNode (SLine × Ctx) (SAddendum × Ctx)) → Res (RErr × Ctx) (List PlanRel)
  | [] => .ok []
  | t :: l => (convPlanRelAt st reg t).bind fun r => (convPlanRelsAt st reg l).bind fun l => .ok (r :: l)

/-- structural.rs L1210-1234 `build_plan`. -/
def buildPlanAt [FTab] (reg : Registry ExtArgs (List Nat)) (st : PState locLang) : Res (PlanErr × Ctx) Plan :=
  ((convPlanRelsAt (st.ext : ExtState).store reg st.tree.finish).mapErr fun e => (PlanErr.rel e.1, e.2)).bind fun rels =>
    .ok ⟨st.version, (st.ext : ExtState).store.toUrns, (st.ext : ExtState).store.toDecls, rels⟩

/-- structural.rs L963-986 `parse_plan`. -/
def parsePlanAt [FTab] (reg : Registry ExtArgs (List Nat)) (text : Str) : Res (PlanErr × Ctx) Plan :=
  ((PState.parseLoopAt text.length PState.init (Cursor.new text 1)).mapErr fun e => (PlanErr.text e.1, e.2)).bind
    (buildPlanAt reg)

end Verif
