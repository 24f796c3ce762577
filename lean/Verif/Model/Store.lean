import Verif.Model.OMap
/-!
# Simple extension declarations

Model of `src/extensions/simple.rs`.  Anchors are `Nat` (Rust `u32`; the bound only matters
when text is parsed, see `Verif.Model.ExtSection`).
-/

namespace Verif

/-- simple.rs L15-21 `ExtensionKind`. -/
inductive Kind where
  | function | type | typeVariation
  deriving DecidableEq, Repr

/-- simple.rs L15: derived `Ord` follows declaration order. -/
def Kind.idx : Kind → Nat
  | .function => 0
  | .type => 1
  | .typeVariation => 2

/-- Order on `(u32, ExtensionKind)` keys (simple.rs L150): lexicographic, which is the order
of this rank. -/
instance : Key (Nat × Kind) where
  rank p := 3 * p.1 + p.2.idx
  inj := by
    rintro ⟨a, k⟩ ⟨b, l⟩ h
    cases k <;> cases l <;> simp only [Kind.idx] at h <;>
      first | (exfalso; omega) | (have hab : a = b := by omega
                                  rw [hab])

/-- simple.rs L45-86 `InsertError`. -/
inductive InsertError where
  | missingMappingType
  | duplicateUrnAnchor (anchor : Nat) (prev name : Str)
  | duplicateAnchor (kind : Kind) (anchor : Nat) (prev name : Str)
  | missingUrn (kind : Kind) (anchor : Nat) (name : Str) (urn : Nat)
  | duplicateAndMissingUrn (kind : Kind) (anchor : Nat) (prev name : Str) (urn : Nat)
  | invalidName (kind : Kind) (name : Str)
  deriving DecidableEq, Repr

/-- simple.rs L102-112 `CompoundName::new`/`base`: the part before the first `:`. -/
def baseName (n : Str) : Str := n.takeWhile (· ≠ ':')

/-- Rust `name.contains(':')`. -/
def hasColon (n : Str) : Bool := n.contains ':'

/-- simple.rs L128-134 `CompoundName::matches` (`stored.matches(pattern)`). -/
def nameMatches (stored pattern : Str) : Bool :=
  if hasColon pattern then stored == pattern else baseName stored == pattern

/-- simple.rs L146-151 `SimpleExtensions`.  A `CompoundName` is represented by its full text
(the `index` field is a function of it, L103-106). -/
structure Store where
  urns : OMap Nat Str
  exts : OMap (Nat × Kind) (Nat × Str)
  deriving DecidableEq, Repr

namespace Store

/-- simple.rs L154 `SimpleExtensions::new`. -/
def empty : Store := ⟨[], []⟩

/-- simple.rs L216-230 `add_extension_urn`. -/
def addUrn (s : Store) (urn : Str) (anchor : Nat) : Store × Option InsertError :=
  match s.urns.find? anchor with
  | some prev => (s, some (.duplicateUrnAnchor anchor prev urn))
  | none => ({ s with urns := s.urns.insertNew anchor urn }, none)

/-- `name.starts_with("u!")`. -/
def hasUBang : Str → Bool
  | 'u' :: '!' :: _ => true
  | _ => false

/-- simple.rs L243 `name.strip_prefix("u!")...unwrap_or(name)`. -/
def stripUBang : Str → Str
  | 'u' :: '!' :: rest => rest
  | n => n

/-- simple.rs L242-248: the stored spelling of a name, `none` for the `InvalidName` return. -/
def normName (kind : Kind) (name : Str) : Option Str :=
  if kind = .type then some (stripUBang name)
  else if hasUBang name then none
  else some name

/-- simple.rs L232-281 `add_extension`. -/
def addExt (s : Store) (kind : Kind) (urn anchor : Nat) (name : Str) :
    Store × Option InsertError :=
  match normName kind name with
  | none => (s, some (.invalidName kind name))
  | some name =>
    let missingUrn := (s.urns.find? urn).isNone
    match s.exts.find? (anchor, kind) with
    | some (_, prev) =>
      (s, some (if missingUrn then .duplicateAndMissingUrn kind anchor prev name urn
                else .duplicateAnchor kind anchor prev name))
    | none =>
      ({ s with exts := s.exts.insertNew (anchor, kind) (urn, name) },
       if missingUrn then some (.missingUrn kind anchor name urn) else none)

/-- A protobuf `SimpleExtensionDeclaration`; `none` is a missing `mapping_type`. -/
abbrev Decl := Option (Kind × Nat × Nat × Str)   -- kind, urn reference, anchor, name

/-- simple.rs L169-173: the URN loop of `from_extensions`. -/
def loadUrns (s : Store) : List (Nat × Str) → Store × List InsertError
  | [] => (s, [])
  | (a, u) :: rest =>
    let r := s.addUrn u a
    let r' := loadUrns r.1 rest
    (r'.1, r.2.toList ++ r'.2)

/-- simple.rs L175-211: the declaration loop of `from_extensions`. -/
def loadDecls (s : Store) : List Decl → Store × List InsertError
  | [] => (s, [])
  | none :: rest =>
    let r' := loadDecls s rest
    (r'.1, .missingMappingType :: r'.2)
  | some (k, u, a, n) :: rest =>
    let r := s.addExt k u a n
    let r' := loadDecls r.1 rest
    (r'.1, r.2.toList ++ r'.2)

/-- simple.rs L158-214 `from_extensions`. -/
def fromExtensions (urns : List (Nat × Str)) (decls : List Decl) : Store × List InsertError :=
  let r := loadUrns empty urns
  let r' := loadDecls r.1 decls
  (r'.1, r.2 ++ r'.2)

/-- simple.rs L288-296 `to_extension_urns`. -/
def toUrns (s : Store) : List (Nat × Str) := s.urns

/-- simple.rs L299-331 `to_extension_declarations`. -/
def toDecls (s : Store) : List Decl :=
  s.exts.map fun e => some (e.1.2, e.2.1, e.1.1, e.2.2)

/-- simple.rs L283-285 `is_empty`. -/
def isEmpty (s : Store) : Bool := s.urns.isEmpty && s.exts.isEmpty

/-- simple.rs L384-396 `MissingReference`. -/
inductive MissingReference where
  | missingUrn (anchor : Nat)
  | missingAnchor (kind : Kind) (anchor : Nat)
  | missingName (kind : Kind) (name : Str)
  | mismatched (kind : Kind) (name : Str) (anchor : Nat)
  | duplicateName (kind : Kind) (name : Str)
  deriving DecidableEq, Repr

/-- simple.rs L421-426 `find_urn`. -/
def findUrn (s : Store) (anchor : Nat) : Except MissingReference Str :=
  match s.urns.find? anchor with
  | some u => .ok u
  | none => .error (.missingUrn anchor)

/-- simple.rs L428-439 `find_by_anchor`. -/
def findByAnchor (s : Store) (kind : Kind) (anchor : Nat) :
    Except MissingReference (Nat × Str) :=
  match s.exts.find? (anchor, kind) with
  | some p => .ok p
  | none => .error (.missingAnchor kind anchor)

/-- The shared tail of simple.rs L448-455 and L581-588: exactly one match or an error. -/
def exactlyOne (kind : Kind) (name : Str) : List Nat → Except MissingReference Nat
  | [] => .error (.missingName kind name)
  | [a] => .ok a
  | _ :: _ :: _ => .error (.duplicateName kind name)

/-- simple.rs L441-456 `find_by_name`. -/
def findByName (s : Store) (kind : Kind) (name : Str) : Except MissingReference Nat :=
  exactlyOne kind name
    ((s.exts.filter fun e => e.1.2 == kind && e.2.2 == name).map (·.1.1))

/-- simple.rs L574-589 `find_by_base_name`. -/
def findByBaseName (s : Store) (kind : Kind) (base : Str) : Except MissingReference Nat :=
  exactlyOne kind base
    ((s.exts.filter fun e => e.1.2 == kind && nameMatches e.2.2 base).map (·.1.1))

/-- simple.rs L468-493: the loop of `is_name_unique` with its two flags, early `break`
and early error return (`none`). -/
def uniqueLoop (kind : Kind) (anchor : Nat) (name : Str) (found other : Bool) :
    OMap (Nat × Kind) (Nat × Str) → Option (Bool × Bool)
  | [] => some (found, other)
  | ((a, k), (_, n)) :: rest =>
    if k ≠ kind then uniqueLoop kind anchor name found other rest
    else if a = anchor then
      if n ≠ name then none
      else uniqueLoop kind anchor name true other rest
    else if n ≠ name then uniqueLoop kind anchor name found other rest
    else if found then some (found, true)
    else uniqueLoop kind anchor name found true rest

/-- simple.rs L462-503 `is_name_unique`. -/
def isNameUnique (s : Store) (kind : Kind) (anchor : Nat) (name : Str) :
    Except MissingReference Bool :=
  match uniqueLoop kind anchor name false false s.exts with
  | none => .error (.mismatched kind name anchor)
  | some (true, false) => .ok true
  | some (true, true) => .ok false
  | some (false, _) => .error (.missingAnchor kind anchor)

/-- simple.rs L558-572 `is_base_name_unique`. -/
def isBaseNameUnique (s : Store) (kind : Kind) (anchor : Nat) : Except MissingReference Bool :=
  match s.findByAnchor kind anchor with
  | .error e => .error e
  | .ok (_, name) =>
    .ok !(s.exts.any fun e => e.1.2 == kind && e.1.1 != anchor && baseName e.2.2 == baseName name)

/-- simple.rs L407-418 `ResolvedFunction`. -/
structure Resolved where
  anchor : Nat
  urn : Nat
  name : Str
  baseNameUnique : Bool
  nameUnique : Bool
  deriving DecidableEq, Repr

/-- simple.rs L508-519 `lookup_function`. -/
def lookupFunction (s : Store) (anchor : Nat) : Except MissingReference Resolved := do
  let (urn, name) ← s.findByAnchor .function anchor
  let nameUnique ← s.isNameUnique .function anchor name
  let baseNameUnique ← s.isBaseNameUnique .function anchor
  return { anchor, urn, name, baseNameUnique, nameUnique }

/-- simple.rs L534-554: the anchor chosen by `resolve_function`. -/
def resolveAnchor (s : Store) (name : Str) (anchor : Option Nat) :
    Except MissingReference Nat :=
  match anchor with
  | some a =>
    match s.findByAnchor .function a with
    | .error e => .error e
    | .ok (_, stored) =>
      if nameMatches stored name then .ok a else .error (.mismatched .function name a)
  | none =>
    if hasColon name then s.findByName .function name else s.findByBaseName .function name

/-- simple.rs L529-556 `resolve_function`. -/
def resolveFunction (s : Store) (name : Str) (anchor : Option Nat) :
    Except MissingReference Resolved :=
  match s.resolveAnchor name anchor with
  | .error e => .error e
  | .ok a => s.lookupFunction a

/-- parser/types.rs L17-58 `get_and_validate_anchor`. -/
def getAndValidateAnchor (s : Store) (kind : Kind) (anchor : Option Nat) (name : Str) :
    Except MissingReference Nat :=
  if kind = .function then
    match s.resolveFunction name anchor with
    | .error e => .error e
    | .ok r => .ok r.anchor
  else
    match anchor with
    | some a =>
      match s.findByAnchor kind a with
      | .error e => .error e
      | .ok (_, stored) =>
        if stored == name || baseName stored == name then .ok a
        else .error (.mismatched kind name a)
    | none => s.findByName kind name

end Store

/-! ## Printing references -/

/-- textify/foundation.rs L18-25 `Visibility`. -/
inductive Visibility where
  | never | required | always
  deriving DecidableEq, Repr

/-- textify/types.rs L128-139 `NamedAnchor` with a resolved name. -/
structure NamedAnchor where
  name : Str
  anchor : Nat
  unique : Bool
  baseNameUnique : Bool
  deriving DecidableEq, Repr

/-- textify/types.rs L143-183 `NamedAnchor::lookup`; `none` is the failure-token case. -/
def NamedAnchor.lookup (s : Store) (kind : Kind) (anchor : Nat) : Option NamedAnchor :=
  if kind = .function then
    match s.lookupFunction anchor with
    | .ok r => some ⟨r.name, anchor, r.nameUnique, r.baseNameUnique⟩
    | .error _ => none
  else
    match s.findByAnchor kind anchor with
    | .ok (_, n) =>
      match s.isNameUnique kind anchor n with
      | .ok u => some ⟨n, anchor, u, true⟩
      | .error _ => some ⟨n, anchor, false, true⟩
    | .error _ => none

/-- textify/types.rs L193-207: which spelling of the name is written. -/
def NamedAnchor.shownName (v : Visibility) (na : NamedAnchor) : Str :=
  let showSignature := match v with
    | .always => true
    | .required => !na.baseNameUnique
    | .never => false
  if showSignature then na.name else baseName na.name

/-- textify/types.rs L215-221 and `Anchor` L114-124: the anchor written after the name. -/
def NamedAnchor.shownAnchor (v : Visibility) (na : NamedAnchor) : Option Nat :=
  let needsAnchor := !na.unique || (!hasColon na.name && !na.baseNameUnique)
  match v with
  | .never => none
  | .required => if needsAnchor then some na.anchor else none
  | .always => some na.anchor

end Verif
