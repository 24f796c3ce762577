import Verif.Spec.Grammar
import Verif.Spec.Sections
import Verif.Spec.Tree
import Verif.Spec.Store
/-!
# What the lines of a plan section say

A line may be followed by continuation lines (`ChunkSpec.DashUnder`); together they are a group.  A
group is blank or starts, after its indentation, with the spelling of a relation or addendum.
-/

namespace Verif.Grammar

open ChunkSpec SectionSpec

set_option autoImplicit false

/-- Only a line without indentation may be a root. -/
def DepthOk : Nat → LineNode SLine SAddendum → Prop
  | d, .relation (.root _) => d = 0
  | _, _ => True

/-- Nothing may follow a virtual read. -/
def TailOk : LineNode SLine SAddendum → Str → Prop
  | .relation (.readVirtual ..), tail => tail = []
  | _, _ => True

/-- `Spelled groups lines tails`: the groups spell the lines, each with its depth; the tail of a line
is what stands after the relation, trailing white space aside. -/
inductive Spelled : List (List Str) → List (Nat × LineNode SLine SAddendum) → List Str → Prop
  | nil : Spelled [] [] []
  | blank {f : Str} {gs : List (List Str)} {ls : List (Nat × LineNode SLine SAddendum)} {ts : List Str} :
      trimEnd f = [] → Spelled gs ls ts → Spelled ([f] :: gs) ls ts
  | node {f : Str} {run : List Str} {gs : List (List Str)} {ls : List (Nat × LineNode SLine SAddendum)}
      {ts : List Str} {d : Nat} {n : LineNode SLine SAddendum} {x tail : Str} :
      (∀ l ∈ run, DashUnder (depthOf (content f)) (content l)) →
      trimEnd (f :: run).flatten = List.replicate (2 * d) ' ' ++ (x ++ tail) → NodeText n x → DepthOk d n →
      TailOk n tail →
      Spelled gs ls ts → Spelled ((f :: run) :: gs) ((d, n) :: ls) (tail :: ts)

end Verif.Grammar

namespace Verif.Grammar

open ChunkSpec SectionSpec StoreSpec

/-- A number of 32 bits. -/
def U32 (i : IntTok) (n : Nat) : Prop := i.neg = false ∧ i.val = n ∧ n < 2 ^ 32

/-- The titles of the parts of the extensions section. -/
def kindTitle : Kind → Str
  | .function => cs!"Functions:"
  | .type => cs!"Types:"
  | .typeVariation => cs!"Type Variations:"

/-- `ExtSays cur ls ops`: below the title `cur` (`none`: no title yet, `some none`: URNs) the lines
`ls` of an extensions section declare `ops`. -/
inductive ExtSays : Option (Option Kind) → List Str → List Op → Prop
  | nil {cur : Option (Option Kind)} : ExtSays cur [] []
  | blank {cur : Option (Option Kind)} {l : Str} {ls : List Str} {ops : List Op} : trimEnd l = [] →
      ExtSays cur ls ops → ExtSays cur (l :: ls) ops
  | urns {cur : Option (Option Kind)} {l : Str} {ls : List Str} {ops : List Op} : trimEnd l = cs!"URNs:" →
      ExtSays (some none) ls ops → ExtSays cur (l :: ls) ops
  | title {cur : Option (Option Kind)} {k : Kind} {l : Str} {ls : List Str} {ops : List Op} :
      trimEnd l = kindTitle k → ExtSays (some (some k)) ls ops → ExtSays cur (l :: ls) ops
  | urn {l : Str} {ls : List Str} {ops : List Op} {i : IntTok} {a : Nat} {u x : Str} :
      trimEnd l = cs!"  " ++ x → UrnDeclText i u x → U32 i a → ExtSays (some none) ls ops →
      ExtSays (some none) (l :: ls) (.urn u a :: ops)
  | decl {k : Kind} {l : Str} {ls : List Str} {ops : List Op} {i j : IntTok} {a b : Nat} {n x : Str} :
      trimEnd l = cs!"  " ++ x → DeclText i j n x → U32 i a → U32 j b → (k ≠ .function → ':' ∉ n) →
      ExtSays (some (some k)) ls ops → ExtSays (some (some k)) (l :: ls) (.ext k b a n :: ops)

/-- The number of a version header, `rest` being the text after `=== Version`. -/
def VersionNumber (rest : Str) (v : Version) : Prop :=
  ∃ a b c : Str, '.' ∉ a ∧ '.' ∉ b ∧ '.' ∉ c ∧ trim rest = a ++ '.' :: (b ++ '.' :: c) ∧
    parseU32 a = some v.major ∧ parseU32 b = some v.minor ∧ parseU32 c = some v.patch ∧
    v.gitHash = [] ∧ v.producer = []

/-- `VersionSays v ls w`: the lines of a version section turn `v` into `w`. -/
inductive VersionSays : Version → List Str → Version → Prop
  | nil {v : Version} : VersionSays v [] v
  | blank {v w : Version} {l : Str} {ls : List Str} : trimEnd l = [] → VersionSays v ls w →
      VersionSays v (l :: ls) w
  | producer {v w : Version} {l k x : Str} {ls : List Str} : trimEnd l = cs!"  " ++ (k ++ ':' :: x) → ':' ∉ k →
      (∀ t, k ≠ ' ' :: ' ' :: t) → trim k = cs!"producer" → VersionSays { v with producer := trim x } ls w → VersionSays v (l :: ls) w
  | gitHash {v w : Version} {l k x : Str} {ls : List Str} : trimEnd l = cs!"  " ++ (k ++ ':' :: x) → ':' ∉ k →
      (∀ t, k ≠ ' ' :: ' ' :: t) → trim k = cs!"git_hash" → VersionSays { v with gitHash := trim x } ls w → VersionSays v (l :: ls) w

/-- An optional plan section. -/
inductive PlanPart : List Str → List (Nat × LineNode SLine SAddendum) → List Str → Prop
  | none : PlanPart [] [] []
  | some {h : Str} {gs : List (List Str)} {ls : List (Nat × LineNode SLine SAddendum)} {ts : List Str} :
      trimEnd h = cs!"=== Plan" → Spelled gs ls ts → PlanPart (h :: gs.flatten) ls ts

/-- An optional extensions section before `rest`. -/
inductive ExtPart (rest : List Str) : List Str → List Op → Prop
  | none : ExtPart rest rest []
  | some {h : Str} {ls : List Str} {ops : List Op} : trimEnd h = cs!"=== Extensions" →
      ExtSays Option.none ls ops → ExtPart rest (h :: (ls ++ rest)) ops

/-- An optional version section before `rest`. -/
inductive VersionPart (rest : List Str) : List Str → Option Version → Prop
  | none : VersionPart rest rest none
  | some {h r : Str} {ls : List Str} {v w : Version} : trimEnd h = cs!"=== Version" ++ r →
      (r = [] ∨ ∃ r', r = ' ' :: r') → VersionNumber r v → VersionSays v ls w →
      VersionPart rest (h :: (ls ++ rest)) (some w)

/-- What a text says: a version, declarations and lines of relations. -/
def TextSays (text : Str) (v : Option Version) (ops : List Op) (lines : List (Nat × LineNode SLine SAddendum))
    (tails : List Str) : Prop :=
  ∃ blanks r1 r2 r3, physLines text = blanks ++ r1 ∧ (∀ l ∈ blanks, trimEnd l = []) ∧ VersionPart r2 r1 v ∧
    ExtPart r3 r2 ops ∧ PlanPart r3 lines tails

end Verif.Grammar
