import Verif.Model.Store
import Verif.Model.Escape
/-!
# Textifier output

`textify` functions write text and push errors on a queue.  The queue is modelled as the list of
token names (`FormatError::message`, textify/foundation.rs L296-312) in text order; the real queue
holds the same errors, possibly in another order because `expect` pushes when the value is
looked up and nested values push when they are displayed.
-/

namespace Verif

/-- Text written and the names of the errors pushed while writing it. -/
structure Out where
  text : Str
  errs : List Str
  deriving DecidableEq, Repr

namespace Out

instance : Append Out := ⟨fun a b => ⟨a.text ++ b.text, a.errs ++ b.errs⟩⟩

@[simp] theorem text_append (a b : Out) : (a ++ b).text = a.text ++ b.text := rfl
@[simp] theorem errs_append (a b : Out) : (a ++ b).errs = a.errs ++ b.errs := rfl

/-- Plain text. -/
def s (t : Str) : Out := ⟨t, []⟩

@[simp] theorem text_s (t : Str) : (s t).text = t := rfl
@[simp] theorem errs_s (t : Str) : (s t).errs = [] := rfl

/-- foundation.rs L469-474 `failure`, displayed (L404-408): the token `!{name}` and one error. -/
def fail (name : Str) : Out := ⟨cs!"!{" ++ name ++ cs!"}", [name]⟩

@[simp] theorem text_fail (n : Str) : (fail n).text = cs!"!{" ++ n ++ cs!"}" := rfl
@[simp] theorem errs_fail (n : Str) : (fail n).errs = [n] := rfl

/-- foundation.rs L476-490 `expect`. -/
def expect (name : Str) : Option Out → Out
  | some o => o
  | none => fail name

/-- foundation.rs L536-548 `Separated`. -/
def sep (sp : Str) : List Out → Out
  | [] => s []
  | [a] => a
  | a :: b :: l => a ++ s sp ++ sep sp (b :: l)

end Out

/-- foundation.rs L29-60 `OutputOptions`: the fields the textifier reads.  `show_extension_urns`,
`show_simple_extensions`, `read_types` and `nullability` are never read. -/
structure Opts where
  anchors : Visibility
  litTypes : Visibility
  binaries : Bool
  indent : Str
  vthreshold : Nat
  /-- `show_emit`, read at textify/rels.rs L160 -/
  showEmit : Bool

/-- foundation.rs L62-76 `Default for OutputOptions`. -/
def Opts.default : Opts := ⟨.required, .required, false, cs!"  ", 3, false⟩

/-- foundation.rs L81-96 `OutputOptions::verbose`. -/
def Opts.verbose : Opts := ⟨.always, .always, true, cs!"  ", 3, false⟩

/-- simple.rs L24-31 `ExtensionKind::name`. -/
def Kind.name : Kind → Str
  | .function => cs!"function"
  | .type => cs!"type"
  | .typeVariation => cs!"type_variation"

/-- textify/types.rs L109-125 `Anchor`, once it is decided whether to show it. -/
def showAnchor : Option Nat → Str
  | some a => '#' :: dec a
  | none => []

/-- textify/types.rs L187-222 `NamedAnchor`, after `lookup` (L143-185). -/
def textAnchor (st : Store) (o : Opts) (k : Kind) (anchor : Nat) : Out :=
  match NamedAnchor.lookup st k anchor with
  | some na => .s (na.shownName o.anchors ++ showAnchor (na.shownAnchor o.anchors))
  | none => .fail k.name ++ .s (match o.anchors with | .never => [] | _ => '#' :: dec anchor)

end Verif
