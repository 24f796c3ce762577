import Verif.Spec.Sections
/-!
# Texts that differ only in layout
-/

set_option autoImplicit false

namespace Verif.SectionSpec

/-- The next line does not begin with a dash. -/
def NoDashNext (ls : List Str) : Prop := ∀ l, ls.head? = some l → ¬ Dash (trimEnd l)

/-- Lines that differ only in blank lines and in white space at the end of lines (the line end included), but
not immediately before a line that begins with a dash. -/
inductive Relaid : List Str → List Str → Prop
  | nil : Relaid [] []
  | same {ls ls' : List Str} (l : Str) : Relaid ls ls' → Relaid (l :: ls) (l :: ls')
  | ending {ls ls' : List Str} (l l' : Str) : trimEnd l = trimEnd l' → NoDashNext ls → Relaid ls ls' →
    Relaid (l :: ls) (l' :: ls')
  | more {ls ls' : List Str} (l : Str) : trimEnd l = [] → NoDashNext ls → Relaid ls ls' → Relaid (l :: ls) ls'
  | fewer {ls ls' : List Str} (l : Str) : trimEnd l = [] → NoDashNext ls → Relaid ls ls' → Relaid ls (l :: ls')

end Verif.SectionSpec
