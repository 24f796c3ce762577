import Verif.Model.Base
/-!
# Texts as bytes
-/
set_option autoImplicit false

namespace Verif.ByteSpec

/-- The UTF-8 form of a text. -/
def utf8 (s : Str) : List UInt8 := s.flatMap String.utf8EncodeChar

/-- Byte offset `n` lies between two characters of `s`, with `a` before and `b` after it. -/
def Boundary (s : Str) (n : Nat) (a b : Str) : Prop :=
  utf8 s = utf8 a ++ utf8 b ∧ s = a ++ b ∧ (utf8 a).length = n

end Verif.ByteSpec
