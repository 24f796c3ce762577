import Verif.Proofs.RelLine
import Verif.Props.Literals
/-!
# A registry for the examples
-/

namespace Verif

set_option autoImplicit false

/-- A payload with one number, written as one positional argument; relations have one column. -/
def noteHandler (url : Str) (cols : List ExtColumn) : Handler ExtArgs (List Nat) where
  parse a :=
    match a.positional with
    | [.integer (.ofNat n)] => .ok ⟨url, [n]⟩
    | _ => .error (.missing cs!"n")
  textify d _ :=
    match d.value with
    | [n] => .ok ⟨[.integer n], [], cols⟩
    | _ => .error (.other 1)

/-- `Note` in every namespace. -/
def sampleReg : Registry ExtArgs (List Nat) where
  handlers :=
    [((.enhancement, cs!"Note"), noteHandler cs!"t/Note" []), ((.optimization, cs!"Note"), noteHandler cs!"t/Note" []),
     ((.extensionTable, cs!"Note"), noteHandler cs!"t/Note" []),
     ((.relation, cs!"Note"), noteHandler cs!"t/Note" [.named cs!"c" (.simple .i64 .required 0)])]
  urls := [((.enhancement, cs!"t/Note"), cs!"Note"), ((.optimization, cs!"t/Note"), cs!"Note"),
    ((.extensionTable, cs!"t/Note"), cs!"Note"), ((.relation, cs!"t/Note"), cs!"Note")]

/-- A payload of that registry. -/
def note (n : Nat) : AnyMsg := ⟨cs!"t/Note", [n]⟩

/-- Its invocation. -/
def noteOf (k : AddKind) (n : Nat) : Addendum := ⟨k, cs!"Note", ⟨[.integer n], [], []⟩⟩

theorem note_ok [UTab] [FTab] {env : Env} (h : env.reg = sampleReg) (k : AddKind) (n : Nat) (hn : n < 2 ^ 63) :
    RelSpec.AddendumOk env k (note n) := by
  refine ⟨cs!"Note", ⟨[.integer n], [], []⟩, ?_, ?_, by decide, rfl, ⟨⟨⟨?_, ?_⟩, trivial⟩, by simp, by simp, by simp⟩⟩
  · rw [h]; cases k <;> rfl
  · rw [h]; cases k <;> rfl
  · omega
  · omega

end Verif
