/-!
# Basic vocabulary of the model

Text is a list of characters.  `cs!"..."` writes a character list so that terms and
simplifier normal forms are plain `List` constructors.
-/

deriving instance DecidableEq for Except

namespace Verif

/-- Rust `&str` / `String`; byte offsets are not modelled, only character order. -/
abbrev Str := List Char

open Lean in
/-- `cs!"ab"` is the character list `['a', 'b']`. -/
macro:max "cs!" s:str : term => do
  let elems : Array (TSyntax `term) :=
    (s.getString.toList.map fun c => (⟨(Syntax.mkCharLit c).raw⟩ : TSyntax `term)).toArray
  `([$elems,*])

/-- Outcome of a parsing step: `ok`, a reported error (`Err(..)` in Rust) or a panic
(`unwrap`, `assert!`, `unreachable!`, `unimplemented!` in Rust). -/
inductive Res (ε α : Type) where
  | ok (a : α)
  | err (e : ε)
  | panic
  deriving DecidableEq, Repr

namespace Res
variable {ε α β : Type}

/-- Rust's `?` operator: errors and panics propagate. -/
def bind (r : Res ε α) (f : α → Res ε β) : Res ε β :=
  match r with
  | ok a => f a
  | err e => err e
  | panic => panic

/-- `Result::map`. -/
def map (f : α → β) : Res ε α → Res ε β
  | ok a => ok (f a)
  | err e => err e
  | panic => panic

instance : Monad (Res ε) where
  pure := ok
  bind := bind

@[simp] theorem bind_ok (a : α) (f : α → Res ε β) : (Bind.bind (ok a : Res ε α) f) = f a := rfl
@[simp] theorem bind_err (e : ε) (f : α → Res ε β) : (Bind.bind (err e : Res ε α) f) = err e := rfl
@[simp] theorem bind_panic (f : α → Res ε β) : (Bind.bind (panic : Res ε α) f) = panic := rfl
@[simp] theorem pure_eq (a : α) : (pure a : Res ε α) = ok a := rfl
@[simp] theorem dbind_ok (a : α) (f : α → Res ε β) : (ok a : Res ε α).bind f = f a := rfl

theorem bind_eq_ok {r : Res ε α} {f : α → Res ε β} {b : β} :
    (Bind.bind r f) = ok b ↔ ∃ a, r = ok a ∧ f a = ok b := by
  cases r <;> simp [Bind.bind, Res.bind]

end Res
end Verif
