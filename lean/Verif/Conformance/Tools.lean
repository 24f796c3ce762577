import Verif.Props.Examples
/-!
# The project's own tests, run on the model

The modules in this directory evaluate the model on the inputs of the tests and documentation examples
in /repo and compare with what those assert.  They are tests of the model, not proofs about it: they
are evidence that the definitions say what the code does, because the code itself cannot be run here.

Here: how a test is run, and the handlers that the tests register.
-/

namespace Verif.Conformance
open Verif

set_option autoImplicit false
set_option warn.classDefReducibility false

/-! ## Floats

The number that stands for a float is its text, so the tests do not depend on how floats are printed; in
all of them the text is the shortest one. -/

def textOf (n : Nat) : Nat → Str
  | 0 => if n = 0 then [] else [Char.ofNat n]
  | f + 1 => if n = 0 then [] else textOf (n / 256) f ++ [Char.ofNat (n % 256)]

def textTab : FTab where
  show32 n := textOf n n.log2
  show64 n := textOf n n.log2
  parse64 s := s.foldl (fun n c => n * 256 + c.toNat) 0
  to32 := id

/-! ## Running a test -/

abbrev Reg := Registry ExtArgs (List Nat)

def read (reg : Reg) (input : Str) : Res PlanErr Plan :=
  letI := textTab
  parsePlan reg input

def write (reg : Reg) (o : Opts) (p : Plan) : Out :=
  letI := asciiTab; letI := textTab
  textPlan reg o p

/-- The input is read and written without an error, as the output up to white space at the ends. -/
def becomes (reg : Reg) (o : Opts) (input output : Str) : Bool :=
  match read reg input with
  | .ok p => (write reg o p).errs.isEmpty && trim (write reg o p).text == trim output
  | _ => false

/-- tests/common/mod.rs L9-33 `roundtrip_plan`. -/
def survives (reg : Reg) (input : Str) : Bool := becomes reg .default input input

/-- tests/common/mod.rs L38-63 `assert_roundtrip_canonical`. -/
def canonical (reg : Reg) (text other : Str) : Bool :=
  becomes reg .default text text && becomes reg .default other text

/-- The input is accepted. -/
def accepted (reg : Reg) (input : Str) : Bool :=
  match read reg input with
  | .ok _ => true
  | _ => false

/-- The input is rejected with an error. -/
def rejected (reg : Reg) (input : Str) : Bool :=
  match read reg input with
  | .err _ => true
  | _ => false

/-- How many relations the plan has that is read. -/
def relations (reg : Reg) (input : Str) : Option Nat :=
  match read reg input with
  | .ok p => some p.rels.length
  | _ => none

/-- The plan that is read under one registry, written under another: text and names of the errors. -/
def rewritten (reg reg' : Reg) (o : Opts) (input : Str) : Option (Str × List Str) :=
  match read reg input with
  | .ok p => some ((write reg' o p).text, (write reg' o p).errs)
  | _ => none

/-- `str::contains`. -/
def contains (t s : Str) : Bool := (s == []) || match t with
  | [] => false
  | c :: t => s.isPrefixOf (c :: t) || contains t s

/-! ## The handlers of the tests -/

/-- Texts as numbers. -/
def encodeTexts (l : List Str) : List Nat := l.flatMap fun s => s.length :: s.map Char.toNat

def decodeTexts : Nat → List Nat → List Str
  | 0, _ => []
  | _ + 1, [] => []
  | f + 1, n :: l => (l.take n).map Char.ofNat :: decodeTexts f (l.drop n)

theorem decode_encode (l : List Str) : ∀ f, l.length ≤ f → decodeTexts f (encodeTexts l) = l := by
  induction l with
  | nil => intro f _; cases f <;> rfl
  | cons s l ih =>
    intro f hf
    cases f with
    | zero => simp at hf
    | succ f =>
      have h1 : ∀ r : List Nat, (s.map Char.toNat ++ r).take s.length = s.map Char.toNat := by
        intro r; rw [List.take_append_of_le_length (by simp)]; simp [List.take_of_length_le]
      have h2 : ∀ r : List Nat, (s.map Char.toNat ++ r).drop s.length = r := by
        intro r
        have := List.drop_left (l₁ := s.map Char.toNat) (l₂ := r)
        simpa using this
      simp only [encodeTexts, List.flatMap_cons, List.cons_append, decodeTexts, h1, h2]
      rw [show (l.flatMap fun s => s.length :: s.map Char.toNat) = encodeTexts l from rfl, ih f (by simpa using hf)]
      simp [Function.comp_def, Char.ofNat_toNat]

theorem length_encode (l : List Str) : l.length ≤ (encodeTexts l).length := by
  induction l with
  | nil => simp
  | cons s l ih => simp only [encodeTexts, List.flatMap_cons, List.length_append, List.length_cons] at ih ⊢; omega

def texts : MsgCodec (List Str) where
  encode := encodeTexts
  decode l := some (decodeTexts l.length l)
  law l := by rw [decode_encode l _ (length_encode l)]

def unit : MsgCodec Unit := ⟨⟨fun _ => [], fun _ => some ()⟩, fun _ => rfl⟩

def i64 : Ty := .simple .i64 .required 0
def i32 : Ty := .simple .i32 .required 0
def string : Ty := .simple .string .required 0

/-- tests/extension_roundtrip.rs L20-31 `UserTableConfig`. -/
structure UserTableConfig where
  tableName : Str
  version : Int
  temporary : Bool
  tracked : List Str

def userTableCodec : MsgCodec UserTableConfig where
  encode c := (if c.version < 0 then 1 else 0) :: c.version.natAbs :: (if c.temporary then 1 else 0) :: encodeTexts (c.tableName :: c.tracked)
  decode
    | s :: v :: t :: l =>
      match decodeTexts l.length l with
      | n :: cs => some ⟨n, unsigned s v, t = 1, cs⟩
      | [] => none
    | _ => none
  law := by
    intro ⟨n, v, t, cs⟩
    simp only
    rw [decode_encode _ _ (length_encode _), unsigned_signed]
    cases t <;> rfl

def columnNames : List ExtColumn → Option (List Str)
  | [] => some []
  | .named n _ :: l => (columnNames l).map (n :: ·)
  | _ :: _ => none

/-- tests/extension_roundtrip.rs L47-96. -/
def userTable : Explain UserTableConfig where
  name := cs!"UserTable"
  url := cs!"type.googleapis.com/test.UserTableConfig"
  fromArgs cols := Reader.expectNamed cs!"name" ExtValue.asStr fun n =>
    Reader.getNamed cs!"version" ExtValue.asInt fun v =>
      Reader.getNamed cs!"temp" ExtValue.asBool fun t =>
        .done (match columnNames cols with
          | some l => .ok ⟨n, v.getD 1, t.getD false, l⟩
          | none => .error errArg)
  toArgs c _ := .ok
    { named := [(cs!"name", .string c.tableName), (cs!"version", .integer c.version), (cs!"temp", .boolean c.temporary)]
      columns := c.tracked.map fun n => .named n string }

/-- tests/extension_roundtrip.rs L150-168 `FilterConfig`. -/
def testFilter : Explain (List Str) where
  name := cs!"TestFilter"
  url := cs!"type.googleapis.com/test.FilterConfig"
  fromArgs _ := Reader.expectNamed cs!"expr" ExtValue.asStr fun s => .done (.ok [s])
  toArgs c _ := .ok { named := [(cs!"expr", .string (c.headD []))] }

/-- tests/extension_roundtrip.rs L214-268 `LiteralConfig`; the float is kept as its text, an integer is
not accepted for it. -/
def literalTest : Explain (List Str) where
  name := cs!"LiteralTest"
  url := cs!"type.googleapis.com/test.LiteralConfig"
  fromArgs _ := Reader.expectNamed cs!"path" ExtValue.asStr fun p =>
    Reader.expectNamed cs!"big" ExtValue.asInt fun b =>
      Reader.expectNamed cs!"ratio" ExtValue.asFloat fun r =>
        Reader.expectNamed cs!"enabled" ExtValue.asBool fun e =>
          .done (.ok [p, dec b.natAbs, dec r, if e then cs!"1" else []])
  toArgs c _ :=
    match c with
    | [p, b, r, e] => .ok
      { named := [(cs!"path", .string p), (cs!"big", .integer (decVal b)), (cs!"ratio", .float (decVal r)), (cs!"enabled", .boolean (e != []))]
        columns := [.named cs!"value" string] }
    | _ => .error errDecode

/-- tests/extension_roundtrip.rs L335-349 `EmptySource`. -/
def emptySource : Explain Unit where
  name := cs!"EmptySource"
  url := cs!"type.googleapis.com/test.EmptySource"
  fromArgs _ := .done (.ok ())
  toArgs _ _ := .ok {}

/-- tests/extension_roundtrip.rs L412-432 `PassThroughWrapper`. -/
def passThrough : Explain Unit where
  name := cs!"PassThrough"
  url := cs!"type.googleapis.com/test.PassThroughWrapper"
  fromArgs _ := .done (.ok ())
  toArgs _ ws :=
    match ws with
    | w :: _ => .ok { columns := (List.range w).map fun i => .expr (.selection (.field (Int.ofNat i) none)) }
    | [] => .error errArg

/-- tests/extension_roundtrip.rs L450-464 `BinaryMerge`. -/
def binaryMerge : Explain Unit where
  name := cs!"BinaryMerge"
  url := cs!"type.googleapis.com/test.BinaryMerge"
  fromArgs _ := .done (.ok ())
  toArgs _ _ := .ok { columns := [.expr (.selection (.field 0 none)), .expr (.selection (.field 1 none))] }

/-- tests/extension_roundtrip.rs L614-650 `TupleSortHint`. -/
def tupleSortHint : Explain (List Str) where
  name := cs!"TupleSortHint"
  url := cs!"type.googleapis.com/test.TupleSortHint"
  fromArgs _ := .positional fun ps =>
    .done (match ps with
      | [v] =>
        match v.asTuple with
        | none => .error errArgType
        | some vs => collect (fun v => match v.asEnum with | some s => .ok s | none => .error errArgType) vs
      | _ => .error errArg)
  toArgs c _ := .ok { positional := [.tuple (c.map .enum)] }

/-- tests/adv_extension_roundtrip.rs L538-570 `TwoColumnScan`. -/
def twoColumnScan : Explain Unit where
  name := cs!"TwoColumnScan"
  url := cs!"type.googleapis.com/test.TwoColumnScan"
  fromArgs _ := .done (.ok ())
  toArgs _ _ := .ok { columns := [.named cs!"col0" i64, .named cs!"col1" i32] }

/-- tests/adv_extension_roundtrip.rs L867-888 `EnhancementWithColumns`. -/
def enhancementWithColumns : Explain Unit where
  name := cs!"EnhancementWithColumns"
  url := cs!"type.googleapis.com/test.EnhancementWithColumns"
  fromArgs _ := .done (.ok ())
  toArgs _ _ := .ok { columns := [.named cs!"col" i64] }

/-- tests/extension_table.rs L31-50 `UserTable`. -/
def userTableRead : Explain (List Str) where
  name := cs!"UserTable"
  url := cs!"type.googleapis.com/test.UserTable"
  fromArgs _ := Reader.expectNamed cs!"name" ExtValue.asStr fun s => .done (.ok [s])
  toArgs c _ := .ok { named := [(cs!"name", .string (c.headD []))] }

/-! ## Registries -/

/-- One more handler; the tests unwrap the result. -/
def plus (r : Reg) (ns : Ns) (x : Ext ExtArgs (List Nat)) : Reg := (r.register ns x).1

/-- `examples::registry()`. -/
def examples : Reg := (exampleRegistry sampleCodec1 sampleCodec2 sampleCodec3).getD {}

/-- tests/adv_extension_roundtrip.rs L19-25 `make_registry`. -/
def hints : Reg := plus {} .enhancement (partitionHint.ext sampleCodec1)

end Verif.Conformance
