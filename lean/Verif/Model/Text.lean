import Verif.Model.TestMessage
import Verif.Gen.StringTree
/-!
# Model of golden/testzeropb/string.go (`Text`, `WriteText`)

The writer is a `strings.Builder`, as in `Text`: its `Write` appends and does not fail.
-/

namespace Zeropb
open Gen (Text)

/-- The bytes of an ASCII string constant. -/
def asc (t : Text) : List Byte := t.map (fun c => BitVec.ofNat 8 c.toNat)

/-- `%d` of package fmt: decimal, with a minus sign for negative numbers. -/
def decimal (i : Int) : List Byte := asc (Gen.itoa i)

/-- The formatting functions of the Go library that are not modelled: `%v` of a `float32` and of a `float64` (given by
their bits), `strconv.Quote`. -/
structure Fmt where
  float : U32 → List Byte
  double : U64 → List Byte
  quote : List Byte → List Byte

/-- string.go:26-73: how the value of a field of each type is formatted: `%t`, `%d`, `%v`, `%s`, and `strconv.Quote` for bytes. -/
def Fmt.val (F : Fmt) : (k : Kind) → k.Ty → List Byte
  | .bool, x => asc (if x then t!"true" else t!"false")
  | .int32, x | .sint32, x | .sfixed32, x => decimal x.toInt
  | .int64, x | .sint64, x | .sfixed64, x => decimal x.toInt
  | .uint32, x | .fixed32, x => decimal x.toNat
  | .uint64, x | .fixed64, x => decimal x.toNat
  | .float, x => F.float x
  | .double, x => F.double x
  | .string, x => x
  | .bytes, x => F.quote x

/-- string.go:26-73: the sixteen blocks `if _, ok := offsets.Get(f); ok { fmt.Fprintf(w, "name=... ", m.Getter()) }`, in order. -/
def textFields : List (Nat × Text × Kind) :=
  [(1, t!"bool", .bool), (2, t!"int32", .int32), (3, t!"int64", .int64), (4, t!"uint32", .uint32), (5, t!"uint64", .uint64),
   (6, t!"sint32", .sint32), (7, t!"sint64", .sint64), (8, t!"fixed32", .fixed32), (9, t!"fixed64", .fixed64),
   (10, t!"sfixed32", .sfixed32), (11, t!"sfixed64", .sfixed64), (12, t!"double", .double), (13, t!"float", .float),
   (14, t!"string", .string), (15, t!"byte_array", .bytes), (16, t!"enum", .uint32)]

/-- string.go:26-73, run one after the other; `out` is what has been written before. -/
def writeFields (F : Fmt) (m : Msg) : List (Nat × Text × Kind) → List Byte → Res (List Byte)
  | [], out => .ok out
  | (f, name, k) :: rest, out => do
    let (_, ok) ← m.off.get f
    if ok then
      let x ← m.get k f
      writeFields F m rest (out ++ (asc name ++ asc t!"=" ++ F.val k x ++ asc t!" "))
    else writeFields F m rest out

/-- string.go:82-91: the body of the loop over the iterator of `Messages()`. State: iterator, `sub`, text written. `rec` is
the recursive call. -/
noncomputable def textStep (rec : Msg → Res (List Byte × Option DecErr)) (st : Option Slice × Msg × List Byte) :
    Res ((Option Slice × Msg × List Byte) ⊕ (List Byte × Option DecErr)) := do
  let (it, sub, out) := st
  let (it, sub, ok, err) ← Msg.next testRep it 34 sub
  match err with
  | some e => return .inr (out, some e)
  | none =>
    if !ok then return .inr (out, none)
    else
      let out := out ++ asc t!"messages=<"
      let (t, p) ← rec sub
      match p with
      | some e => return .inr (out ++ t, some e)
      | none => return .inl (it, sub, out ++ t ++ asc t!"> ")

/-- string.go:22-92 `WriteText` (and 15-19 `Text`): the text written, and the value of the explicit `panic(err)` if there
was one. The first argument bounds the number of nested calls; a call that needs more does not return (Go aborts the
process when the stack exceeds its limit). -/
noncomputable def writeText (F : Fmt) : Nat → Msg → Res (List Byte × Option DecErr)
  | 0, _ => .error .diverge
  | n + 1, m => do
    let out ← writeFields F m textFields []
    let (sub, ok, err) ← m.subMessage testRep 17 (Msg.zero 35)
    match err with
    | some e => return (out, some e)
    | none =>
      if ok then
        let out := out ++ asc t!"message=<"
        let (t, p) ← writeText F n sub
        match p with
        | some e => return (out ++ t, some e)
        | none =>
          let it ← m.messages 34
          iterate (textStep (writeText F n)) (it, sub, out ++ t ++ asc t!"> ")
      else
        let it ← m.messages 34
        iterate (textStep (writeText F n)) (it, sub, out)

end Zeropb
