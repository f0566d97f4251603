import Verif.Gen.StringTree
import Verif.Spec.Kind
/-!
# Independent specification: the Go declarations generated for a message type

What a user expects of the generated file: which declarations it has, and the Go source text of each.
This file is written without the functions of the generator; the indentation and the bodies of the
methods are those documented in the golden files.
-/

namespace Zeropb.Gen

/-- The expression for the offset index of the message `m` in a method body. -/
def offsetsText : Text := t!"zeropb.WrapOffsets(m.offsets.a[:], &m.offsets.m)"

/-- A top-level declaration of a generated file. `msg` is the name of a message type, `name` the Go name
of a field, `typ` a message type, `it` an iterator type, `num` a field number. -/
inductive Decl where
  /-- `type msg struct { … }` with an offset array of `slots` entries -/
  | struct (msg : Text) (slots : Int)
  /-- `var repeatedFields_msg` -/
  | repeatedTable (msg : Text) (nums : List Int)
  | encode (msg : Text)
  | decode (msg : Text)
  | reset (msg : Text)
  /-- getter of a scalar field: Go type `goType`, runtime function `zeropb.Get<fn>` -/
  | get (msg name goType fn : Text) (num : Int)
  /-- setter of a scalar field: runtime function `zeropb.Set<fn>` -/
  | set (msg name goType fn : Text) (num : Int)
  | getMessage (msg name typ : Text) (num : Int)
  | setMessage (msg name typ : Text) (num : Int)
  | iterType (it : Text)
  | iterNext (it typ : Text) (num : Int)
  | getRepeated (msg name it : Text) (num : Int)
  | appendTo (msg name typ : Text) (num : Int)
deriving DecidableEq, Repr

/-- `n` steps of indentation, of two blanks each. -/
def ind (n : Nat) : Text := (List.replicate n t!"  ").flatten

/-- Source lines, each given by its indentation and its pieces. -/
def code (ls : List (Nat × List Text)) : Text := ls.flatMap fun l => ind l.1 ++ l.2.flatten

/-- The Go source text of a declaration, followed by an empty line. -/
def Decl.text : Decl → Text
  | .struct msg slots => code
    [(0, [t!"type ", msg, t!" struct {\n"]),
     (1, [t!"buf []byte\n"]),
     (1, [t!"offsets struct {\n"]),
     (2, [t!"a [", itoa slots, t!"]uint16\n"]),
     (2, [t!"m map[int]uint64\n"]),
     (1, [t!"}\n"]),
     (0, [t!"}\n\n"])]
  | .repeatedTable msg nums => code
    ([(0, [t!"var repeatedFields_", msg, t!" = zeropb.RepeatedFields{\n"])] ++
     nums.map (fun n => (1, [itoa n, t!": struct{}{},\n"])) ++
     [(0, [t!"}\n\n"])])
  | .encode msg => code
    [(0, [t!"func (m *", msg, t!") Encode() []byte {\n"]),
     (1, [t!"return m.buf\n"]),
     (0, [t!"}\n\n"])]
  | .decode msg => code
    [(0, [t!"func (m *", msg, t!") Decode(buf []byte) error {\n"]),
     (1, [t!"m.buf = buf\n"]),
     (1, [t!"return zeropb.Decode(m.buf, ", offsetsText, t!", repeatedFields_", msg, t!")\n"]),
     (0, [t!"}\n\n"])]
  | .reset msg => code
    [(0, [t!"func (m *", msg, t!") Reset(buf []byte) {\n"]),
     (1, [t!"if len(buf) > 0 {\n"]),
     (2, [t!"panic(`buf must be empty`)\n"]),
     (1, [t!"}\n"]),
     (1, [t!"m.buf = buf\n"]),
     (1, [offsetsText, t!".Clear()\n"]),
     (0, [t!"}\n\n"])]
  | .get msg name goType fn num => code
    [(0, [t!"func (m *", msg, t!") ", name, t!"() ", goType, t!" {\n"]),
     (1, [t!"return zeropb.Get", fn, t!"(m.buf, ", offsetsText, t!", ", itoa num, t!")\n"]),
     (0, [t!"}\n\n"])]
  | .set msg name goType fn num => code
    [(0, [t!"func (m *", msg, t!") Set", name, t!"(x ", goType, t!") {\n"]),
     (1, [t!"zeropb.Set", fn, t!"(&m.buf, ", offsetsText, t!", ", itoa num, t!", x)\n"]),
     (0, [t!"}\n\n"])]
  | .getMessage msg name typ num => code
    [(0, [t!"func (m *", msg, t!") ", name, t!"(x *", typ, t!") (bool, error) {\n"]),
     (1, [t!"buf := zeropb.GetBytes(m.buf, ", offsetsText, t!", ", itoa num, t!")\n"]),
     (1, [t!"if buf == nil {\n"]),
     (2, [t!"return false, nil\n"]),
     (1, [t!"}\n"]),
     (1, [t!"return true, x.Decode(buf)\n"]),
     (0, [t!"}\n\n"])]
  | .setMessage msg name typ num => code
    [(0, [t!"func (m *", msg, t!") Set", name, t!"(x ", typ, t!") {\n"]),
     (1, [t!"buf := x.Encode()\n"]),
     (1, [t!"zeropb.SetBytes(&m.buf, ", offsetsText, t!", ", itoa num, t!", buf)\n"]),
     (0, [t!"}\n\n"])]
  | .iterType it => code [(0, [t!"type ", it, t!" []byte\n\n"])]
  | .iterNext it typ num => code
    [(0, [t!"func (i *", it, t!") Next(m *", typ, t!") (bool, error) {\n"]),
     (1, [t!"var buf []byte\n"]),
     (1, [t!"*i, buf = zeropb.FindNextField((*i), ", itoa num, t!")\n"]),
     (1, [t!"if buf == nil {\n"]),
     (2, [t!"return false, nil\n"]),
     (1, [t!"}\n"]),
     (1, [t!"return true, m.Decode(buf)\n"]),
     (0, [t!"}\n\n"])]
  | .getRepeated msg name it num => code
    [(0, [t!"func (m *", msg, t!") ", name, t!"() ", it, t!" {\n"]),
     (1, [t!"return ", it, t!"(zeropb.GetRepeatedNonPacked(m.buf, ", offsetsText, t!", ", itoa num, t!"))\n"]),
     (0, [t!"}\n\n"])]
  | .appendTo msg name typ num => code
    [(0, [t!"func (m *", msg, t!") AppendTo", name, t!"(x ", typ, t!") {\n"]),
     (1, [t!"buf := x.Encode()\n"]),
     (1, [t!"zeropb.AppendBytes(&m.buf, ", offsetsText, t!", ", itoa num, t!", buf)\n"]),
     (0, [t!"}\n\n"])]

/-- The text of a whole file of package `pkg`. -/
def fileText (pkg : Text) (ds : List Decl) : Text :=
  code [(0, [t!"// Code generated by protoc-gen-zeropb. DO NOT EDIT.\n\n"]),
        (0, [t!"package ", pkg, t!"\n\n"]),
        (0, [t!"import \"github.com/danhhz/zeropb\"", t!"\n\n"])] ++ ds.flatMap Decl.text

/-- The name a declaration introduces: a package-level identifier (receiver `none`), or a method of the
type `some receiver`. Go rejects a file that introduces the same name twice. -/
def Decl.declares : Decl → Option Text × Text
  | .struct msg _ => (none, msg)
  | .repeatedTable msg _ => (none, t!"repeatedFields_" ++ msg)
  | .encode msg => (some msg, t!"Encode")
  | .decode msg => (some msg, t!"Decode")
  | .reset msg => (some msg, t!"Reset")
  | .get msg name _ _ _ => (some msg, name)
  | .set msg name _ _ _ => (some msg, t!"Set" ++ name)
  | .getMessage msg name _ _ => (some msg, name)
  | .setMessage msg name _ _ => (some msg, t!"Set" ++ name)
  | .iterType it => (none, it)
  | .iterNext it _ _ => (some it, t!"Next")
  | .getRepeated msg name _ _ => (some msg, name)
  | .appendTo msg name _ _ => (some msg, t!"AppendTo" ++ name)

/-- The package-level names a declaration refers to: receiver and parameter types, and the repeated-field
table passed by `Decode`. -/
def Decl.refersTo : Decl → List Text
  | .struct _ _ | .repeatedTable _ _ | .iterType _ => []
  | .encode msg | .reset msg => [msg]
  | .decode msg => [msg, t!"repeatedFields_" ++ msg]
  | .get msg _ _ _ _ | .set msg _ _ _ _ => [msg]
  | .getMessage msg _ typ _ | .setMessage msg _ typ _ => [msg, typ]
  | .iterNext it typ _ => [it, typ]
  | .getRepeated msg _ it _ => [msg, it]
  | .appendTo msg _ typ _ => [msg, typ]

/-- The field number a declaration passes to the runtime. -/
def Decl.num : Decl → Option Int
  | .struct _ _ | .repeatedTable _ _ | .iterType _ | .encode _ | .decode _ | .reset _ => none
  | .get _ _ _ _ n | .set _ _ _ _ n | .getMessage _ _ _ n | .setMessage _ _ _ n | .iterNext _ _ n | .getRepeated _ _ _ n
  | .appendTo _ _ _ n => some n

/-- The protobuf field types by their number in descriptor.proto (`FieldDescriptorProto.Type`), as far as
they are scalar: all but TYPE_GROUP = 10 and TYPE_MESSAGE = 11. -/
def protoKind : Int → Option Kind
  | 1 => some .double
  | 2 => some .float
  | 3 => some .int64
  | 4 => some .uint64
  | 5 => some .int32
  | 6 => some .fixed64
  | 7 => some .fixed32
  | 8 => some .bool
  | 9 => some .string
  | 12 => some .bytes
  | 13 => some .uint32
  | 14 => some .uint32
  | 15 => some .sfixed32
  | 16 => some .sfixed64
  | 17 => some .sint32
  | 18 => some .sint64
  | _ => none

/-- The Go type of the values of a field type. -/
def Kind.goType : Kind → Text
  | .bool => t!"bool"
  | .int32 | .sint32 | .sfixed32 => t!"int32"
  | .int64 | .sint64 | .sfixed64 => t!"int64"
  | .uint32 | .fixed32 => t!"uint32"
  | .uint64 | .fixed64 => t!"uint64"
  | .float => t!"float32"
  | .double => t!"float64"
  | .string => t!"string"
  | .bytes => t!"[]byte"

/-- The suffix of the functions `zeropb.GetX` and `zeropb.SetX` for a field type: in the model they are the
branch of `Msg.get` and `Msg.set` (Model/Message.lean) for that type. -/
def Kind.fn : Kind → Text
  | .bool => t!"Bool"
  | .int32 => t!"Int32"
  | .sint32 => t!"ZigZagInt32"
  | .sfixed32 => t!"FixedInt32"
  | .int64 => t!"Int64"
  | .sint64 => t!"ZigZagInt64"
  | .sfixed64 => t!"FixedInt64"
  | .uint32 => t!"Uint32"
  | .fixed32 => t!"FixedUint32"
  | .uint64 => t!"Uint64"
  | .fixed64 => t!"FixedUint64"
  | .float => t!"Float32"
  | .double => t!"Float64"
  | .string => t!"String"
  | .bytes => t!"Bytes"

end Zeropb.Gen
