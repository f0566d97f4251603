import Verif.Spec.Wire
import Verif.Gen.Generate
/-!
# Independent specification: what protoc and its plugins say to each other

The messages `CodeGeneratorRequest` and `CodeGeneratorResponse` on the wire, by the field numbers and types in the struct tags of generate/descriptor.pb.go and generate/plugin.pb.go, and the
rules of protobuf for reading: the last value of a singular field counts, fields that are not known or have another wire type are skipped, `int32` and enums are the low 32 bits.

Not covered: strings that are not UTF-8 (no request is read from them), groups (the wire format of Spec/Wire has none).
-/

namespace Zeropb.Gen
open Wire

/-- The bytes of a text: UTF-8, as defined in Lean's library. -/
def utf8 (t : Text) : List Byte := t.flatMap (fun c => (String.utf8EncodeChar c).map UInt8.toBitVec)

/-- The values of field `f` that are byte strings, in order. -/
def strings (f : Nat) (rs : List Record) : List (List Byte) :=
  (allVals f rs).filterMap (fun v => match v with | .bytes b => some b | _ => none)

/-- The values of field `f` that are varints, in order. -/
def ints (f : Nat) (rs : List Record) : List U64 :=
  (allVals f rs).filterMap (fun v => match v with | .varint n => some n | _ => none)

/-- Two lists related element by element. -/
inductive Pairs {α β : Type} (R : α → β → Prop) : List α → List β → Prop where
  | nil : Pairs R [] []
  | cons {a b as bs} : R a b → Pairs R as bs → Pairs R (a :: as) (b :: bs)

/-- `b` encodes the `FieldDescriptorProto`: name 1, number 3, label 4, type 5, type_name 6 (descriptor.pb.go:797-832). -/
def ReadsField (b : List Byte) (p : Option Field) : Prop :=
  ∃ rs f, IsMessage rs b ∧ p = some f ∧
    f.name.map utf8 = (strings 1 rs).getLast? ∧
    f.number = (ints 3 rs).getLast?.map (·.setWidth 32) ∧
    f.label = (ints 4 rs).getLast?.map (fun v => (v.setWidth 32).toInt) ∧
    f.type = (ints 5 rs).getLast?.map (fun v => (v.setWidth 32).toInt) ∧
    f.typeName.map utf8 = (strings 6 rs).getLast?

/-- `b` encodes the `DescriptorProto`: name 1, field 2 (descriptor.pb.go:529-545). -/
def ReadsMessage (b : List Byte) (p : Option Desc) : Prop :=
  ∃ rs m, IsMessage rs b ∧ p = some m ∧ m.name.map utf8 = (strings 1 rs).getLast? ∧ Pairs ReadsField (strings 2 rs) m.field

/-- `b` encodes the `FileDescriptorProto`: name 1, package 2, message_type 4 (descriptor.pb.go:390-417). -/
def ReadsFile (b : List Byte) (p : Option FileDesc) : Prop :=
  ∃ rs f, IsMessage rs b ∧ p = some f ∧ f.name.map utf8 = (strings 1 rs).getLast? ∧ f.package.map utf8 = (strings 2 rs).getLast? ∧
    Pairs ReadsMessage (strings 4 rs) f.messageType

/-- `b` encodes the `CodeGeneratorRequest`: file_to_generate 1, proto_file 15 (plugin.pb.go:91-118). -/
def ReadsRequest (b : List Byte) (r : Request) : Prop :=
  ∃ rs, IsMessage rs b ∧ r.fileToGenerate.map utf8 = strings 1 rs ∧ Pairs ReadsFile (strings 15 rs) r.protoFile

/-- `b` encodes the `CodeGeneratorResponse_File`: name 1, no insertion_point 2, content 15 (plugin.pb.go:230-286). -/
def ReadsOutFile (b : List Byte) (o : OutFile) : Prop :=
  ∃ rs, IsMessage rs b ∧ (strings 1 rs).getLast? = some (utf8 o.name) ∧ strings 2 rs = [] ∧ (strings 15 rs).getLast? = some (utf8 o.content)

/-- `b` encodes the `CodeGeneratorResponse` with these files: no error 1, file 15 (plugin.pb.go:181-190). -/
def ReadsResponse (b : List Byte) (files : List OutFile) : Prop :=
  ∃ rs, IsMessage rs b ∧ strings 1 rs = [] ∧ Pairs ReadsOutFile (strings 15 rs) files

/-! ## Parts of the input that do not count -/

/-- The records are equal, or they have the same number, and byte strings that are the same in the sense of `inner`. -/
def SameRecord (inner : Nat → List Byte → List Byte → Prop) (r r' : Record) : Prop :=
  r = r' ∨ r.num = r'.num ∧ ∃ x x', r.val = .bytes x ∧ r'.val = .bytes x' ∧ inner r.num x x'

/-- `b` and `b'` encode messages which are the same but for the records whose numbers are not in `used`, and for the way numbers and lengths are encoded. -/
def Same (used : List Nat) (inner : Nat → List Byte → List Byte → Prop) (b b' : List Byte) : Prop :=
  ∃ rs rs', IsMessage rs b ∧ IsMessage rs' b' ∧
    Pairs (SameRecord inner) (rs.filter (fun r => r.num ∈ used)) (rs'.filter (fun r => r.num ∈ used))

/-- A `FieldDescriptorProto` with other extendee, default value, oneof index, JSON name or options, or unknown fields. -/
def SameField : List Byte → List Byte → Prop := Same [1, 3, 4, 5, 6] (fun _ _ _ => False)

/-- A `DescriptorProto` with other nested types, enums, extensions, oneofs, options, reserved ranges and names, or the same for its fields. -/
def SameMessage : List Byte → List Byte → Prop := Same [1, 2] (fun n x x' => n = 2 ∧ SameField x x')

/-- A `FileDescriptorProto` with other imports, enums, services, extensions, options, comments (source_code_info) or syntax, or the same for its messages. -/
def SameFile : List Byte → List Byte → Prop := Same [1, 2, 4] (fun n x x' => n = 4 ∧ SameMessage x x')

/-- A `CodeGeneratorRequest` with another parameter or compiler version, or the same for its files. -/
def SameInput : List Byte → List Byte → Prop := Same [1, 15] (fun n x x' => n = 15 ∧ SameFile x x')

end Zeropb.Gen
