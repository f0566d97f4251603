import Verif.Spec.Wire
/-!
# Independent specification: protobuf field types and their values on the wire

Written from the protobuf language and encoding documentation, with integer arithmetic. It mentions
none of the model's functions.
-/

namespace Zeropb

/-- The scalar field types of protobuf. `enum` is treated as `uint32` by zeropb (generate.go:236-237),
and an embedded message is a `bytes` field on the wire. -/
inductive Kind where
  | bool | int32 | int64 | uint32 | uint64 | sint32 | sint64
  | fixed32 | fixed64 | sfixed32 | sfixed64 | float | double | string | bytes
deriving DecidableEq, Repr

/-- The Go values of a field type: integers and floats as bit patterns, strings as bytes. -/
abbrev Kind.Ty : Kind → Type
  | .bool => Bool
  | .int32 | .uint32 | .sint32 | .fixed32 | .sfixed32 | .float => U32
  | .int64 | .uint64 | .sint64 | .fixed64 | .sfixed64 | .double => U64
  | .string | .bytes => List Byte

/-- The value of an unset field. -/
def Kind.dflt : (k : Kind) → k.Ty
  | .bool => false
  | .int32 | .uint32 | .sint32 | .fixed32 | .sfixed32 | .float => 0#32
  | .int64 | .uint64 | .sint64 | .fixed64 | .sfixed64 | .double => 0#64
  | .string | .bytes => []

/-- Bytes of variable length in a field value. -/
def Kind.size : (k : Kind) → k.Ty → Nat
  | .string, x | .bytes, x => List.length x
  | _, _ => 0

/-- The wire type of a field type. -/
def Kind.wt : Kind → Nat
  | .bool | .int32 | .int64 | .uint32 | .uint64 | .sint32 | .sint64 => 0
  | .fixed64 | .sfixed64 | .double => 1
  | .string | .bytes => 2
  | .fixed32 | .sfixed32 | .float => 5

namespace Wire

/-- Zig-zag numbering of the integers: 0, -1, 1, -2, 2, … -/
def zigzag (n : Int) : Nat := if 0 ≤ n then (2 * n).toNat else (-2 * n - 1).toNat

/-- Its inverse. -/
def unzigzag (u : Nat) : Int := if u % 2 = 0 then (u / 2 : Nat) else -((u / 2 : Nat) : Int) - 1

/-- The wire value of a field value. `int32` is sign-extended to 64 bits. -/
def encodeVal : (k : Kind) → k.Ty → Val
  | .bool, b => .varint (if b then 1#64 else 0#64)
  | .int32, x => .varint (BitVec.ofInt 64 x.toInt)
  | .int64, x => .varint x
  | .uint32, x => .varint (BitVec.ofNat 64 x.toNat)
  | .uint64, x => .varint x
  | .sint32, x => .varint (BitVec.ofNat 64 (zigzag x.toInt))
  | .sint64, x => .varint (BitVec.ofNat 64 (zigzag x.toInt))
  | .fixed32, x | .sfixed32, x | .float, x => .fixed32 x
  | .fixed64, x | .sfixed64, x | .double, x => .fixed64 x
  | .string, x | .bytes, x => .bytes x

/-- The field value denoted by a wire value; `none` if the wire type does not belong to the field
type (or an `sint32` varint does not fit 32 bits). Varints read as 32-bit types are truncated. -/
def decodeVal : (k : Kind) → Val → Option k.Ty
  | .bool, .varint v => some (decide (v.toNat ≠ 0))
  | .int32, .varint v => some (BitVec.ofNat 32 v.toNat)
  | .int64, .varint v => some v
  | .uint32, .varint v => some (BitVec.ofNat 32 v.toNat)
  | .uint64, .varint v => some v
  | .sint32, .varint v => if v.toNat < 2 ^ 32 then some (BitVec.ofInt 32 (unzigzag v.toNat)) else none
  | .sint64, .varint v => some (BitVec.ofInt 64 (unzigzag v.toNat))
  | .fixed32, .fixed32 v | .sfixed32, .fixed32 v | .float, .fixed32 v => some v
  | .fixed64, .fixed64 v | .sfixed64, .fixed64 v | .double, .fixed64 v => some v
  | .string, .bytes v | .bytes, .bytes v => some v
  | _, _ => none

/-- The value a reader of field type `k` sees: the default if the field does not occur. -/
def readVal (k : Kind) : Option Val → Option k.Ty
  | none => some k.dflt
  | some v => decodeVal k v

end Wire

/-- What zeropb knows about a message type: the length of the offset table (largest field number
plus one), which fields are repeated, and the types of the fields that have accessors (singular
scalars and messages, repeated messages). Repeated scalar fields get no accessors. -/
structure Schema where
  n : Nat
  rep : Nat → Bool
  kind : Nat → Option Kind
  /-- field numbers are far below 2^61 (protobuf's limit is 2^29) -/
  n_le : n ≤ 2 ^ 61
  kind_lt : ∀ f, kind f ≠ none → f < n
  rep_bytes : ∀ f k, rep f = true → kind f = some k → k = .bytes

/-- Every record fits the schema: its number is in the table, and if the field is declared its value
has the declared type. -/
def WellTyped (S : Schema) (rs : List Wire.Record) : Prop :=
  ∀ r ∈ rs, r.num < S.n ∧ ∀ k, S.kind r.num = some k → ∃ x, Wire.decodeVal k r.val = some x

end Zeropb
