import Verif.Go.Prim
/-!
# Independent specification: the protobuf wire format

Written from the protobuf encoding documentation, in terms of natural-number arithmetic on byte
lists. It mentions none of the model's functions.
-/

namespace Zeropb.Wire

/-- The number denoted by base-128 digits, least significant group first (high bits ignored). -/
def varintValue : List Byte → Nat
  | [] => 0
  | b :: bs => b.toNat % 128 + 128 * varintValue bs

/-- `bs` is a (not necessarily shortest) varint encoding of `v`: every byte but the last has its
high bit set, at most ten bytes, and the number fits 64 bits. -/
def IsVarint (v : Nat) (bs : List Byte) : Prop :=
  ∃ init last, bs = init ++ [last] ∧ (∀ b ∈ init, 128 ≤ b.toNat) ∧ last.toNat < 128 ∧
    bs.length ≤ 10 ∧ varintValue bs = v ∧ v < 2 ^ 64

/-- `bs` is the shortest varint encoding of `v`: its last group is nonzero unless it is the only
one. -/
def IsMinVarint (v : Nat) (bs : List Byte) : Prop :=
  IsVarint v bs ∧ (bs.length = 1 ∨ bs.getLast? ≠ some 0#8)

/-- The `n` little-endian bytes of `v`. -/
def leBytes : Nat → Nat → List Byte
  | 0, _ => []
  | n + 1, v => BitVec.ofNat 8 (v % 256) :: leBytes n (v / 256)

/-- A value on the wire. -/
inductive Val where
  | varint (v : U64)
  | fixed64 (v : U64)
  | bytes (bs : List Byte)
  | fixed32 (v : U32)
deriving DecidableEq, Repr

/-- Wire type numbers. -/
def Val.wireType : Val → Nat
  | .varint _ => 0
  | .fixed64 _ => 1
  | .bytes _ => 2
  | .fixed32 _ => 5

/-- `pay` is an encoding of the value (without tag). -/
def IsPayload : Val → List Byte → Prop
  | .varint v, pay => IsVarint v.toNat pay
  | .fixed64 v, pay => pay = leBytes 8 v.toNat
  | .fixed32 v, pay => pay = leBytes 4 v.toNat
  | .bytes bs, pay => ∃ lenBytes, IsVarint bs.length lenBytes ∧ pay = lenBytes ++ bs

/-- A record: a field number with a value. (The restriction of field numbers to 1..2^29-1 is not
imposed.) -/
structure Record where
  num : Nat
  val : Val
deriving DecidableEq, Repr

/-- `bs` is an encoding of the record: tag, then payload. -/
def IsRecord (r : Record) (bs : List Byte) : Prop :=
  ∃ tag pay, bs = tag ++ pay ∧ IsVarint (r.num * 8 + r.val.wireType) tag ∧ IsPayload r.val pay

/-- As `IsRecord`, with the tag in its shortest encoding. -/
def IsMinTagRecord (r : Record) (bs : List Byte) : Prop :=
  ∃ tag pay, bs = tag ++ pay ∧ IsMinVarint (r.num * 8 + r.val.wireType) tag ∧ IsPayload r.val pay

/-- `bs` is an encoding of the sequence of records. -/
inductive IsMessage : List Record → List Byte → Prop where
  | nil : IsMessage [] []
  | cons {r rs bs rest} : IsRecord r bs → IsMessage rs rest → IsMessage (r :: rs) (bs ++ rest)

/-- As `IsMessage`, all tags in their shortest encoding (as every common encoder writes them). -/
inductive IsMinTagMessage : List Record → List Byte → Prop where
  | nil : IsMinTagMessage [] []
  | cons {r rs bs rest} : IsMinTagRecord r bs → IsMinTagMessage rs rest →
      IsMinTagMessage (r :: rs) (bs ++ rest)

/-- The value of a singular field: that of the last record with its number. -/
def lastVal (f : Nat) (rs : List Record) : Option Val :=
  ((rs.filter (fun r => r.num = f)).getLast?).map Record.val

/-- The values of a repeated field: those of all records with its number, in order. -/
def allVals (f : Nat) (rs : List Record) : List Val :=
  (rs.filter (fun r => r.num = f)).map Record.val

/-- A message cut into its records, each with the bytes that encode it. -/
def IsSegmented (segs : List (Record × List Byte)) (bs : List Byte) : Prop :=
  (∀ s ∈ segs, IsRecord s.1 s.2) ∧ bs = (segs.map Prod.snd).flatten

/-- Number of bytes of the shortest varint of `n`. -/
def varintLen (n : Nat) : Nat := if n < 128 then 1 else varintLen (n / 128) + 1

/-- Number of bytes of the shortest encoding of a value. -/
def valLen : Val → Nat
  | .varint v => varintLen v.toNat
  | .fixed64 _ => 8
  | .fixed32 _ => 4
  | .bytes bs => varintLen bs.length + bs.length

/-- Number of bytes of the shortest encoding of a record. -/
def recordLen (r : Record) : Nat := varintLen (r.num * 8 + r.val.wireType) + valLen r.val

end Zeropb.Wire
