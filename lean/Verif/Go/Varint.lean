import Verif.Go.Prim
/-!
# `encoding/binary` of Go 1.12 (the version pinned by go.mod:3 and .circleci/config.yml:5)

Not part of the repository; modelled from the Go standard library source.
-/

namespace Zeropb

/-- Body of `binary.Uvarint` (Go 1.12 varint.go): position `i`, accumulator `x`, shift `s`.
```go
for i, b := range buf {
    if b < 0x80 {
        if i > 9 || i == 9 && b > 1 { return 0, -(i + 1) // overflow }
        return x | uint64(b)<<s, i + 1
    }
    x |= uint64(b&0x7f) << s
    s += 7
}
return 0, 0
``` -/
def uvarintAux : List Byte → Nat → U64 → Nat → U64 × Int
  | [], _, _, _ => (0#64, 0)
  | b :: bs, i, x, s =>
    if b.toNat < 0x80 then
      if i > 9 ∨ (i = 9 ∧ b.toNat > 1) then (0#64, -((i : Int) + 1))
      else (x ||| (b.setWidth 64 <<< s), (i : Int) + 1)
    else uvarintAux bs (i + 1) (x ||| ((b &&& 0x7f#8).setWidth 64 <<< s)) (s + 7)

/-- `binary.Uvarint(buf)`: value and size; size 0 means the buffer ended, a negative size means
the value overflows 64 bits. -/
def uvarint (buf : List Byte) : U64 × Int := uvarintAux buf 0 0#64 0

/-- `binary.Varint(buf)`: zig-zag decoding on top of `Uvarint`. The result is the bit pattern of
the `int64`.
```go
ux, n := Uvarint(buf)
x := int64(ux >> 1)
if ux&1 != 0 { x = ^x }
``` -/
def varint (buf : List Byte) : U64 × Int :=
  let r := uvarint buf
  let x := r.1 >>> 1
  (if r.1 &&& 1#64 ≠ 0#64 then ~~~x else x, r.2)

/-- `binary.PutUvarint(scratch[:], x)` for a scratch array of `n` bytes: the bytes written, or a
panic if the array is too short.
```go
for x >= 0x80 { buf[i] = byte(x) | 0x80; x >>= 7; i++ }
buf[i] = byte(x)
``` -/
def putUvarint : Nat → U64 → Res (List Byte)
  | 0, _ => .error .indexOutOfRange
  | n + 1, x =>
    if x.toNat ≥ 0x80 then do
      let rest ← putUvarint n (x >>> 7)
      return (x.setWidth 8 ||| 0x80#8) :: rest
    else return [x.setWidth 8]

/-- `binary.PutVarint(scratch[:], x)`; `x` is the bit pattern of the `int64`.
```go
ux := uint64(x) << 1
if x < 0 { ux = ^ux }
``` -/
def putVarint (n : Nat) (x : U64) : Res (List Byte) :=
  let ux := x <<< 1
  putUvarint n (if x.toInt < 0 then ~~~ux else ux)

/-- `binary.MaxVarintLen32`. -/
def maxVarintLen32 : Nat := 5
/-- `binary.MaxVarintLen64`. -/
def maxVarintLen64 : Nat := 10

/-- `binary.LittleEndian.Uint32(b)`: needs 4 bytes (`_ = b[3]`). -/
def leUint32 : List Byte → Res U32
  | b0 :: b1 :: b2 :: b3 :: _ =>
    .ok (b0.setWidth 32 ||| b1.setWidth 32 <<< 8 ||| b2.setWidth 32 <<< 16 ||| b3.setWidth 32 <<< 24)
  | _ => .error .indexOutOfRange

/-- `binary.LittleEndian.Uint64(b)`: needs 8 bytes (`_ = b[7]`). -/
def leUint64 : List Byte → Res U64
  | b0 :: b1 :: b2 :: b3 :: b4 :: b5 :: b6 :: b7 :: _ =>
    .ok (b0.setWidth 64 ||| b1.setWidth 64 <<< 8 ||| b2.setWidth 64 <<< 16 ||| b3.setWidth 64 <<< 24
      ||| b4.setWidth 64 <<< 32 ||| b5.setWidth 64 <<< 40 ||| b6.setWidth 64 <<< 48
      ||| b7.setWidth 64 <<< 56)
  | _ => .error .indexOutOfRange

/-- `binary.LittleEndian.PutUint32(scratch[:], v)`: the four bytes. -/
def lePutUint32 (v : U32) : List Byte :=
  [v.setWidth 8, (v >>> 8).setWidth 8, (v >>> 16).setWidth 8, (v >>> 24).setWidth 8]

/-- `binary.LittleEndian.PutUint64(scratch[:], v)`: the eight bytes. -/
def lePutUint64 (v : U64) : List Byte :=
  [v.setWidth 8, (v >>> 8).setWidth 8, (v >>> 16).setWidth 8, (v >>> 24).setWidth 8,
   (v >>> 32).setWidth 8, (v >>> 40).setWidth 8, (v >>> 48).setWidth 8, (v >>> 56).setWidth 8]

/-- `binary.Uvarint` of later Go versions (1.17 and newer): as above, but it gives up after ten
bytes instead of looking for the end of the varint.
```go
if i == MaxVarintLen64 { return 0, -(i + 1) // overflow }
if b < 0x80 { if i == MaxVarintLen64-1 && b > 1 { return 0, -(i + 1) }; return ... }
``` -/
def uvarintNewAux : List Byte → Nat → U64 → Nat → U64 × Int
  | [], _, _, _ => (0#64, 0)
  | b :: bs, i, x, s =>
    if i = 10 then (0#64, -((i : Int) + 1))
    else if b.toNat < 0x80 then
      if i = 9 ∧ b.toNat > 1 then (0#64, -((i : Int) + 1))
      else (x ||| (b.setWidth 64 <<< s), (i : Int) + 1)
    else uvarintNewAux bs (i + 1) (x ||| ((b &&& 0x7f#8).setWidth 64 <<< s)) (s + 7)

/-- Later-version `binary.Uvarint(buf)`. -/
def uvarintNew (buf : List Byte) : U64 × Int := uvarintNewAux buf 0 0#64 0

end Zeropb
