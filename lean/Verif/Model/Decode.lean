import Verif.Model.Access
/-!
# Model of `Decode`, `FindNextField` and `fieldDataSize` (/repo/zeropb.go:419-511)
-/

namespace Zeropb

/-- `io.ErrUnexpectedEOF`, the only error value `Decode` returns. -/
inductive DecErr where
  | unexpectedEOF
deriving DecidableEq, Repr

/-- zeropb.go:493-511 `fieldDataSize`. -/
def fieldDataSize (typ : Nat) (buf : List Byte) : Res Int :=
  if typ = wireVarint then .ok (uvarint buf).2
  else if typ = wireFixed32 then .ok 4
  else if typ = wireFixed64 then .ok 8
  else if typ = wireBytes then
    let (len, lenSize) := uvarint buf
    if lenSize = 0 then .ok 0 else .ok (addInt lenSize (u64ToInt len))
  else .error .unsupportedType

/-- `int(tag >> 3)` (zeropb.go:438, 483); below 2^61, so never negative. -/
def tagField (tag : U64) : Nat := (tag >>> 3).toNat
/-- `tag & 0x7` (zeropb.go:439, 484). -/
def tagType (tag : U64) : Nat := (tag &&& 7#64).toNat

/-- zeropb.go:444-461: record the position of a field found by `Decode`. The offset of a repeated
field is set at its first occurrence only; that of any other field is always overwritten. -/
def recordOffset (rep : Nat → Bool) (o : Offsets) (fieldID : Nat) (idx : Int) : Res Offsets :=
  if rep fieldID then do
    let (_, ok) ← o.get fieldID
    if !ok then o.set fieldID (intToU64 idx) else return o
  else o.set fieldID (intToU64 idx)

/-- The body of the loop of `Decode`, zeropb.go:424-465. State: `idx` and the offsets. The loop is
left with the offsets and the returned error (`none` is nil). `rep` is membership in
`repeatedFields`. -/
def decodeStep (buf : Slice) (rep : Nat → Bool) (st : Int × Offsets) :
    Res ((Int × Offsets) ⊕ (Offsets × Option DecErr)) := do
  let (idx, o) := st
  if idx = (buf.data.length : Int) then return .inr (o, none)
  else if idx > (buf.data.length : Int) then return .inr (o, some .unexpectedEOF)
  let s ← buf.dropFrom idx
  let (tag, size) := uvarint s.data
  if size = 0 then return .inr (o, some .unexpectedEOF)
  let idx := addInt idx size
  if idx ≥ (buf.data.length : Int) then return .inr (o, some .unexpectedEOF)
  let fieldID := tagField tag
  let typ := tagType tag
  let o ← recordOffset rep o fieldID idx
  let s ← buf.dropFrom idx
  let sz ← fieldDataSize typ s.data
  if sz = 0 then return .inr (o, some .unexpectedEOF)
  return .inl (addInt idx sz, o)

/-- zeropb.go:421-467 `Decode`: the final offsets and the returned error. -/
noncomputable def decode (buf : Slice) (o : Offsets) (rep : Nat → Bool) :
    Res (Offsets × Option DecErr) :=
  iterate (decodeStep buf rep) (0, o.clear)

/-- The body of the loop of `FindNextField`, zeropb.go:480-489; `none` when the loop condition
`idx < len(buf)` fails. -/
def findStep (buf : Slice) (field : Nat) (idx : Int) : Res (Int ⊕ Option Slice) := do
  if ¬ idx < (buf.data.length : Int) then return .inr none
  let s ← buf.dropFrom idx
  let (tag, size) := uvarint s.data
  let idx := addInt idx size
  let f := tagField tag
  let typ := tagType tag
  if f = field then
    let r ← buf.dropFrom idx
    return .inr (some r)
  let s ← buf.dropFrom idx
  let sz ← fieldDataSize typ s.data
  return .inl (addInt idx sz)

/-- zeropb.go:472-491 `FindNextField`: the remaining buffer (positioned at the next occurrence) and
the message found; `none` is the nil slice. -/
noncomputable def findNextField (buf : Option Slice) (field : Nat) :
    Res (Option Slice × Option Slice) :=
  match buf with
  | none => .ok (none, none)
  | some buf => do
    let (msgLen, lenSize) := uvarint buf.data
    let msg ← buf.range lenSize (addInt lenSize (u64ToInt msgLen))
    let next ← iterate (findStep buf field) (addInt lenSize (u64ToInt msgLen))
    return (next, some msg)

end Zeropb
