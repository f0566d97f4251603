import Verif.Go.Varint
import Verif.Model.Offsets
/-!
# Model of the getters and setters of /repo/zeropb.go
-/

namespace Zeropb

/-- `proto.WireVarint` (github.com/golang/protobuf v1.3.1). -/
def wireVarint : Nat := 0
/-- `proto.WireFixed64`. -/
def wireFixed64 : Nat := 1
/-- `proto.WireBytes`. -/
def wireBytes : Nat := 2
/-- `proto.WireFixed32`. -/
def wireFixed32 : Nat := 5

/-! ## Getters -/

/-- zeropb.go:17-24 `GetBool`. -/
def getBool (buf : Slice) (o : Offsets) (fieldID : Nat) : Res Bool := do
  let (offset, ok) ← o.get fieldID
  if !ok then return false
  let s ← buf.dropFrom offset.toNat
  let (x, _) := uvarint s.data
  return decide (x > 0#64)

/-- zeropb.go:27-34 `GetInt32`; the result is the bit pattern of the `int32`. -/
def getInt32 (buf : Slice) (o : Offsets) (fieldID : Nat) : Res U32 := do
  let (offset, ok) ← o.get fieldID
  if !ok then return 0#32
  let s ← buf.dropFrom offset.toNat
  let (x, _) := uvarint s.data
  return x.setWidth 32

/-- zeropb.go:37-44 `GetInt64`; the result is the bit pattern of the `int64`. -/
def getInt64 (buf : Slice) (o : Offsets) (fieldID : Nat) : Res U64 := do
  let (offset, ok) ← o.get fieldID
  if !ok then return 0#64
  let s ← buf.dropFrom offset.toNat
  let (x, _) := uvarint s.data
  return x

/-- zeropb.go:47-54 `GetUint32`. -/
def getUint32 (buf : Slice) (o : Offsets) (fieldID : Nat) : Res U32 := do
  let (offset, ok) ← o.get fieldID
  if !ok then return 0#32
  let s ← buf.dropFrom offset.toNat
  let (x, _) := uvarint s.data
  return x.setWidth 32

/-- zeropb.go:57-64 `GetUint64`. -/
def getUint64 (buf : Slice) (o : Offsets) (fieldID : Nat) : Res U64 := do
  let (offset, ok) ← o.get fieldID
  if !ok then return 0#64
  let s ← buf.dropFrom offset.toNat
  let (x, _) := uvarint s.data
  return x

/-- zeropb.go:67-74 `GetZigZagInt32`; bit pattern of the `int32`. -/
def getZigZagInt32 (buf : Slice) (o : Offsets) (fieldID : Nat) : Res U32 := do
  let (offset, ok) ← o.get fieldID
  if !ok then return 0#32
  let s ← buf.dropFrom offset.toNat
  let (x, _) := varint s.data
  return x.setWidth 32

/-- zeropb.go:77-84 `GetZigZagInt64`; bit pattern of the `int64`. -/
def getZigZagInt64 (buf : Slice) (o : Offsets) (fieldID : Nat) : Res U64 := do
  let (offset, ok) ← o.get fieldID
  if !ok then return 0#64
  let s ← buf.dropFrom offset.toNat
  let (x, _) := varint s.data
  return x

/-- zeropb.go:88-94 `GetFixedUint32` (the addition is on `uint64`). -/
def getFixedUint32 (buf : Slice) (o : Offsets) (fieldID : Nat) : Res U32 := do
  let (offset, ok) ← o.get fieldID
  if !ok then return 0#32
  let s ← buf.range offset.toNat (offset + 4#64).toNat
  leUint32 s.data

/-- zeropb.go:98-104 `GetFixedUint64`. -/
def getFixedUint64 (buf : Slice) (o : Offsets) (fieldID : Nat) : Res U64 := do
  let (offset, ok) ← o.get fieldID
  if !ok then return 0#64
  let s ← buf.range offset.toNat (offset + 8#64).toNat
  leUint64 s.data

/-- zeropb.go:108-114 `GetFixedInt32`; bit pattern of the `int32`. -/
def getFixedInt32 (buf : Slice) (o : Offsets) (fieldID : Nat) : Res U32 := do
  let (offset, ok) ← o.get fieldID
  if !ok then return 0#32
  let s ← buf.range offset.toNat (offset + 4#64).toNat
  leUint32 s.data

/-- zeropb.go:118-124 `GetFixedInt64`; bit pattern of the `int64`. -/
def getFixedInt64 (buf : Slice) (o : Offsets) (fieldID : Nat) : Res U64 := do
  let (offset, ok) ← o.get fieldID
  if !ok then return 0#64
  let s ← buf.range offset.toNat (offset + 8#64).toNat
  leUint64 s.data

/-- zeropb.go:128-135 `GetFloat32`; bit pattern of the `float32` (`math.Float32frombits` is a
reinterpretation). -/
def getFloat32 (buf : Slice) (o : Offsets) (fieldID : Nat) : Res U32 := do
  let (offset, ok) ← o.get fieldID
  if !ok then return 0#32
  let s ← buf.range offset.toNat (offset + 4#64).toNat
  leUint32 s.data

/-- zeropb.go:139-146 `GetFloat64`; bit pattern of the `float64`. -/
def getFloat64 (buf : Slice) (o : Offsets) (fieldID : Nat) : Res U64 := do
  let (offset, ok) ← o.get fieldID
  if !ok then return 0#64
  let s ← buf.range offset.toNat (offset + 8#64).toNat
  leUint64 s.data

/-- zeropb.go:149-158 `GetString`: the bytes of the string. -/
def getString (buf : Slice) (o : Offsets) (fieldID : Nat) : Res (List Byte) := do
  let (offset, ok) ← o.get fieldID
  if !ok then return []
  let s ← buf.dropFrom offset.toNat
  let (len, lenSize) := uvarint s.data
  let offset := offset + intToU64 lenSize
  let d ← buf.range offset.toNat (offset + len).toNat
  return d.data

/-- zeropb.go:161-169 `GetBytes`: `none` is the nil slice. -/
def getBytes (buf : Slice) (o : Offsets) (fieldID : Nat) : Res (Option Slice) := do
  let (offset, ok) ← o.get fieldID
  if !ok then return none
  let s ← buf.dropFrom offset.toNat
  let (len, lenSize) := uvarint s.data
  let offset := offset + intToU64 lenSize
  let d ← buf.range offset.toNat (offset + len).toNat
  return some d

/-- zeropb.go:411-417 `GetRepeatedNonPacked`: `none` is the nil slice. -/
def getRepeatedNonPacked (buf : Slice) (o : Offsets) (fieldID : Nat) : Res (Option Slice) := do
  let (offset, ok) ← o.get fieldID
  if !ok then return none
  let s ← buf.dropFrom offset.toNat
  return some s

/-! ## `setSingle` and `appendSingle` -/

/-- The tag `uint64(fieldID<<3 | typ)` (zeropb.go:331, 394). -/
def tagOf (fieldID typ : Nat) : U64 := BitVec.ofNat 64 fieldID <<< 3 ||| BitVec.ofNat 64 typ

/-- zeropb.go:335-348: the encoded length of the value now stored at `offset`. -/
def oldLenOf (buf : Slice) (offset : U64) (typ : Nat) : Res Int :=
  if typ = wireVarint then do
    let s ← buf.dropFrom offset.toNat
    return (uvarint s.data).2
  else if typ = wireFixed32 then return 4
  else if typ = wireFixed64 then return 8
  else if typ = wireBytes then do
    let s ← buf.dropFrom offset.toNat
    let (oldValLen, oldValLenLen) := uvarint s.data
    return addInt (u64ToInt oldValLen) oldValLenLen
  else .error .unsupportedType

/-- zeropb.go:369-374: one pass over the array. -/
def adjustArray (a : List U16) (fieldEnd removed : U64) : List U16 :=
  a.map fun offset =>
    if offset ≠ 65535#16 ∧ offset.setWidth 64 > fieldEnd then offset - removed.setWidth 16
    else offset

/-- zeropb.go:375-381: the body of the loop over the map, for the keys still to be visited. A key
deleted before it is reached is not visited (Go specification, "For range"); no key is added. -/
def adjustMap (fieldEnd removed : U64) : List Nat → Offsets → Res Offsets
  | [], o => .ok o
  | k :: ks, o =>
    match o.m.bind (·.find k) with
    | none => adjustMap fieldEnd removed ks o
    | some offset =>
      if offset > fieldEnd then do
        let o' ← o.set k (offset - removed)
        adjustMap fieldEnd removed ks o'
      else adjustMap fieldEnd removed ks o

/-- zeropb.go:358-381: cut the old field out of the buffer and adjust the offsets.
`tagLen` is the length of the minimal encoding of the tag. -/
def removeField (rt : Rt) (buf : Slice) (o : Offsets) (offset : U64) (tagLen : Nat)
    (oldLen : Int) : Res (Slice × Offsets) := do
  let fieldBegin := offset - BitVec.ofNat 64 tagLen
  let fieldEnd := offset + intToU64 oldLen
  let _ ← buf.dropFrom fieldBegin.toNat
  let src ← buf.dropFrom fieldEnd.toNat
  let buf : Slice := ⟨overwriteAt buf.data fieldBegin.toNat src.data, buf.spare⟩
  let removedBytes := fieldEnd - fieldBegin
  let buf ← buf.range 0 (BitVec.ofNat 64 buf.data.length - removedBytes).toNat
  let o : Offsets := ⟨adjustArray o.a fieldEnd removedBytes, o.m⟩
  let o ← adjustMap fieldEnd removedBytes (rt.perm ((o.m.getD []).keys)) o
  return (buf, o)

/-- zeropb.go:383-388: append tag and value, record the offset. -/
def appendField (rt : Rt) (buf : Slice) (o : Offsets) (fieldID : Nat)
    (tag valLen val : List Byte) : Res (Slice × Offsets) := do
  let buf ← goAppend rt buf tag
  let offset := BitVec.ofNat 64 buf.data.length
  let o ← o.set fieldID offset
  let buf ← goAppend rt buf valLen
  let buf ← goAppend rt buf val
  return (buf, o)

/-- zeropb.go:326-389 `setSingle`. `val` is the value before the call: the model assumes here that
the argument does not share memory with the buffer (see `Verif/Mem` for the aliasing model). -/
def setSingle (rt : Rt) (buf : Slice) (o : Offsets) (fieldID typ : Nat)
    (valLen val : List Byte) : Res (Slice × Offsets) := do
  let tag ← putUvarint maxVarintLen64 (tagOf fieldID typ)
  let (offset, ok) ← o.get fieldID
  if ok then
    let oldLen ← oldLenOf buf offset typ
    if oldLen = ((valLen.length + val.length : Nat) : Int) then
      -- zeropb.go:352-356: overwrite in place
      let dst1 ← buf.dropFrom offset.toNat
      let n1 := min valLen.length dst1.data.length
      let buf : Slice := ⟨overwriteAt buf.data offset.toNat valLen, buf.spare⟩
      let offset := offset + BitVec.ofNat 64 n1
      let _ ← buf.dropFrom offset.toNat
      let buf : Slice := ⟨overwriteAt buf.data offset.toNat val, buf.spare⟩
      return (buf, o)
    else
      let (buf, o) ← removeField rt buf o offset tag.length oldLen
      appendField rt buf o fieldID tag valLen val
  else
    appendField rt buf o fieldID tag valLen val

/-- zeropb.go:391-405 `appendSingle`. -/
def appendSingle (rt : Rt) (buf : Slice) (o : Offsets) (fieldID typ : Nat)
    (valLen val : List Byte) : Res (Slice × Offsets) := do
  let tag ← putUvarint maxVarintLen64 (tagOf fieldID typ)
  let buf ← goAppend rt buf tag
  let offset := BitVec.ofNat 64 buf.data.length
  let (_, ok) ← o.get fieldID
  let o ← if !ok then o.set fieldID offset else pure o
  let buf ← goAppend rt buf valLen
  let buf ← goAppend rt buf val
  return (buf, o)

/-! ## Setters -/

/-- zeropb.go:173-180 `SetBool`. -/
def setBool (rt : Rt) (buf : Slice) (o : Offsets) (fieldID : Nat) (x : Bool) : Res (Slice × Offsets) :=
  setSingle rt buf o fieldID wireVarint [] [if x then 1#8 else 0#8]

/-- zeropb.go:184-190 `SetInt32`: `uint64(x)` sign-extends. -/
def setInt32 (rt : Rt) (buf : Slice) (o : Offsets) (fieldID : Nat) (x : U32) : Res (Slice × Offsets) := do
  let val ← putUvarint maxVarintLen64 (x.signExtend 64)
  setSingle rt buf o fieldID wireVarint [] val

/-- zeropb.go:194-199 `SetInt64`. -/
def setInt64 (rt : Rt) (buf : Slice) (o : Offsets) (fieldID : Nat) (x : U64) : Res (Slice × Offsets) := do
  let val ← putUvarint maxVarintLen64 x
  setSingle rt buf o fieldID wireVarint [] val

/-- zeropb.go:203-208 `SetUint32`: five scratch bytes. -/
def setUint32 (rt : Rt) (buf : Slice) (o : Offsets) (fieldID : Nat) (x : U32) : Res (Slice × Offsets) := do
  let val ← putUvarint maxVarintLen32 (x.setWidth 64)
  setSingle rt buf o fieldID wireVarint [] val

/-- zeropb.go:212-217 `SetUint64`. -/
def setUint64 (rt : Rt) (buf : Slice) (o : Offsets) (fieldID : Nat) (x : U64) : Res (Slice × Offsets) := do
  let val ← putUvarint maxVarintLen64 x
  setSingle rt buf o fieldID wireVarint [] val

/-- zeropb.go:221-226 `SetZigZagInt32`: five scratch bytes. -/
def setZigZagInt32 (rt : Rt) (buf : Slice) (o : Offsets) (fieldID : Nat) (x : U32) : Res (Slice × Offsets) := do
  let val ← putVarint maxVarintLen32 (x.signExtend 64)
  setSingle rt buf o fieldID wireVarint [] val

/-- zeropb.go:230-235 `SetZigZagInt64`. -/
def setZigZagInt64 (rt : Rt) (buf : Slice) (o : Offsets) (fieldID : Nat) (x : U64) : Res (Slice × Offsets) := do
  let val ← putVarint maxVarintLen64 x
  setSingle rt buf o fieldID wireVarint [] val

/-- zeropb.go:239-244 `SetFixedUint32`. -/
def setFixedUint32 (rt : Rt) (buf : Slice) (o : Offsets) (fieldID : Nat) (x : U32) : Res (Slice × Offsets) :=
  setSingle rt buf o fieldID wireFixed32 [] (lePutUint32 x)

/-- zeropb.go:248-253 `SetFixedUint64`. -/
def setFixedUint64 (rt : Rt) (buf : Slice) (o : Offsets) (fieldID : Nat) (x : U64) : Res (Slice × Offsets) :=
  setSingle rt buf o fieldID wireFixed64 [] (lePutUint64 x)

/-- zeropb.go:257-262 `SetFixedInt32`. -/
def setFixedInt32 (rt : Rt) (buf : Slice) (o : Offsets) (fieldID : Nat) (x : U32) : Res (Slice × Offsets) :=
  setSingle rt buf o fieldID wireFixed32 [] (lePutUint32 x)

/-- zeropb.go:266-271 `SetFixedInt64`. -/
def setFixedInt64 (rt : Rt) (buf : Slice) (o : Offsets) (fieldID : Nat) (x : U64) : Res (Slice × Offsets) :=
  setSingle rt buf o fieldID wireFixed64 [] (lePutUint64 x)

/-- zeropb.go:275-281 `SetFloat32`; `x` is `math.Float32bits` of the argument. -/
def setFloat32 (rt : Rt) (buf : Slice) (o : Offsets) (fieldID : Nat) (x : U32) : Res (Slice × Offsets) :=
  setSingle rt buf o fieldID wireFixed32 [] (lePutUint32 x)

/-- zeropb.go:285-291 `SetFloat64`; `x` is `math.Float64bits` of the argument. -/
def setFloat64 (rt : Rt) (buf : Slice) (o : Offsets) (fieldID : Nat) (x : U64) : Res (Slice × Offsets) :=
  setSingle rt buf o fieldID wireFixed64 [] (lePutUint64 x)

/-- zeropb.go:295-306 `SetString`; `x` is the bytes of the string. -/
def setString (rt : Rt) (buf : Slice) (o : Offsets) (fieldID : Nat) (x : List Byte) : Res (Slice × Offsets) := do
  let valLen ← putUvarint maxVarintLen64 (BitVec.ofNat 64 x.length)
  setSingle rt buf o fieldID wireBytes valLen x

/-- zeropb.go:310-315 `SetBytes`. -/
def setBytes (rt : Rt) (buf : Slice) (o : Offsets) (fieldID : Nat) (x : List Byte) : Res (Slice × Offsets) := do
  let valLen ← putUvarint maxVarintLen64 (BitVec.ofNat 64 x.length)
  setSingle rt buf o fieldID wireBytes valLen x

/-- zeropb.go:319-324 `AppendBytes`. -/
def appendBytes (rt : Rt) (buf : Slice) (o : Offsets) (fieldID : Nat) (x : List Byte) : Res (Slice × Offsets) := do
  let valLen ← putUvarint maxVarintLen64 (BitVec.ofNat 64 x.length)
  appendSingle rt buf o fieldID wireBytes valLen x

end Zeropb
