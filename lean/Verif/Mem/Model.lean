import Verif.Model.Message
/-!
# Heap-level model: backing arrays, shared memory and capacities

`Verif/Model` passes slices around by value. Here a slice is a reference into an array of the heap,
as in Go, so that two slices may share memory and writing through one is visible through the other.
The offset map of a generated struct is a reference as well. Functions are modelled from the same
lines as in `Verif/Model`; what they merely read, they read through `World.slice`.

Simplification: after a panic nothing is known about the heap (`Res` drops the state).
-/

namespace Zeropb

/-- A Go `[]byte`: array, start in the array, length, capacity. The nil slice has capacity 0. -/
structure HSlice where
  arr : Nat
  off : Nat
  len : Nat
  cap : Nat
deriving DecidableEq, Repr

/-- The heap: byte arrays and `map[int]uint64` objects, both by address (position in the list).
Nothing is ever freed. -/
structure World where
  arrs : List (List Byte)
  maps : List GoMap
deriving DecidableEq, Repr

namespace HSlice

/-- The nil slice. -/
def nil : HSlice := ⟨0, 0, 0, 0⟩

/-- `s[i:]`. -/
def dropFrom (s : HSlice) (i : Int) : Res HSlice :=
  if 0 ≤ i ∧ i ≤ s.len then .ok ⟨s.arr, s.off + i.toNat, s.len - i.toNat, s.cap - i.toNat⟩ else .error .sliceBounds

/-- `s[i:j]`; the bound is the capacity. -/
def range (s : HSlice) (i j : Int) : Res HSlice :=
  if 0 ≤ i ∧ i ≤ j ∧ j ≤ s.cap then .ok ⟨s.arr, s.off + i.toNat, j.toNat - i.toNat, s.cap - i.toNat⟩
  else .error .sliceBounds

end HSlice

namespace World

/-- Contents of the array at an address. -/
def arr (w : World) (i : Nat) : List Byte := w.arrs.getD i []

/-- One memory cell; `none` if there is no such cell. -/
def cell (w : World) (i p : Nat) : Option Byte := (w.arr i)[p]?

/-- All bytes a slice can reach, up to its capacity. -/
def full (w : World) (s : HSlice) : List Byte := ((w.arr s.arr).drop s.off).take s.cap

/-- The value of a slice: its bytes and those between its length and capacity. -/
def slice (w : World) (s : HSlice) : Slice := ⟨(w.full s).take s.len, (w.full s).drop s.len⟩

/-- Store bytes into an array from position `pos` on. -/
def write (w : World) (i pos : Nat) (bs : List Byte) : World :=
  { w with arrs := w.arrs.set i (overwriteAt (w.arr i) pos bs) }

/-- `copy(dst, src)` for the current bytes `src` of the source. -/
def copy (w : World) (dst : HSlice) (src : List Byte) : World := w.write dst.arr dst.off (src.take dst.len)

/-- A new array. -/
def alloc (w : World) (bs : List Byte) : Nat × World := (w.arrs.length, { w with arrs := w.arrs ++ [bs] })

/-- `append(s, xs...)` for the current bytes `xs` of the argument: in place if the capacity
suffices, otherwise in a new array. -/
def append (rt : Rt) (w : World) (s : HSlice) (xs : List Byte) : Res (HSlice × World) :=
  if s.len + xs.length < maxLen then
    if s.len + xs.length ≤ s.cap then
      .ok (⟨s.arr, s.off, s.len + xs.length, s.cap⟩, w.write s.arr (s.off + s.len) xs)
    else
      let spare := rt.grow s.cap (s.len + xs.length)
      let a := w.alloc ((w.slice s).data ++ xs ++ spare)
      .ok (⟨a.1, 0, s.len + xs.length, s.len + xs.length + spare.length⟩, a.2)
  else .error .lenOutOfRange

end World

/-- A generated struct (test.zeropb.go:7-13): the buffer reference, the offset array (part of the
struct, so copied with it) and the reference to the overflow map (`none` is the nil map). -/
structure HMsg where
  buf : HSlice
  a : List U16
  m : Option Nat
deriving DecidableEq, Repr

/-- The argument of a setter: bytes in a local scratch array of the setter or in memory that nothing
else refers to, or a slice of the heap. -/
inductive Src where
  | lit (bs : List Byte)
  | mem (s : HSlice)
deriving DecidableEq, Repr

namespace World

/-- The bytes of a setter argument at this moment. -/
def src (w : World) : Src → List Byte
  | .lit bs => bs
  | .mem s => (w.slice s).data

/-- `zeropb.WrapOffsets(m.offsets.a[:], &m.offsets.m)` (offsets.go:42-44): the offsets, read. -/
def offs (w : World) (m : HMsg) : Offsets := ⟨m.a, m.m.map (fun id => w.maps.getD id [])⟩

/-- Store offsets changed by `Offsets.Set`/`Offsets.Clear`: the array is in the struct, the map is
shared, and is allocated when it was nil (offsets.go:68-72). A map is never un-allocated. -/
def storeOffs (w : World) (m : HMsg) (o : Offsets) : HMsg × World :=
  match m.m, o.m with
  | some id, some mp => ({ m with a := o.a }, { w with maps := w.maps.set id mp })
  | some _, none => ({ m with a := o.a, m := none }, w)
  | none, some mp => ({ m with a := o.a, m := some w.maps.length }, { w with maps := w.maps ++ [mp] })
  | none, none => ({ m with a := o.a }, w)

/-- The value of a generated struct. -/
def msg (w : World) (m : HMsg) : Msg := ⟨w.slice m.buf, w.offs m⟩

end World

namespace HMsg

/-- The zero value of a generated struct. -/
def zero (n : Nat) : HMsg := ⟨.nil, List.replicate n offsetUnset, none⟩

/-- zeropb.go:358-381, as `removeField`. -/
def removeField (rt : Rt) (w : World) (m : HMsg) (offset : U64) (tagLen : Nat) (oldLen : Int) : Res (HMsg × World) := do
  let fieldBegin := offset - BitVec.ofNat 64 tagLen
  let fieldEnd := offset + intToU64 oldLen
  let dst ← m.buf.dropFrom fieldBegin.toNat
  let src ← m.buf.dropFrom fieldEnd.toNat
  let w := w.copy dst (w.slice src).data
  let removedBytes := fieldEnd - fieldBegin
  let b ← m.buf.range 0 (BitVec.ofNat 64 m.buf.len - removedBytes).toNat
  let o := w.offs m
  let o : Offsets := ⟨adjustArray o.a fieldEnd removedBytes, o.m⟩
  let o ← adjustMap fieldEnd removedBytes (rt.perm ((o.m.getD []).keys)) o
  let r := w.storeOffs m o
  return ({ r.1 with buf := b }, r.2)

/-- zeropb.go:383-388, as `appendField`; the argument is read when it is appended. -/
def appendField (rt : Rt) (w : World) (m : HMsg) (fieldID : Nat) (tag valLen : List Byte) (val : Src) :
    Res (HMsg × World) := do
  let (b, w) ← w.append rt m.buf tag
  let o ← (w.offs m).set fieldID (BitVec.ofNat 64 b.len)
  let r := w.storeOffs m o
  let (b, w) ← r.2.append rt b valLen
  let (b, w) ← w.append rt b (w.src val)
  return ({ r.1 with buf := b }, w)

/-- zeropb.go:326-389 `setSingle`. -/
def setSingle (rt : Rt) (w : World) (m : HMsg) (fieldID typ : Nat) (valLen : List Byte) (val : Src) :
    Res (HMsg × World) := do
  let tag ← putUvarint maxVarintLen64 (tagOf fieldID typ)
  let (offset, ok) ← (w.offs m).get fieldID
  if ok then
    let oldLen ← oldLenOf (w.slice m.buf) offset typ
    if oldLen = ((valLen.length + (w.src val).length : Nat) : Int) then
      let dst1 ← m.buf.dropFrom offset.toNat
      let w := w.copy dst1 valLen
      let offset := offset + BitVec.ofNat 64 (min valLen.length dst1.len)
      let dst2 ← m.buf.dropFrom offset.toNat
      let w := w.copy dst2 (w.src val)
      return (m, w)
    else
      let (m, w) ← removeField rt w m offset tag.length oldLen
      appendField rt w m fieldID tag valLen val
  else
    appendField rt w m fieldID tag valLen val

/-- zeropb.go:391-405 `appendSingle`. -/
def appendSingle (rt : Rt) (w : World) (m : HMsg) (fieldID typ : Nat) (valLen : List Byte) (val : Src) :
    Res (HMsg × World) := do
  let tag ← putUvarint maxVarintLen64 (tagOf fieldID typ)
  let (b, w) ← w.append rt m.buf tag
  let (_, ok) ← (w.offs m).get fieldID
  let o ← if !ok then (w.offs m).set fieldID (BitVec.ofNat 64 b.len) else pure (w.offs m)
  let r := w.storeOffs m o
  let (b, w) ← r.2.append rt b valLen
  let (b, w) ← w.append rt b (w.src val)
  return ({ r.1 with buf := b }, w)

/-- The setters of scalar fields (zeropb.go:171-291): as in `Msg.setField`, each encodes its argument
in a local scratch array. `string` and `bytes` fields: see `setBytes`. -/
def setField (rt : Rt) (w : World) (m : HMsg) : (k : Kind) → (f : Nat) → k.Ty → Res (HMsg × World)
  | .bool, f, x => setSingle rt w m f wireVarint [] (.lit [if x then 1#8 else 0#8])
  | .int32, f, x => do
    let val ← putUvarint maxVarintLen64 (BitVec.signExtend 64 x)
    setSingle rt w m f wireVarint [] (.lit val)
  | .int64, f, x | .uint64, f, x => do
    let val ← putUvarint maxVarintLen64 x
    setSingle rt w m f wireVarint [] (.lit val)
  | .uint32, f, x => do
    let val ← putUvarint maxVarintLen32 (BitVec.setWidth 64 x)
    setSingle rt w m f wireVarint [] (.lit val)
  | .sint32, f, x => do
    let val ← putVarint maxVarintLen32 (BitVec.signExtend 64 x)
    setSingle rt w m f wireVarint [] (.lit val)
  | .sint64, f, x => do
    let val ← putVarint maxVarintLen64 x
    setSingle rt w m f wireVarint [] (.lit val)
  | .fixed32, f, x | .sfixed32, f, x | .float, f, x => setSingle rt w m f wireFixed32 [] (.lit (lePutUint32 x))
  | .fixed64, f, x | .sfixed64, f, x | .double, f, x => setSingle rt w m f wireFixed64 [] (.lit (lePutUint64 x))
  | .string, f, x | .bytes, f, x => do
    let valLen ← putUvarint maxVarintLen64 (BitVec.ofNat 64 (List.length x))
    setSingle rt w m f wireBytes valLen (.lit x)

/-- zeropb.go:295-315 `SetString`, `SetBytes` with an argument in memory. (`SetString` makes a slice
header for the memory of the string, zeropb.go:297-302.) Also test.zeropb.go:188-191 `SetMessage(x)`,
whose argument is `x.Encode()`, i.e. the buffer of `x`. -/
def setBytes (rt : Rt) (w : World) (m : HMsg) (f : Nat) (x : Src) : Res (HMsg × World) := do
  let valLen ← putUvarint maxVarintLen64 (BitVec.ofNat 64 (w.src x).length)
  setSingle rt w m f wireBytes valLen x

/-- zeropb.go:319-324 `AppendBytes`; test.zeropb.go:208-211 `AppendToMessages(x)` with `x.Encode()`. -/
def appendBytes (rt : Rt) (w : World) (m : HMsg) (f : Nat) (x : Src) : Res (HMsg × World) := do
  let valLen ← putUvarint maxVarintLen64 (BitVec.ofNat 64 (w.src x).length)
  appendSingle rt w m f wireBytes valLen x

/-- test.zeropb.go:44-50 `Reset`. -/
def reset (w : World) (m : HMsg) (buf : HSlice) : Res (HMsg × World) :=
  if buf.len > 0 then .error .bufNotEmpty
  else
    let r := w.storeOffs m (w.offs m).clear
    .ok ({ r.1 with buf := buf }, r.2)

/-- test.zeropb.go:39-42 `Decode`: zeropb.go:421-467 reads `buf` and writes through `offsets` only. -/
noncomputable def decode (rep : Nat → Bool) (w : World) (m : HMsg) (buf : HSlice) :
    Res (HMsg × World × Option DecErr) := do
  let (o, err) ← Zeropb.decode (w.slice buf) (w.offs m) rep
  let r := w.storeOffs m o
  return ({ r.1 with buf := buf }, r.2, err)

/-- zeropb.go:161-169 `GetBytes`, and zeropb.go:149-158 `GetString` (whose result is a string sharing
the memory of the slice `buf[offset:offset+len]`; for an absent field it is the empty string). -/
def getBytes (w : World) (m : HMsg) (f : Nat) : Res (Option HSlice) := do
  let (offset, ok) ← (w.offs m).get f
  if !ok then return none
  let s ← (w.slice m.buf).dropFrom offset.toNat
  let (len, lenSize) := uvarint s.data
  let offset := offset + intToU64 lenSize
  let d ← m.buf.range offset.toNat (offset + len).toNat
  return some d

/-- zeropb.go:411-417 `GetRepeatedNonPacked`. -/
def messages (w : World) (m : HMsg) (f : Nat) : Res (Option HSlice) := do
  let (offset, ok) ← (w.offs m).get f
  if !ok then return none
  let s ← m.buf.dropFrom offset.toNat
  return some s

/-- test.zeropb.go:180-186 `Message(x)`: `*x`, the heap, presence and error. -/
noncomputable def subMessage (repX : Nat → Bool) (w : World) (m : HMsg) (f : Nat) (x : HMsg) :
    Res (HMsg × World × Bool × Option DecErr) := do
  match ← getBytes w m f with
  | none => return (x, w, false, none)
  | some buf =>
    let (x', w', err) ← x.decode repX w buf
    return (x', w', true, err)

end HMsg

/-- zeropb.go:480-489, as `findStep`. -/
def hFindStep (w : World) (buf : HSlice) (field : Nat) (idx : Int) : Res (Int ⊕ Option HSlice) := do
  if ¬ idx < (buf.len : Int) then return .inr none
  let s ← (w.slice buf).dropFrom idx
  let (tag, size) := uvarint s.data
  let idx := addInt idx size
  let f := tagField tag
  let typ := tagType tag
  if f = field then
    let r ← buf.dropFrom idx
    return .inr (some r)
  let s ← (w.slice buf).dropFrom idx
  let sz ← fieldDataSize typ s.data
  return .inl (addInt idx sz)

/-- zeropb.go:472-491 `FindNextField`. -/
noncomputable def hFindNextField (w : World) (buf : Option HSlice) (field : Nat) : Res (Option HSlice × Option HSlice) :=
  match buf with
  | none => .ok (none, none)
  | some buf => do
    let (msgLen, lenSize) := uvarint (w.slice buf).data
    let msg ← buf.range lenSize (addInt lenSize (u64ToInt msgLen))
    let next ← iterate (hFindStep w buf field) (addInt lenSize (u64ToInt msgLen))
    return (next, some msg)

/-- test.zeropb.go:195-202 `Next(m)`: the iterator, `*m`, the heap, presence and error. -/
noncomputable def hNext (repX : Nat → Bool) (w : World) (it : Option HSlice) (f : Nat) (x : HMsg) :
    Res (Option HSlice × HMsg × World × Bool × Option DecErr) := do
  let (it', buf) ← hFindNextField w it f
  match buf with
  | none => return (it', x, w, false, none)
  | some buf =>
    let (x', w', err) ← x.decode repX w buf
    return (it', x', w', true, err)

end Zeropb
