import Verif.Model.Decode
import Verif.Spec.Kind
/-!
# Model of the generated message code (golden/testzeropb/test.zeropb.go, generate/generate.go:58-186)

A generated struct holds the buffer and the offsets. Methods pass `m.buf` and
`zeropb.WrapOffsets(m.offsets.a[:], &m.offsets.m)` (offsets.go:40-44, generate.go:33) to the
functions of zeropb.go. Pointer receivers become functions returning the updated struct.
-/

namespace Zeropb

/-- test.zeropb.go:7-13: the struct, as emitted by generate.go:68-74. -/
structure Msg where
  buf : Slice
  off : Offsets
deriving DecidableEq, Repr

namespace Msg

/-- The zero value `TestMessage{}` of a struct whose offset array has `n` slots. -/
def zero (n : Nat) : Msg := ⟨Slice.empty, Offsets.zero n⟩

/-- test.zeropb.go:35-37 `Encode` (generate.go:84-86). -/
def encode (m : Msg) : Slice := m.buf

/-- test.zeropb.go:39-42 `Decode` (generate.go:88-91). -/
noncomputable def decode (rep : Nat → Bool) (m : Msg) (buf : Slice) : Res (Msg × Option DecErr) := do
  let (o, err) ← Zeropb.decode buf m.off rep
  return (⟨buf, o⟩, err)

/-- test.zeropb.go:44-50 `Reset` (generate.go:93-99). -/
def reset (m : Msg) (buf : Slice) : Res Msg :=
  if buf.len > 0 then .error .bufNotEmpty else .ok ⟨buf, m.off.clear⟩

/-- The generated getters of singular fields (generate.go:131-133), by field type
(`fieldToGoTypeSimple`, generate.go:204-240). For `bytes` the nil result is read as empty here; see
`getBytes` for the distinction. -/
def get (m : Msg) : (k : Kind) → (f : Nat) → Res k.Ty
  | .bool, f => getBool m.buf m.off f
  | .int32, f => getInt32 m.buf m.off f
  | .int64, f => getInt64 m.buf m.off f
  | .uint32, f => getUint32 m.buf m.off f
  | .uint64, f => getUint64 m.buf m.off f
  | .sint32, f => getZigZagInt32 m.buf m.off f
  | .sint64, f => getZigZagInt64 m.buf m.off f
  | .fixed32, f => getFixedUint32 m.buf m.off f
  | .fixed64, f => getFixedUint64 m.buf m.off f
  | .sfixed32, f => getFixedInt32 m.buf m.off f
  | .sfixed64, f => getFixedInt64 m.buf m.off f
  | .float, f => getFloat32 m.buf m.off f
  | .double, f => getFloat64 m.buf m.off f
  | .string, f => getString m.buf m.off f
  | .bytes, f => do
    let r ← getBytes m.buf m.off f
    return (match r with | none => [] | some s => s.data)

/-- The `zeropb.SetX` called by the generated setter of each field type (generate.go:135-137). -/
def setField (rt : Rt) (buf : Slice) (o : Offsets) : (k : Kind) → (f : Nat) → k.Ty → Res (Slice × Offsets)
  | .bool, f, x => setBool rt buf o f x
  | .int32, f, x => setInt32 rt buf o f x
  | .int64, f, x => setInt64 rt buf o f x
  | .uint32, f, x => setUint32 rt buf o f x
  | .uint64, f, x => setUint64 rt buf o f x
  | .sint32, f, x => setZigZagInt32 rt buf o f x
  | .sint64, f, x => setZigZagInt64 rt buf o f x
  | .fixed32, f, x => setFixedUint32 rt buf o f x
  | .fixed64, f, x => setFixedUint64 rt buf o f x
  | .sfixed32, f, x => setFixedInt32 rt buf o f x
  | .sfixed64, f, x => setFixedInt64 rt buf o f x
  | .float, f, x => setFloat32 rt buf o f x
  | .double, f, x => setFloat64 rt buf o f x
  | .string, f, x => setString rt buf o f x
  | .bytes, f, x => setBytes rt buf o f x

/-- The generated setters of singular fields. -/
def set (rt : Rt) (m : Msg) (k : Kind) (f : Nat) (x : k.Ty) : Res Msg := do
  let (b, o) ← setField rt m.buf m.off k f x
  return ⟨b, o⟩

/-- test.zeropb.go:180-186 `Message(x *TestMessage) (bool, error)` (generate.go:146-152): the
updated `*x`, presence and error. `repX` is the repeated-field set of the type of `x`. -/
noncomputable def subMessage (repX : Nat → Bool) (m : Msg) (f : Nat) (x : Msg) :
    Res (Msg × Bool × Option DecErr) := do
  match ← getBytes m.buf m.off f with
  | none => return (x, false, none)
  | some buf =>
    let (x', err) ← x.decode repX buf
    return (x', true, err)

/-- test.zeropb.go:188-191 `SetMessage(x TestMessage)` (generate.go:154-157). -/
def setMessage (rt : Rt) (m : Msg) (f : Nat) (x : Msg) : Res Msg := m.set rt .bytes f x.encode.data

/-- test.zeropb.go:204-206 `Messages()` (generate.go:178-180): the iterator is the rest of the
buffer, `none` when nil. -/
def messages (m : Msg) (f : Nat) : Res (Option Slice) := getRepeatedNonPacked m.buf m.off f

/-- test.zeropb.go:195-202 `Next(m *TestMessage) (bool, error)` (generate.go:169-176): the updated
iterator, the updated `*m`, presence and error. -/
noncomputable def next (repX : Nat → Bool) (it : Option Slice) (f : Nat) (x : Msg) :
    Res (Option Slice × Msg × Bool × Option DecErr) := do
  let (it', buf) ← findNextField it f
  match buf with
  | none => return (it', x, false, none)
  | some buf =>
    let (x', err) ← x.decode repX buf
    return (it', x', true, err)

/-- test.zeropb.go:208-211 `AppendToMessages(x TestMessage)` (generate.go:182-185), with the bytes
`x.Encode()` as argument. -/
def appendRaw (rt : Rt) (m : Msg) (f : Nat) (x : List Byte) : Res Msg := do
  let (b, o) ← appendBytes rt m.buf m.off f x
  return ⟨b, o⟩

/-- test.zeropb.go:208-211 `AppendToMessages(x TestMessage)`. -/
def appendTo (rt : Rt) (m : Msg) (f : Nat) (x : Msg) : Res Msg := m.appendRaw rt f x.encode.data

end Msg
end Zeropb
