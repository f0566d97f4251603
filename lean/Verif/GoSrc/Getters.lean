import Verif.GoSrc.Offs
import Verif.Mem.Read
/-!
# The interpreted source of the getters computes the model
-/

set_option linter.constructorNameAsVariable false
set_option linter.unusedSimpArgs false

namespace Zeropb.GoSrc

attribute [local congr] bind_head

/-- zeropb.go:17-24. -/
theorem go_GetBool (rt : Rt) (d i f : Nat) (b : HSlice) (h : Heap) (hb : h.w.WFs b) :
    goCall rt (d + 2) .GetBool [.bytes (.mem b), .offs i, .int f] h =
    (lift (getBool (h.w.slice b) (h.w.offs (h.ms i)) f) >>= fun x => .ok ([.bool x], h)) := by
  rw [goCall, show funcOf .GetBool = some srcGetBool from rfl]
  simp only [getBool]
  rcases e : (h.w.offs (h.ms i)).get f with e' | ⟨off, _ | _⟩
  · gosimp [srcGetBool, go_Get, e]
    rfl
  · gosimp [srcGetBool, go_Get, e]
    rfl
  · simp only [World.slice_dropFrom hb, bind, Except.bind, Bool.not_true, Bool.false_eq_true, if_false]
    rcases e2 : b.dropFrom off.toNat with e' | s
    · gosimp [srcGetBool, go_Get, e, e2]
      rfl
    · gosimp [srcGetBool, go_Get, e, e2]
      rfl

/-- zeropb.go:27-34. -/
theorem go_GetInt32 (rt : Rt) (d i f : Nat) (b : HSlice) (h : Heap) (hb : h.w.WFs b) :
    goCall rt (d + 2) .GetInt32 [.bytes (.mem b), .offs i, .int f] h =
    (lift (getInt32 (h.w.slice b) (h.w.offs (h.ms i)) f) >>= fun x => .ok ([.i32 x], h)) := by
  rw [goCall, show funcOf .GetInt32 = some srcGetInt32 from rfl]
  simp only [getInt32]
  rcases e : (h.w.offs (h.ms i)).get f with e' | ⟨off, _ | _⟩
  · gosimp [srcGetInt32, go_Get, e]
    rfl
  · gosimp [srcGetInt32, go_Get, e]
    rfl
  · simp only [World.slice_dropFrom hb, bind, Except.bind, Bool.not_true, Bool.false_eq_true, if_false]
    rcases e2 : b.dropFrom off.toNat with e' | s
    · gosimp [srcGetInt32, go_Get, e, e2]
      rfl
    · gosimp [srcGetInt32, go_Get, e, e2]
      rfl

/-- zeropb.go:37-44. -/
theorem go_GetInt64 (rt : Rt) (d i f : Nat) (b : HSlice) (h : Heap) (hb : h.w.WFs b) :
    goCall rt (d + 2) .GetInt64 [.bytes (.mem b), .offs i, .int f] h =
    (lift (getInt64 (h.w.slice b) (h.w.offs (h.ms i)) f) >>= fun x => .ok ([.i64 x], h)) := by
  rw [goCall, show funcOf .GetInt64 = some srcGetInt64 from rfl]
  simp only [getInt64]
  rcases e : (h.w.offs (h.ms i)).get f with e' | ⟨off, _ | _⟩
  · gosimp [srcGetInt64, go_Get, e]
    rfl
  · gosimp [srcGetInt64, go_Get, e]
    rfl
  · simp only [World.slice_dropFrom hb, bind, Except.bind, Bool.not_true, Bool.false_eq_true, if_false]
    rcases e2 : b.dropFrom off.toNat with e' | s
    · gosimp [srcGetInt64, go_Get, e, e2]
      rfl
    · gosimp [srcGetInt64, go_Get, e, e2]
      rfl

/-- zeropb.go:47-54. -/
theorem go_GetUint32 (rt : Rt) (d i f : Nat) (b : HSlice) (h : Heap) (hb : h.w.WFs b) :
    goCall rt (d + 2) .GetUint32 [.bytes (.mem b), .offs i, .int f] h =
    (lift (getUint32 (h.w.slice b) (h.w.offs (h.ms i)) f) >>= fun x => .ok ([.u32 x], h)) := by
  rw [goCall, show funcOf .GetUint32 = some srcGetUint32 from rfl]
  simp only [getUint32]
  rcases e : (h.w.offs (h.ms i)).get f with e' | ⟨off, _ | _⟩
  · gosimp [srcGetUint32, go_Get, e]
    rfl
  · gosimp [srcGetUint32, go_Get, e]
    rfl
  · simp only [World.slice_dropFrom hb, bind, Except.bind, Bool.not_true, Bool.false_eq_true, if_false]
    rcases e2 : b.dropFrom off.toNat with e' | s
    · gosimp [srcGetUint32, go_Get, e, e2]
      rfl
    · gosimp [srcGetUint32, go_Get, e, e2]
      rfl

/-- zeropb.go:57-64. -/
theorem go_GetUint64 (rt : Rt) (d i f : Nat) (b : HSlice) (h : Heap) (hb : h.w.WFs b) :
    goCall rt (d + 2) .GetUint64 [.bytes (.mem b), .offs i, .int f] h =
    (lift (getUint64 (h.w.slice b) (h.w.offs (h.ms i)) f) >>= fun x => .ok ([.u64 x], h)) := by
  rw [goCall, show funcOf .GetUint64 = some srcGetUint64 from rfl]
  simp only [getUint64]
  rcases e : (h.w.offs (h.ms i)).get f with e' | ⟨off, _ | _⟩
  · gosimp [srcGetUint64, go_Get, e]
    rfl
  · gosimp [srcGetUint64, go_Get, e]
    rfl
  · simp only [World.slice_dropFrom hb, bind, Except.bind, Bool.not_true, Bool.false_eq_true, if_false]
    rcases e2 : b.dropFrom off.toNat with e' | s
    · gosimp [srcGetUint64, go_Get, e, e2]
      rfl
    · gosimp [srcGetUint64, go_Get, e, e2]
      rfl

/-- zeropb.go:67-74. -/
theorem go_GetZigZagInt32 (rt : Rt) (d i f : Nat) (b : HSlice) (h : Heap) (hb : h.w.WFs b) :
    goCall rt (d + 2) .GetZigZagInt32 [.bytes (.mem b), .offs i, .int f] h =
    (lift (getZigZagInt32 (h.w.slice b) (h.w.offs (h.ms i)) f) >>= fun x => .ok ([.i32 x], h)) := by
  rw [goCall, show funcOf .GetZigZagInt32 = some srcGetZigZagInt32 from rfl]
  simp only [getZigZagInt32]
  rcases e : (h.w.offs (h.ms i)).get f with e' | ⟨off, _ | _⟩
  · gosimp [srcGetZigZagInt32, go_Get, e]
    rfl
  · gosimp [srcGetZigZagInt32, go_Get, e]
    rfl
  · simp only [World.slice_dropFrom hb, bind, Except.bind, Bool.not_true, Bool.false_eq_true, if_false]
    rcases e2 : b.dropFrom off.toNat with e' | s
    · gosimp [srcGetZigZagInt32, go_Get, e, e2]
      rfl
    · gosimp [srcGetZigZagInt32, go_Get, e, e2]
      rfl

/-- zeropb.go:77-84. -/
theorem go_GetZigZagInt64 (rt : Rt) (d i f : Nat) (b : HSlice) (h : Heap) (hb : h.w.WFs b) :
    goCall rt (d + 2) .GetZigZagInt64 [.bytes (.mem b), .offs i, .int f] h =
    (lift (getZigZagInt64 (h.w.slice b) (h.w.offs (h.ms i)) f) >>= fun x => .ok ([.i64 x], h)) := by
  rw [goCall, show funcOf .GetZigZagInt64 = some srcGetZigZagInt64 from rfl]
  simp only [getZigZagInt64]
  rcases e : (h.w.offs (h.ms i)).get f with e' | ⟨off, _ | _⟩
  · gosimp [srcGetZigZagInt64, go_Get, e]
    rfl
  · gosimp [srcGetZigZagInt64, go_Get, e]
    rfl
  · simp only [World.slice_dropFrom hb, bind, Except.bind, Bool.not_true, Bool.false_eq_true, if_false]
    rcases e2 : b.dropFrom off.toNat with e' | s
    · gosimp [srcGetZigZagInt64, go_Get, e, e2]
      rfl
    · gosimp [srcGetZigZagInt64, go_Get, e, e2]
      rfl

/-- zeropb.go:88-94. -/
theorem go_GetFixedUint32 (rt : Rt) (d i f : Nat) (b : HSlice) (h : Heap) (hb : h.w.WFs b) :
    goCall rt (d + 2) .GetFixedUint32 [.bytes (.mem b), .offs i, .int f] h =
    (lift (getFixedUint32 (h.w.slice b) (h.w.offs (h.ms i)) f) >>= fun x => .ok ([.u32 x], h)) := by
  rw [goCall, show funcOf .GetFixedUint32 = some srcGetFixedUint32 from rfl]
  simp only [getFixedUint32]
  rcases e : (h.w.offs (h.ms i)).get f with e' | ⟨off, _ | _⟩
  · gosimp [srcGetFixedUint32, go_Get, e]
    rfl
  · gosimp [srcGetFixedUint32, go_Get, e]
    rfl
  · simp only [World.slice_range hb, bind, Except.bind, Bool.not_true, Bool.false_eq_true, if_false]
    rcases e2 : b.range off.toNat (off + 4#64).toNat with e' | s
    · gosimp [srcGetFixedUint32, go_Get, e, e2]
      rfl
    · rcases e3 : leUint32 (h.w.slice s).data with e' | x
      · gosimp [srcGetFixedUint32, go_Get, e, e2, e3]
        simp only [Except.map, e3]
        rfl
      · gosimp [srcGetFixedUint32, go_Get, e, e2, e3]
        simp only [Except.map, e3]
        rfl

/-- zeropb.go:98-104. -/
theorem go_GetFixedUint64 (rt : Rt) (d i f : Nat) (b : HSlice) (h : Heap) (hb : h.w.WFs b) :
    goCall rt (d + 2) .GetFixedUint64 [.bytes (.mem b), .offs i, .int f] h =
    (lift (getFixedUint64 (h.w.slice b) (h.w.offs (h.ms i)) f) >>= fun x => .ok ([.u64 x], h)) := by
  rw [goCall, show funcOf .GetFixedUint64 = some srcGetFixedUint64 from rfl]
  simp only [getFixedUint64]
  rcases e : (h.w.offs (h.ms i)).get f with e' | ⟨off, _ | _⟩
  · gosimp [srcGetFixedUint64, go_Get, e]
    rfl
  · gosimp [srcGetFixedUint64, go_Get, e]
    rfl
  · simp only [World.slice_range hb, bind, Except.bind, Bool.not_true, Bool.false_eq_true, if_false]
    rcases e2 : b.range off.toNat (off + 8#64).toNat with e' | s
    · gosimp [srcGetFixedUint64, go_Get, e, e2]
      rfl
    · rcases e3 : leUint64 (h.w.slice s).data with e' | x
      · gosimp [srcGetFixedUint64, go_Get, e, e2, e3]
        simp only [Except.map, e3]
        rfl
      · gosimp [srcGetFixedUint64, go_Get, e, e2, e3]
        simp only [Except.map, e3]
        rfl

/-- zeropb.go:108-114. -/
theorem go_GetFixedInt32 (rt : Rt) (d i f : Nat) (b : HSlice) (h : Heap) (hb : h.w.WFs b) :
    goCall rt (d + 2) .GetFixedInt32 [.bytes (.mem b), .offs i, .int f] h =
    (lift (getFixedInt32 (h.w.slice b) (h.w.offs (h.ms i)) f) >>= fun x => .ok ([.i32 x], h)) := by
  rw [goCall, show funcOf .GetFixedInt32 = some srcGetFixedInt32 from rfl]
  simp only [getFixedInt32]
  rcases e : (h.w.offs (h.ms i)).get f with e' | ⟨off, _ | _⟩
  · gosimp [srcGetFixedInt32, go_Get, e]
    rfl
  · gosimp [srcGetFixedInt32, go_Get, e]
    rfl
  · simp only [World.slice_range hb, bind, Except.bind, Bool.not_true, Bool.false_eq_true, if_false]
    rcases e2 : b.range off.toNat (off + 4#64).toNat with e' | s
    · gosimp [srcGetFixedInt32, go_Get, e, e2]
      rfl
    · rcases e3 : leUint32 (h.w.slice s).data with e' | x
      · gosimp [srcGetFixedInt32, go_Get, e, e2, e3]
        simp only [Except.map, e3]
        rfl
      · gosimp [srcGetFixedInt32, go_Get, e, e2, e3]
        simp only [Except.map, e3]
        rfl

/-- zeropb.go:118-124. -/
theorem go_GetFixedInt64 (rt : Rt) (d i f : Nat) (b : HSlice) (h : Heap) (hb : h.w.WFs b) :
    goCall rt (d + 2) .GetFixedInt64 [.bytes (.mem b), .offs i, .int f] h =
    (lift (getFixedInt64 (h.w.slice b) (h.w.offs (h.ms i)) f) >>= fun x => .ok ([.i64 x], h)) := by
  rw [goCall, show funcOf .GetFixedInt64 = some srcGetFixedInt64 from rfl]
  simp only [getFixedInt64]
  rcases e : (h.w.offs (h.ms i)).get f with e' | ⟨off, _ | _⟩
  · gosimp [srcGetFixedInt64, go_Get, e]
    rfl
  · gosimp [srcGetFixedInt64, go_Get, e]
    rfl
  · simp only [World.slice_range hb, bind, Except.bind, Bool.not_true, Bool.false_eq_true, if_false]
    rcases e2 : b.range off.toNat (off + 8#64).toNat with e' | s
    · gosimp [srcGetFixedInt64, go_Get, e, e2]
      rfl
    · rcases e3 : leUint64 (h.w.slice s).data with e' | x
      · gosimp [srcGetFixedInt64, go_Get, e, e2, e3]
        simp only [Except.map, e3]
        rfl
      · gosimp [srcGetFixedInt64, go_Get, e, e2, e3]
        simp only [Except.map, e3]
        rfl

/-- zeropb.go:128-135. -/
theorem go_GetFloat32 (rt : Rt) (d i f : Nat) (b : HSlice) (h : Heap) (hb : h.w.WFs b) :
    goCall rt (d + 2) .GetFloat32 [.bytes (.mem b), .offs i, .int f] h =
    (lift (getFloat32 (h.w.slice b) (h.w.offs (h.ms i)) f) >>= fun x => .ok ([.f32 x], h)) := by
  rw [goCall, show funcOf .GetFloat32 = some srcGetFloat32 from rfl]
  simp only [getFloat32]
  rcases e : (h.w.offs (h.ms i)).get f with e' | ⟨off, _ | _⟩
  · gosimp [srcGetFloat32, go_Get, e]
    rfl
  · gosimp [srcGetFloat32, go_Get, e]
    rfl
  · simp only [World.slice_range hb, bind, Except.bind, Bool.not_true, Bool.false_eq_true, if_false]
    rcases e2 : b.range off.toNat (off + 4#64).toNat with e' | s
    · gosimp [srcGetFloat32, go_Get, e, e2]
      rfl
    · rcases e3 : leUint32 (h.w.slice s).data with e' | x
      · gosimp [srcGetFloat32, go_Get, e, e2, e3]
        simp only [Except.map, e3]
        rfl
      · gosimp [srcGetFloat32, go_Get, e, e2, e3]
        simp only [Except.map, e3]
        rfl

/-- zeropb.go:139-146. -/
theorem go_GetFloat64 (rt : Rt) (d i f : Nat) (b : HSlice) (h : Heap) (hb : h.w.WFs b) :
    goCall rt (d + 2) .GetFloat64 [.bytes (.mem b), .offs i, .int f] h =
    (lift (getFloat64 (h.w.slice b) (h.w.offs (h.ms i)) f) >>= fun x => .ok ([.f64 x], h)) := by
  rw [goCall, show funcOf .GetFloat64 = some srcGetFloat64 from rfl]
  simp only [getFloat64]
  rcases e : (h.w.offs (h.ms i)).get f with e' | ⟨off, _ | _⟩
  · gosimp [srcGetFloat64, go_Get, e]
    rfl
  · gosimp [srcGetFloat64, go_Get, e]
    rfl
  · simp only [World.slice_range hb, bind, Except.bind, Bool.not_true, Bool.false_eq_true, if_false]
    rcases e2 : b.range off.toNat (off + 8#64).toNat with e' | s
    · gosimp [srcGetFloat64, go_Get, e, e2]
      rfl
    · rcases e3 : leUint64 (h.w.slice s).data with e' | x
      · gosimp [srcGetFloat64, go_Get, e, e2, e3]
        simp only [Except.map, e3]
        rfl
      · gosimp [srcGetFloat64, go_Get, e, e2, e3]
        simp only [Except.map, e3]
        rfl

/-- zeropb.go:149-158. -/
theorem go_GetString (rt : Rt) (d i f : Nat) (h : Heap) (hb : h.w.WFs (h.ms i).buf) :
    goCall rt (d + 2) .GetString [.bytes (.mem (h.ms i).buf), .offs i, .int f] h =
    (lift ((h.ms i).getBytes h.w f) >>= fun r => .ok ([match r with | none => .str (.lit []) | some s => .str (.mem s)], h)) := by
  rw [goCall, show funcOf .GetString = some srcGetString from rfl]
  simp only [HMsg.getBytes]
  rcases e : (h.w.offs (h.ms i)).get f with e' | ⟨off, _ | _⟩
  · gosimp [srcGetString, go_Get, e]
    rfl
  · gosimp [srcGetString, go_Get, e]
    rfl
  · simp only [World.slice_dropFrom hb, bind, Except.bind, Bool.not_true, Bool.false_eq_true, if_false]
    rcases e2 : (h.ms i).buf.dropFrom off.toNat with e' | s
    · gosimp [srcGetString, go_Get, e, e2]
      rfl
    · simp only [Except.map]
      rcases e3 : (h.ms i).buf.range (off + intToU64 (uvarint (h.w.slice s).data).2).toNat
          (off + intToU64 (uvarint (h.w.slice s).data).2 + (uvarint (h.w.slice s).data).1).toNat with e' | t
      · gosimp [srcGetString, go_Get, e, e2, e3]
      · gosimp [srcGetString, go_Get, e, e2, e3]
        rfl

/-- zeropb.go:161-169. -/
theorem go_GetBytes (rt : Rt) (d i f : Nat) (h : Heap) (hb : h.w.WFs (h.ms i).buf) :
    goCall rt (d + 2) .GetBytes [.bytes (.mem (h.ms i).buf), .offs i, .int f] h =
    (lift ((h.ms i).getBytes h.w f) >>= fun r => .ok ([match r with | none => .nil | some s => .bytes (.mem s)], h)) := by
  rw [goCall, show funcOf .GetBytes = some srcGetBytes from rfl]
  simp only [HMsg.getBytes]
  rcases e : (h.w.offs (h.ms i)).get f with e' | ⟨off, _ | _⟩
  · gosimp [srcGetBytes, go_Get, e]
    rfl
  · gosimp [srcGetBytes, go_Get, e]
    rfl
  · simp only [World.slice_dropFrom hb, bind, Except.bind, Bool.not_true, Bool.false_eq_true, if_false]
    rcases e2 : (h.ms i).buf.dropFrom off.toNat with e' | s
    · gosimp [srcGetBytes, go_Get, e, e2]
      rfl
    · simp only [Except.map]
      rcases e3 : (h.ms i).buf.range (off + intToU64 (uvarint (h.w.slice s).data).2).toNat
          (off + intToU64 (uvarint (h.w.slice s).data).2 + (uvarint (h.w.slice s).data).1).toNat with e' | t
      · gosimp [srcGetBytes, go_Get, e, e2, e3]
      · gosimp [srcGetBytes, go_Get, e, e2, e3]
        rfl

/-- zeropb.go:411-417. -/
theorem go_GetRepeatedNonPacked (rt : Rt) (d i f : Nat) (h : Heap) :
    goCall rt (d + 2) .GetRepeatedNonPacked [.bytes (.mem (h.ms i).buf), .offs i, .int f] h =
    (lift ((h.ms i).messages h.w f) >>= fun r => .ok ([match r with | none => .nil | some s => .bytes (.mem s)], h)) := by
  rw [goCall, show funcOf .GetRepeatedNonPacked = some srcGetRepeatedNonPacked from rfl]
  simp only [HMsg.messages]
  rcases e : (h.w.offs (h.ms i)).get f with e' | ⟨off, _ | _⟩
  · gosimp [srcGetRepeatedNonPacked, go_Get, e]
    rfl
  · gosimp [srcGetRepeatedNonPacked, go_Get, e]
    rfl
  · simp only [bind, Except.bind, Bool.not_true, Bool.false_eq_true, if_false]
    rcases e2 : (h.ms i).buf.dropFrom off.toNat with e' | s
    · gosimp [srcGetRepeatedNonPacked, go_Get, e, e2]
    · gosimp [srcGetRepeatedNonPacked, go_Get, e, e2]
      rfl

end Zeropb.GoSrc
