import Verif.GoSrc.Setters
/-!
# The interpreted source of the setters computes the model
-/

set_option linter.constructorNameAsVariable false
set_option linter.unusedSimpArgs false
set_option linter.unusedVariables false

namespace Zeropb.GoSrc

attribute [local congr] bind_head

theorem put_len {n : Nat} {x : U64} {bs : List Byte} (h : putUvarint n x = .ok bs) (hn : n ≤ 10) (k : Nat) (hk : k + 10 < maxLen) :
    bs.length + k < maxLen := by
  have := putUvarint_length n x bs h
  omega

theorem put_slice {n : Nat} {x : U64} {bs : List Byte} (h : putUvarint n x = .ok bs) :
    bs.length ≤ (bs ++ List.drop bs.length (List.replicate n 0#8)).length := by simp

/-- zeropb.go:184-190. -/
theorem go_SetInt32 (rt : Rt) (d i f : Nat) (x : U32) (h : Heap) (hb : h.w.WF (h.ms i)) :
    goCall rt (d + 3) .SetInt32 [.bufPtr i, .offs i, .int f, .i32 x] h =
    (lift (HMsg.setField rt h.w (h.ms i) .int32 f x) >>= fun r => .ok ([], h.upd i r)) := by
  rw [goCall, show funcOf .SetInt32 = some srcSetInt32 from rfl]
  simp only [HMsg.setField]
  have hput : maxVarintLen64 = 10 := rfl
  rcases e1 : putUvarint maxVarintLen64 (BitVec.signExtend 64 x) with e | val
  · rw [hput] at e1
    gosimp [srcSetInt32, hput, List.length_replicate, e1, xbind_error]
  have hset := go_setSingle rt d i f wireVarint h Arg.nil (Arg.bytes (.lit val)) trivial
    (by have := put_len (x := _) (n := maxVarintLen64) e1 (by decide) 0 (by decide); simp only [List.length_nil, strLen]; omega) hb
  rw [hput] at e1
  have hle : val.length ≤ (val ++ List.drop val.length (List.replicate 10 0#8)).length := by simp
  rw [xbind_ok]
  simp only [wireVarint] at hset ⊢
  generalize HMsg.setSingle rt h.w (h.ms i) f 0 [] (.lit val) = q at hset ⊢
  cases q with
  | error e =>
    rw [lift_error, bind_error] at hset
    gosimp [srcSetInt32, hput, List.length_replicate, e1, hle, List.take_left, hset]
  | ok r =>
    rw [lift_ok, bind_ok] at hset
    gosimp [srcSetInt32, hput, List.length_replicate, e1, hle, List.take_left, hset]

/-- zeropb.go:194-199. -/
theorem go_SetInt64 (rt : Rt) (d i f : Nat) (x : U64) (h : Heap) (hb : h.w.WF (h.ms i)) :
    goCall rt (d + 3) .SetInt64 [.bufPtr i, .offs i, .int f, .i64 x] h =
    (lift (HMsg.setField rt h.w (h.ms i) .int64 f x) >>= fun r => .ok ([], h.upd i r)) := by
  rw [goCall, show funcOf .SetInt64 = some srcSetInt64 from rfl]
  simp only [HMsg.setField]
  have hput : maxVarintLen64 = 10 := rfl
  rcases e1 : putUvarint maxVarintLen64 x with e | val
  · rw [hput] at e1
    gosimp [srcSetInt64, hput, List.length_replicate, e1, xbind_error]
  have hset := go_setSingle rt d i f wireVarint h Arg.nil (Arg.bytes (.lit val)) trivial
    (by have := put_len (x := _) (n := maxVarintLen64) e1 (by decide) 0 (by decide); simp only [List.length_nil, strLen]; omega) hb
  rw [hput] at e1
  have hle : val.length ≤ (val ++ List.drop val.length (List.replicate 10 0#8)).length := by simp
  rw [xbind_ok]
  simp only [wireVarint] at hset ⊢
  generalize HMsg.setSingle rt h.w (h.ms i) f 0 [] (.lit val) = q at hset ⊢
  cases q with
  | error e =>
    rw [lift_error, bind_error] at hset
    gosimp [srcSetInt64, hput, List.length_replicate, e1, hle, List.take_left, hset]
  | ok r =>
    rw [lift_ok, bind_ok] at hset
    gosimp [srcSetInt64, hput, List.length_replicate, e1, hle, List.take_left, hset]

/-- zeropb.go:203-208. -/
theorem go_SetUint32 (rt : Rt) (d i f : Nat) (x : U32) (h : Heap) (hb : h.w.WF (h.ms i)) :
    goCall rt (d + 3) .SetUint32 [.bufPtr i, .offs i, .int f, .u32 x] h =
    (lift (HMsg.setField rt h.w (h.ms i) .uint32 f x) >>= fun r => .ok ([], h.upd i r)) := by
  rw [goCall, show funcOf .SetUint32 = some srcSetUint32 from rfl]
  simp only [HMsg.setField]
  have hput : maxVarintLen32 = 5 := rfl
  rcases e1 : putUvarint maxVarintLen32 (BitVec.setWidth 64 x) with e | val
  · rw [hput] at e1
    gosimp [srcSetUint32, hput, List.length_replicate, e1, xbind_error]
  have hset := go_setSingle rt d i f wireVarint h Arg.nil (Arg.bytes (.lit val)) trivial
    (by have := put_len (x := _) (n := maxVarintLen32) e1 (by decide) 0 (by decide); simp only [List.length_nil, strLen]; omega) hb
  rw [hput] at e1
  have hle : val.length ≤ (val ++ List.drop val.length (List.replicate 5 0#8)).length := by simp
  rw [xbind_ok]
  simp only [wireVarint] at hset ⊢
  generalize HMsg.setSingle rt h.w (h.ms i) f 0 [] (.lit val) = q at hset ⊢
  cases q with
  | error e =>
    rw [lift_error, bind_error] at hset
    gosimp [srcSetUint32, hput, List.length_replicate, e1, hle, List.take_left, hset]
  | ok r =>
    rw [lift_ok, bind_ok] at hset
    gosimp [srcSetUint32, hput, List.length_replicate, e1, hle, List.take_left, hset]

/-- zeropb.go:212-217. -/
theorem go_SetUint64 (rt : Rt) (d i f : Nat) (x : U64) (h : Heap) (hb : h.w.WF (h.ms i)) :
    goCall rt (d + 3) .SetUint64 [.bufPtr i, .offs i, .int f, .u64 x] h =
    (lift (HMsg.setField rt h.w (h.ms i) .uint64 f x) >>= fun r => .ok ([], h.upd i r)) := by
  rw [goCall, show funcOf .SetUint64 = some srcSetUint64 from rfl]
  simp only [HMsg.setField]
  have hput : maxVarintLen64 = 10 := rfl
  rcases e1 : putUvarint maxVarintLen64 x with e | val
  · rw [hput] at e1
    gosimp [srcSetUint64, hput, List.length_replicate, e1, xbind_error]
  have hset := go_setSingle rt d i f wireVarint h Arg.nil (Arg.bytes (.lit val)) trivial
    (by have := put_len (x := _) (n := maxVarintLen64) e1 (by decide) 0 (by decide); simp only [List.length_nil, strLen]; omega) hb
  rw [hput] at e1
  have hle : val.length ≤ (val ++ List.drop val.length (List.replicate 10 0#8)).length := by simp
  rw [xbind_ok]
  simp only [wireVarint] at hset ⊢
  generalize HMsg.setSingle rt h.w (h.ms i) f 0 [] (.lit val) = q at hset ⊢
  cases q with
  | error e =>
    rw [lift_error, bind_error] at hset
    gosimp [srcSetUint64, hput, List.length_replicate, e1, hle, List.take_left, hset]
  | ok r =>
    rw [lift_ok, bind_ok] at hset
    gosimp [srcSetUint64, hput, List.length_replicate, e1, hle, List.take_left, hset]

/-- zeropb.go:221-226. -/
theorem go_SetZigZagInt32 (rt : Rt) (d i f : Nat) (x : U32) (h : Heap) (hb : h.w.WF (h.ms i)) :
    goCall rt (d + 3) .SetZigZagInt32 [.bufPtr i, .offs i, .int f, .i32 x] h =
    (lift (HMsg.setField rt h.w (h.ms i) .sint32 f x) >>= fun r => .ok ([], h.upd i r)) := by
  rw [goCall, show funcOf .SetZigZagInt32 = some srcSetZigZagInt32 from rfl]
  simp only [HMsg.setField]
  have hput : maxVarintLen32 = 5 := rfl
  rcases e1 : putVarint maxVarintLen32 (BitVec.signExtend 64 x) with e | val
  · rw [hput] at e1
    gosimp [srcSetZigZagInt32, hput, List.length_replicate, e1, xbind_error]
  have hset := go_setSingle rt d i f wireVarint h Arg.nil (Arg.bytes (.lit val)) trivial
    (by have := put_len (x := _) (n := maxVarintLen32) e1 (by decide) 0 (by decide); simp only [List.length_nil, strLen]; omega) hb
  rw [hput] at e1
  have hle : val.length ≤ (val ++ List.drop val.length (List.replicate 5 0#8)).length := by simp
  rw [xbind_ok]
  simp only [wireVarint] at hset ⊢
  generalize HMsg.setSingle rt h.w (h.ms i) f 0 [] (.lit val) = q at hset ⊢
  cases q with
  | error e =>
    rw [lift_error, bind_error] at hset
    gosimp [srcSetZigZagInt32, hput, List.length_replicate, e1, hle, List.take_left, hset]
  | ok r =>
    rw [lift_ok, bind_ok] at hset
    gosimp [srcSetZigZagInt32, hput, List.length_replicate, e1, hle, List.take_left, hset]

/-- zeropb.go:230-235. -/
theorem go_SetZigZagInt64 (rt : Rt) (d i f : Nat) (x : U64) (h : Heap) (hb : h.w.WF (h.ms i)) :
    goCall rt (d + 3) .SetZigZagInt64 [.bufPtr i, .offs i, .int f, .i64 x] h =
    (lift (HMsg.setField rt h.w (h.ms i) .sint64 f x) >>= fun r => .ok ([], h.upd i r)) := by
  rw [goCall, show funcOf .SetZigZagInt64 = some srcSetZigZagInt64 from rfl]
  simp only [HMsg.setField]
  have hput : maxVarintLen64 = 10 := rfl
  rcases e1 : putVarint maxVarintLen64 x with e | val
  · rw [hput] at e1
    gosimp [srcSetZigZagInt64, hput, List.length_replicate, e1, xbind_error]
  have hset := go_setSingle rt d i f wireVarint h Arg.nil (Arg.bytes (.lit val)) trivial
    (by have := put_len (x := _) (n := maxVarintLen64) e1 (by decide) 0 (by decide); simp only [List.length_nil, strLen]; omega) hb
  rw [hput] at e1
  have hle : val.length ≤ (val ++ List.drop val.length (List.replicate 10 0#8)).length := by simp
  rw [xbind_ok]
  simp only [wireVarint] at hset ⊢
  generalize HMsg.setSingle rt h.w (h.ms i) f 0 [] (.lit val) = q at hset ⊢
  cases q with
  | error e =>
    rw [lift_error, bind_error] at hset
    gosimp [srcSetZigZagInt64, hput, List.length_replicate, e1, hle, List.take_left, hset]
  | ok r =>
    rw [lift_ok, bind_ok] at hset
    gosimp [srcSetZigZagInt64, hput, List.length_replicate, e1, hle, List.take_left, hset]

/-- zeropb.go:239-244. -/
theorem go_SetFixedUint32 (rt : Rt) (d i f : Nat) (x : U32) (h : Heap) (hb : h.w.WF (h.ms i)) :
    goCall rt (d + 3) .SetFixedUint32 [.bufPtr i, .offs i, .int f, .u32 x] h =
    (lift (HMsg.setField rt h.w (h.ms i) .fixed32 f x) >>= fun r => .ok ([], h.upd i r)) := by
  rw [goCall, show funcOf .SetFixedUint32 = some srcSetFixedUint32 from rfl]
  simp only [HMsg.setField]
  have hset := go_setSingle rt d i f wireFixed32 h Arg.nil (Arg.bytes (.lit (lePutUint32 x))) trivial (show 0 + 4 < maxLen by decide) hb
  have hd : lePutUint32 x ++ List.drop (lePutUint32 x).length (List.replicate 4 0#8) = lePutUint32 x := List.append_nil _
  simp only [wireFixed32] at hset ⊢
  generalize HMsg.setSingle rt h.w (h.ms i) f 5 [] (.lit (lePutUint32 x)) = q at hset ⊢
  cases q with
  | error e =>
    rw [lift_error, bind_error] at hset
    gosimp [srcSetFixedUint32, List.length_replicate, hd, hset]
  | ok r =>
    rw [lift_ok, bind_ok] at hset
    gosimp [srcSetFixedUint32, List.length_replicate, hd, hset]

/-- zeropb.go:248-253. -/
theorem go_SetFixedUint64 (rt : Rt) (d i f : Nat) (x : U64) (h : Heap) (hb : h.w.WF (h.ms i)) :
    goCall rt (d + 3) .SetFixedUint64 [.bufPtr i, .offs i, .int f, .u64 x] h =
    (lift (HMsg.setField rt h.w (h.ms i) .fixed64 f x) >>= fun r => .ok ([], h.upd i r)) := by
  rw [goCall, show funcOf .SetFixedUint64 = some srcSetFixedUint64 from rfl]
  simp only [HMsg.setField]
  have hset := go_setSingle rt d i f wireFixed64 h Arg.nil (Arg.bytes (.lit (lePutUint64 x))) trivial (show 0 + 8 < maxLen by decide) hb
  have hd : lePutUint64 x ++ List.drop (lePutUint64 x).length (List.replicate 8 0#8) = lePutUint64 x := List.append_nil _
  simp only [wireFixed64] at hset ⊢
  generalize HMsg.setSingle rt h.w (h.ms i) f 1 [] (.lit (lePutUint64 x)) = q at hset ⊢
  cases q with
  | error e =>
    rw [lift_error, bind_error] at hset
    gosimp [srcSetFixedUint64, List.length_replicate, hd, hset]
  | ok r =>
    rw [lift_ok, bind_ok] at hset
    gosimp [srcSetFixedUint64, List.length_replicate, hd, hset]

/-- zeropb.go:257-262. -/
theorem go_SetFixedInt32 (rt : Rt) (d i f : Nat) (x : U32) (h : Heap) (hb : h.w.WF (h.ms i)) :
    goCall rt (d + 3) .SetFixedInt32 [.bufPtr i, .offs i, .int f, .i32 x] h =
    (lift (HMsg.setField rt h.w (h.ms i) .sfixed32 f x) >>= fun r => .ok ([], h.upd i r)) := by
  rw [goCall, show funcOf .SetFixedInt32 = some srcSetFixedInt32 from rfl]
  simp only [HMsg.setField]
  have hset := go_setSingle rt d i f wireFixed32 h Arg.nil (Arg.bytes (.lit (lePutUint32 x))) trivial (show 0 + 4 < maxLen by decide) hb
  have hd : lePutUint32 x ++ List.drop (lePutUint32 x).length (List.replicate 4 0#8) = lePutUint32 x := List.append_nil _
  simp only [wireFixed32] at hset ⊢
  generalize HMsg.setSingle rt h.w (h.ms i) f 5 [] (.lit (lePutUint32 x)) = q at hset ⊢
  cases q with
  | error e =>
    rw [lift_error, bind_error] at hset
    gosimp [srcSetFixedInt32, List.length_replicate, hd, hset]
  | ok r =>
    rw [lift_ok, bind_ok] at hset
    gosimp [srcSetFixedInt32, List.length_replicate, hd, hset]

/-- zeropb.go:266-271. -/
theorem go_SetFixedInt64 (rt : Rt) (d i f : Nat) (x : U64) (h : Heap) (hb : h.w.WF (h.ms i)) :
    goCall rt (d + 3) .SetFixedInt64 [.bufPtr i, .offs i, .int f, .i64 x] h =
    (lift (HMsg.setField rt h.w (h.ms i) .sfixed64 f x) >>= fun r => .ok ([], h.upd i r)) := by
  rw [goCall, show funcOf .SetFixedInt64 = some srcSetFixedInt64 from rfl]
  simp only [HMsg.setField]
  have hset := go_setSingle rt d i f wireFixed64 h Arg.nil (Arg.bytes (.lit (lePutUint64 x))) trivial (show 0 + 8 < maxLen by decide) hb
  have hd : lePutUint64 x ++ List.drop (lePutUint64 x).length (List.replicate 8 0#8) = lePutUint64 x := List.append_nil _
  simp only [wireFixed64] at hset ⊢
  generalize HMsg.setSingle rt h.w (h.ms i) f 1 [] (.lit (lePutUint64 x)) = q at hset ⊢
  cases q with
  | error e =>
    rw [lift_error, bind_error] at hset
    gosimp [srcSetFixedInt64, List.length_replicate, hd, hset]
  | ok r =>
    rw [lift_ok, bind_ok] at hset
    gosimp [srcSetFixedInt64, List.length_replicate, hd, hset]

/-- zeropb.go:275-281. -/
theorem go_SetFloat32 (rt : Rt) (d i f : Nat) (x : U32) (h : Heap) (hb : h.w.WF (h.ms i)) :
    goCall rt (d + 3) .SetFloat32 [.bufPtr i, .offs i, .int f, .f32 x] h =
    (lift (HMsg.setField rt h.w (h.ms i) .float f x) >>= fun r => .ok ([], h.upd i r)) := by
  rw [goCall, show funcOf .SetFloat32 = some srcSetFloat32 from rfl]
  simp only [HMsg.setField]
  have hset := go_setSingle rt d i f wireFixed32 h Arg.nil (Arg.bytes (.lit (lePutUint32 x))) trivial (show 0 + 4 < maxLen by decide) hb
  have hd : lePutUint32 x ++ List.drop (lePutUint32 x).length (List.replicate 4 0#8) = lePutUint32 x := List.append_nil _
  simp only [wireFixed32] at hset ⊢
  generalize HMsg.setSingle rt h.w (h.ms i) f 5 [] (.lit (lePutUint32 x)) = q at hset ⊢
  cases q with
  | error e =>
    rw [lift_error, bind_error] at hset
    gosimp [srcSetFloat32, List.length_replicate, hd, hset]
  | ok r =>
    rw [lift_ok, bind_ok] at hset
    gosimp [srcSetFloat32, List.length_replicate, hd, hset]

/-- zeropb.go:285-291. -/
theorem go_SetFloat64 (rt : Rt) (d i f : Nat) (x : U64) (h : Heap) (hb : h.w.WF (h.ms i)) :
    goCall rt (d + 3) .SetFloat64 [.bufPtr i, .offs i, .int f, .f64 x] h =
    (lift (HMsg.setField rt h.w (h.ms i) .double f x) >>= fun r => .ok ([], h.upd i r)) := by
  rw [goCall, show funcOf .SetFloat64 = some srcSetFloat64 from rfl]
  simp only [HMsg.setField]
  have hset := go_setSingle rt d i f wireFixed64 h Arg.nil (Arg.bytes (.lit (lePutUint64 x))) trivial (show 0 + 8 < maxLen by decide) hb
  have hd : lePutUint64 x ++ List.drop (lePutUint64 x).length (List.replicate 8 0#8) = lePutUint64 x := List.append_nil _
  simp only [wireFixed64] at hset ⊢
  generalize HMsg.setSingle rt h.w (h.ms i) f 1 [] (.lit (lePutUint64 x)) = q at hset ⊢
  cases q with
  | error e =>
    rw [lift_error, bind_error] at hset
    gosimp [srcSetFloat64, List.length_replicate, hd, hset]
  | ok r =>
    rw [lift_ok, bind_ok] at hset
    gosimp [srcSetFloat64, List.length_replicate, hd, hset]

/-- zeropb.go:173-180. -/
theorem go_SetBool (rt : Rt) (d i f : Nat) (x : Bool) (h : Heap) (hb : h.w.WF (h.ms i)) :
    goCall rt (d + 3) .SetBool [.bufPtr i, .offs i, .int f, .bool x] h =
    (lift (HMsg.setField rt h.w (h.ms i) .bool f x) >>= fun r => .ok ([], h.upd i r)) := by
  rw [goCall, show funcOf .SetBool = some srcSetBool from rfl]
  simp only [HMsg.setField]
  have hset := fun bs (hl : [].length + strLen (.lit bs) < maxLen) => go_setSingle rt d i f wireVarint h Arg.nil (Arg.bytes (.lit bs)) trivial hl hb
  have hr : List.replicate 1 0#8 = [0#8] := rfl
  have hlt : (0 : Int) ≤ 0 ∧ (0 : Int) < 1 := by decide
  simp only [wireVarint] at hset ⊢
  cases x with
  | true =>
    have hset := hset [1#8] (by decide)
    rw [if_pos rfl]
    generalize HMsg.setSingle rt h.w (h.ms i) f 0 [] (.lit [1#8]) = q at hset ⊢
    cases q with
    | error e =>
      rw [lift_error, bind_error] at hset
      gosimp [srcSetBool, hr, List.length_replicate, eq_true hlt, List.set_cons_zero, Int.toNat_zero, hset]
    | ok r =>
      rw [lift_ok, bind_ok] at hset
      gosimp [srcSetBool, hr, List.length_replicate, eq_true hlt, List.set_cons_zero, Int.toNat_zero, hset]
  | false =>
    have hset := hset [0#8] (by decide)
    rw [if_neg (by decide)]
    generalize HMsg.setSingle rt h.w (h.ms i) f 0 [] (.lit [0#8]) = q at hset ⊢
    cases q with
    | error e =>
      rw [lift_error, bind_error] at hset
      gosimp [srcSetBool, hr, List.length_replicate, hset]
    | ok r =>
      rw [lift_ok, bind_ok] at hset
      gosimp [srcSetBool, hr, List.length_replicate, hset]

/-- zeropb.go:295-306. -/
theorem go_SetString (rt : Rt) (d i f : Nat) (x : Src) (h : Heap) (hs : World.WFsrc h.w x) (hl : strLen x + 10 < maxLen)
    (hb : h.w.WF (h.ms i)) : goCall rt (d + 3) .SetString [.bufPtr i, .offs i, .int f, .str x] h =
    (lift (HMsg.setBytes rt h.w (h.ms i) f x) >>= fun r => .ok ([], h.upd i r)) := by
  rw [goCall, show funcOf .SetString = some srcSetString from rfl]
  simp only [HMsg.setBytes, src_length hs]
  have hv := Arg.bytes x
  have hput : maxVarintLen64 = 10 := rfl
  rcases e1 : putUvarint maxVarintLen64 (BitVec.ofNat 64 (strLen x)) with e | vl
  · rw [hput] at e1
    gosimp [srcSetString, hput, List.length_replicate, hv.length, intToU64_nat, e1, xbind_error]
  have hset := go_setSingle rt d i f wireBytes h (Arg.bytes (.lit vl)) hv hs (put_len e1 (by decide) _ hl) hb
  rw [hput] at e1
  have hle : vl.length ≤ (vl ++ List.drop vl.length (List.replicate 10 0#8)).length := by simp
  rw [xbind_ok]
  simp only [wireBytes] at hset ⊢
  generalize HMsg.setSingle rt h.w (h.ms i) f 2 vl x = q at hset ⊢
  cases q with
  | error e =>
    rw [lift_error, bind_error] at hset
    gosimp [srcSetString, hput, List.length_replicate, hv.length, intToU64_nat, e1, hle, List.take_left, hset]
  | ok r =>
    rw [lift_ok, bind_ok] at hset
    gosimp [srcSetString, hput, List.length_replicate, hv.length, intToU64_nat, e1, hle, List.take_left, hset]

/-- zeropb.go:310-315. -/
theorem go_SetBytes (rt : Rt) (d i f : Nat) {v : Val} {x : Src} (hv : Arg v x) (h : Heap) (hs : World.WFsrc h.w x) (hl : strLen x + 10 < maxLen)
    (hb : h.w.WF (h.ms i)) : goCall rt (d + 3) .SetBytes [.bufPtr i, .offs i, .int f, v] h =
    (lift (HMsg.setBytes rt h.w (h.ms i) f x) >>= fun r => .ok ([], h.upd i r)) := by
  rw [goCall, show funcOf .SetBytes = some srcSetBytes from rfl]
  simp only [HMsg.setBytes, src_length hs]
  have hput : maxVarintLen64 = 10 := rfl
  rcases e1 : putUvarint maxVarintLen64 (BitVec.ofNat 64 (strLen x)) with e | vl
  · rw [hput] at e1
    gosimp [srcSetBytes, hput, List.length_replicate, hv.length, hv.coerce, intToU64_nat, e1, xbind_error]
  have hset := go_setSingle rt d i f wireBytes h (Arg.bytes (.lit vl)) hv hs (put_len e1 (by decide) _ hl) hb
  rw [hput] at e1
  have hle : vl.length ≤ (vl ++ List.drop vl.length (List.replicate 10 0#8)).length := by simp
  rw [xbind_ok]
  simp only [wireBytes] at hset ⊢
  generalize HMsg.setSingle rt h.w (h.ms i) f 2 vl x = q at hset ⊢
  cases q with
  | error e =>
    rw [lift_error, bind_error] at hset
    gosimp [srcSetBytes, hput, List.length_replicate, hv.length, hv.coerce, intToU64_nat, e1, hle, List.take_left, hset]
  | ok r =>
    rw [lift_ok, bind_ok] at hset
    gosimp [srcSetBytes, hput, List.length_replicate, hv.length, hv.coerce, intToU64_nat, e1, hle, List.take_left, hset]

/-- zeropb.go:319-324. -/
theorem go_AppendBytes (rt : Rt) (d i f : Nat) {v : Val} {x : Src} (hv : Arg v x) (h : Heap) (hs : World.WFsrc h.w x) (hl : strLen x + 10 < maxLen)
    (hb : h.w.WF (h.ms i)) : goCall rt (d + 3) .AppendBytes [.bufPtr i, .offs i, .int f, v] h =
    (lift (HMsg.appendBytes rt h.w (h.ms i) f x) >>= fun r => .ok ([], h.upd i r)) := by
  rw [goCall, show funcOf .AppendBytes = some srcAppendBytes from rfl]
  simp only [HMsg.appendBytes, src_length hs]
  have hput : maxVarintLen64 = 10 := rfl
  rcases e1 : putUvarint maxVarintLen64 (BitVec.ofNat 64 (strLen x)) with e | vl
  · rw [hput] at e1
    gosimp [srcAppendBytes, hput, List.length_replicate, hv.length, hv.coerce, intToU64_nat, e1, xbind_error]
  have hset := go_appendSingle rt d i f wireBytes h (Arg.bytes (.lit vl)) hv hb.2
  rw [hput] at e1
  have hle : vl.length ≤ (vl ++ List.drop vl.length (List.replicate 10 0#8)).length := by simp
  rw [xbind_ok]
  simp only [wireBytes] at hset ⊢
  generalize HMsg.appendSingle rt h.w (h.ms i) f 2 vl x = q at hset ⊢
  cases q with
  | error e =>
    rw [lift_error, bind_error] at hset
    gosimp [srcAppendBytes, hput, List.length_replicate, hv.length, hv.coerce, intToU64_nat, e1, hle, List.take_left, hset]
  | ok r =>
    rw [lift_ok, bind_ok] at hset
    gosimp [srcAppendBytes, hput, List.length_replicate, hv.length, hv.coerce, intToU64_nat, e1, hle, List.take_left, hset]

end Zeropb.GoSrc
