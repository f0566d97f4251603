import Verif.Conc.SetProg
import Verif.Conc.GenAccess
/-!
# What the setters access
-/

set_option linter.constructorNameAsVariable false
set_option linter.unusedSimpArgs false

namespace Zeropb.GoSrc.Conc
open Zeropb.GoSrc.G Zeropb.Wire

attribute [local congr] bindHead load_congr GoSrc.bind_head newArr_congr newMap_congr rangeArr_congr rangeMap_congr

/-! ## The exported functions -/

theorem void_tail (rt : Rt) (i f : Nat) (tag : List Byte) (x y : Src) : (tailP rt i f tag x y >>= fun _ => .done []) = tailP rt i f tag x y := by
  unfold tailP
  simp only [bind_assoc']
  refine congrArg (_ >>= ·) (funext fun _ => ?_)
  refine congrArg (Prog.load _) (funext fun (b : HSlice) => ?_)
  simp only [bindEq, bind_assoc', done_bind]

theorem void_set (rt : Rt) (i f typ : Nat) (tag : List Byte) (x y : Src) : (setSingleP rt i f typ tag x y >>= fun _ => .done []) = setSingleP rt i f typ tag x y := by
  unfold setSingleP
  simp only [bind_assoc']
  refine congrArg (_ >>= ·) (funext fun o => ?_)
  cases o with
  | none => exact void_tail ..
  | some off =>
    simp only [bind_assoc']
    refine congrArg (_ >>= ·) (funext fun n => ?_)
    split
    · simp only [bind_assoc', done_bind]
    · simp only [bind_assoc']
      refine congrArg (_ >>= ·) (funext fun _ => ?_)
      exact void_tail ..

theorem void_append (rt : Rt) (i f : Nat) (tag : List Byte) (x y : Src) : (appendSingleP rt i f tag x y >>= fun _ => .done []) = appendSingleP rt i f tag x y := by
  unfold appendSingleP
  simp only [bind_assoc']
  refine congrArg (_ >>= ·) (funext fun _ => ?_)
  refine congrArg (Prog.load _) (funext fun (b : HSlice) => ?_)
  simp only [bindEq, bind_assoc', done_bind]

theorem prog_setConst (rt : Rt) (fuel d i f typ : Nat) {vl v : Val} {x y : Src} {tag : List Byte} (ht : putUvarint maxVarintLen64 (tagOf f typ) = .ok tag) (hvl : CArg vl x) (hv : CArg v y) :
    goCall rt fuel (d + 2) .setSingle [.bufPtr i, .offs i, .int f, .const typ, vl, v] = setSingleP rt i f typ tag x y := prog_setSingle rt fuel d i f typ ht hvl hv

theorem prog_appendConst (rt : Rt) (fuel d i f typ : Nat) {vl v : Val} {x y : Src} {tag : List Byte} (ht : putUvarint maxVarintLen64 (tagOf f typ) = .ok tag) (hvl : CArg vl x) (hv : CArg v y) :
    goCall rt fuel (d + 2) .appendSingle [.bufPtr i, .offs i, .int f, .const typ, vl, v] = appendSingleP rt i f tag x y := prog_appendSingle rt fuel d i f typ ht hvl hv

section
variable (rt : Rt) (fuel d i f : Nat) {tag : List Byte}

theorem prog_SetInt32 (ht : putUvarint maxVarintLen64 (tagOf f 0) = .ok tag) {x : U32} {val : List Byte} (e1 : putUvarint maxVarintLen64 (BitVec.signExtend 64 x) = .ok val) :
    goCall rt fuel (d + 3) .SetInt32 [.bufPtr i, .offs i, .const f, .i32 x] = setSingleP rt i f 0 tag (.lit []) (.lit val) := by
  rw [goCall, show funcOf .SetInt32 = some srcSetInt32 from rfl]
  have hset := prog_setConst rt fuel d i f 0 ht CArg.nil (CArg.bytes (.lit val))
  have hput : maxVarintLen64 = 10 := rfl
  rw [hput] at e1
  have hle : val.length ≤ (val ++ List.drop val.length (List.replicate 10 0#8)).length := by simp
  csimp [srcSetInt32, hput, List.length_replicate, e1, hle, List.take_left, hset, void_set]

theorem prog_SetInt64 (ht : putUvarint maxVarintLen64 (tagOf f 0) = .ok tag) {x : U64} {val : List Byte} (e1 : putUvarint maxVarintLen64 (x) = .ok val) :
    goCall rt fuel (d + 3) .SetInt64 [.bufPtr i, .offs i, .const f, .i64 x] = setSingleP rt i f 0 tag (.lit []) (.lit val) := by
  rw [goCall, show funcOf .SetInt64 = some srcSetInt64 from rfl]
  have hset := prog_setConst rt fuel d i f 0 ht CArg.nil (CArg.bytes (.lit val))
  have hput : maxVarintLen64 = 10 := rfl
  rw [hput] at e1
  have hle : val.length ≤ (val ++ List.drop val.length (List.replicate 10 0#8)).length := by simp
  csimp [srcSetInt64, hput, List.length_replicate, e1, hle, List.take_left, hset, void_set]

theorem prog_SetUint32 (ht : putUvarint maxVarintLen64 (tagOf f 0) = .ok tag) {x : U32} {val : List Byte} (e1 : putUvarint maxVarintLen32 (x.setWidth 64) = .ok val) :
    goCall rt fuel (d + 3) .SetUint32 [.bufPtr i, .offs i, .const f, .u32 x] = setSingleP rt i f 0 tag (.lit []) (.lit val) := by
  rw [goCall, show funcOf .SetUint32 = some srcSetUint32 from rfl]
  have hset := prog_setConst rt fuel d i f 0 ht CArg.nil (CArg.bytes (.lit val))
  have hput : maxVarintLen32 = 5 := rfl
  rw [hput] at e1
  have hle : val.length ≤ (val ++ List.drop val.length (List.replicate 5 0#8)).length := by simp
  csimp [srcSetUint32, hput, List.length_replicate, e1, hle, List.take_left, hset, void_set]

theorem prog_SetUint64 (ht : putUvarint maxVarintLen64 (tagOf f 0) = .ok tag) {x : U64} {val : List Byte} (e1 : putUvarint maxVarintLen64 (x) = .ok val) :
    goCall rt fuel (d + 3) .SetUint64 [.bufPtr i, .offs i, .const f, .u64 x] = setSingleP rt i f 0 tag (.lit []) (.lit val) := by
  rw [goCall, show funcOf .SetUint64 = some srcSetUint64 from rfl]
  have hset := prog_setConst rt fuel d i f 0 ht CArg.nil (CArg.bytes (.lit val))
  have hput : maxVarintLen64 = 10 := rfl
  rw [hput] at e1
  have hle : val.length ≤ (val ++ List.drop val.length (List.replicate 10 0#8)).length := by simp
  csimp [srcSetUint64, hput, List.length_replicate, e1, hle, List.take_left, hset, void_set]

theorem prog_SetZigZagInt32 (ht : putUvarint maxVarintLen64 (tagOf f 0) = .ok tag) {x : U32} {val : List Byte} (e1 : putVarint maxVarintLen32 (BitVec.signExtend 64 x) = .ok val) :
    goCall rt fuel (d + 3) .SetZigZagInt32 [.bufPtr i, .offs i, .const f, .i32 x] = setSingleP rt i f 0 tag (.lit []) (.lit val) := by
  rw [goCall, show funcOf .SetZigZagInt32 = some srcSetZigZagInt32 from rfl]
  have hset := prog_setConst rt fuel d i f 0 ht CArg.nil (CArg.bytes (.lit val))
  have hput : maxVarintLen32 = 5 := rfl
  rw [hput] at e1
  have hle : val.length ≤ (val ++ List.drop val.length (List.replicate 5 0#8)).length := by simp
  csimp [srcSetZigZagInt32, hput, List.length_replicate, e1, hle, List.take_left, hset, void_set]

theorem prog_SetZigZagInt64 (ht : putUvarint maxVarintLen64 (tagOf f 0) = .ok tag) {x : U64} {val : List Byte} (e1 : putVarint maxVarintLen64 (x) = .ok val) :
    goCall rt fuel (d + 3) .SetZigZagInt64 [.bufPtr i, .offs i, .const f, .i64 x] = setSingleP rt i f 0 tag (.lit []) (.lit val) := by
  rw [goCall, show funcOf .SetZigZagInt64 = some srcSetZigZagInt64 from rfl]
  have hset := prog_setConst rt fuel d i f 0 ht CArg.nil (CArg.bytes (.lit val))
  have hput : maxVarintLen64 = 10 := rfl
  rw [hput] at e1
  have hle : val.length ≤ (val ++ List.drop val.length (List.replicate 10 0#8)).length := by simp
  csimp [srcSetZigZagInt64, hput, List.length_replicate, e1, hle, List.take_left, hset, void_set]

theorem prog_SetFixedUint32 (ht : putUvarint maxVarintLen64 (tagOf f 5) = .ok tag) (x : U32) :
    goCall rt fuel (d + 3) .SetFixedUint32 [.bufPtr i, .offs i, .const f, .u32 x] = setSingleP rt i f 5 tag (.lit []) (.lit (lePutUint32 x)) := by
  rw [goCall, show funcOf .SetFixedUint32 = some srcSetFixedUint32 from rfl]
  have hset := prog_setConst rt fuel d i f 5 ht CArg.nil (CArg.bytes (.lit (lePutUint32 x)))
  have hd : lePutUint32 x ++ List.drop (lePutUint32 x).length (List.replicate 4 0#8) = lePutUint32 x := List.append_nil _
  csimp [srcSetFixedUint32, List.length_replicate, hd, hset, void_set]

theorem prog_SetFixedUint64 (ht : putUvarint maxVarintLen64 (tagOf f 1) = .ok tag) (x : U64) :
    goCall rt fuel (d + 3) .SetFixedUint64 [.bufPtr i, .offs i, .const f, .u64 x] = setSingleP rt i f 1 tag (.lit []) (.lit (lePutUint64 x)) := by
  rw [goCall, show funcOf .SetFixedUint64 = some srcSetFixedUint64 from rfl]
  have hset := prog_setConst rt fuel d i f 1 ht CArg.nil (CArg.bytes (.lit (lePutUint64 x)))
  have hd : lePutUint64 x ++ List.drop (lePutUint64 x).length (List.replicate 8 0#8) = lePutUint64 x := List.append_nil _
  csimp [srcSetFixedUint64, List.length_replicate, hd, hset, void_set]

theorem prog_SetFixedInt32 (ht : putUvarint maxVarintLen64 (tagOf f 5) = .ok tag) (x : U32) :
    goCall rt fuel (d + 3) .SetFixedInt32 [.bufPtr i, .offs i, .const f, .i32 x] = setSingleP rt i f 5 tag (.lit []) (.lit (lePutUint32 x)) := by
  rw [goCall, show funcOf .SetFixedInt32 = some srcSetFixedInt32 from rfl]
  have hset := prog_setConst rt fuel d i f 5 ht CArg.nil (CArg.bytes (.lit (lePutUint32 x)))
  have hd : lePutUint32 x ++ List.drop (lePutUint32 x).length (List.replicate 4 0#8) = lePutUint32 x := List.append_nil _
  csimp [srcSetFixedInt32, List.length_replicate, hd, hset, void_set]

theorem prog_SetFixedInt64 (ht : putUvarint maxVarintLen64 (tagOf f 1) = .ok tag) (x : U64) :
    goCall rt fuel (d + 3) .SetFixedInt64 [.bufPtr i, .offs i, .const f, .i64 x] = setSingleP rt i f 1 tag (.lit []) (.lit (lePutUint64 x)) := by
  rw [goCall, show funcOf .SetFixedInt64 = some srcSetFixedInt64 from rfl]
  have hset := prog_setConst rt fuel d i f 1 ht CArg.nil (CArg.bytes (.lit (lePutUint64 x)))
  have hd : lePutUint64 x ++ List.drop (lePutUint64 x).length (List.replicate 8 0#8) = lePutUint64 x := List.append_nil _
  csimp [srcSetFixedInt64, List.length_replicate, hd, hset, void_set]

theorem prog_SetFloat32 (ht : putUvarint maxVarintLen64 (tagOf f 5) = .ok tag) (x : U32) :
    goCall rt fuel (d + 3) .SetFloat32 [.bufPtr i, .offs i, .const f, .f32 x] = setSingleP rt i f 5 tag (.lit []) (.lit (lePutUint32 x)) := by
  rw [goCall, show funcOf .SetFloat32 = some srcSetFloat32 from rfl]
  have hset := prog_setConst rt fuel d i f 5 ht CArg.nil (CArg.bytes (.lit (lePutUint32 x)))
  have hd : lePutUint32 x ++ List.drop (lePutUint32 x).length (List.replicate 4 0#8) = lePutUint32 x := List.append_nil _
  csimp [srcSetFloat32, List.length_replicate, hd, hset, void_set]

theorem prog_SetFloat64 (ht : putUvarint maxVarintLen64 (tagOf f 1) = .ok tag) (x : U64) :
    goCall rt fuel (d + 3) .SetFloat64 [.bufPtr i, .offs i, .const f, .f64 x] = setSingleP rt i f 1 tag (.lit []) (.lit (lePutUint64 x)) := by
  rw [goCall, show funcOf .SetFloat64 = some srcSetFloat64 from rfl]
  have hset := prog_setConst rt fuel d i f 1 ht CArg.nil (CArg.bytes (.lit (lePutUint64 x)))
  have hd : lePutUint64 x ++ List.drop (lePutUint64 x).length (List.replicate 8 0#8) = lePutUint64 x := List.append_nil _
  csimp [srcSetFloat64, List.length_replicate, hd, hset, void_set]

theorem prog_SetBool (ht : putUvarint maxVarintLen64 (tagOf f 0) = .ok tag) (x : Bool) :
    goCall rt fuel (d + 3) .SetBool [.bufPtr i, .offs i, .const f, .bool x] = setSingleP rt i f 0 tag (.lit []) (.lit (if x then [1#8] else [0#8])) := by
  rw [goCall, show funcOf .SetBool = some srcSetBool from rfl]
  have hset := fun bs => prog_setConst rt fuel d i f 0 ht CArg.nil (CArg.bytes (.lit bs))
  have hr : List.replicate 1 0#8 = [0#8] := rfl
  have hlt : (0 : Int) ≤ 0 ∧ (0 : Int) < 1 := by decide
  cases x with
  | true => csimp [srcSetBool, hr, List.length_replicate, eq_true hlt, List.set_cons_zero, Int.toNat_zero, hset, void_set]
  | false => csimp [srcSetBool, Bool.false_eq_true, hr, List.length_replicate, eq_true hlt, List.set_cons_zero, Int.toNat_zero, hset, void_set]

theorem prog_SetString (ht : putUvarint maxVarintLen64 (tagOf f 2) = .ok tag) {x : Src} {vl : List Byte} (e1 : putUvarint maxVarintLen64 (BitVec.ofNat 64 (strLen x)) = .ok vl) :
    goCall rt fuel (d + 3) .SetString [.bufPtr i, .offs i, .const f, .str x] = setSingleP rt i f 2 tag (.lit vl) x := by
  rw [goCall, show funcOf .SetString = some srcSetString from rfl]
  have hv := CArg.bytes x
  have hset := prog_setConst rt fuel d i f 2 ht (CArg.bytes (.lit vl)) hv
  have hput : maxVarintLen64 = 10 := rfl
  rw [hput] at e1
  have hle : vl.length ≤ (vl ++ List.drop vl.length (List.replicate 10 0#8)).length := by simp
  csimp [srcSetString, hput, List.length_replicate, hv.length, intToU64_nat, e1, hle, List.take_left, hset, void_set]

theorem prog_SetBytes (ht : putUvarint maxVarintLen64 (tagOf f 2) = .ok tag) {v : Val} {x : Src} (hv : CArg v x) {vl : List Byte} (e1 : putUvarint maxVarintLen64 (BitVec.ofNat 64 (strLen x)) = .ok vl) :
    goCall rt fuel (d + 3) .SetBytes [.bufPtr i, .offs i, .const f, v] = setSingleP rt i f 2 tag (.lit vl) x := by
  rw [goCall, show funcOf .SetBytes = some srcSetBytes from rfl]
  have hset := prog_setConst rt fuel d i f 2 ht (CArg.bytes (.lit vl)) hv
  have hput : maxVarintLen64 = 10 := rfl
  rw [hput] at e1
  have hle : vl.length ≤ (vl ++ List.drop vl.length (List.replicate 10 0#8)).length := by simp
  csimp [srcSetBytes, hput, List.length_replicate, hv.length, hv.coerce, intToU64_nat, e1, hle, List.take_left, hset, void_set]

theorem prog_AppendBytes (ht : putUvarint maxVarintLen64 (tagOf f 2) = .ok tag) {v : Val} {x : Src} (hv : CArg v x) {vl : List Byte} (e1 : putUvarint maxVarintLen64 (BitVec.ofNat 64 (strLen x)) = .ok vl) :
    goCall rt fuel (d + 3) .AppendBytes [.bufPtr i, .offs i, .const f, v] = appendSingleP rt i f tag (.lit vl) x := by
  rw [goCall, show funcOf .AppendBytes = some srcAppendBytes from rfl]
  have hset := prog_appendConst rt fuel d i f 2 ht (CArg.bytes (.lit vl)) hv
  have hput : maxVarintLen64 = 10 := rfl
  rw [hput] at e1
  have hle : vl.length ≤ (vl ++ List.drop vl.length (List.replicate 10 0#8)).length := by simp
  csimp [srcAppendBytes, hput, List.length_replicate, hv.length, hv.coerce, intToU64_nat, e1, hle, List.take_left, hset, void_append]

end

end Zeropb.GoSrc.Conc
