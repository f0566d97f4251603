import Verif.GoSrc.Sem
/-!
# Rules for executing the interpreter in proofs

Every rule holds by definition.
-/

set_option linter.constructorNameAsVariable false

namespace Zeropb.GoSrc

theorem bind_ok {α β : Type} (a : α) (f : α → M β) : (Except.ok a >>= f) = f a := rfl
theorem bind_error {α β : Type} (e : Stop) (f : α → M β) : ((Except.error e : M α) >>= f) = Except.error e := rfl
theorem bind_head {α β : Type} {x y : M α} (f : α → M β) (h : x = y) : (x >>= f) = (y >>= f) := by rw [h]
theorem rangeArr_congr (body : St → M (Out × St)) (k v i s) : rangeArr body k v i s = rangeArr body k v i s := rfl
theorem rangeMap_congr (rt : Rt) (body : St → M (Out × St)) (k v i s) : rangeMap rt body k v i s = rangeMap rt body k v i s := rfl
theorem loopWhile_congr (cond : St → M (Val × St)) (body : St → M (Out × St)) (s) : loopWhile cond body s = loopWhile cond body s := rfl
theorem lift_ok {α : Type} (a : α) : lift (.ok a) = .ok a := rfl
theorem lift_error {α : Type} (e : Fail) : lift (.error e : Res α) = .error (.fail e) := rfl

section
variable (rt : Rt) (call : Calls) (s : St) (h : Heap)

theorem binop_add_int (a b) : binop .add (.int a) (.int b) = .ok (.int (addInt a b)) := rfl
theorem binop_or_int (a b) : binop .or (.int a) (.int b) = .ok (.int (u64ToInt (intToU64 a ||| intToU64 b))) := rfl
theorem binop_shl_int (a : Int) (n : Nat) : binop .shl (.int a) (.const n) = .ok (.int (u64ToInt (intToU64 a <<< n))) := rfl
theorem binop_eq_int (a b) : binop .eq (.int a) (.int b) = .ok (.bool (decide (a = b))) := rfl
theorem binop_eq_int_const (a : Int) (n : Nat) : binop .eq (.int a) (.const n) = .ok (.bool (decide (a = (n : Int)))) := rfl
theorem binop_lt_int (a b) : binop .lt (.int a) (.int b) = .ok (.bool (decide (a < b))) := rfl
theorem binop_gt_int (a b) : binop .gt (.int a) (.int b) = .ok (.bool (decide (a > b))) := rfl
theorem binop_ge_int (a b) : binop .ge (.int a) (.int b) = .ok (.bool (decide (a ≥ b))) := rfl
theorem binop_add_u64 (a b) : binop .add (.u64 a) (.u64 b) = .ok (.u64 (a + b)) := rfl
theorem binop_add_u64_const (a) (n : Nat) : binop .add (.u64 a) (.const n) = .ok (.u64 (a + BitVec.ofNat 64 n)) := rfl
theorem binop_sub_u64 (a b) : binop .sub (.u64 a) (.u64 b) = .ok (.u64 (a - b)) := rfl
theorem binop_and_u64 (a) (n : Nat) : binop .and (.u64 a) (.const n) = .ok (.u64 (a &&& BitVec.ofNat 64 n)) := rfl
theorem binop_shr_u64 (a) : binop .shr (.u64 a) (.const 3) = .ok (.u64 (a >>> 3)) := rfl
theorem binop_eq_u64 (a) (n : Nat) : binop .eq (.u64 a) (.const n) = .ok (.bool (decide (a = BitVec.ofNat 64 n))) := rfl
theorem binop_le_u64 (a b) : binop .le (.u64 a) (.u64 b) = .ok (.bool (decide (a ≤ b))) := rfl
theorem binop_gt_u64 (a b) : binop .gt (.u64 a) (.u64 b) = .ok (.bool (decide (a > b))) := rfl
theorem binop_gt_u64_const (a) (n : Nat) : binop .gt (.u64 a) (.const n) = .ok (.bool (decide (a > BitVec.ofNat 64 n))) := rfl
theorem binop_sub_u16 (a b) : binop .sub (.u16 a) (.u16 b) = .ok (.u16 (a - b)) := rfl
theorem binop_eq_u16 (a b) : binop .eq (.u16 a) (.u16 b) = .ok (.bool (decide (a = b))) := rfl
theorem binop_ne_u16 (a b) : binop .ne (.u16 a) (.u16 b) = .ok (.bool (decide (a ≠ b))) := rfl
theorem binop_ne_u16_const (a) (n : Nat) : binop .ne (.u16 a) (.const n) = .ok (.bool (decide (a ≠ BitVec.ofNat 16 n))) := rfl
theorem binop_eq_nil : binop .eq .nil .nil = .ok (.bool true) := rfl
theorem binop_eq_bytes (x) : binop .eq (.bytes x) .nil = .ok (.bool false) := rfl
theorem binop_eq_map (r) : binop .eq (.mapRef r) .nil = .ok (.bool r.isNone) := rfl
theorem binop_ne_map (r) : binop .ne (.mapRef r) .nil = .ok (.bool r.isSome) := rfl
theorem binop_ne_mapPtr (i) : binop .ne (.mapPtr i) .nil = .ok (.bool true) := rfl

theorem convert_u64_const (n : Nat) : convert .uint64 (.const n) = .ok (.u64 (BitVec.ofNat 64 n)) := rfl
theorem convert_u64_int (x) : convert .uint64 (.int x) = .ok (.u64 (intToU64 x)) := rfl
theorem convert_u64_u64 (x) : convert .uint64 (.u64 x) = .ok (.u64 x) := rfl
theorem convert_u64_i64 (x) : convert .uint64 (.i64 x) = .ok (.u64 x) := rfl
theorem convert_u64_u32 (x) : convert .uint64 (.u32 x) = .ok (.u64 (x.setWidth 64)) := rfl
theorem convert_u64_i32 (x) : convert .uint64 (.i32 x) = .ok (.u64 (x.signExtend 64)) := rfl
theorem convert_u64_u16 (x) : convert .uint64 (.u16 x) = .ok (.u64 (x.setWidth 64)) := rfl
theorem convert_i64_u64 (x) : convert .int64 (.u64 x) = .ok (.i64 x) := rfl
theorem convert_i64_i32 (x) : convert .int64 (.i32 x) = .ok (.i64 (x.signExtend 64)) := rfl
theorem convert_int_int (x) : convert .int (.int x) = .ok (.int x) := rfl
theorem convert_int_u64 (x) : convert .int (.u64 x) = .ok (.int (u64ToInt x)) := rfl
theorem convert_i32_u64 (x) : convert .int32 (.u64 x) = .ok (.i32 (x.setWidth 32)) := rfl
theorem convert_i32_i64 (x) : convert .int32 (.i64 x) = .ok (.i32 (x.setWidth 32)) := rfl
theorem convert_i32_u32 (x) : convert .int32 (.u32 x) = .ok (.i32 x) := rfl
theorem convert_u32_u64 (x) : convert .uint32 (.u64 x) = .ok (.u32 (x.setWidth 32)) := rfl
theorem convert_u32_i32 (x) : convert .uint32 (.i32 x) = .ok (.u32 x) := rfl
theorem convert_u16_u64 (x) : convert .uint16 (.u64 x) = .ok (.u16 (x.setWidth 16)) := rfl

theorem toIndex_const (n : Nat) : Val.toIndex (.const n) = .ok (n : Int) := rfl
theorem toIndex_int (x) : Val.toIndex (.int x) = .ok x := rfl
theorem toIndex_u64 (x) : Val.toIndex (.u64 x) = .ok (x.toNat : Int) := rfl
theorem toKey_int (f : Nat) : Val.toKey (.int f) = .ok f := rfl
theorem contents_bytes (w : World) (x) : Val.contents w (.bytes x) = .ok (w.src x) := rfl
theorem contents_nil (w : World) : Val.contents w .nil = .ok [] := rfl
theorem length_lit (bs) : Val.length (.bytes (.lit bs)) = .ok bs.length := rfl
theorem length_mem (b) : Val.length (.bytes (.mem b)) = .ok b.len := rfl
theorem length_nil : Val.length .nil = .ok 0 := rfl
theorem src_lit (w : World) (bs) : w.src (.lit bs) = bs := rfl
theorem src_mem (w : World) (b) : w.src (.mem b) = (w.slice b).data := rfl

theorem flat_many (vs) : Val.flat (.many vs) = vs := rfl
theorem flat_u64 (x) : Val.flat (.u64 x) = [.u64 x] := rfl
theorem flat_u32 (x) : Val.flat (.u32 x) = [.u32 x] := rfl
theorem flat_u16 (x) : Val.flat (.u16 x) = [.u16 x] := rfl
theorem flat_int (x) : Val.flat (.int x) = [.int x] := rfl
theorem flat_const (x) : Val.flat (.const x) = [.const x] := rfl
theorem flat_bytes (x) : Val.flat (.bytes x) = [.bytes x] := rfl
theorem flat_str (x) : Val.flat (.str x) = [.str x] := rfl
theorem flat_hdr (x) : Val.flat (.hdr x) = [.hdr x] := rfl
theorem flat_offs (x) : Val.flat (.offs x) = [.offs x] := rfl
theorem flat_bool (x) : Val.flat (.bool x) = [.bool x] := rfl

theorem coerce_int (n : Nat) : Val.coerce .int (.const n) = .int n := rfl
theorem coerce_uint64 (n : Nat) : Val.coerce .uint64 (.const n) = .u64 (BitVec.ofNat 64 n) := rfl
theorem coerce_int64 (n : Nat) : Val.coerce .int64 (.const n) = .i64 (BitVec.ofNat 64 n) := rfl
theorem coerce_uint32 (n : Nat) : Val.coerce .uint32 (.const n) = .u32 (BitVec.ofNat 32 n) := rfl
theorem coerce_int32 (n : Nat) : Val.coerce .int32 (.const n) = .i32 (BitVec.ofNat 32 n) := rfl
theorem coerce_float32 : Val.coerce .float32 (.const 0) = .f32 0#32 := rfl
theorem coerce_float64 : Val.coerce .float64 (.const 0) = .f64 0#64 := rfl
theorem coerce_bool (t b) : Val.coerce t (.bool b) = .bool b := rfl
theorem coerce_vint (t b) : Val.coerce t (.int b) = .int b := rfl
theorem coerce_u64 (t b) : Val.coerce t (.u64 b) = .u64 b := rfl
theorem coerce_i64 (t b) : Val.coerce t (.i64 b) = .i64 b := rfl
theorem coerce_f64 (t b) : Val.coerce t (.f64 b) = .f64 b := rfl
theorem coerce_u32 (t b) : Val.coerce t (.u32 b) = .u32 b := rfl
theorem coerce_i32 (t b) : Val.coerce t (.i32 b) = .i32 b := rfl
theorem coerce_f32 (t b) : Val.coerce t (.f32 b) = .f32 b := rfl
theorem coerce_u16 (t b) : Val.coerce t (.u16 b) = .u16 b := rfl
theorem coerce_nil (t) : Val.coerce t .nil = .nil := rfl
theorem coerce_eof (t) : Val.coerce t .eof = .eof := rfl
theorem coerce_bytes (t b) : Val.coerce t (.bytes b) = .bytes b := rfl
theorem coerce_str (t b) : Val.coerce t (.str b) = .str b := rfl
theorem coerce_hdr (t b) : Val.coerce t (.hdr b) = .hdr b := rfl
theorem coerce_bufPtr (t b) : Val.coerce t (.bufPtr b) = .bufPtr b := rfl
theorem coerce_offs (t b) : Val.coerce t (.offs b) = .offs b := rfl
theorem coerce_arrOf (t b) : Val.coerce t (.arrOf b) = .arrOf b := rfl
theorem coerce_mapPtr (t b) : Val.coerce t (.mapPtr b) = .mapPtr b := rfl
theorem coerce_reps (t b) : Val.coerce t (.reps b) = .reps b := rfl

theorem fieldOf_a (i) : fieldOf (.offs i) .a = .ok (.arrOf i) := rfl
theorem fieldOf_m (i) : fieldOf (.offs i) .m = .ok (.mapPtr i) := rfl
theorem deref_buf (i) : deref h (.bufPtr i) = .ok (.bytes (.mem (h.ms i).buf)) := rfl
theorem deref_map (i) : deref h (.mapPtr i) = .ok (.mapRef (h.ms i).m) := rfl
theorem indexOf_arr (i) (k : Nat) : indexOf h (.arrOf i) (.int k) = match (h.ms i).a[k]? with
    | some x => .ok (.u16 x) | none => .error (.fail .indexOutOfRange) := rfl
theorem indexOf_map (r) (k : Nat) : indexOf h (.mapRef r) (.int k) = .ok (.u64 (match r with
    | none => 0#64 | some id => ((h.w.maps.getD id []).find k).getD 0#64)) := by cases r <;> rfl
theorem indexOf_reps (rep) (k : Nat) : indexOf h (.reps rep) (.int k) = .ok (.many [.nil, .bool (rep k)]) := rfl
theorem sliceFrom_mem (b i) : sliceFrom (.bytes (.mem b)) i = lift (b.dropFrom i) >>= fun t => .ok (.bytes (.mem t)) := rfl
theorem sliceRange_mem (b i j) : sliceRange (.bytes (.mem b)) i j = lift (b.range i j) >>= fun t => .ok (.bytes (.mem t)) := rfl
theorem sliceRange_arr (bs : List Byte) (n : Nat) : sliceRange (.array bs) 0 n =
    if n ≤ bs.length then .ok (.bytes (.lit (bs.take n))) else .error (.fail .sliceBounds) := by
  simp only [sliceRange, Int.toNat_zero, List.drop_zero, Int.toNat_natCast, Nat.sub_zero]
  by_cases e : n ≤ bs.length
  · rw [if_pos (by omega), if_pos e]
  · rw [if_neg (by omega), if_neg e]
theorem castTo_string (x) : castTo .string (.bytes x) = .ok (.str x) := rfl
theorem castTo_header (x) : castTo .StringHeader (.str x) = .ok (.hdr x) := rfl
theorem headerOf_same (x) : headerOf (.data x) (.int (strLen x)) (.int (strLen x)) = .ok (.bytes x) := by simp [headerOf]

theorem lib_len (v) : Lib.apply h .len [v] = v.length >>= fun n => .ok (.int n, h) := rfl
theorem lib_copy (b v) : Lib.apply h .copy [.bytes (.mem b), v] = v.contents h.w >>= fun bs =>
    .ok (.int (min bs.length b.len : Nat), { h with w := h.w.copy b bs }) := rfl
theorem lib_delete_nil (k : Nat) : Lib.apply h .delete [.mapRef none, .int k] = .ok (.many [], h) := rfl
theorem lib_delete (id) (k : Nat) : Lib.apply h .delete [.mapRef (some id), .int k] =
    .ok (.many [], { h with w := { h.w with maps := h.w.maps.set id ((h.w.maps.getD id []).del k) } }) := rfl
theorem lib_uvarint (x) : Lib.apply h .Uvarint [.bytes x] = .ok (.many [.u64 (uvarint (h.w.src x)).1, .int (uvarint (h.w.src x)).2], h) := rfl
theorem lib_varint (x) : Lib.apply h .Varint [.bytes x] = .ok (.many [.i64 (varint (h.w.src x)).1, .int (varint (h.w.src x)).2], h) := rfl
theorem lib_le32 (x) : Lib.apply h .leUint32 [.bytes x] = lift (leUint32 (h.w.src x)) >>= fun y => .ok (.u32 y, h) := rfl
theorem lib_le64 (x) : Lib.apply h .leUint64 [.bytes x] = lift (leUint64 (h.w.src x)) >>= fun y => .ok (.u64 y, h) := rfl
theorem lib_f32b (x) : Lib.apply h .Float32bits [.f32 x] = .ok (.u32 x, h) := rfl
theorem lib_f32 (x) : Lib.apply h .Float32frombits [.u32 x] = .ok (.f32 x, h) := rfl
theorem lib_f64b (x) : Lib.apply h .Float64bits [.f64 x] = .ok (.u64 x, h) := rfl
theorem lib_f64 (x) : Lib.apply h .Float64frombits [.u64 x] = .ok (.f64 x, h) := rfl

theorem put_uvarint (n x) : Put.apply n .PutUvarint (.u64 x) = lift (putUvarint n x) >>= fun bs => .ok (bs, .int bs.length) := rfl
theorem put_varint (n x) : Put.apply n .PutVarint (.i64 x) = lift (putVarint n x) >>= fun bs => .ok (bs, .int bs.length) := rfl
theorem put_le32 (x) : Put.apply 4 .lePutUint32 (.u32 x) = .ok (lePutUint32 x, .many []) := rfl
theorem put_le64 (x) : Put.apply 8 .lePutUint64 (.u64 x) = .ok (lePutUint64 x, .many []) := rfl

theorem results_nil : results [] [] = .ok [] := rfl
theorem results_cons (t ts v vs) : results (t :: ts) (v :: vs) = results ts vs >>= fun rs => .ok (v.coerce t :: rs) := rfl
theorem bindArgs_nil : bindArgs [] [] = .ok [] := rfl
theorem bindArgs_cons (x t ps v vs) : bindArgs ((x, t) :: ps) (v :: vs) = bindArgs ps vs >>= fun env => .ok ((x, v.coerce t) :: env) := rfl
theorem declare_nil (env) : declare [] [] env = .ok env := rfl
theorem declare_some (x xs v vs env) : declare (some x :: xs) (v :: vs) env = declare xs vs ((x, v.coerce .int) :: env) := rfl
theorem declare_none (xs v vs env) : declare (none :: xs) (v :: vs) env = declare xs vs env := rfl
theorem assignTo_const (old n) : Val.assignTo old (.const n) = old.like n := rfl
theorem assignTo_int (old x) : Val.assignTo old (.int x) = .int x := rfl
theorem assignTo_u64 (old x) : Val.assignTo old (.u64 x) = .u64 x := rfl
theorem like_int (x) (n : Nat) : Val.like (.int x) n = .int n := rfl

theorem isNone_none {α : Type} : (none : Option α).isNone = true := rfl
theorem isSome_none {α : Type} : (none : Option α).isSome = false := rfl

end

/-- Execute the interpreter as far as the outcome of tests is known. -/
macro "gosimp" "[" xs:Lean.Parser.Tactic.simpLemma,* "]" : tactic => `(tactic|
  simp -implicitDefEqProofs only [invoke, Func.formals, Option.toList, List.map_cons, List.map_nil, List.flatten_cons, List.flatten_nil,
    List.append_nil, List.cons_append, List.nil_append, exec, execCases, eval, lookup, update, Option.map_some, inScope, pkgConst,
    reduceCtorEq, and_self, true_and, and_false, if_true, if_false, ite_true, ite_false, Int.natCast_nonneg, Int.cast_ofNat_Int, Int.toNat_natCast, store,
    List.length_cons, List.length_nil, Nat.reduceAdd, Nat.reduceSub, List.drop_zero, List.drop_succ_cons,
    decide_true, decide_false, not_true_eq_false, not_false_eq_true, ne_eq, Bool.not_true, Bool.not_false, Const.value,
    wireVarint, wireFixed32, wireFixed64, wireBytes, Option.isNone_some, Option.isSome_some, isNone_none, isSome_none,
    bind_ok, bind_error, lift_ok, lift_error, binop_add_int, binop_or_int, binop_shl_int, binop_eq_int, binop_eq_int_const,
    binop_lt_int, binop_gt_int, binop_ge_int, binop_add_u64, binop_add_u64_const, binop_sub_u64, binop_and_u64, binop_shr_u64, binop_eq_u64,
    binop_le_u64, binop_gt_u64, binop_gt_u64_const, binop_sub_u16, binop_eq_u16, binop_ne_u16, binop_ne_u16_const, binop_eq_nil, binop_eq_bytes, binop_eq_map,
    binop_ne_map, binop_ne_mapPtr, convert_u64_const, convert_u64_int, convert_u64_u64, convert_u64_i64, convert_u64_u32, convert_u64_i32,
    convert_u64_u16, convert_i64_u64, convert_i64_i32, convert_int_int, convert_int_u64, convert_i32_u64, convert_i32_i64,
    convert_i32_u32, convert_u32_u64, convert_u32_i32, convert_u16_u64, toIndex_const, toIndex_int, toIndex_u64, toKey_int,
    contents_bytes, contents_nil, length_lit, length_mem, length_nil, src_lit, src_mem, flat_many, flat_u64, flat_u32, flat_u16, flat_int,
    flat_const, flat_bytes, flat_str, flat_hdr, flat_offs, flat_bool, coerce_int, coerce_uint64, coerce_int64, coerce_uint32, coerce_int32, coerce_float32,
    coerce_float64, coerce_bool, coerce_vint, coerce_u64, coerce_i64, coerce_f64, coerce_u32, coerce_i32, coerce_f32, coerce_u16,
    coerce_nil, coerce_eof, coerce_bytes, coerce_str, coerce_hdr, coerce_bufPtr, coerce_offs, coerce_arrOf, coerce_mapPtr, coerce_reps,
    fieldOf_a, fieldOf_m, deref_buf, deref_map, indexOf_arr, indexOf_map, indexOf_reps, sliceFrom_mem, sliceRange_mem, sliceRange_arr,
    castTo_string, castTo_header, headerOf_same, lib_len, lib_copy, lib_delete_nil, lib_delete, lib_uvarint, lib_varint, lib_le32,
    lib_le64, lib_f32b, lib_f32, lib_f64b, lib_f64, put_uvarint, put_varint, put_le32, put_le64, results_nil, results_cons,
    bindArgs_nil, bindArgs_cons, declare_nil, declare_some, declare_none, assignTo_const, assignTo_int, assignTo_u64, like_int, $xs,*])

end Zeropb.GoSrc
