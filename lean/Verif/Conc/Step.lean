import Verif.GoSrc.Step
import Verif.Conc.Sim
/-!
# Rules for executing the access-by-access interpreter in proofs

Every rule holds by definition. A program is executed up to its next access.
-/

set_option linter.constructorNameAsVariable false

namespace Zeropb.GoSrc.Conc
open Zeropb.GoSrc.G

section
variable {α β : Type}

theorem bindHead {x y : Prog α} (f : α → Prog β) (h : x = y) : (x >>= f) = (y >>= f) := by rw [h]
theorem load_congr (l : Loc) (k : l.ty → Prog α) : Prog.load l k = Prog.load l k := rfl
theorem newMap_congr (k : Nat → Prog α) : Prog.newMap k = Prog.newMap k := rfl
theorem newArr_congr (bs : List Byte) (k : Nat → Prog α) : Prog.newArr bs k = Prog.newArr bs k := rfl
theorem rangeArr_congr (body : Vars → Prog (Out × Vars)) (k v i s) : rangeArr body k v i s = rangeArr body k v i s := rfl
theorem rangeMap_congr (rt : Rt) (body : Vars → Prog (Out × Vars)) (k v i s) : rangeMap rt body k v i s = rangeMap rt body k v i s := rfl
theorem loopWhile_congr (cond : Vars → Prog (Val × Vars)) (body : Vars → Prog (Out × Vars)) (n s) : loopWhile cond body n s = loopWhile cond body n s := rfl

theorem bindEq (p : Prog α) (f : α → Prog β) : p.bind f = (p >>= f) := rfl
theorem done_bind (a : α) (f : α → Prog β) : (Prog.done a >>= f) = f a := rfl
theorem stop_bind (e : Stop) (f : α → Prog β) : ((Prog.stop e : Prog α) >>= f) = .stop e := rfl
theorem load_bind (l : Loc) (k : l.ty → Prog α) (f : α → Prog β) : (Prog.load l k >>= f) = .load l (fun x => k x >>= f) := rfl
theorem store_bind (w : Write) (k : Prog α) (f : α → Prog β) : (Prog.store w k >>= f) = .store w (k >>= f) := rfl
theorem newMap_bind (k : Nat → Prog α) (f : α → Prog β) : (Prog.newMap k >>= f) = .newMap (fun x => k x >>= f) := rfl
theorem newArr_bind (bs : List Byte) (k : Nat → Prog α) (f : α → Prog β) : (Prog.newArr bs k >>= f) = .newArr bs (fun x => k x >>= f) := rfl
theorem bind_assoc' {γ : Type} (p : Prog α) (f : α → Prog β) (g : β → Prog γ) : ((p >>= f) >>= g) = (p >>= fun a => f a >>= g) := by
  show (p.bind f).bind g = p.bind fun a => (f a).bind g
  induction p with
  | done => rfl
  | stop => rfl
  | load l k ih => exact congrArg (Prog.load l) (funext fun x => ih x)
  | store w k ih => exact congrArg (Prog.store w) ih
  | newArr bs k ih => exact congrArg (Prog.newArr bs) (funext fun x => ih x)
  | newMap k ih => exact congrArg Prog.newMap (funext fun x => ih x)
  | newStruct m k ih => exact congrArg (Prog.newStruct m) (funext fun x => ih x)
theorem liftDone (a : α) : lift (.ok a) = .done a := rfl
theorem liftStop (e : Stop) : lift (.error e : M α) = .stop e := rfl

theorem derefBuf (i) : deref (.bufPtr i) = .load (.buf i) fun (b : HSlice) => .done (.bytes (.mem b)) := rfl
theorem derefMap (i) : deref (.mapPtr i) = .load (.ref i) fun (r : Option Nat) => .done (.mapRef r) := rfl
theorem indexArr (i) (k : Nat) : indexOf (.arrOf i) (.int k) = .load (.slot i k) fun (x : Option U16) => match x with
    | some x => .done (.u16 x) | none => .stop (.fail .indexOutOfRange) := if_pos (e := Prog.stop (.fail .indexOutOfRange)) (Int.natCast_nonneg k)
theorem indexMap (id) (k : Nat) : indexOf (.mapRef (some id)) (.int k) = .load (.map id) fun (m : GoMap) => .done (.u64 ((m.find k).getD 0#64)) := rfl
theorem indexNil (k : Nat) : indexOf (.mapRef none) (.int k) = .done (.u64 0#64) := rfl
theorem indexReps (rep) (k : Nat) : indexOf (.reps rep) (.int k) = .done (.many [.nil, .bool (rep k)]) := rfl
theorem libLen (v) : libApply .len [v] = (lift v.length >>= fun n => .done (.int n)) := rfl
theorem libDeleteNil (k : Nat) : libApply .delete [.mapRef none, .int k] = .done (.many []) := rfl
theorem libDelete (id) (k : Nat) : libApply .delete [.mapRef (some id), .int k] =
    .load (.map id) fun (m : GoMap) => .store (.map id (m.del k)) (.done (.many [])) := rfl
theorem libUvarint (x) : libApply .Uvarint [.bytes x] = (readVarint x >>= fun bs => .done (.many [.u64 (uvarint bs).1, .int (uvarint bs).2])) := rfl
theorem libVarint (x) : libApply .Varint [.bytes x] = (readVarint x >>= fun bs => .done (.many [.i64 (varint bs).1, .int (varint bs).2])) := rfl
theorem lib32 (x) : libApply .leUint32 [.bytes x] = (readSrc x >>= fun bs => lift (GoSrc.lift (leUint32 bs)) >>= fun y => .done (.u32 y)) := rfl
theorem lib64 (x) : libApply .leUint64 [.bytes x] = (readSrc x >>= fun bs => lift (GoSrc.lift (leUint64 bs)) >>= fun y => .done (.u64 y)) := rfl
theorem libF32b (x) : libApply .Float32bits [.f32 x] = .done (.u32 x) := rfl
theorem libF32 (x) : libApply .Float32frombits [.u32 x] = .done (.f32 x) := rfl
theorem libF64b (x) : libApply .Float64bits [.f64 x] = .done (.u64 x) := rfl
theorem libF64 (x) : libApply .Float64frombits [.u64 x] = .done (.f64 x) := rfl

end

/-- Execute up to the next access, as far as the outcome of tests is known. -/
macro "csimp" "[" xs:Lean.Parser.Tactic.simpLemma,* "]" : tactic => `(tactic|
  simp -implicitDefEqProofs only [Conc.invoke, Func.formals, Option.toList, List.map_cons, List.map_nil, List.flatten_cons, List.flatten_nil,
    List.append_nil, List.cons_append, List.nil_append, Conc.exec, Conc.execCases, Conc.eval, lookup, update, Option.map_some, Conc.inScope, pkgConst,
    reduceCtorEq, and_self, true_and, and_false, if_true, if_false, ite_true, ite_false, Int.natCast_nonneg, Int.cast_ofNat_Int, Int.toNat_natCast, Conc.store,
    List.length_cons, List.length_nil, Nat.reduceAdd, Nat.reduceSub, List.drop_zero, List.drop_succ_cons,
    decide_true, decide_false, not_true_eq_false, not_false_eq_true, ne_eq, Bool.not_true, Bool.not_false, Const.value,
    wireVarint, wireFixed32, wireFixed64, wireBytes, Option.isNone_some, Option.isSome_some, isNone_none, isSome_none,
    bind_ok, bind_error, lift_ok, lift_error, binop_add_int, binop_or_int, binop_shl_int, binop_eq_int, binop_eq_int_const,
    binop_lt_int, binop_gt_int, binop_ge_int, binop_add_u64, binop_add_u64_const, binop_sub_u64, binop_and_u64, binop_shr_u64, binop_eq_u64,
    binop_le_u64, binop_gt_u64, binop_gt_u64_const, binop_sub_u16, binop_eq_u16, binop_ne_u16, binop_ne_u16_const, binop_eq_nil, binop_eq_bytes, binop_eq_map,
    binop_ne_map, binop_ne_mapPtr, convert_u64_const, convert_u64_int, convert_u64_u64, convert_u64_i64, convert_u64_u32, convert_u64_i32,
    convert_u64_u16, convert_i64_u64, convert_i64_i32, convert_int_int, convert_int_u64, convert_i32_u64, convert_i32_i64,
    convert_i32_u32, convert_u32_u64, convert_u32_i32, convert_u16_u64, toIndex_const, toIndex_int, toIndex_u64, toKey_int,
    length_lit, length_mem, length_nil, flat_many, flat_u64, flat_u32, flat_u16, flat_int,
    flat_const, flat_bytes, flat_str, flat_hdr, flat_offs, flat_bool, coerce_int, coerce_uint64, coerce_int64, coerce_uint32, coerce_int32, coerce_float32,
    coerce_float64, coerce_bool, coerce_vint, coerce_u64, coerce_i64, coerce_f64, coerce_u32, coerce_i32, coerce_f32, coerce_u16,
    coerce_nil, coerce_eof, coerce_bytes, coerce_str, coerce_hdr, coerce_bufPtr, coerce_offs, coerce_arrOf, coerce_mapPtr, coerce_reps,
    fieldOf_a, fieldOf_m, sliceFrom_mem, sliceRange_mem, sliceRange_arr, castTo_string, castTo_header, headerOf_same,
    bindEq, done_bind, stop_bind, load_bind, store_bind, newMap_bind, newArr_bind, bind_assoc', liftDone, liftStop, derefBuf, derefMap, indexArr, indexMap, indexNil, indexReps,
    libLen, libDeleteNil, libDelete, libUvarint, libVarint, lib32, lib64, libF32b, libF32, libF64b, libF64,
    put_uvarint, put_varint, put_le32, put_le64, results_nil, results_cons,
    bindArgs_nil, bindArgs_cons, declare_nil, declare_some, declare_none, assignTo_const, assignTo_int, assignTo_u64, like_int, $xs,*])

end Zeropb.GoSrc.Conc
