import Verif.Conc.Step
import Verif.Conc.Trace
import Verif.GoSrc.Dec
/-!
# The accesses of the getters
-/

set_option linter.constructorNameAsVariable false
set_option linter.unusedSimpArgs false

namespace Zeropb.GoSrc.Conc
open Zeropb.GoSrc.G

attribute [local congr] bindHead load_congr GoSrc.bind_head

/-- The accesses of `Offsets.Get` of field `f` of struct `i`. -/
def find (i f : Nat) : Prog (Option U64) :=
  .load (.slot i f) fun (x : Option U16) => match x with
    | none => .stop (.fail .indexOutOfRange)
    | some x =>
      if x = 65535#16 then .load (.ref i) fun (r : Option Nat) => match r with
        | none => .done (some 0#64)
        | some id => .load (.map id) fun (m : GoMap) => .done (some ((m.find f).getD 0#64))
      else if x = 0#16 then .done none
      else .done (some (x.setWidth 64))

theorem prog_Get (rt : Rt) (fuel d i f : Nat) : goCall rt fuel (d + 1) .Get [.offs i, .int f] = (find i f >>= fun o =>
    .done [.u64 (o.getD 0#64), .bool o.isSome]) := by
  rw [goCall, show funcOf .Get = some srcGet from rfl]
  csimp [srcGet, find]
  refine congrArg (Prog.load _) (funext fun x => ?_)
  cases x with
  | none => rfl
  | some x =>
    by_cases hx : x = 65535#16
    · csimp [hx]
      refine congrArg (Prog.load _) (funext fun r => ?_)
      cases r with
      | none => csimp []; rfl
      | some id =>
        csimp []
        rfl
    · by_cases h0 : x = 0#16
      · csimp [hx, h0]
        rfl
      · csimp [hx, h0]
        rfl
/-- The accesses of a getter of slice `b`: `g` is what it does at the offset of the field. -/
def getP (i f : Nat) (dflt : Val) (g : U64 → Prog (List Val)) : Prog (List Val) :=
  find i f >>= fun o => match o with
    | none => .done [dflt]
    | some off => g off

/-- A varint at the offset. -/
def atVarint (b : HSlice) (k : List Byte → Val) (off : U64) : Prog (List Val) :=
  lift (GoSrc.lift (b.dropFrom off.toNat)) >>= fun t => readVarint (.mem t) >>= fun bs => .done [k bs]

/-- `n` bytes at the offset. -/
def atFixed (b : HSlice) (n : U64) (k : List Byte → M Val) (off : U64) : Prog (List Val) :=
  lift (GoSrc.lift (b.range off.toNat (off + n).toNat)) >>= fun t => readSlice t >>= fun bs => lift (k bs) >>= fun v => .done [v]

/-- A length and as many bytes at the offset. -/
def atBytes (b : HSlice) (k : HSlice → Val) (off : U64) : Prog (List Val) :=
  lift (GoSrc.lift (b.dropFrom off.toNat)) >>= fun t => readVarint (.mem t) >>= fun bs =>
    lift (GoSrc.lift (b.range (off + intToU64 (uvarint bs).2).toNat (off + intToU64 (uvarint bs).2 + (uvarint bs).1).toNat)) >>= fun t => .done [k t]

/-- Everything after the offset. -/
def atRest (b : HSlice) (off : U64) : Prog (List Val) := lift (GoSrc.lift (b.dropFrom off.toNat)) >>= fun t => .done [.bytes (.mem t)]

theorem prog_GetBool (rt : Rt) (fuel d i f : Nat) (b : HSlice) : goCall rt fuel (d + 2) .GetBool [.bytes (.mem b), .offs i, .int f] =
    getP i f (.bool false) (atVarint b (fun bs => .bool (decide ((uvarint bs).1 > 0#64)))) := by
  rw [goCall, show funcOf .GetBool = some srcGetBool from rfl]
  csimp [srcGetBool, prog_Get, getP]
  refine congrArg (find i f >>= ·) (funext fun o => ?_)
  cases o with
  | none => rfl
  | some off =>
    rcases e : b.dropFrom off.toNat with e' | t
    · csimp [atVarint, e, Option.getD_some]
    · csimp [atVarint, e, Option.getD_some]


theorem prog_GetInt32 (rt : Rt) (fuel d i f : Nat) (b : HSlice) : goCall rt fuel (d + 2) .GetInt32 [.bytes (.mem b), .offs i, .int f] =
    getP i f (.i32 0#32) (atVarint b (fun bs => .i32 ((uvarint bs).1.setWidth 32))) := by
  rw [goCall, show funcOf .GetInt32 = some srcGetInt32 from rfl]
  csimp [srcGetInt32, prog_Get, getP]
  refine congrArg (find i f >>= ·) (funext fun o => ?_)
  cases o with
  | none => rfl
  | some off =>
    rcases e : b.dropFrom off.toNat with e' | t
    · csimp [atVarint, e, Option.getD_some]
    · csimp [atVarint, e, Option.getD_some]


theorem prog_GetInt64 (rt : Rt) (fuel d i f : Nat) (b : HSlice) : goCall rt fuel (d + 2) .GetInt64 [.bytes (.mem b), .offs i, .int f] =
    getP i f (.i64 0#64) (atVarint b (fun bs => .i64 (uvarint bs).1)) := by
  rw [goCall, show funcOf .GetInt64 = some srcGetInt64 from rfl]
  csimp [srcGetInt64, prog_Get, getP]
  refine congrArg (find i f >>= ·) (funext fun o => ?_)
  cases o with
  | none => rfl
  | some off =>
    rcases e : b.dropFrom off.toNat with e' | t
    · csimp [atVarint, e, Option.getD_some]
    · csimp [atVarint, e, Option.getD_some]


theorem prog_GetUint32 (rt : Rt) (fuel d i f : Nat) (b : HSlice) : goCall rt fuel (d + 2) .GetUint32 [.bytes (.mem b), .offs i, .int f] =
    getP i f (.u32 0#32) (atVarint b (fun bs => .u32 ((uvarint bs).1.setWidth 32))) := by
  rw [goCall, show funcOf .GetUint32 = some srcGetUint32 from rfl]
  csimp [srcGetUint32, prog_Get, getP]
  refine congrArg (find i f >>= ·) (funext fun o => ?_)
  cases o with
  | none => rfl
  | some off =>
    rcases e : b.dropFrom off.toNat with e' | t
    · csimp [atVarint, e, Option.getD_some]
    · csimp [atVarint, e, Option.getD_some]


theorem prog_GetUint64 (rt : Rt) (fuel d i f : Nat) (b : HSlice) : goCall rt fuel (d + 2) .GetUint64 [.bytes (.mem b), .offs i, .int f] =
    getP i f (.u64 0#64) (atVarint b (fun bs => .u64 (uvarint bs).1)) := by
  rw [goCall, show funcOf .GetUint64 = some srcGetUint64 from rfl]
  csimp [srcGetUint64, prog_Get, getP]
  refine congrArg (find i f >>= ·) (funext fun o => ?_)
  cases o with
  | none => rfl
  | some off =>
    rcases e : b.dropFrom off.toNat with e' | t
    · csimp [atVarint, e, Option.getD_some]
    · csimp [atVarint, e, Option.getD_some]


theorem prog_GetZigZagInt32 (rt : Rt) (fuel d i f : Nat) (b : HSlice) : goCall rt fuel (d + 2) .GetZigZagInt32 [.bytes (.mem b), .offs i, .int f] =
    getP i f (.i32 0#32) (atVarint b (fun bs => .i32 ((varint bs).1.setWidth 32))) := by
  rw [goCall, show funcOf .GetZigZagInt32 = some srcGetZigZagInt32 from rfl]
  csimp [srcGetZigZagInt32, prog_Get, getP]
  refine congrArg (find i f >>= ·) (funext fun o => ?_)
  cases o with
  | none => rfl
  | some off =>
    rcases e : b.dropFrom off.toNat with e' | t
    · csimp [atVarint, e, Option.getD_some]
    · csimp [atVarint, e, Option.getD_some]


theorem prog_GetZigZagInt64 (rt : Rt) (fuel d i f : Nat) (b : HSlice) : goCall rt fuel (d + 2) .GetZigZagInt64 [.bytes (.mem b), .offs i, .int f] =
    getP i f (.i64 0#64) (atVarint b (fun bs => .i64 (varint bs).1)) := by
  rw [goCall, show funcOf .GetZigZagInt64 = some srcGetZigZagInt64 from rfl]
  csimp [srcGetZigZagInt64, prog_Get, getP]
  refine congrArg (find i f >>= ·) (funext fun o => ?_)
  cases o with
  | none => rfl
  | some off =>
    rcases e : b.dropFrom off.toNat with e' | t
    · csimp [atVarint, e, Option.getD_some]
    · csimp [atVarint, e, Option.getD_some]


theorem prog_GetFixedUint32 (rt : Rt) (fuel d i f : Nat) (b : HSlice) : goCall rt fuel (d + 2) .GetFixedUint32 [.bytes (.mem b), .offs i, .int f] =
    getP i f (.u32 0#32) (atFixed b 4#64 (fun bs => GoSrc.lift (leUint32 bs) >>= fun x => .ok (.u32 x))) := by
  rw [goCall, show funcOf .GetFixedUint32 = some srcGetFixedUint32 from rfl]
  csimp [srcGetFixedUint32, prog_Get, getP]
  refine congrArg (find i f >>= ·) (funext fun o => ?_)
  cases o with
  | none => rfl
  | some off =>
    rcases e : b.range off.toNat (off + 4#64).toNat with e' | t
    · csimp [atFixed, e, Option.getD_some]
    · csimp [atFixed, e, Option.getD_some, readSrc]
      refine congrArg (readSlice t >>= ·) (funext fun bs => ?_)
      rcases e2 : leUint32 bs with e' | x
      · csimp [e2]
      · csimp [e2]


theorem prog_GetFixedUint64 (rt : Rt) (fuel d i f : Nat) (b : HSlice) : goCall rt fuel (d + 2) .GetFixedUint64 [.bytes (.mem b), .offs i, .int f] =
    getP i f (.u64 0#64) (atFixed b 8#64 (fun bs => GoSrc.lift (leUint64 bs) >>= fun x => .ok (.u64 x))) := by
  rw [goCall, show funcOf .GetFixedUint64 = some srcGetFixedUint64 from rfl]
  csimp [srcGetFixedUint64, prog_Get, getP]
  refine congrArg (find i f >>= ·) (funext fun o => ?_)
  cases o with
  | none => rfl
  | some off =>
    rcases e : b.range off.toNat (off + 8#64).toNat with e' | t
    · csimp [atFixed, e, Option.getD_some]
    · csimp [atFixed, e, Option.getD_some, readSrc]
      refine congrArg (readSlice t >>= ·) (funext fun bs => ?_)
      rcases e2 : leUint64 bs with e' | x
      · csimp [e2]
      · csimp [e2]


theorem prog_GetFixedInt32 (rt : Rt) (fuel d i f : Nat) (b : HSlice) : goCall rt fuel (d + 2) .GetFixedInt32 [.bytes (.mem b), .offs i, .int f] =
    getP i f (.i32 0#32) (atFixed b 4#64 (fun bs => GoSrc.lift (leUint32 bs) >>= fun x => .ok (.i32 x))) := by
  rw [goCall, show funcOf .GetFixedInt32 = some srcGetFixedInt32 from rfl]
  csimp [srcGetFixedInt32, prog_Get, getP]
  refine congrArg (find i f >>= ·) (funext fun o => ?_)
  cases o with
  | none => rfl
  | some off =>
    rcases e : b.range off.toNat (off + 4#64).toNat with e' | t
    · csimp [atFixed, e, Option.getD_some]
    · csimp [atFixed, e, Option.getD_some, readSrc]
      refine congrArg (readSlice t >>= ·) (funext fun bs => ?_)
      rcases e2 : leUint32 bs with e' | x
      · csimp [e2]
      · csimp [e2]


theorem prog_GetFixedInt64 (rt : Rt) (fuel d i f : Nat) (b : HSlice) : goCall rt fuel (d + 2) .GetFixedInt64 [.bytes (.mem b), .offs i, .int f] =
    getP i f (.i64 0#64) (atFixed b 8#64 (fun bs => GoSrc.lift (leUint64 bs) >>= fun x => .ok (.i64 x))) := by
  rw [goCall, show funcOf .GetFixedInt64 = some srcGetFixedInt64 from rfl]
  csimp [srcGetFixedInt64, prog_Get, getP]
  refine congrArg (find i f >>= ·) (funext fun o => ?_)
  cases o with
  | none => rfl
  | some off =>
    rcases e : b.range off.toNat (off + 8#64).toNat with e' | t
    · csimp [atFixed, e, Option.getD_some]
    · csimp [atFixed, e, Option.getD_some, readSrc]
      refine congrArg (readSlice t >>= ·) (funext fun bs => ?_)
      rcases e2 : leUint64 bs with e' | x
      · csimp [e2]
      · csimp [e2]


theorem prog_GetFloat32 (rt : Rt) (fuel d i f : Nat) (b : HSlice) : goCall rt fuel (d + 2) .GetFloat32 [.bytes (.mem b), .offs i, .int f] =
    getP i f (.f32 0#32) (atFixed b 4#64 (fun bs => GoSrc.lift (leUint32 bs) >>= fun x => .ok (.f32 x))) := by
  rw [goCall, show funcOf .GetFloat32 = some srcGetFloat32 from rfl]
  csimp [srcGetFloat32, prog_Get, getP]
  refine congrArg (find i f >>= ·) (funext fun o => ?_)
  cases o with
  | none => rfl
  | some off =>
    rcases e : b.range off.toNat (off + 4#64).toNat with e' | t
    · csimp [atFixed, e, Option.getD_some]
    · csimp [atFixed, e, Option.getD_some, readSrc]
      refine congrArg (readSlice t >>= ·) (funext fun bs => ?_)
      rcases e2 : leUint32 bs with e' | x
      · csimp [e2]
      · csimp [e2]


theorem prog_GetFloat64 (rt : Rt) (fuel d i f : Nat) (b : HSlice) : goCall rt fuel (d + 2) .GetFloat64 [.bytes (.mem b), .offs i, .int f] =
    getP i f (.f64 0#64) (atFixed b 8#64 (fun bs => GoSrc.lift (leUint64 bs) >>= fun x => .ok (.f64 x))) := by
  rw [goCall, show funcOf .GetFloat64 = some srcGetFloat64 from rfl]
  csimp [srcGetFloat64, prog_Get, getP]
  refine congrArg (find i f >>= ·) (funext fun o => ?_)
  cases o with
  | none => rfl
  | some off =>
    rcases e : b.range off.toNat (off + 8#64).toNat with e' | t
    · csimp [atFixed, e, Option.getD_some]
    · csimp [atFixed, e, Option.getD_some, readSrc]
      refine congrArg (readSlice t >>= ·) (funext fun bs => ?_)
      rcases e2 : leUint64 bs with e' | x
      · csimp [e2]
      · csimp [e2]


theorem prog_GetString (rt : Rt) (fuel d i f : Nat) (b : HSlice) : goCall rt fuel (d + 2) .GetString [.bytes (.mem b), .offs i, .int f] =
    getP i f (.str (.lit [])) (atBytes b (fun t => .str (.mem t))) := by
  rw [goCall, show funcOf .GetString = some srcGetString from rfl]
  csimp [srcGetString, prog_Get, getP]
  refine congrArg (find i f >>= ·) (funext fun o => ?_)
  cases o with
  | none => rfl
  | some off =>
    rcases e : b.dropFrom off.toNat with e' | t
    · csimp [atBytes, e, Option.getD_some]
    · csimp [atBytes, e, Option.getD_some]
      refine congrArg (readVarint (.mem t) >>= ·) (funext fun bs => ?_)
      rcases e2 : b.range (off + intToU64 (uvarint bs).2).toNat (off + intToU64 (uvarint bs).2 + (uvarint bs).1).toNat with e' | u
      · csimp [e2]
      · csimp [e2]


theorem prog_GetBytes (rt : Rt) (fuel d i f : Nat) (b : HSlice) : goCall rt fuel (d + 2) .GetBytes [.bytes (.mem b), .offs i, .int f] =
    getP i f .nil (atBytes b (fun t => .bytes (.mem t))) := by
  rw [goCall, show funcOf .GetBytes = some srcGetBytes from rfl]
  csimp [srcGetBytes, prog_Get, getP]
  refine congrArg (find i f >>= ·) (funext fun o => ?_)
  cases o with
  | none => rfl
  | some off =>
    rcases e : b.dropFrom off.toNat with e' | t
    · csimp [atBytes, e, Option.getD_some]
    · csimp [atBytes, e, Option.getD_some]
      refine congrArg (readVarint (.mem t) >>= ·) (funext fun bs => ?_)
      rcases e2 : b.range (off + intToU64 (uvarint bs).2).toNat (off + intToU64 (uvarint bs).2 + (uvarint bs).1).toNat with e' | u
      · csimp [e2]
      · csimp [e2]


theorem prog_GetRepeatedNonPacked (rt : Rt) (fuel d i f : Nat) (b : HSlice) : goCall rt fuel (d + 2) .GetRepeatedNonPacked [.bytes (.mem b), .offs i, .int f] =
    getP i f .nil (atRest b) := by
  rw [goCall, show funcOf .GetRepeatedNonPacked = some srcGetRepeatedNonPacked from rfl]
  csimp [srcGetRepeatedNonPacked, prog_Get, getP]
  refine congrArg (find i f >>= ·) (funext fun o => ?_)
  cases o with
  | none => rfl
  | some off =>
    rcases e : b.dropFrom off.toNat with e' | t
    · csimp [atRest, e, Option.getD_some]
    · csimp [atRest, e, Option.getD_some]


/-! ## The offsets -/

theorem table_find (i f : Nat) : Table 3 (find i f) := by
  refine .load (by simp) fun x => ?_
  cases (x : Option U16) with
  | none => exact .stop
  | some x =>
    show Table 2 (ite _ _ _)
    split
    · refine .load (by simp) fun r => ?_
      cases (r : Option Nat) with
      | none => exact .done
      | some id => exact .load (by simp) fun m => .done
    · split <;> exact .done

theorem table_Get (rt : Rt) (fuel d i f : Nat) : Table 3 (goCall rt fuel (d + 1) .Get [.offs i, .int f]) := by
  rw [prog_Get]
  exact (table_find i f).bind fun _ => Table.done (n := 0)

/-- The accesses of `Offsets.Set` of field `f` of struct `i`. -/
def setP (i f : Nat) (x : U64) : Prog (List Val) :=
  if x ≤ 65534#64 then .load (.slot i f) fun (v : Option U16) => match v with
    | none => .stop (.fail .indexOutOfRange)
    | some v =>
      let rest : Prog (List Val) := .load (.slots i) fun (n : Nat) => if f < n then .store (.slot i f (x.setWidth 16)) (.done []) else .stop (.fail .indexOutOfRange)
      if v = 65535#16 then .load (.ref i) fun (r : Option Nat) => match r with
        | none => rest
        | some id => .load (.map id) fun (m : GoMap) => .store (.map id (m.del f)) rest
      else rest
  else .load (.slots i) fun (n : Nat) => if f < n then .store (.slot i f 65535#16) (.load (.ref i) fun (r : Option Nat) =>
      let rest : Prog (List Val) := .load (.ref i) fun (r : Option Nat) => match r with
        | none => .stop .stuck
        | some id => .load (.map id) fun (m : GoMap) => .store (.map id (m.put f x)) (.done [])
      match r with
      | none => .newMap fun id => .store (.ref i (some id)) rest
      | some _ => rest)
    else .stop (.fail .indexOutOfRange)

theorem maxInArray : (65535#16 - 1#16).setWidth 64 = 65534#64 := by decide

theorem prog_Set (rt : Rt) (fuel d i f : Nat) (x : U64) : goCall rt fuel (d + 1) .Set [.offs i, .int f, .u64 x] = setP i f x := by
  rw [goCall, show funcOf .Set = some srcSet from rfl]
  by_cases h : x ≤ 65534#64
  · csimp [srcSet, setP, maxInArray, h]
    refine congrArg (Prog.load _) (funext fun v => ?_)
    cases (v : Option U16) with
    | none => rfl
    | some v =>
      by_cases hv : v = 65535#16
      · csimp [hv]
        refine congrArg (Prog.load _) (funext fun r => ?_)
        cases (r : Option Nat) with
        | none =>
          csimp []
          refine congrArg (Prog.load _) (funext fun (n : Nat) => ?_)
          by_cases hn : f < n
          · csimp [Int.ofNat_lt.2 hn, hn]
          · csimp [show ¬ (f : Int) < n by omega, hn]
        | some id =>
          csimp []
          refine congrArg (Prog.load _) (funext fun m => ?_)
          csimp []
          refine congrArg (Prog.store _) ?_
          refine congrArg (Prog.load _) (funext fun (n : Nat) => ?_)
          by_cases hn : f < n
          · csimp [Int.ofNat_lt.2 hn, hn]
          · csimp [show ¬ (f : Int) < n by omega, hn]
      · csimp [hv]
        refine congrArg (Prog.load _) (funext fun (n : Nat) => ?_)
        by_cases hn : f < n
        · csimp [Int.ofNat_lt.2 hn, hn]
        · csimp [show ¬ (f : Int) < n by omega, hn]
  · csimp [srcSet, setP, maxInArray, h]
    refine congrArg (Prog.load _) (funext fun (n : Nat) => ?_)
    by_cases hn : f < n
    · csimp [Int.ofNat_lt.2 hn, hn]
      refine congrArg (Prog.store _) ?_
      refine congrArg (Prog.load _) (funext fun r => ?_)
      cases (r : Option Nat) with
      | none =>
        csimp []
        refine congrArg Prog.newMap (funext fun id => ?_)
        refine congrArg (Prog.store _) ?_
        refine congrArg (Prog.load _) (funext fun r => ?_)
        cases (r : Option Nat) with
        | none => csimp []
        | some id =>
          csimp []
          refine congrArg (Prog.load _) (funext fun m => ?_)
          csimp []
      | some id =>
        csimp []
        refine congrArg (Prog.load _) (funext fun r => ?_)
        cases (r : Option Nat) with
        | none => csimp []
        | some id =>
          csimp []
          refine congrArg (Prog.load _) (funext fun m => ?_)
          csimp []
    · csimp [show ¬ (f : Int) < n by omega, hn]

theorem table_Set (rt : Rt) (fuel d i f : Nat) (x : U64) : Table 7 (goCall rt fuel (d + 1) .Set [.offs i, .int f, .u64 x]) := by
  have hput : ∀ y : U16, Table 1 (Prog.load (.slots i) fun (n : Nat) => if f < n then .store (.slot i f y) (.done ([] : List Val)) else .stop (.fail .indexOutOfRange)) := by
    intro y
    refine .size fun (n : Nat) => ?_
    show Table 1 (ite _ _ _)
    split
    · exact .store (by simp [Write.loc]) .done
    · exact .stop
  have hmap : Table 3 (Prog.load (.ref i) fun (r : Option Nat) => match r with
      | none => .stop .stuck
      | some id => .load (.map id) fun (m : GoMap) => .store (.map id (m.put f x)) (.done ([] : List Val))) := by
    refine .load (by simp) fun (r : Option Nat) => ?_
    cases r with
    | none => exact .stop
    | some id => exact .load (by simp) fun m => .store (by simp [Write.loc]) .done
  rw [prog_Set]
  unfold setP
  split
  · refine .load (by simp) fun (v : Option U16) => ?_
    cases v with
    | none => exact .stop
    | some v =>
      show Table 6 (ite _ _ _)
      split
      · refine .load (by simp) fun (r : Option Nat) => ?_
        cases r with
        | none => exact (hput _).mono (by omega)
        | some id => exact .load (by simp) fun m => .store (by simp [Write.loc]) ((hput _).mono (by omega))
      · exact (hput _).mono (by omega)
  · refine .size fun (n : Nat) => ?_
    show Table 7 (ite _ _ _)
    split
    · refine .store (by simp [Write.loc]) (.load (by simp) fun (r : Option Nat) => ?_)
      cases r with
      | none => exact .newMap fun id => .store (by simp [Write.loc]) hmap
      | some id => exact hmap.mono (by omega)
    · exact .stop

/-- A loop over given numbers. -/
def forP (f : Nat → Prog Unit) : List Nat → Prog Unit
  | [] => .done ()
  | k :: ks => f k >>= fun _ => forP f ks

theorem forEach_forP {body : Nat → Vars → Prog (Out × Vars)} {f : Nat → Prog Unit} {env : Vars} (h : ∀ k, body k env = (f k >>= fun _ => .done (.next, env)))
    (ks : List Nat) : forEach body ks env = (forP f ks >>= fun _ => .done (.next, env)) := by
  induction ks with
  | nil => rfl
  | cons k ks ih =>
    simp only [forEach, forP, h, bind_assoc', done_bind, ih]

theorem table_forP {c : Nat} {f : Nat → Prog Unit} (h : ∀ k, Table c (f k)) (ks : List Nat) : Table (c * ks.length) (forP f ks) := by
  induction ks with
  | nil => exact .done
  | cons k ks ih =>
    refine ((h k).bind fun _ => ih).mono ?_
    rw [List.length_cons, Nat.mul_add]
    omega

/-- One round of the first loop of `Clear`. -/
def clear1 (i k : Nat) : Prog Unit :=
  .load (.slot i k) fun (x : Option U16) => match x with
    | none => .stop .stuck
    | some _ => .load (.slots i) fun (n : Nat) => if k < n then .store (.slot i k 0#16) (.done ()) else .stop (.fail .indexOutOfRange)

/-- One round of the second loop of `Clear`. -/
def clear2 (i id k : Nat) : Prog Unit :=
  .load (.map id) fun (m : GoMap) => match m.find k with
    | none => .done ()
    | some _ => .load (.ref i) fun (r : Option Nat) => match r with
      | none => .done ()
      | some id => .load (.map id) fun (m : GoMap) => .store (.map id (m.del k)) (.done ())

/-- The accesses of `Clear`. -/
def clearP (rt : Rt) (i : Nat) : Prog (List Val) :=
  .load (.slots i) fun (n : Nat) => forP (clear1 i) (List.range n) >>= fun _ => .load (.ref i) fun (r : Option Nat) => match r with
    | none => .done []
    | some _ => .load (.ref i) fun (r : Option Nat) => match r with
      | none => .done []
      | some id => .load (.map id) fun (m : GoMap) => forP (clear2 i id) (rt.perm m.keys) >>= fun _ => .done []

theorem prog_clear1 (rt : Rt) (call : Calls) (fuel i : Nat) : rangeArr (exec rt call fuel srcClear_loop1) .i none i [(.o, .offs i)] =
    .load (.slots i) fun (n : Nat) => forP (clear1 i) (List.range n) >>= fun _ => .done (.next, [(.o, .offs i)]) := by
  refine congrArg (Prog.load _) (funext fun (n : Nat) => ?_)
  refine forEach_forP ?_ _
  intro k
  refine congrArg (Prog.load _) (funext fun (x : Option U16) => ?_)
  cases x with
  | none => rfl
  | some x =>
    csimp [srcClear_loop1, bindSnd]
    refine congrArg (Prog.load _) (funext fun (n : Nat) => ?_)
    by_cases hn : k < n
    · csimp [Int.ofNat_lt.2 hn, hn]
    · csimp [show ¬ (k : Int) < n by omega, hn]

theorem prog_clear2 (rt : Rt) (call : Calls) (fuel i id : Nat) : rangeMap rt (exec rt call fuel srcClear_loop2) .f none id [(.o, .offs i)] =
    .load (.map id) fun (m : GoMap) => forP (clear2 i id) (rt.perm m.keys) >>= fun _ => .done (.next, [(.o, .offs i)]) := by
  refine congrArg (Prog.load _) (funext fun (m : GoMap) => ?_)
  refine forEach_forP ?_ _
  intro k
  refine congrArg (Prog.load _) (funext fun (m : GoMap) => ?_)
  cases hf : m.find k with
  | none => csimp [hf]
  | some x =>
    csimp [srcClear_loop2, bindSnd, hf]
    refine congrArg (Prog.load _) (funext fun (r : Option Nat) => ?_)
    cases r with
    | none => csimp []
    | some id =>
      csimp []
      rfl

attribute [local congr] rangeArr_congr rangeMap_congr

theorem prog_Clear (rt : Rt) (fuel d i : Nat) : goCall rt fuel (d + 1) .Clear [.offs i] = clearP rt i := by
  rw [goCall, show funcOf .Clear = some srcClear from rfl]
  csimp [srcClear, prog_clear1, clearP]
  refine congrArg (Prog.load _) (funext fun (n : Nat) => ?_)
  csimp []
  refine congrArg (forP (clear1 i) (List.range n) >>= ·) (funext fun _ => ?_)
  refine congrArg (Prog.load _) (funext fun (r : Option Nat) => ?_)
  cases r with
  | none => csimp []
  | some id =>
    csimp []
    refine congrArg (Prog.load _) (funext fun (r : Option Nat) => ?_)
    cases r with
    | none => csimp []
    | some id =>
      csimp [prog_clear2]
      refine congrArg (Prog.load _) (funext fun (m : GoMap) => ?_)
      csimp []

/-! ## Decode -/

/-- The accesses of `fieldDataSize`. -/
def sizeP (typ : U64) (t : HSlice) : Prog Int :=
  if typ = 0#64 then readVarint (.mem t) >>= fun bs => .done (uvarint bs).2
  else if typ = 5#64 then .done 4
  else if typ = 1#64 then .done 8
  else if typ = 2#64 then readVarint (.mem t) >>= fun bs => .done (if (uvarint bs).2 = 0 then 0 else addInt (uvarint bs).2 (u64ToInt (uvarint bs).1))
  else .stop (.fail .unsupportedType)

theorem prog_fieldDataSize (rt : Rt) (fuel d : Nat) (typ : U64) (t : HSlice) : goCall rt fuel (d + 1) .fieldDataSize [.u64 typ, .bytes (.mem t)] =
    (sizeP typ t >>= fun n => .done [.int n]) := by
  rw [goCall, show funcOf .fieldDataSize = some srcFieldDataSize from rfl]
  unfold sizeP
  by_cases h0 : typ = 0#64
  · csimp [srcFieldDataSize, h0]
  by_cases h5 : typ = 5#64
  · csimp [srcFieldDataSize, h5, show ¬ (5#64 = 0#64) by decide]
  by_cases h1 : typ = 1#64
  · csimp [srcFieldDataSize, h1, show ¬ (1#64 = 0#64) by decide, show ¬ (1#64 = 5#64) by decide]
  by_cases h2 : typ = 2#64
  · csimp [srcFieldDataSize, h2, show ¬ (2#64 = 0#64) by decide, show ¬ (2#64 = 5#64) by decide, show ¬ (2#64 = 1#64) by decide]
    refine congrArg (readVarint (.mem t) >>= ·) (funext fun bs => ?_)
    by_cases hz : (uvarint bs).2 = 0
    · csimp [eq_true hz]
    · csimp [hz]
  · csimp [srcFieldDataSize, h0, h5, h1, h2]

/-- The accesses that note the position of a field. -/
def noteP (rep : Nat → Bool) (i f : Nat) (x : U64) : Prog (List Val) :=
  if rep f then find i f >>= fun o => if o.isSome then .done [] else setP i f x else setP i f x

/-- The accesses of one round of the loop of `Decode`, at position `idx`: the new position, and the error if the loop ends. -/
def decStep (b : HSlice) (i : Nat) (rep : Nat → Bool) (idx : Int) : Prog (Int × Option (Option DecErr)) :=
  if idx = (b.len : Int) then .done (idx, some none)
  else if idx > (b.len : Int) then .done (idx, some (some .unexpectedEOF))
  else lift (GoSrc.lift (b.dropFrom idx)) >>= fun t => readVarint (.mem t) >>= fun bs =>
    if (uvarint bs).2 = 0 then .done (idx, some (some .unexpectedEOF))
    else if addInt idx (uvarint bs).2 ≥ (b.len : Int) then .done (addInt idx (uvarint bs).2, some (some .unexpectedEOF))
    else noteP rep i (tagField (uvarint bs).1) (intToU64 (addInt idx (uvarint bs).2)) >>= fun _ =>
      lift (GoSrc.lift (b.dropFrom (addInt idx (uvarint bs).2))) >>= fun t => sizeP ((uvarint bs).1 &&& 7#64) t >>= fun n =>
        if n = 0 then .done (addInt idx (uvarint bs).2, some (some .unexpectedEOF)) else .done (addInt (addInt idx (uvarint bs).2) n, none)

/-- The end of a round, after the position has been noted. -/
local macro "decTail" b:term "," idx:term "," tag:term : tactic => `(tactic| (
  rcases e3 : HSlice.dropFrom $b $idx with e | t
  · csimp [e3]
  · csimp [e3, prog_fieldDataSize]
    refine congrArg (sizeP ($tag &&& 7#64) t >>= ·) (funext fun n => ?_)
    by_cases h5 : n = 0
    · csimp [eq_true h5, errVal]
    · csimp [h5]))

theorem prog_decStep (rt : Rt) (fuel d : Nat) (b : HSlice) (i : Nat) (rep : Nat → Bool) (idx : Int) :
    inScope (exec rt (goCall rt fuel (d + 1)) fuel srcDecode_loop1) (decEnv b i rep idx) = (decStep b i rep idx >>= fun r => match r.2 with
      | none => .done (.next, decEnv b i rep r.1)
      | some v => .done (.ret [errVal v], decEnv b i rep r.1)) := by
  unfold decStep
  by_cases h1 : idx = (b.len : Int)
  · csimp [srcDecode_loop1, decEnv, eq_true h1, errVal]
  by_cases h2 : idx > (b.len : Int)
  · csimp [srcDecode_loop1, decEnv, h1, eq_true h2, errVal]
  rcases e1 : b.dropFrom idx with e | t
  · csimp [srcDecode_loop1, decEnv, h1, h2, e1]
  csimp [srcDecode_loop1, decEnv, h1, h2, e1]
  refine congrArg (readVarint (.mem t) >>= ·) (funext fun bs => ?_)
  obtain ⟨tag, size, hu⟩ : ∃ tag size, uvarint bs = (tag, size) := ⟨_, _, rfl⟩
  rw [hu]
  by_cases h3 : size = 0
  · csimp [eq_true h3, errVal]
  obtain ⟨idx2, hi⟩ : ∃ j, addInt idx size = j := ⟨_, rfl⟩
  by_cases h4 : idx2 ≥ (b.len : Int)
  · csimp [h3, hi, eq_true h4, errVal]
  obtain ⟨fid, hfid⟩ : ∃ n, tagField tag = n := ⟨_, rfl⟩
  have hid : u64ToInt (tag >>> 3) = (fid : Int) := by rw [u64ToInt_shr, hfid]
  cases hr : rep fid with
  | false =>
    csimp [h3, hi, h4, hid, hr, hfid, noteP, prog_Set]
    refine congrArg (setP i fid (intToU64 idx2) >>= ·) (funext fun _ => ?_)
    decTail b, idx2, tag
  | true =>
    csimp [h3, hi, h4, hid, hr, hfid, noteP, prog_Get]
    refine congrArg (find i fid >>= ·) (funext fun o => ?_)
    cases o with
    | none =>
      csimp [prog_Set, Bool.false_eq_true]
      refine congrArg (setP i fid (intToU64 idx2) >>= ·) (funext fun _ => ?_)
      decTail b, idx2, tag
    | some x =>
      csimp []
      decTail b, idx2, tag

/-- The accesses of the loop of `Decode`. -/
def decLoop (b : HSlice) (i : Nat) (rep : Nat → Bool) : Nat → Int → Prog (Int × Option DecErr)
  | 0, _ => .stop .stuck
  | n + 1, idx => decStep b i rep idx >>= fun r => match r.2 with
    | none => decLoop b i rep n r.1
    | some v => .done (r.1, v)

theorem prog_decLoop (rt : Rt) (fuel d : Nat) (b : HSlice) (i : Nat) (rep : Nat → Bool) (n : Nat) (idx : Int) :
    loopWhile (fun env => .done (.bool true, env)) (exec rt (goCall rt fuel (d + 1)) fuel srcDecode_loop1) n (decEnv b i rep idx) =
    (decLoop b i rep n idx >>= fun r => .done (.ret [errVal r.2], decEnv b i rep r.1)) := by
  induction n generalizing idx with
  | zero => rfl
  | succ n ih =>
    simp only [loopWhile, done_bind, prog_decStep, decLoop, bind_assoc']
    refine congrArg (decStep b i rep idx >>= ·) (funext fun r => ?_)
    obtain ⟨idx', o⟩ := r
    cases o with
    | none => simp only [done_bind]; exact ih idx'
    | some v => rfl

attribute [local congr] loopWhile_congr

theorem prog_Decode (rt : Rt) (fuel d : Nat) (b : HSlice) (i : Nat) (rep : Nat → Bool) :
    goCall rt fuel (d + 2) .Decode [.bytes (.mem b), .offs i, .reps rep] = (clearP rt i >>= fun _ => decLoop b i rep fuel 0 >>= fun r => .done [errVal r.2]) := by
  rw [goCall, show funcOf .Decode = some srcDecode from rfl]
  csimp [srcDecode, prog_Clear]
  refine congrArg (clearP rt i >>= ·) (funext fun _ => ?_)
  have h := prog_decLoop rt fuel d b i rep fuel 0
  simp only [decEnv] at h
  csimp [h]
  refine congrArg (decLoop b i rep fuel 0 >>= ·) (funext fun r => ?_)
  obtain ⟨j, _ | ⟨⟨⟩⟩⟩ := r <;> rfl

/-! ## FindNextField -/

/-- The accesses of one round of the loop of `FindNextField`. -/
def findStepP (b : HSlice) (field : Nat) (idx : Int) : Prog (Int × Option HSlice) :=
  lift (GoSrc.lift (b.dropFrom idx)) >>= fun t => readVarint (.mem t) >>= fun bs =>
    lift (GoSrc.lift (b.dropFrom (addInt idx (uvarint bs).2))) >>= fun t =>
      if tagField (uvarint bs).1 = field then .done (addInt idx (uvarint bs).2, some t)
      else sizeP ((uvarint bs).1 &&& 7#64) t >>= fun n => .done (addInt (addInt idx (uvarint bs).2) n, none)

/-- The variables of `FindNextField` in its loop. -/
def findEnv (b msg : HSlice) (field : Nat) (msgLen : U64) (lenSize : Int) (idx : Int) : List (Id × Val) :=
  [(.idx, .int idx), (.msg, .bytes (.mem msg)), (.lenSize, .int lenSize), (.msgLen, .u64 msgLen), (.buf, .bytes (.mem b)), (.field, .int field)]

theorem prog_findStep (rt : Rt) (fuel d : Nat) (b msg : HSlice) (field : Nat) (msgLen : U64) (lenSize idx : Int) :
    inScope (exec rt (goCall rt fuel (d + 1)) fuel srcFindNextField_loop1) (findEnv b msg field msgLen lenSize idx) = (findStepP b field idx >>= fun r => match r.2 with
      | none => .done (.next, findEnv b msg field msgLen lenSize r.1)
      | some t => .done (.ret [.bytes (.mem t), .bytes (.mem msg)], findEnv b msg field msgLen lenSize r.1)) := by
  unfold findStepP
  rcases e1 : b.dropFrom idx with e | t
  · csimp [srcFindNextField_loop1, findEnv, e1]
  csimp [srcFindNextField_loop1, findEnv, e1]
  refine congrArg (readVarint (.mem t) >>= ·) (funext fun bs => ?_)
  obtain ⟨tag, size, hu⟩ : ∃ tag size, uvarint bs = (tag, size) := ⟨_, _, rfl⟩
  rw [hu]
  obtain ⟨idx2, hi⟩ : ∃ j, addInt idx size = j := ⟨_, rfl⟩
  obtain ⟨fid, hfid⟩ : ∃ n, tagField tag = n := ⟨_, rfl⟩
  have hid : u64ToInt (tag >>> 3) = (fid : Int) := by rw [u64ToInt_shr, hfid]
  rcases e3 : b.dropFrom idx2 with e | t
  · by_cases hf : fid = field
    · csimp [hi, hid, eq_true (show (fid : Int) = (field : Int) by omega), e3, hfid, hf]
    · csimp [hi, hid, show ¬ (fid : Int) = (field : Int) by omega, e3, hfid, hf]
  · by_cases hf : fid = field
    · csimp [hi, hid, eq_true (show (fid : Int) = (field : Int) by omega), e3, hfid, hf]
    · csimp [hi, hid, show ¬ (fid : Int) = (field : Int) by omega, e3, hfid, hf, prog_fieldDataSize]

/-- The accesses of the loop of `FindNextField`. -/
def findLoop (b : HSlice) (field : Nat) : Nat → Int → Prog (Int × Option HSlice)
  | 0, _ => .stop .stuck
  | n + 1, idx => if idx < (b.len : Int) then findStepP b field idx >>= fun r => match r.2 with
      | none => findLoop b field n r.1
      | some t => .done (r.1, some t)
    else .done (idx, none)

theorem prog_findLoop (rt : Rt) (fuel d : Nat) (b msg : HSlice) (field : Nat) (msgLen : U64) (lenSize : Int) (n : Nat) (idx : Int) :
    loopWhile (eval rt (goCall rt fuel (d + 1)) srcFindNextField_cond1) (exec rt (goCall rt fuel (d + 1)) fuel srcFindNextField_loop1) n
      (findEnv b msg field msgLen lenSize idx) = (findLoop b field n idx >>= fun r => match r.2 with
      | none => .done (.next, findEnv b msg field msgLen lenSize r.1)
      | some t => .done (.ret [.bytes (.mem t), .bytes (.mem msg)], findEnv b msg field msgLen lenSize r.1)) := by
  induction n generalizing idx with
  | zero => rfl
  | succ n ih =>
    simp only [loopWhile, prog_findStep, findLoop]
    by_cases h : idx < (b.len : Int)
    · rw [show eval rt (goCall rt fuel (d + 1)) srcFindNextField_cond1 (findEnv b msg field msgLen lenSize idx) = .done (.bool true, findEnv b msg field msgLen lenSize idx) by
        csimp [srcFindNextField_cond1, findEnv, h], if_pos h]
      simp only [bind_assoc', done_bind, prog_findStep]
      refine congrArg (findStepP b field idx >>= ·) (funext fun r => ?_)
      obtain ⟨idx', o⟩ := r
      cases o with
      | none => simp only [done_bind]; exact ih idx'
      | some t => rfl
    · rw [show eval rt (goCall rt fuel (d + 1)) srcFindNextField_cond1 (findEnv b msg field msgLen lenSize idx) = .done (.bool false, findEnv b msg field msgLen lenSize idx) by
        csimp [srcFindNextField_cond1, findEnv, h], if_neg h]
      rfl

theorem prog_FindNil (rt : Rt) (fuel d field : Nat) : goCall rt fuel (d + 2) .FindNextField [.nil, .int field] = .done [.nil, .nil] := by
  rw [goCall, show funcOf .FindNextField = some srcFindNextField from rfl]
  csimp [srcFindNextField]

/-- The accesses of `FindNextField`. -/
def findNextP (b : HSlice) (field fuel : Nat) : Prog (List Val) :=
  readVarint (.mem b) >>= fun bs =>
    lift (GoSrc.lift (b.range (uvarint bs).2 (addInt (uvarint bs).2 (u64ToInt (uvarint bs).1)))) >>= fun msg =>
      findLoop b field fuel (addInt (uvarint bs).2 (u64ToInt (uvarint bs).1)) >>= fun r =>
        .done [match r.2 with | none => .nil | some t => .bytes (.mem t), .bytes (.mem msg)]

theorem prog_FindNextField (rt : Rt) (fuel d : Nat) (b : HSlice) (field : Nat) :
    goCall rt fuel (d + 2) .FindNextField [.bytes (.mem b), .int field] = findNextP b field fuel := by
  rw [goCall, show funcOf .FindNextField = some srcFindNextField from rfl]
  csimp [srcFindNextField, findNextP]
  refine congrArg (readVarint (.mem b) >>= ·) (funext fun bs => ?_)
  obtain ⟨tag, size, hu⟩ : ∃ tag size, uvarint bs = (tag, size) := ⟨_, _, rfl⟩
  rw [hu]
  rcases e : b.range size (addInt size (u64ToInt tag)) with e | msg
  · csimp [e]
  · have h := prog_findLoop rt fuel d b msg field tag size fuel (addInt size (u64ToInt tag))
    simp only [findEnv] at h
    csimp [e, h]
    refine congrArg (findLoop b field fuel (addInt size (u64ToInt tag)) >>= ·) (funext fun r => ?_)
    obtain ⟨j, o⟩ := r
    cases o with
    | none => csimp []
    | some t => csimp []

end Zeropb.GoSrc.Conc
