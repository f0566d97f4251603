import Verif.Mem.Model
import Verif.GoSrc.OffsetsGo
import Verif.GoSrc.ZeropbGo
/-!
# A small subset of Go: semantics

An interpreter for the syntax trees of `GoSrc/Syntax`, on the heap of `Mem/Model`. It implements what
the Go specification says about the statements and operators that occur in `offsets.go` and
`zeropb.go`; on anything else it is stuck. `encoding/binary`, `append`, `copy`, slicing, maps and
`int` arithmetic are those of `Verif/Go`.

Simplifications:
* `:=` always declares new variables. (In both files every `:=` does.)
* A slice of a local array is the bytes the array has at that moment. (In both files no local array is
  written after a slice of it has been stored.)
* Pointers point to message structs: a `*[]byte` to the `buf` of a struct, an `Offsets` refers to the
  `offsets` of a struct (as built by `WrapOffsets(m.offsets.a[:], &m.offsets.m)`).
* Built-in names are not redeclared where they are called. (`GetString`, `GetBytes`, `fieldDataSize` have a
  variable `len`, and do not call `len` in its scope.)
* Function calls nest at most to a given depth. (There is no recursion; the theorems allow any depth
  that is enough.)
-/

set_option linter.constructorNameAsVariable false

namespace Zeropb.GoSrc

/-- Why an evaluation ends without a value: a Go failure, or the interpreter does not know. -/
inductive Stop where
  | fail (f : Fail)
  | stuck
deriving DecidableEq, Repr

/-- Evaluation results. -/
abbrev M := Except Stop

/-- A Go failure. -/
def lift {α : Type} : Res α → M α
  | .ok a => .ok a
  | .error e => .error (.fail e)

/-- Values. Integers and floats as in `Go/Prim`. -/
inductive Val where
  | const (n : Nat)            -- untyped constant
  | bool (b : Bool)
  | int (x : Int)
  | u64 (x : U64) | i64 (x : U64) | f64 (x : U64)
  | u32 (x : U32) | i32 (x : U32) | f32 (x : U32)
  | u16 (x : U16)
  | nil                        -- nil slice or error
  | eof                        -- io.ErrUnexpectedEOF
  | bytes (s : Src)            -- []byte
  | str (s : Src)              -- string
  | hdr (s : Src)              -- reflect.StringHeader of a string
  | data (s : Src)             -- its Data
  | array (bs : List Byte)     -- local byte array
  | bufPtr (i : Nat)           -- *[]byte: the buffer of struct i
  | offs (i : Nat)             -- Offsets of struct i
  | arrOf (i : Nat)            -- its a
  | mapPtr (i : Nat)           -- its m
  | mapRef (r : Option Nat)    -- map[int]uint64, none if nil
  | reps (rep : Nat → Bool)    -- RepeatedFields
  | many (vs : List Val)       -- several values

/-- The memory: byte arrays, maps, and message structs. -/
structure Heap where
  w : World
  ms : Nat → HMsg

/-- Memory and local variables, the innermost first. -/
structure St where
  h : Heap
  env : List (Id × Val)

/-- Change struct `i`. -/
def Heap.put (h : Heap) (i : Nat) (m : HMsg) : Heap := ⟨h.w, fun j => if j = i then m else h.ms j⟩

/-- The value of a variable. -/
def lookup (x : Id) : List (Id × Val) → Option Val
  | [] => none
  | (y, v) :: env => if y = x then some v else lookup x env

/-- Assign to a variable. -/
def update (x : Id) (v : Val) : List (Id × Val) → Option (List (Id × Val))
  | [] => none
  | (y, u) :: env => if y = x then some ((y, v) :: env) else (update x v env).map ((y, u) :: ·)

/-- Several values as a list. -/
def Val.flat : Val → List Val
  | .many vs => vs
  | v => [v]

/-- Implicit conversion of an untyped constant to a type. -/
def Val.coerce (t : Ty) : Val → Val
  | .const n => match t with
    | .int => .int n
    | .uint64 => .u64 (BitVec.ofNat 64 n) | .int64 => .i64 (BitVec.ofNat 64 n)
    | .uint32 => .u32 (BitVec.ofNat 32 n) | .int32 => .i32 (BitVec.ofNat 32 n)
    | .uint16 => .u16 (BitVec.ofNat 16 n)
    | .float32 => if n = 0 then .f32 0#32 else .const n
    | .float64 => if n = 0 then .f64 0#64 else .const n
    | _ => .const n
  | v => v

/-- Implicit conversion of an untyped constant to the type of another value. -/
def Val.like (v : Val) (n : Nat) : Val := match v with
  | .int _ => .int n
  | .u64 _ => .u64 (BitVec.ofNat 64 n)
  | .u16 _ => .u16 (BitVec.ofNat 16 n)
  | _ => .const n

/-- Explicit conversions. -/
def convert : Ty → Val → M Val
  | .uint64, .const n => .ok (.u64 (BitVec.ofNat 64 n))
  | .uint64, .int x => .ok (.u64 (intToU64 x))
  | .uint64, .u64 x => .ok (.u64 x)
  | .uint64, .i64 x => .ok (.u64 x)
  | .uint64, .u32 x => .ok (.u64 (x.setWidth 64))
  | .uint64, .i32 x => .ok (.u64 (x.signExtend 64))
  | .uint64, .u16 x => .ok (.u64 (x.setWidth 64))
  | .int64, .u64 x => .ok (.i64 x)
  | .int64, .i32 x => .ok (.i64 (x.signExtend 64))
  | .int, .int x => .ok (.int x)
  | .int, .u64 x => .ok (.int (u64ToInt x))
  | .int32, .u64 x => .ok (.i32 (x.setWidth 32))
  | .int32, .i64 x => .ok (.i32 (x.setWidth 32))
  | .int32, .u32 x => .ok (.i32 x)
  | .uint32, .u64 x => .ok (.u32 (x.setWidth 32))
  | .uint32, .i32 x => .ok (.u32 x)
  | .uint16, .u64 x => .ok (.u16 (x.setWidth 16))
  | _, _ => .error .stuck

/-- Operators on values of the same type. -/
def arith : Op → Val → Val → M Val
  | .add, .int a, .int b => .ok (.int (addInt a b))
  | .or, .int a, .int b => .ok (.int (u64ToInt (intToU64 a ||| intToU64 b)))
  | .shl, .int a, .int b => if 0 ≤ b then .ok (.int (u64ToInt (intToU64 a <<< b.toNat))) else .error .stuck
  | .eq, .int a, .int b => .ok (.bool (decide (a = b)))
  | .lt, .int a, .int b => .ok (.bool (decide (a < b)))
  | .gt, .int a, .int b => .ok (.bool (decide (a > b)))
  | .ge, .int a, .int b => .ok (.bool (decide (a ≥ b)))
  | .add, .u64 a, .u64 b => .ok (.u64 (a + b))
  | .sub, .u64 a, .u64 b => .ok (.u64 (a - b))
  | .and, .u64 a, .u64 b => .ok (.u64 (a &&& b))
  | .shr, .u64 a, .u64 b => .ok (.u64 (a >>> b.toNat))
  | .eq, .u64 a, .u64 b => .ok (.bool (decide (a = b)))
  | .le, .u64 a, .u64 b => .ok (.bool (decide (a ≤ b)))
  | .gt, .u64 a, .u64 b => .ok (.bool (decide (a > b)))
  | .sub, .u16 a, .u16 b => .ok (.u16 (a - b))
  | .eq, .u16 a, .u16 b => .ok (.bool (decide (a = b)))
  | .ne, .u16 a, .u16 b => .ok (.bool (decide (a ≠ b)))
  | .eq, .nil, .nil => .ok (.bool true)
  | .eq, .bytes _, .nil => .ok (.bool false)
  | .eq, .mapRef r, .nil => .ok (.bool r.isNone)
  | .ne, .mapRef r, .nil => .ok (.bool r.isSome)
  | .ne, .mapPtr _, .nil => .ok (.bool true)
  | _, _, _ => .error .stuck

/-- Operators, one of the operands may be an untyped constant. -/
def binop (op : Op) : Val → Val → M Val
  | .const a, .const b => arith op (.int a) (.int b)
  | .const a, r => arith op (r.like a) r
  | l, .const b => arith op l (l.like b)
  | l, r => arith op l r

/-- An index or slice bound. -/
def Val.toIndex : Val → M Int
  | .const n => .ok n
  | .int x => .ok x
  | .u64 x => .ok x.toNat
  | _ => .error .stuck

/-- A map key (field numbers are not negative). -/
def Val.toKey : Val → M Nat
  | .int x => if 0 ≤ x then .ok x.toNat else .error .stuck
  | _ => .error .stuck

/-- The bytes of a `[]byte`. -/
def Val.contents (w : World) : Val → M (List Byte)
  | .bytes s => .ok (w.src s)
  | .nil => .ok []
  | _ => .error .stuck

/-- `len` of a `[]byte`. -/
def Val.length : Val → M Nat
  | .bytes (.lit bs) => .ok bs.length
  | .bytes (.mem s) => .ok s.len
  | .nil => .ok 0
  | _ => .error .stuck

/-- The untyped constants of other packages: github.com/golang/protobuf v1.3.1 `proto/lib.go`,
`math`, `encoding/binary`. -/
def Const.value : Const → Nat
  | .WireVarint => wireVarint
  | .WireFixed32 => wireFixed32
  | .WireFixed64 => wireFixed64
  | .WireBytes => wireBytes
  | .MaxUint16 => 65535
  | .MaxVarintLen32 => maxVarintLen32
  | .MaxVarintLen64 => maxVarintLen64

/-- `e[k]`; a `RepeatedFields` gives the value and whether it is there. -/
def indexOf (h : Heap) : Val → Val → M Val
  | .arrOf i, k => do
    let k ← k.toIndex
    if 0 ≤ k then
      match (h.ms i).a[k.toNat]? with
      | some x => .ok (.u16 x)
      | none => .error (.fail .indexOutOfRange)
    else .error (.fail .indexOutOfRange)
  | .mapRef r, k => do
    let k ← k.toKey
    match r with
    | none => .ok (.u64 0#64)
    | some id => .ok (.u64 (((h.w.maps.getD id []).find k).getD 0#64))
  | .reps rep, k => do
    let k ← k.toKey
    .ok (.many [.nil, .bool (rep k)])
  | _, _ => .error .stuck

/-- Library functions: result and memory. -/
def Lib.apply (h : Heap) : Lib → List Val → M (Val × Heap)
  | .len, [v] => do
    let n ← v.length
    .ok (.int n, h)
  | .copy, [.bytes (.mem d), v] => do
    let bs ← v.contents h.w
    .ok (.int (min bs.length d.len : Nat), { h with w := h.w.copy d bs })
  | .delete, [.mapRef r, k] => do
    let k ← k.toKey
    match r with
    | none => .ok (.many [], h)
    | some id => .ok (.many [], { h with w := { h.w with maps := h.w.maps.set id ((h.w.maps.getD id []).del k) } })
  | .Uvarint, [.bytes s] => let r := uvarint (h.w.src s); .ok (.many [.u64 r.1, .int r.2], h)
  | .Varint, [.bytes s] => let r := varint (h.w.src s); .ok (.many [.i64 r.1, .int r.2], h)
  | .leUint32, [.bytes s] => do
    let x ← lift (Zeropb.leUint32 (h.w.src s))
    .ok (.u32 x, h)
  | .leUint64, [.bytes s] => do
    let x ← lift (Zeropb.leUint64 (h.w.src s))
    .ok (.u64 x, h)
  | .Float32bits, [.f32 x] => .ok (.u32 x, h)
  | .Float32frombits, [.u32 x] => .ok (.f32 x, h)
  | .Float64bits, [.f64 x] => .ok (.u64 x, h)
  | .Float64frombits, [.u64 x] => .ok (.f64 x, h)
  | _, _ => .error .stuck

/-- Library functions that write to the beginning of an array: the bytes written and the result. -/
def Put.apply (n : Nat) : Put → Val → M (List Byte × Val)
  | .PutUvarint, .u64 x => do
    let bs ← lift (putUvarint n x)
    .ok (bs, .int bs.length)
  | .PutVarint, .i64 x => do
    let bs ← lift (putVarint n x)
    .ok (bs, .int bs.length)
  | .lePutUint32, .u32 x => if 4 ≤ n then .ok (Zeropb.lePutUint32 x, .many []) else .error (.fail .indexOutOfRange)
  | .lePutUint64, .u64 x => if 8 ≤ n then .ok (Zeropb.lePutUint64 x, .many []) else .error (.fail .indexOutOfRange)
  | _, _ => .error .stuck

/-- `e.f` for an `Offsets`. -/
def fieldOf : Val → Id → M Val
  | .offs i, .a => .ok (.arrOf i)
  | .offs i, .m => .ok (.mapPtr i)
  | _, _ => .error .stuck

/-- `*e`. -/
def deref (h : Heap) : Val → M Val
  | .bufPtr i => .ok (.bytes (.mem (h.ms i).buf))
  | .mapPtr i => .ok (.mapRef (h.ms i).m)
  | _ => .error .stuck

/-- `e[lo:]`. -/
def sliceFrom : Val → Int → M Val
  | .bytes (.mem s), lo => do
    let t ← lift (s.dropFrom lo)
    .ok (.bytes (.mem t))
  | _, _ => .error .stuck

/-- `e[lo:hi]`. -/
def sliceRange : Val → Int → Int → M Val
  | .bytes (.mem s), lo, hi => do
    let t ← lift (s.range lo hi)
    .ok (.bytes (.mem t))
  | .array bs, lo, hi =>
    if 0 ≤ lo ∧ lo ≤ hi ∧ hi ≤ bs.length then .ok (.bytes (.lit ((bs.drop lo.toNat).take (hi.toNat - lo.toNat))))
    else .error (.fail .sliceBounds)
  | _, _, _ => .error .stuck

/-- `*(*t)(unsafe.Pointer(&x))`: the same memory as another type. -/
def castTo : Ty → Val → M Val
  | .string, .bytes s => .ok (.str s)
  | .StringHeader, .str s => .ok (.hdr s)
  | _, _ => .error .stuck

/-- The length of a string. -/
def strLen : Src → Nat
  | .lit bs => bs.length
  | .mem s => s.len

/-- A slice header for the memory of a string, with the length and capacity of the string. -/
def headerOf : Val → Val → Val → M Val
  | .data s, .int l, .int k => if l = strLen s ∧ k = strLen s then .ok (.bytes s) else .error .stuck
  | _, _, _ => .error .stuck

/-- Calls of functions of the package. -/
abbrev Calls := Id → List Val → Heap → M (List Val × Heap)

/-- Constants of the package (offsets.go:9-16). -/
def pkgConst : Id → Option Val
  | .offsetUnset => some (.u16 0#16)
  | .offsetInMap => some (.u16 65535#16)
  | .offsetMaxInArray => some (.u16 (65535#16 - 1#16))
  | _ => none

/-- Expressions. Argument lists evaluate to `many`. -/
def eval (rt : Rt) (call : Calls) : Expr → St → M (Val × St)
  | .id x, s => match lookup x s.env with
    | some v => .ok (v, s)
    | none => match pkgConst x with
      | some v => .ok (v, s)
      | none => .error .stuck
  | .num n, s | .hex n, s => .ok (.const n, s)
  | .const k, s => .ok (.const k.value, s)
  | .true_, s => .ok (.bool true, s)
  | .false_, s => .ok (.bool false, s)
  | .nil, s => .ok (.nil, s)
  | .emptyStr, s => .ok (.str (.lit []), s)
  | .eof, s => .ok (.eof, s)
  | .sel e f, s => do
    let (v, s) ← eval rt call e s
    let r ← fieldOf v f
    .ok (r, s)
  | .selLen e, s => do
    let (v, s) ← eval rt call e s
    match v with
    | .hdr x => .ok (.int (strLen x), s)
    | _ => .error .stuck
  | .selData e, s => do
    let (v, s) ← eval rt call e s
    match v with
    | .hdr x => .ok (.data x, s)
    | _ => .error .stuck
  | .paren e, s => eval rt call e s
  | .star e, s => do
    let (v, s) ← eval rt call e s
    let r ← deref s.h v
    .ok (r, s)
  | .not e, s => do
    let (v, s) ← eval rt call e s
    match v with
    | .bool b => .ok (.bool (!b), s)
    | _ => .error .stuck
  | .bin op l r, s => do
    let (v, s) ← eval rt call l s
    if op = .land then
      match v with
      | .bool false => .ok (.bool false, s)
      | .bool true => eval rt call r s
      | _ => .error .stuck
    else
      let (u, s) ← eval rt call r s
      let x ← binop op v u
      .ok (x, s)
  | .index e i, s => do
    let (v, s) ← eval rt call e s
    let (k, s) ← eval rt call i s
    let r ← indexOf s.h v k
    .ok (r, s)
  | .slice e, s => do
    let (v, s) ← eval rt call e s
    match v with
    | .array bs => .ok (.bytes (.lit bs), s)
    | _ => .error .stuck
  | .sliceFrom e lo, s => do
    let (v, s) ← eval rt call e s
    let (i, s) ← eval rt call lo s
    let i ← i.toIndex
    let r ← sliceFrom v i
    .ok (r, s)
  | .sliceTo e hi, s => do
    let (v, s) ← eval rt call e s
    let (j, s) ← eval rt call hi s
    let j ← j.toIndex
    let r ← sliceRange v 0 j
    .ok (r, s)
  | .sliceRange e lo hi, s => do
    let (v, s) ← eval rt call e s
    let (i, s) ← eval rt call lo s
    let (j, s) ← eval rt call hi s
    let i ← i.toIndex
    let j ← j.toIndex
    let r ← sliceRange v i j
    .ok (r, s)
  | .conv t e, s => do
    let (v, s) ← eval rt call e s
    let r ← convert t v
    .ok (r, s)
  | .lib f es, s => do
    let (vs, s) ← eval rt call es s
    let (r, h) ← f.apply s.h vs.flat
    .ok (r, { s with h := h })
  | .append e es, s => do
    let (v, s) ← eval rt call e s
    let (u, s) ← eval rt call es s
    let bs ← u.contents s.h.w
    match v with
    | .bytes (.mem b) =>
      let r ← lift (s.h.w.append rt b bs)
      .ok (.bytes (.mem r.1), { s with h := { s.h with w := r.2 } })
    | _ => .error .stuck
  | .put p x e, s => do
    let (v, s) ← eval rt call e s
    match lookup x s.env with
    | some (.array bs) =>
      let (new, r) ← p.apply bs.length v
      match update x (.array (new ++ bs.drop new.length)) s.env with
      | some env => .ok (r, { s with env := env })
      | none => .error .stuck
    | _ => .error .stuck
  | .call f es, s => do
    let (vs, s) ← eval rt call es s
    let (rs, h) ← call f vs.flat s.h
    .ok (match rs with | [r] => r | _ => .many rs, { s with h := h })
  | .method e f es, s => do
    let (v, s) ← eval rt call e s
    let (vs, s) ← eval rt call es s
    let (rs, h) ← call f (v :: vs.flat) s.h
    .ok (match rs with | [r] => r | _ => .many rs, { s with h := h })
  | .cast t x, s => match lookup x s.env with
    | some v => do
      let r ← castTo t v
      .ok (r, s)
    | none => .error .stuck
  | .sliceOf d l k, s => do
    let (d, s) ← eval rt call d s
    let (l, s) ← eval rt call l s
    let (k, s) ← eval rt call k s
    let r ← headerOf d l k
    .ok (r, s)
  | .offsetsLit a m, s => do
    let (a, s) ← eval rt call a s
    let (m, s) ← eval rt call m s
    match a, m with
    | .arrOf i, .mapPtr j => if i = j then .ok (.offs i, s) else .error .stuck
    | _, _ => .error .stuck
  | .makeMap n, s => do
    let (_, s) ← eval rt call n s
    .ok (.mapRef (some s.h.w.maps.length), { s with h := { s.h with w := { s.h.w with maps := s.h.w.maps ++ [[]] } } })
  | .noArgs, s => .ok (.many [], s)
  | .arg e, s => do
    let (v, s) ← eval rt call e s
    .ok (.many [v], s)
  | .args e es, s => do
    let (v, s) ← eval rt call e s
    let (vs, s) ← eval rt call es s
    .ok (.many (v :: vs.flat), s)

/-- Declare variables. -/
def declare : List (Option Id) → List Val → List (Id × Val) → M (List (Id × Val))
  | [], [], env => .ok env
  | some x :: xs, v :: vs, env => declare xs vs ((x, v.coerce .int) :: env)
  | none :: xs, _ :: vs, env => declare xs vs env
  | _, _, _ => .error .stuck

/-- The value a constant takes when it is assigned to a variable. -/
def Val.assignTo (old : Val) : Val → Val
  | .const n => old.like n
  | v => v

/-- Assign a value. -/
def store (rt : Rt) (call : Calls) : Expr → Val → St → M St
  | .id x, v, s => match lookup x s.env with
    | some old => match update x (old.assignTo v) s.env with
      | some env => .ok { s with env := env }
      | none => .error .stuck
    | none => .error .stuck
  | .paren e, v, s => store rt call e v s
  | .star e, v, s => do
    let (p, s) ← eval rt call e s
    match p, v with
    | .bufPtr i, .bytes (.mem b) => .ok { s with h := s.h.put i { s.h.ms i with buf := b } }
    | .mapPtr i, .mapRef r => .ok { s with h := s.h.put i { s.h.ms i with m := r } }
    | _, _ => .error .stuck
  | .index e k, v, s => do
    let (p, s) ← eval rt call e s
    let (k, s) ← eval rt call k s
    match p with
    | .arrOf i => do
      let k ← k.toIndex
      if 0 ≤ k ∧ k < (s.h.ms i).a.length then
        match v with
        | .u16 x => .ok { s with h := s.h.put i { s.h.ms i with a := (s.h.ms i).a.set k.toNat x } }
        | _ => .error .stuck
      else .error (.fail .indexOutOfRange)
    | .mapRef (some id) => do
      let k ← k.toKey
      match v with
      | .u64 x => .ok { s with h := { s.h with w := { s.h.w with maps := s.h.w.maps.set id ((s.h.w.maps.getD id []).put k x) } } }
      | _ => .error .stuck
    | .array bs => do
      let k ← k.toIndex
      if 0 ≤ k ∧ k < bs.length then
        match e, v with
        | .id x, .const n => match update x (.array (bs.set k.toNat (BitVec.ofNat 8 n))) s.env with
          | some env => .ok { s with env := env }
          | none => .error .stuck
        | _, _ => .error .stuck
      else .error (.fail .indexOutOfRange)
    | _ => .error .stuck
  | _, _, _ => .error .stuck

/-- How a statement ends. -/
inductive Out where
  | next
  | ret (vs : List Val)

/-- Forget the variables declared in a block. -/
def inScope (f : St → M (Out × St)) (s : St) : M (Out × St) := do
  let (o, t) ← f s
  .ok (o, { t with env := t.env.drop (t.env.length - s.env.length) })

/-- A round of a loop; a stuck one ends it. -/
def flatStep {σ α : Type} : M (σ ⊕ α) → Res (σ ⊕ Option α)
  | .ok (.inl t) => .ok (.inl t)
  | .ok (.inr a) => .ok (.inr (some a))
  | .error (.fail e) => .error e
  | .error .stuck => .ok (.inr none)

/-- The outcome of a loop. -/
def unflat {α : Type} : Res (Option α) → M α
  | .ok (some a) => .ok a
  | .ok none => .error .stuck
  | .error e => .error (.fail e)

/-- A loop; see `iterate`. -/
noncomputable def iterateM {σ α : Type} (step : σ → M (σ ⊕ α)) (s : σ) : M α :=
  unflat (iterate (fun s => flatStep (step s)) s)

/-- Run the body of a `range` loop for the given indices. -/
def forEach (body : Nat → St → M (Out × St)) : List Nat → St → M (Out × St)
  | [], s => .ok (.next, s)
  | k :: ks, s => do
    let (o, s) ← body k s
    match o with
    | .next => forEach body ks s
    | .ret vs => .ok (.ret vs, s)

/-- Declare the second variable of a `range` loop. -/
def bindSnd : Option Id → Val → List (Id × Val) → List (Id × Val)
  | none, _, env => env
  | some x, v, env => (x, v) :: env

/-- A `range` loop over an array, with its two variables. -/
def rangeArr (body : St → M (Out × St)) (k : Id) (v : Option Id) (i : Nat) (s : St) : M (Out × St) :=
  forEach (fun n s => match (s.h.ms i).a[n]? with
    | some x => inScope (fun s => body { s with env := bindSnd v (.u16 x) ((k, .int n) :: s.env) }) s
    | none => .error .stuck) (List.range (s.h.ms i).a.length) s

/-- A `range` loop over a map, in any order. An entry that has been deleted is not visited. -/
def rangeMap (rt : Rt) (body : St → M (Out × St)) (k : Id) (v : Option Id) (id : Nat) (s : St) : M (Out × St) :=
  forEach (fun n s => match (s.h.w.maps.getD id []).find n with
    | some x => inScope (fun s => body { s with env := bindSnd v (.u64 x) ((k, .int n) :: s.env) }) s
    | none => .ok (.next, s)) (rt.perm (s.h.w.maps.getD id []).keys) s

/-- A `for` loop. -/
noncomputable def loopWhile (cond : St → M (Val × St)) (body : St → M (Out × St)) (s : St) : M (Out × St) :=
  iterateM (fun s => do
    let (v, s) ← cond s
    match v with
    | .bool false => .ok (.inr (.next, s))
    | .bool true => do
      let (o, s) ← inScope body s
      match o with
      | .next => .ok (.inl s)
      | .ret vs => .ok (.inr (.ret vs, s))
    | _ => .error .stuck) s

mutual
/-- Statements. -/
noncomputable def exec (rt : Rt) (call : Calls) : Stmt → St → M (Out × St)
  | .skip, s => .ok (.next, s)
  | .seq a b, s => do
    let (o, s) ← exec rt call a s
    match o with
    | .next => exec rt call b s
    | .ret vs => .ok (.ret vs, s)
  | .define xs e, s => do
    let (v, s) ← eval rt call e s
    let env ← declare xs v.flat s.env
    .ok (.next, { s with env := env })
  | .varArray x n, s => do
    let (v, s) ← eval rt call n s
    match v with
    | .const n => .ok (.next, { s with env := (x, .array (List.replicate n 0#8)) :: s.env })
    | _ => .error .stuck
  | .var x t, s => match t with
    | .int => .ok (.next, { s with env := (x, .int 0) :: s.env })
    | _ => .error .stuck
  | .varBytes x y es, s => do
    let (v, s) ← eval rt call es s
    let env ← declare [some x, some y] v.flat s.env
    .ok (.next, { s with env := env })
  | .assign l e, s => do
    let (v, s) ← eval rt call e s
    let s ← store rt call l v s
    .ok (.next, s)
  | .assignSnd x e, s => do
    let (v, s) ← eval rt call e s
    match v.flat with
    | [_, v] => do
      let s ← store rt call (.id x) v s
      .ok (.next, s)
    | _ => .error .stuck
  | .addAssign x e, s => do
    let (v, s) ← eval rt call (.id x) s
    let (u, s) ← eval rt call e s
    let r ← binop .add v u
    let s ← store rt call (.id x) r s
    .ok (.next, s)
  | .expr e, s => do
    let (_, s) ← eval rt call e s
    .ok (.next, s)
  | .ret, s => .ok (.ret [], s)
  | .retVal es, s => do
    let (v, s) ← eval rt call es s
    .ok (.ret v.flat, s)
  | .panicType _, _ | .panicErrorf _, _ => .error (.fail .unsupportedType)
  | .ite k t e, s => do
    let (v, s) ← eval rt call k s
    match v with
    | .bool true => inScope (exec rt call t) s
    | .bool false => inScope (exec rt call e) s
    | _ => .error .stuck
  | .iteInit i k t e, s => inScope (fun s => do
      let (_, s) ← exec rt call i s
      let (v, s) ← eval rt call k s
      match v with
      | .bool true => inScope (exec rt call t) s
      | .bool false => inScope (exec rt call e) s
      | _ => .error .stuck) s
  | .switch e cs, s => do
    let (v, s) ← eval rt call e s
    execCases rt call v cs s
  | .case .., _ | .default _, _ => .error .stuck
  | .loop i k b, s => inScope (fun s => do
      let (_, s) ← exec rt call i s
      match k with
      | none => loopWhile (fun s => .ok (.bool true, s)) (exec rt call b) s
      | some k => loopWhile (eval rt call k) (exec rt call b) s) s
  | .range k v e b, s => do
    let (r, s) ← eval rt call e s
    match r with
    | .arrOf i => rangeArr (exec rt call b) k v i s
    | .mapRef none => .ok (.next, s)
    | .mapRef (some id) => rangeMap rt (exec rt call b) k v id s
    | _ => .error .stuck
/-- The cases of a `switch`. -/
noncomputable def execCases (rt : Rt) (call : Calls) (v : Val) : Stmt → St → M (Out × St)
  | .case k b rest, s => do
    let (u, s) ← eval rt call k s
    let r ← binop .eq v u
    match r with
    | .bool true => inScope (exec rt call b) s
    | .bool false => execCases rt call v rest s
    | _ => .error .stuck
  | .default b, s => inScope (exec rt call b) s
  | _, s => .ok (.next, s)
end

/-- Parameters with their types, the receiver first. -/
def Func.formals (f : Func) : List (Id × Ty) :=
  f.recv.toList ++ (f.params.map (fun p => p.1.map (fun x => (x, p.2)))).flatten

/-- Bind the arguments. -/
def bindArgs : List (Id × Ty) → List Val → M (List (Id × Val))
  | [], [] => .ok []
  | (x, t) :: ps, v :: vs => do
    let env ← bindArgs ps vs
    .ok ((x, v.coerce t) :: env)
  | _, _ => .error .stuck

/-- The function with a name, in the two files. -/
def funcOf (f : Id) : Option Func :=
  (offsetsFile ++ zeropbFile).findSome? (fun t => match t with
    | .func g => if g.name = f then some g else none
    | _ => none)

/-- Results with untyped constants converted. -/
def results : List Ty → List Val → M (List Val)
  | [], [] => .ok []
  | t :: ts, v :: vs => do
    let rs ← results ts vs
    .ok (v.coerce t :: rs)
  | _, _ => .error .stuck

/-- Run the body of a function. -/
noncomputable def invoke (rt : Rt) (call : Calls) (f : Func) (args : List Val) (h : Heap) : M (List Val × Heap) := do
  let env ← bindArgs f.formals args
  let (o, s) ← exec rt call f.body ⟨h, env⟩
  match o with
  | .next => match f.results with
    | [] => .ok ([], s.h)
    | _ => .error .stuck
  | .ret vs => do
    let rs ← results f.results vs
    .ok (rs, s.h)

/-- Call a function of the package; calls nest at most `depth` deep. -/
noncomputable def goCall (rt : Rt) : Nat → Calls
  | 0, _, _, _ => .error .stuck
  | d + 1, f, args, h => match funcOf f with
    | some g => invoke rt (goCall rt d) g args h
    | none => .error .stuck

/-- The constants of offsets.go have the values of `pkgConst`. -/
theorem pkgConst_ok (rt : Rt) (call : Calls) : ∀ k ∈ offsetsConsts, ∃ v s, eval rt call k.2.2 ⟨⟨⟨[], []⟩, fun _ => HMsg.zero 0⟩, []⟩ = .ok (v, s) ∧
    pkgConst k.1 = some (v.coerce k.2.1) := by
  intro k hk
  simp only [offsetsConsts, List.mem_cons, List.not_mem_nil, or_false] at hk
  rcases hk with rfl | rfl | rfl
  · exact ⟨_, _, rfl, rfl⟩
  · exact ⟨_, _, rfl, rfl⟩
  · exact ⟨_, _, rfl, rfl⟩

end Zeropb.GoSrc
