import Verif.Conc.Prog
/-!
# The interpreter of `GoSrc/Sem`, access by access

The same interpreter as in `GoSrc/Sem`, for the same syntax trees (the committed source of offsets.go and zeropb.go), but every access to memory that other goroutines could
see is a step of its own: bytes are read and written one by one, a struct field by field. Local variables are not such memory. `Conc/Sim` proves
that a program that runs alone computes what `GoSrc/Sem` says.

A `for` loop makes at most `fuel` rounds here; what is proved holds for every `fuel` that is large enough.
`binary.Uvarint` reads its argument up to the first byte below 0x80, as its loop does.
-/

set_option linter.constructorNameAsVariable false

namespace Zeropb.GoSrc.Conc
open Zeropb.GoSrc.G

/-- Local variables. -/
abbrev Vars := List (Id × Val)

/-- A computation without memory accesses. -/
def lift {α : Type} : M α → Prog α
  | .ok a => .done a
  | .error e => .stop e

/-- Read `n` bytes of array `a` from `q` on. -/
def readFrom (a : Nat) : Nat → Nat → Prog (List Byte)
  | _, 0 => .done []
  | q, n + 1 => .load (.cell a q) fun (x : Option Byte) => do
    let rest ← readFrom a (q + 1) n
    .done (x.toList ++ rest)

/-- Read the bytes of a slice. -/
def readSlice (s : HSlice) : Prog (List Byte) := readFrom s.arr s.off (min s.len s.cap)

/-- Read the bytes of a string or slice. -/
def readSrc : Src → Prog (List Byte)
  | .lit bs => .done bs
  | .mem s => readSlice s

/-- The body of the loop of `binary.Uvarint` after it has read a byte: leave at the first one below 0x80. -/
def afterByte (rest : Prog (List Byte)) : Option Byte → Prog (List Byte)
  | some b => if b.toNat < 0x80 then .done [b] else do
    let bs ← rest
    .done (b :: bs)
  | none => .done []

/-- The loop of `binary.Uvarint` (and so of `binary.Varint`): the bytes it reads, of the `n` bytes of array `a` from `q` on. -/
def readRun (a : Nat) : Nat → Nat → Prog (List Byte)
  | _, 0 => .done []
  | q, n + 1 => .load (.cell a q) (afterByte (readRun a (q + 1) n))

/-- The bytes of its argument that `binary.Uvarint` reads. -/
def readVarint : Src → Prog (List Byte)
  | .lit bs => .done bs
  | .mem s => readRun s.arr s.off (min s.len s.cap)

/-- Write bytes to array `a` from `q` on. -/
def writeTo (a : Nat) : Nat → List Byte → Prog Unit
  | _, [] => .done ()
  | q, b :: bs => .store (.cell a q b) (writeTo a (q + 1) bs)

/-- The bytes of a `[]byte`. -/
def contents : Val → Prog (List Byte)
  | .bytes s => readSrc s
  | .nil => .done []
  | _ => .stop .stuck

/-- `append(s, xs...)`. -/
def append (rt : Rt) (s : HSlice) (xs : List Byte) : Prog HSlice :=
  if s.len + xs.length < maxLen then
    if s.len + xs.length ≤ s.cap then do
      writeTo s.arr (s.off + s.len) xs
      .done ⟨s.arr, s.off, s.len + xs.length, s.cap⟩
    else do
      let old ← readSlice s
      let spare := rt.grow s.cap (s.len + xs.length)
      .newArr (old ++ xs ++ spare) fun a => .done ⟨a, 0, s.len + xs.length, s.len + xs.length + spare.length⟩
  else .stop (.fail .lenOutOfRange)

/-- `e[k]`. -/
def indexOf : Val → Val → Prog Val
  | .arrOf i, k => do
    let k ← lift k.toIndex
    if 0 ≤ k then
      .load (.slot i k.toNat) fun (x : Option U16) => match x with
        | some x => .done (.u16 x)
        | none => .stop (.fail .indexOutOfRange)
    else .stop (.fail .indexOutOfRange)
  | .mapRef r, k => do
    let k ← lift k.toKey
    match r with
    | none => .done (.u64 0#64)
    | some id => .load (.map id) fun (m : GoMap) => .done (.u64 ((m.find k).getD 0#64))
  | .reps rep, k => do
    let k ← lift k.toKey
    .done (.many [.nil, .bool (rep k)])
  | _, _ => .stop .stuck

/-- Library functions. -/
def libApply : Lib → List Val → Prog Val
  | .len, [v] => do
    let n ← lift v.length
    .done (.int n)
  | .copy, [.bytes (.mem d), v] => do
    let bs ← contents v
    writeTo d.arr d.off (bs.take d.len)
    .done (.int (min bs.length d.len : Nat))
  | .delete, [.mapRef r, k] => do
    let k ← lift k.toKey
    match r with
    | none => .done (.many [])
    | some id => .load (.map id) fun (m : GoMap) => .store (.map id (m.del k)) (.done (.many []))
  | .Uvarint, [.bytes s] => do
    let bs ← readVarint s
    let r := uvarint bs
    .done (.many [.u64 r.1, .int r.2])
  | .Varint, [.bytes s] => do
    let bs ← readVarint s
    let r := varint bs
    .done (.many [.i64 r.1, .int r.2])
  | .leUint32, [.bytes s] => do
    let bs ← readSrc s
    let x ← lift (GoSrc.lift (Zeropb.leUint32 bs))
    .done (.u32 x)
  | .leUint64, [.bytes s] => do
    let bs ← readSrc s
    let x ← lift (GoSrc.lift (Zeropb.leUint64 bs))
    .done (.u64 x)
  | .Float32bits, [.f32 x] => .done (.u32 x)
  | .Float32frombits, [.u32 x] => .done (.f32 x)
  | .Float64bits, [.f64 x] => .done (.u64 x)
  | .Float64frombits, [.u64 x] => .done (.f64 x)
  | _, _ => .stop .stuck

/-- `*e`. -/
def deref : Val → Prog Val
  | .bufPtr i => .load (.buf i) fun (b : HSlice) => .done (.bytes (.mem b))
  | .mapPtr i => .load (.ref i) fun (r : Option Nat) => .done (.mapRef r)
  | _ => .stop .stuck

/-- Calls of functions of the package. -/
abbrev Calls := Id → List Val → Prog (List Val)

/-- Expressions. -/
def eval (rt : Rt) (call : Calls) : Expr → Vars → Prog (Val × Vars)
  | .id x, env => match lookup x env with
    | some v => .done (v, env)
    | none => match pkgConst x with
      | some v => .done (v, env)
      | none => .stop .stuck
  | .num n, env | .hex n, env => .done (.const n, env)
  | .const k, env => .done (.const k.value, env)
  | .true_, env => .done (.bool true, env)
  | .false_, env => .done (.bool false, env)
  | .nil, env => .done (.nil, env)
  | .emptyStr, env => .done (.str (.lit []), env)
  | .eof, env => .done (.eof, env)
  | .sel e f, env => do
    let r ← eval rt call e env
    let v ← lift (fieldOf r.1 f)
    .done (v, r.2)
  | .selLen e, env => do
    let r ← eval rt call e env
    match r.1 with
    | .hdr x => .done (.int (strLen x), r.2)
    | _ => .stop .stuck
  | .selData e, env => do
    let r ← eval rt call e env
    match r.1 with
    | .hdr x => .done (.data x, r.2)
    | _ => .stop .stuck
  | .paren e, env => eval rt call e env
  | .star e, env => do
    let r ← eval rt call e env
    let v ← deref r.1
    .done (v, r.2)
  | .not e, env => do
    let r ← eval rt call e env
    match r.1 with
    | .bool b => .done (.bool (!b), r.2)
    | _ => .stop .stuck
  | .bin op l r, env => do
    let x ← eval rt call l env
    if op = .land then
      match x.1 with
      | .bool false => .done (.bool false, x.2)
      | .bool true => eval rt call r x.2
      | _ => .stop .stuck
    else
      let y ← eval rt call r x.2
      let z ← lift (binop op x.1 y.1)
      .done (z, y.2)
  | .index e i, env => do
    let x ← eval rt call e env
    let y ← eval rt call i x.2
    let v ← indexOf x.1 y.1
    .done (v, y.2)
  | .slice e, env => do
    let r ← eval rt call e env
    match r.1 with
    | .array bs => .done (.bytes (.lit bs), r.2)
    | _ => .stop .stuck
  | .sliceFrom e lo, env => do
    let x ← eval rt call e env
    let y ← eval rt call lo x.2
    let i ← lift y.1.toIndex
    let r ← lift (sliceFrom x.1 i)
    .done (r, y.2)
  | .sliceTo e hi, env => do
    let x ← eval rt call e env
    let y ← eval rt call hi x.2
    let j ← lift y.1.toIndex
    let r ← lift (sliceRange x.1 0 j)
    .done (r, y.2)
  | .sliceRange e lo hi, env => do
    let x ← eval rt call e env
    let y ← eval rt call lo x.2
    let z ← eval rt call hi y.2
    let i ← lift y.1.toIndex
    let j ← lift z.1.toIndex
    let r ← lift (sliceRange x.1 i j)
    .done (r, z.2)
  | .conv t e, env => do
    let x ← eval rt call e env
    let r ← lift (convert t x.1)
    .done (r, x.2)
  | .lib f es, env => do
    let x ← eval rt call es env
    let r ← libApply f x.1.flat
    .done (r, x.2)
  | .append e es, env => do
    let x ← eval rt call e env
    let y ← eval rt call es x.2
    let bs ← contents y.1
    match x.1 with
    | .bytes (.mem b) => do
      let r ← append rt b bs
      .done (.bytes (.mem r), y.2)
    | _ => .stop .stuck
  | .put p x e, env => do
    let v ← eval rt call e env
    match lookup x v.2 with
    | some (.array bs) => do
      let n ← lift (p.apply bs.length v.1)
      match update x (.array (n.1 ++ bs.drop n.1.length)) v.2 with
      | some env => .done (n.2, env)
      | none => .stop .stuck
    | _ => .stop .stuck
  | .call f es, env => do
    let x ← eval rt call es env
    let rs ← call f x.1.flat
    .done (match rs with | [r] => r | _ => .many rs, x.2)
  | .method e f es, env => do
    let x ← eval rt call e env
    let y ← eval rt call es x.2
    let rs ← call f (x.1 :: y.1.flat)
    .done (match rs with | [r] => r | _ => .many rs, y.2)
  | .cast t x, env => match lookup x env with
    | some v => do
      let r ← lift (castTo t v)
      .done (r, env)
    | none => .stop .stuck
  | .sliceOf d l k, env => do
    let x ← eval rt call d env
    let y ← eval rt call l x.2
    let z ← eval rt call k y.2
    let r ← lift (headerOf x.1 y.1 z.1)
    .done (r, z.2)
  | .offsetsLit a m, env => do
    let x ← eval rt call a env
    let y ← eval rt call m x.2
    match x.1, y.1 with
    | .arrOf i, .mapPtr j => if i = j then .done (.offs i, y.2) else .stop .stuck
    | _, _ => .stop .stuck
  | .makeMap n, env => do
    let x ← eval rt call n env
    .newMap fun id => .done (.mapRef (some id), x.2)
  | .noArgs, env => .done (.many [], env)
  | .arg e, env => do
    let x ← eval rt call e env
    .done (.many [x.1], x.2)
  | .args e es, env => do
    let x ← eval rt call e env
    let y ← eval rt call es x.2
    .done (.many (x.1 :: y.1.flat), y.2)

/-- Assign a value. -/
def store (rt : Rt) (call : Calls) : Expr → Val → Vars → Prog Vars
  | .id x, v, env => match lookup x env with
    | some old => match update x (old.assignTo v) env with
      | some env => .done env
      | none => .stop .stuck
    | none => .stop .stuck
  | .paren e, v, env => store rt call e v env
  | .star e, v, env => do
    let p ← eval rt call e env
    match p.1, v with
    | .bufPtr i, .bytes (.mem b) => .store (.buf i b) (.done p.2)
    | .mapPtr i, .mapRef r => .store (.ref i r) (.done p.2)
    | _, _ => .stop .stuck
  | .index e k, v, env => do
    let p ← eval rt call e env
    let q ← eval rt call k p.2
    match p.1 with
    | .arrOf i => do
      let k ← lift q.1.toIndex
      .load (.slots i) fun (n : Nat) =>
        if 0 ≤ k ∧ k < n then
          match v with
          | .u16 x => .store (.slot i k.toNat x) (.done q.2)
          | _ => .stop .stuck
        else .stop (.fail .indexOutOfRange)
    | .mapRef (some id) => do
      let k ← lift q.1.toKey
      match v with
      | .u64 x => .load (.map id) fun (m : GoMap) => .store (.map id (m.put k x)) (.done q.2)
      | _ => .stop .stuck
    | .array bs => do
      let k ← lift q.1.toIndex
      if 0 ≤ k ∧ k < bs.length then
        match e, v with
        | .id x, .const n => match update x (.array (bs.set k.toNat (BitVec.ofNat 8 n))) q.2 with
          | some env => .done env
          | none => .stop .stuck
        | _, _ => .stop .stuck
      else .stop (.fail .indexOutOfRange)
    | _ => .stop .stuck
  | _, _, _ => .stop .stuck

/-- Forget the variables declared in a block. -/
def inScope (f : Vars → Prog (Out × Vars)) (env : Vars) : Prog (Out × Vars) := do
  let r ← f env
  .done (r.1, r.2.drop (r.2.length - env.length))

/-- Run the body of a `range` loop for the given indices. -/
def forEach (body : Nat → Vars → Prog (Out × Vars)) : List Nat → Vars → Prog (Out × Vars)
  | [], env => .done (.next, env)
  | k :: ks, env => do
    let r ← body k env
    match r.1 with
    | .next => forEach body ks r.2
    | .ret vs => .done (.ret vs, r.2)

/-- A `range` loop over an array. -/
def rangeArr (body : Vars → Prog (Out × Vars)) (k : Id) (v : Option Id) (i : Nat) (env : Vars) : Prog (Out × Vars) :=
  .load (.slots i) fun (len : Nat) =>
    forEach (fun n env => .load (.slot i n) fun (x : Option U16) => match x with
      | some x => inScope (fun env => body (bindSnd v (.u16 x) ((k, .int n) :: env))) env
      | none => .stop .stuck) (List.range len) env

/-- A `range` loop over a map. -/
def rangeMap (rt : Rt) (body : Vars → Prog (Out × Vars)) (k : Id) (v : Option Id) (id : Nat) (env : Vars) : Prog (Out × Vars) :=
  .load (.map id) fun (m : GoMap) =>
    forEach (fun n env => .load (.map id) fun (m : GoMap) => match m.find n with
      | some x => inScope (fun env => body (bindSnd v (.u64 x) ((k, .int n) :: env))) env
      | none => .done (.next, env)) (rt.perm m.keys) env

/-- A `for` loop, at most `fuel` rounds. -/
def loopWhile (cond : Vars → Prog (Val × Vars)) (body : Vars → Prog (Out × Vars)) : Nat → Vars → Prog (Out × Vars)
  | 0, _ => .stop .stuck
  | fuel + 1, env => do
    let x ← cond env
    match x.1 with
    | .bool false => .done (.next, x.2)
    | .bool true => do
      let r ← inScope body x.2
      match r.1 with
      | .next => loopWhile cond body fuel r.2
      | .ret vs => .done (.ret vs, r.2)
    | _ => .stop .stuck

mutual
/-- Statements. -/
def exec (rt : Rt) (call : Calls) (fuel : Nat) : Stmt → Vars → Prog (Out × Vars)
  | .skip, env => .done (.next, env)
  | .seq a b, env => do
    let r ← exec rt call fuel a env
    match r.1 with
    | .next => exec rt call fuel b r.2
    | .ret vs => .done (.ret vs, r.2)
  | .define xs e, env => do
    let x ← eval rt call e env
    let env ← lift (declare xs x.1.flat x.2)
    .done (.next, env)
  | .varArray x n, env => do
    let r ← eval rt call n env
    match r.1 with
    | .const n => .done (.next, (x, .array (List.replicate n 0#8)) :: r.2)
    | _ => .stop .stuck
  | .var x t, env => match t with
    | .int => .done (.next, (x, .int 0) :: env)
    | _ => .stop .stuck
  | .varBytes x y es, env => do
    let r ← eval rt call es env
    let env ← lift (declare [some x, some y] r.1.flat r.2)
    .done (.next, env)
  | .assign l e, env => do
    let r ← eval rt call e env
    let env ← store rt call l r.1 r.2
    .done (.next, env)
  | .assignSnd x e, env => do
    let r ← eval rt call e env
    match r.1.flat with
    | [_, v] => do
      let env ← store rt call (.id x) v r.2
      .done (.next, env)
    | _ => .stop .stuck
  | .addAssign x e, env => do
    let r ← eval rt call (.id x) env
    let u ← eval rt call e r.2
    let z ← lift (binop .add r.1 u.1)
    let env ← store rt call (.id x) z u.2
    .done (.next, env)
  | .expr e, env => do
    let r ← eval rt call e env
    .done (.next, r.2)
  | .ret, env => .done (.ret [], env)
  | .retVal es, env => do
    let r ← eval rt call es env
    .done (.ret r.1.flat, r.2)
  | .panicType _, _ | .panicErrorf _, _ => .stop (.fail .unsupportedType)
  | .ite k t e, env => do
    let r ← eval rt call k env
    match r.1 with
    | .bool true => inScope (exec rt call fuel t) r.2
    | .bool false => inScope (exec rt call fuel e) r.2
    | _ => .stop .stuck
  | .iteInit i k t e, env => inScope (fun env => do
      let r ← exec rt call fuel i env
      let v ← eval rt call k r.2
      match v.1 with
      | .bool true => inScope (exec rt call fuel t) v.2
      | .bool false => inScope (exec rt call fuel e) v.2
      | _ => .stop .stuck) env
  | .switch e cs, env => do
    let r ← eval rt call e env
    execCases rt call fuel r.1 cs r.2
  | .case .., _ | .default _, _ => .stop .stuck
  | .loop i k b, env => inScope (fun env => do
      let r ← exec rt call fuel i env
      match k with
      | none => loopWhile (fun env => .done (.bool true, env)) (exec rt call fuel b) fuel r.2
      | some k => loopWhile (eval rt call k) (exec rt call fuel b) fuel r.2) env
  | .range k v e b, env => do
    let r ← eval rt call e env
    match r.1 with
    | .arrOf i => rangeArr (exec rt call fuel b) k v i r.2
    | .mapRef none => .done (.next, r.2)
    | .mapRef (some id) => rangeMap rt (exec rt call fuel b) k v id r.2
    | _ => .stop .stuck
/-- The cases of a `switch`. -/
def execCases (rt : Rt) (call : Calls) (fuel : Nat) (v : Val) : Stmt → Vars → Prog (Out × Vars)
  | .case k b rest, env => do
    let r ← eval rt call k env
    let z ← lift (binop .eq v r.1)
    match z with
    | .bool true => inScope (exec rt call fuel b) r.2
    | .bool false => execCases rt call fuel v rest r.2
    | _ => .stop .stuck
  | .default b, env => inScope (exec rt call fuel b) env
  | _, env => .done (.next, env)
end

/-- Run the body of a function. -/
def invoke (rt : Rt) (call : Calls) (fuel : Nat) (f : Func) (args : List Val) : Prog (List Val) := do
  let env ← lift (bindArgs f.formals args)
  let r ← exec rt call fuel f.body env
  match r.1 with
  | .next => match f.results with
    | [] => .done []
    | _ => .stop .stuck
  | .ret vs => lift (results f.results vs)

/-- Call a function of the package. -/
def goCall (rt : Rt) (fuel : Nat) : Nat → Calls
  | 0, _, _ => .stop .stuck
  | d + 1, f, args => match funcOf f with
    | some g => invoke rt (goCall rt fuel d) fuel g args
    | none => .stop .stuck

end Zeropb.GoSrc.Conc
