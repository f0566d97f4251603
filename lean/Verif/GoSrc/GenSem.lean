import Verif.GoSrc.GenSyntax
import Verif.GoSrc.Sem
/-!
# The subset of Go that generated files use: semantics

An interpreter for the syntax trees of `GoSrc/GenSyntax`. Calls of package `zeropb` are run by the interpreter of
`GoSrc/Sem` on the source of zeropb.go and offsets.go.

Simplifications, besides those of `GoSrc/Sem`:
* A struct that is a local variable or parameter is allocated in the heap and never freed.
* A nil buffer in a struct is an empty slice. (Only its length and capacity are looked at.)
* Types are checked only where they decide which method is called.
-/

set_option linter.constructorNameAsVariable false

namespace Zeropb.GoSrc.G
open Zeropb.Gen (Text)

/-- Values. -/
inductive GVal where
  | val (v : Val)                 -- a value of a type the runtime knows
  | ptr (t : Text) (i : Nat)      -- *t, pointing to struct i
  | struct (t : Text) (i : Nat)   -- a variable of message type t: struct i
  | iter (t : Text) (j : Nat)     -- pointer to iterator variable j, of type t

/-- Memory: the heap, the number of structs in it, and the iterator variables (the rest of a buffer, or nil). -/
structure GSt where
  h : Heap
  next : Nat
  its : Nat → Option HSlice

/-- Local variables, the innermost first. -/
abbrev Env := List (Text × GVal)

/-- The value of a variable. -/
def get (x : Text) : Env → Option GVal
  | [] => none
  | (y, v) :: env => if y = x then some v else get x env

/-- Assign to a variable. -/
def put (x : Text) (v : GVal) : Env → Option Env
  | [] => none
  | (y, u) :: env => if y = x then some ((y, v) :: env) else (put x v env).map ((y, u) :: ·)

/-- What can be assigned to or have its address taken. -/
inductive Place where
  | var (x : Text)
  | buf (i : Nat)      -- buf of struct i
  | offsets (i : Nat)  -- offsets of struct i
  | arr (i : Nat)      -- offsets.a
  | map (i : Nat)      -- offsets.m
  | iter (j : Nat)

/-- The fields of a message struct. -/
def structField (i : Nat) (f : Text) : M Place :=
  if f = t!"buf" then .ok (.buf i) else if f = t!"offsets" then .ok (.offsets i) else .error .stuck

/-- The place an expression denotes. -/
def place (env : Env) : Expr → M Place
  | .id x => match get x env with
    | some _ => .ok (.var x)
    | none => .error .stuck
  | .sel (.id x) f => match get x env with
    | some (.ptr _ i) | some (.struct _ i) => structField i f
    | _ => .error .stuck
  | .sel e f => do
    match ← place env e with
    | .offsets i => if f = t!"a" then .ok (.arr i) else if f = t!"m" then .ok (.map i) else .error .stuck
    | _ => .error .stuck
  | .star (.id x) => match get x env with
    | some (.iter _ j) => .ok (.iter j)
    | _ => .error .stuck
  | .paren e => place env e
  | _ => .error .stuck

/-- The value at a place. -/
def load (env : Env) (s : GSt) : Place → M GVal
  | .var x => match get x env with
    | some v => .ok v
    | none => .error .stuck
  | .buf i => .ok (.val (.bytes (.mem (s.h.ms i).buf)))
  | .iter j => .ok (.val (match s.its j with | none => .nil | some b => .bytes (.mem b)))
  | _ => .error .stuck

/-- Assign. -/
def storeAt (p : Place) (v : GVal) (env : Env) (s : GSt) : M (Env × GSt) :=
  match p, v with
  | .var x, v => match put x v env with
    | some env => .ok (env, s)
    | none => .error .stuck
  | .buf i, .val (.bytes (.mem b)) => .ok (env, { s with h := s.h.put i { s.h.ms i with buf := b } })
  | .buf i, .val .nil => .ok (env, { s with h := s.h.put i { s.h.ms i with buf := ⟨0, 0, 0, 0⟩ } })
  | .iter j, .val (.bytes (.mem b)) => .ok (env, { s with its := fun k => if k = j then some b else s.its k })
  | .iter j, .val .nil => .ok (env, { s with its := fun k => if k = j then none else s.its k })
  | _, _ => .error .stuck

/-- The functions of package zeropb that generated files call. -/
def pkgFuncs : List Id := [.WrapOffsets, .Clear, .Decode, .FindNextField, .GetRepeatedNonPacked, .AppendBytes,
  .GetBool, .GetInt32, .GetInt64, .GetUint32, .GetUint64, .GetZigZagInt32, .GetZigZagInt64, .GetFixedUint32, .GetFixedUint64,
  .GetFixedInt32, .GetFixedInt64, .GetFloat32, .GetFloat64, .GetString, .GetBytes,
  .SetBool, .SetInt32, .SetInt64, .SetUint32, .SetUint64, .SetZigZagInt32, .SetZigZagInt64, .SetFixedUint32, .SetFixedUint64,
  .SetFixedInt32, .SetFixedInt64, .SetFloat32, .SetFloat64, .SetString, .SetBytes]

/-- The function of package zeropb with a name. -/
def pkgFunc (f : Text) : Option Id := pkgFuncs.find? (fun x => x.text = f)

/-- Values the runtime knows. -/
def vals : List GVal → M (List Val)
  | [] => .ok []
  | .val v :: vs => do
    let us ← vals vs
    .ok (v :: us)
  | _ :: _ => .error .stuck

/-- Call a function of package zeropb. -/
def runtime (call : Calls) (f : Text) (args : List GVal) (s : GSt) : M (List GVal × GSt) := do
  match pkgFunc f with
  | some f =>
    let vs ← vals args
    let (rs, h) ← call f vs s.h
    .ok (rs.map .val, { s with h := h })
  | none => .error .stuck

/-- A program: all declarations of the package. -/
abbrev Program := List Top

/-- Package-level variables. -/
def global (p : Program) (x : Text) : Option GVal :=
  p.findSome? (fun t => match t with
    | .repeated y nums => if y = x then some (.val (.reps (fun n => decide ((n : Int) ∈ nums)))) else none
    | _ => none)

/-- The method of type `t` with a name. -/
def method (p : Program) (t f : Text) : Option Func :=
  p.findSome? (fun d => match d with
    | .func g => if g.recv.2 = t ∧ g.name = f then some g else none
    | _ => none)

/-- The number of offset slots of a message type. -/
def slots (p : Program) (t : Text) : Option Int :=
  p.findSome? (fun d => match d with
    | .struct y n => if y = t then some n else none
    | _ => none)

/-- A named `[]byte` type. -/
def isBytesType (p : Program) (t : Text) : Bool :=
  p.any (fun d => match d with
    | .bytesType y => decide (y = t)
    | _ => false)

/-- Calls of methods of the program: receiver type, name, receiver and arguments. -/
abbrev Methods := Text → Text → List GVal → GSt → M (List GVal × GSt)

/-- One value. -/
def single : List GVal → M GVal
  | [v] => .ok v
  | _ => .error .stuck

/-- One value the runtime knows. -/
def singleVal : List GVal → M Val
  | [.val v] => .ok v
  | _ => .error .stuck

/-- Expressions; argument lists give several values. -/
def eval (p : Program) (call : Calls) (meth : Methods) (env : Env) : Expr → GSt → M (List GVal × GSt)
  | .id x, s => match get x env with
    | some v => .ok ([v], s)
    | none => match global p x with
      | some v => .ok ([v], s)
      | none => .error .stuck
  | .num n, s => if 0 ≤ n then .ok ([.val (.const n.toNat)], s) else .error .stuck
  | .true_, s => .ok ([.val (.bool true)], s)
  | .false_, s => .ok ([.val (.bool false)], s)
  | .nil, s => .ok ([.val .nil], s)
  | .sel e f, s => do
    let q ← place env (.sel e f)
    let v ← load env s q
    .ok ([v], s)
  | .star e, s => do
    let q ← place env (.star e)
    let v ← load env s q
    .ok ([v], s)
  | .all e, s => do
    match ← place env e with
    | .arr i => .ok ([.val (.arrOf i)], s)
    | _ => .error .stuck
  | .addr e, s => do
    match ← place env e with
    | .buf i => .ok ([.val (.bufPtr i)], s)
    | .map i => .ok ([.val (.mapPtr i)], s)
    | _ => .error .stuck
  | .paren e, s => eval p call meth env e s
  | .gt l r, s => do
    let (a, s) ← eval p call meth env l s
    let (b, s) ← eval p call meth env r s
    let x ← singleVal a
    let y ← singleVal b
    let v ← binop .gt x y
    .ok ([.val v], s)
  | .eq l r, s => do
    let (a, s) ← eval p call meth env l s
    let (b, s) ← eval p call meth env r s
    let x ← singleVal a
    let y ← singleVal b
    let v ← binop .eq x y
    .ok ([.val v], s)
  | .len e, s => do
    let (a, s) ← eval p call meth env e s
    let x ← singleVal a
    let n ← x.length
    .ok ([.val (.int n)], s)
  | .conv t e, s => do
    let (a, s) ← eval p call meth env e s
    let x ← singleVal a
    if isBytesType p t then
      match x with
      | .nil => .ok ([.val .nil], s)
      | .bytes b => .ok ([.val (.bytes b)], s)
      | _ => .error .stuck
    else .error .stuck
  | .pkg f es, s => do
    let (vs, s) ← eval p call meth env es s
    runtime call f vs s
  | .method e f es, s => do
    let (a, s) ← eval p call meth env e s
    let r ← single a
    let (vs, s) ← eval p call meth env es s
    match r with
    | .ptr t i | .struct t i => meth t f (.ptr t i :: vs) s
    | .iter t j => meth t f (.iter t j :: vs) s
    | .val v => runtime call f (.val v :: vs) s
  | .noArgs, s => .ok ([], s)
  | .arg e, s => eval p call meth env e s
  | .args e es, s => do
    let (a, s) ← eval p call meth env e s
    let (b, s) ← eval p call meth env es s
    .ok (a ++ b, s)

/-- How a statement ends. -/
inductive GOut where
  | next (env : Env)
  | ret (vs : List GVal)

/-- Statements. -/
def exec (p : Program) (call : Calls) (meth : Methods) : Stmt → Env → GSt → M (GOut × GSt)
  | .skip, env, s => .ok (.next env, s)
  | .seq a b, env, s => do
    let (o, s) ← exec p call meth a env s
    match o with
    | .next env => exec p call meth b env s
    | .ret vs => .ok (.ret vs, s)
  | .define x e, env, s => do
    let (a, s) ← eval p call meth env e s
    let v ← single a
    .ok (.next ((x, v) :: env), s)
  | .varBytes x, env, s => .ok (.next ((x, .val .nil) :: env), s)
  | .assign l e, env, s => do
    let (a, s) ← eval p call meth env e s
    let v ← single a
    let q ← place env l
    let (env, s) ← storeAt q v env s
    .ok (.next env, s)
  | .assign2 l1 l2 e, env, s => do
    let q1 ← place env l1
    let q2 ← place env l2
    let (a, s) ← eval p call meth env e s
    match a with
    | [v1, v2] => do
      let (env, s) ← storeAt q1 v1 env s
      let (env, s) ← storeAt q2 v2 env s
      .ok (.next env, s)
    | _ => .error .stuck
  | .expr e, env, s => do
    let (_, s) ← eval p call meth env e s
    .ok (.next env, s)
  | .ret es, env, s => do
    let (vs, s) ← eval p call meth env es s
    .ok (.ret vs, s)
  | .panic _, _, _ => .error (.fail .bufNotEmpty)
  | .ite k t, env, s => do
    let (a, s) ← eval p call meth env k s
    match ← singleVal a with
    | .bool true => do
      let (o, s) ← exec p call meth t env s
      match o with
      | .next env' => .ok (.next (env'.drop (env'.length - env.length)), s)
      | .ret vs => .ok (.ret vs, s)
    | .bool false => .ok (.next env, s)
    | _ => .error .stuck

/-- Bind an argument; a struct is copied to a new one. -/
def bindArg (p : Program) (t : Ty) (v : GVal) (s : GSt) : M (GVal × GSt) :=
  match t, v with
  | .ptr t, .ptr u i => if t = u then .ok (.ptr t i, s) else .error .stuck
  | .name t, .struct u i =>
    if t = u ∧ (slots p t).isSome then .ok (.struct t s.next, ⟨s.h.put s.next (s.h.ms i), s.next + 1, s.its⟩) else .error .stuck
  | .name t, .val v => if (slots p t).isSome then .error .stuck else .ok (.val v, s)
  | .bytes, .val v => .ok (.val v, s)
  | _, _ => .error .stuck

/-- Bind the arguments. -/
def bindAll (p : Program) : List (Text × Ty) → List GVal → GSt → M (Env × GSt)
  | [], [], s => .ok ([], s)
  | (x, t) :: ps, v :: vs, s => do
    let (u, s) ← bindArg p t v s
    let (env, s) ← bindAll p ps vs s
    .ok ((x, u) :: env, s)
  | _, _, _ => .error .stuck

/-- Run a method on a receiver. -/
def invoke (p : Program) (call : Calls) (meth : Methods) (f : Func) (args : List GVal) (s : GSt) : M (List GVal × GSt) :=
  match args with
  | [] => .error .stuck
  | r :: args => do
    let (env, s) ← bindAll p f.params args s
    let (o, s) ← exec p call meth f.body ((f.recv.1, r) :: env) s
    match o with
    | .next _ => match f.results with
      | [] => .ok ([], s)
      | _ => .error .stuck
    | .ret vs => if vs.length = f.results.length then .ok (vs, s) else .error .stuck

/-- Call a method of the program; calls nest at most `depth` deep. -/
def callMethod (p : Program) (call : Calls) : Nat → Methods
  | 0, _, _, _, _ => .error .stuck
  | d + 1, t, f, args, s => match method p t f with
    | some g => invoke p call (callMethod p call d) g args s
    | none => .error .stuck

end Zeropb.GoSrc.G
