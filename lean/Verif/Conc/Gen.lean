import Verif.Conc.Sim
import Verif.Conc.Safe
/-!
# The interpreter of `GoSrc/GenSem`, access by access

The same interpreter as in `GoSrc/GenSem`, for the same syntax trees (the methods of generated files), but every access to memory that other goroutines could see is a step of
its own. A struct that is passed by value is copied field by field, its offsets one by one.
-/

set_option linter.constructorNameAsVariable false

namespace Zeropb.GoSrc.Conc
open Zeropb.GoSrc.G
open Zeropb.Gen (Text)

/-- The value at a place. -/
def gload (env : Env) : Place → Prog GVal
  | .var x => match get x env with
    | some v => .done v
    | none => .stop .stuck
  | .buf i => .load (.buf i) fun (b : HSlice) => .done (.val (.bytes (.mem b)))
  | .iter j => .load (.iter j) fun (o : Option HSlice) => .done (.val (match o with | none => .nil | some b => .bytes (.mem b)))
  | _ => .stop .stuck

/-- Assign. -/
def gstore (p : Place) (v : GVal) (env : Env) : Prog Env :=
  match p, v with
  | .var x, v => match put x v env with
    | some env => .done env
    | none => .stop .stuck
  | .buf i, .val (.bytes (.mem b)) => .store (.buf i b) (.done env)
  | .buf i, .val .nil => .store (.buf i ⟨0, 0, 0, 0⟩) (.done env)
  | .iter j, .val (.bytes (.mem b)) => .store (.iter j (some b)) (.done env)
  | .iter j, .val .nil => .store (.iter j none) (.done env)
  | _, _ => .stop .stuck

/-- Call a function of package zeropb. -/
def gruntime (call : Calls) (f : Text) (args : List GVal) : Prog (List GVal) :=
  match pkgFunc f with
  | some f => do
    let vs ← lift (vals args)
    let rs ← call f vs
    .done (rs.map .val)
  | none => .stop .stuck

/-- Calls of methods of the program: receiver type, name, receiver and arguments. -/
abbrev Methods := Text → Text → List GVal → Prog (List GVal)

/-- Expressions; argument lists give several values. -/
def geval (p : Program) (call : Calls) (meth : Methods) (env : Env) : G.Expr → Prog (List GVal)
  | .id x => match get x env with
    | some v => .done [v]
    | none => match global p x with
      | some v => .done [v]
      | none => .stop .stuck
  | .num n => if 0 ≤ n then .done [.val (.const n.toNat)] else .stop .stuck
  | .true_ => .done [.val (.bool true)]
  | .false_ => .done [.val (.bool false)]
  | .nil => .done [.val .nil]
  | .sel e f => do
    let q ← lift (place env (.sel e f))
    let v ← gload env q
    .done [v]
  | .star e => do
    let q ← lift (place env (.star e))
    let v ← gload env q
    .done [v]
  | .all e => do
    match ← lift (place env e) with
    | .arr i => .done [.val (.arrOf i)]
    | _ => .stop .stuck
  | .addr e => do
    match ← lift (place env e) with
    | .buf i => .done [.val (.bufPtr i)]
    | .map i => .done [.val (.mapPtr i)]
    | _ => .stop .stuck
  | .paren e => geval p call meth env e
  | .gt l r => do
    let a ← geval p call meth env l
    let b ← geval p call meth env r
    let x ← lift (singleVal a)
    let y ← lift (singleVal b)
    let v ← lift (binop .gt x y)
    .done [.val v]
  | .eq l r => do
    let a ← geval p call meth env l
    let b ← geval p call meth env r
    let x ← lift (singleVal a)
    let y ← lift (singleVal b)
    let v ← lift (binop .eq x y)
    .done [.val v]
  | .len e => do
    let a ← geval p call meth env e
    let x ← lift (singleVal a)
    let n ← lift x.length
    .done [.val (.int n)]
  | .conv t e => do
    let a ← geval p call meth env e
    let x ← lift (singleVal a)
    if isBytesType p t then
      match x with
      | .nil => .done [.val .nil]
      | .bytes b => .done [.val (.bytes b)]
      | _ => .stop .stuck
    else .stop .stuck
  | .pkg f es => do
    let vs ← geval p call meth env es
    gruntime call f vs
  | .method e f es => do
    let a ← geval p call meth env e
    let r ← lift (single a)
    let vs ← geval p call meth env es
    match r with
    | .ptr t i | .struct t i => meth t f (.ptr t i :: vs)
    | .iter t j => meth t f (.iter t j :: vs)
    | .val v => gruntime call f (.val v :: vs)
  | .noArgs => .done []
  | .arg e => geval p call meth env e
  | .args e es => do
    let a ← geval p call meth env e
    let b ← geval p call meth env es
    .done (a ++ b)

/-- Statements. -/
def gexec (p : Program) (call : Calls) (meth : Methods) : G.Stmt → Env → Prog GOut
  | .skip, env => .done (.next env)
  | .seq a b, env => do
    let o ← gexec p call meth a env
    match o with
    | .next env => gexec p call meth b env
    | .ret vs => .done (.ret vs)
  | .define x e, env => do
    let a ← geval p call meth env e
    let v ← lift (single a)
    .done (.next ((x, v) :: env))
  | .varBytes x, env => .done (.next ((x, .val .nil) :: env))
  | .assign l e, env => do
    let a ← geval p call meth env e
    let v ← lift (single a)
    let q ← lift (place env l)
    let env ← gstore q v env
    .done (.next env)
  | .assign2 l1 l2 e, env => do
    let q1 ← lift (place env l1)
    let q2 ← lift (place env l2)
    let a ← geval p call meth env e
    match a with
    | [v1, v2] => do
      let env ← gstore q1 v1 env
      let env ← gstore q2 v2 env
      .done (.next env)
    | _ => .stop .stuck
  | .expr e, env => do
    let _ ← geval p call meth env e
    .done (.next env)
  | .ret es, env => do
    let vs ← geval p call meth env es
    .done (.ret vs)
  | .panic _, _ => .stop (.fail .bufNotEmpty)
  | .ite k t, env => do
    let a ← geval p call meth env k
    let v ← lift (singleVal a)
    match v with
    | .bool true => do
      let o ← gexec p call meth t env
      match o with
      | .next env' => .done (.next (env'.drop (env'.length - env.length)))
      | .ret vs => .done (.ret vs)
    | .bool false => .done (.next env)
    | _ => .stop .stuck

/-- Read `n` offsets of struct `i` from `k` on. -/
def readSlots (i : Nat) : Nat → Nat → Prog (List U16)
  | _, 0 => .done []
  | k, n + 1 => .load (.slot i k) fun (x : Option U16) => do
    let rest ← readSlots i (k + 1) n
    .done (x.toList ++ rest)

/-- Copy a struct. -/
def copyStruct (i : Nat) : Prog Nat :=
  .load (.buf i) fun (b : HSlice) => .load (.slots i) fun (n : Nat) => do
    let a ← readSlots i 0 n
    .load (.ref i) fun (r : Option Nat) => .newStruct ⟨b, a, r⟩ fun j => .done j

/-- Bind an argument; a struct is copied to a new one. -/
def gbindArg (p : Program) (t : G.Ty) (v : GVal) : Prog GVal :=
  match t, v with
  | .ptr t, .ptr u i => if t = u then .done (.ptr t i) else .stop .stuck
  | .name t, .struct u i =>
    if t = u ∧ (slots p t).isSome then do
      let j ← copyStruct i
      .done (.struct t j)
    else .stop .stuck
  | .name t, .val v => if (slots p t).isSome then .stop .stuck else .done (.val v)
  | .bytes, .val v => .done (.val v)
  | _, _ => .stop .stuck

/-- Bind the arguments. -/
def gbindAll (p : Program) : List (Text × G.Ty) → List GVal → Prog Env
  | [], [] => .done []
  | (x, t) :: ps, v :: vs => do
    let u ← gbindArg p t v
    let env ← gbindAll p ps vs
    .done ((x, u) :: env)
  | _, _ => .stop .stuck

/-- Run a method on a receiver. -/
def ginvoke (p : Program) (call : Calls) (meth : Methods) (f : G.Func) (args : List GVal) : Prog (List GVal) :=
  match args with
  | [] => .stop .stuck
  | r :: args => do
    let env ← gbindAll p f.params args
    let o ← gexec p call meth f.body ((f.recv.1, r) :: env)
    match o with
    | .next _ => match f.results with
      | [] => .done []
      | _ => .stop .stuck
    | .ret vs => if vs.length = f.results.length then .done vs else .stop .stuck

/-- Call a method of the program; calls nest at most `depth` deep. -/
def gcallMethod (p : Program) (call : Calls) : Nat → Methods
  | 0, _, _, _ => .stop .stuck
  | d + 1, t, f, args => match method p t f with
    | some g => ginvoke p call (gcallMethod p call d) g args
    | none => .stop .stuck

/-- Call the method `name` of message or iterator type `t`; calls nest at most `d + 5` deep, loops make at most `fuel` rounds. -/
def grun (p : Program) (rt : Rt) (fuel d : Nat) (t name : Text) (args : List GVal) : Prog (List GVal) :=
  gcallMethod p (goCall rt fuel (d + 3)) (d + 2) t name args

end Zeropb.GoSrc.Conc
