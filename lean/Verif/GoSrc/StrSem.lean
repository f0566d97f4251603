import Verif.GoSrc.StrSyntax
import Verif.GoSrc.GenSem
import Verif.Model.Text
import Verif.Props.SourceGen
/-!
# The hand-written files beside generated code: semantics

An interpreter for the syntax trees of `GoSrc/StrSyntax`. Methods of generated code are run by the interpreter of `GoSrc/GenSem`,
functions of package `zeropb` by that of `GoSrc/Sem`, both on their source.

Simplifications, besides those of `GoSrc/GenSem`:
* An `io.Writer` is the list of what has been written to it, one entry for each call of `Fprintf` or `io.WriteString`. Their results
  are not modelled; the code does not look at them. The writer's own code is not modelled: it does not touch the message.
* A `strings.Builder` is a writer; `String` is the concatenation of what was written.
* Structs, iterator variables and builders that are local variables are never freed; they are numbered by one counter.
* `fmt` knows the verbs `%t`, `%d`, `%v` (of floats) and `%s` (of strings).
-/

set_option linter.constructorNameAsVariable false

namespace Zeropb.GoSrc.X
open Zeropb.Gen (Text)
open G (GVal GSt Program)

/-- Values. -/
inductive XVal where
  | g (v : GVal)                                 -- a value generated code knows
  | writer (k : Nat)                             -- an io.Writer
  | builder (k : Nat)                            -- a variable of type strings.Builder
  | iterVal (t : Text) (it : Option HSlice)      -- a value of the named []byte type t

/-- Memory, and what has been written to each writer. -/
structure XSt where
  g : GSt
  outs : Nat → List (List Byte)

/-- Local variables, the innermost first. -/
abbrev Env := List (Text × XVal)

/-- The value of a variable. -/
def get (x : Text) : Env → Option XVal
  | [] => none
  | (y, v) :: env => if y = x then some v else get x env

/-- A computation: a value or the argument of `panic`, and the state after it; or a run-time failure. -/
def E (α : Type) := XSt → M (Except XVal α × XSt)

def E.bind {α β : Type} (x : E α) (f : α → E β) : E β := fun s =>
  match x s with
  | .error e => .error e
  | .ok (.error v, s) => .ok (.error v, s)
  | .ok (.ok a, s) => f a s

instance : Monad E where
  pure a := fun s => .ok (.ok a, s)
  bind := E.bind

/-- The interpreter does not know. -/
def stuck {α : Type} : E α := fun _ => .error .stuck

/-- A computation without `panic`. -/
def known {α : Type} (r : M α) : E α := fun s => match r with
  | .ok a => .ok (.ok a, s)
  | .error e => .error e

/-- The state. -/
def state : E XSt := fun s => .ok (.ok s, s)

/-- Change the state. -/
def setState (s : XSt) : E Unit := fun _ => .ok (.ok (), s)

/-- `panic(v)`. -/
def throw' {α : Type} (v : XVal) : E α := fun s => .ok (.error v, s)

/-- The place an expression denotes. -/
def place (env : Env) : Expr → M G.Place
  | .sel (.id x) f => match get x env with
    | some (.g (.ptr _ i)) | some (.g (.struct _ i)) => G.structField i f
    | _ => .error .stuck
  | .sel e f => do
    match ← place env e with
    | .offsets i => if f = t!"a" then .ok (.arr i) else if f = t!"m" then .ok (.map i) else .error .stuck
    | _ => .error .stuck
  | _ => .error .stuck

/-- One operand formatted by package fmt. -/
def verb (F : Fmt) (w : World) (v : Byte) : XVal → M (List Byte)
  | .g (.val (.bool b)) => if v = 116#8 then .ok (asc (if b then t!"true" else t!"false")) else .error .stuck
  | .g (.val (.i32 x)) => if v = 100#8 then .ok (Zeropb.decimal x.toInt) else .error .stuck
  | .g (.val (.i64 x)) => if v = 100#8 then .ok (Zeropb.decimal x.toInt) else .error .stuck
  | .g (.val (.u32 x)) => if v = 100#8 then .ok (Zeropb.decimal x.toNat) else .error .stuck
  | .g (.val (.u64 x)) => if v = 100#8 then .ok (Zeropb.decimal x.toNat) else .error .stuck
  | .g (.val (.f32 x)) => if v = 118#8 then .ok (F.float x) else .error .stuck
  | .g (.val (.f64 x)) => if v = 118#8 then .ok (F.double x) else .error .stuck
  | .g (.val (.str s)) => if v = 115#8 then .ok (w.src s) else .error .stuck
  | _ => .error .stuck

/-- `fmt.Sprintf`: `%` and a letter stand for the next operand. -/
def sprintf (F : Fmt) (w : World) : List Byte → List XVal → M (List Byte)
  | [], [] => .ok []
  | [], _ :: _ => .error .stuck
  | [b], vs => if b = 37#8 then .error .stuck else do
    let t ← sprintf F w [] vs
    .ok (b :: t)
  | b :: v :: rest, vs =>
    if b = 37#8 then
      match vs with
      | [] => .error .stuck
      | x :: vs => do
        let t ← verb F w v x
        let u ← sprintf F w rest vs
        .ok (t ++ u)
    else do
      let t ← sprintf F w (v :: rest) vs
      .ok (b :: t)

/-- Write to a writer. -/
def writeTo (k : Nat) (bs : List Byte) (s : XSt) : XSt := { s with outs := fun j => if j = k then s.outs k ++ [bs] else s.outs j }

/-- Functions of the standard library and of package zeropb. -/
def library (F : Fmt) (call : Calls) (p f : Text) (vs : List XVal) : E (List XVal) := do
  let s ← state
  if p = t!"fmt" ∧ f = t!"Fprintf" then
    match vs with
    | .writer k :: .g (.val (.str format)) :: vs =>
      let t ← known (sprintf F s.g.h.w (s.g.h.w.src format) vs)
      setState (writeTo k t s)
      pure []
    | _ => stuck
  else if p = t!"io" ∧ f = t!"WriteString" then
    match vs with
    | [.writer k, .g (.val (.str t))] =>
      setState (writeTo k (s.g.h.w.src t) s)
      pure []
    | _ => stuck
  else if p = t!"strconv" ∧ f = t!"Quote" then
    match vs with
    | [.g (.val (.str t))] => pure [.g (.val (.str (.lit (F.quote (s.g.h.w.src t)))))]
    | _ => stuck
  else if p = t!"zeropb" ∧ f = t!"WrapOffsets" then
    match vs with
    | [.g (.val a), .g (.val b)] =>
      let (rs, h) ← known (call .WrapOffsets [a, b] s.g.h)
      setState { s with g := { s.g with h := h } }
      pure (rs.map (fun v => .g (.val v)))
    | _ => stuck
  else stuck

/-- The method `f` of type `t` in the hand-written files. -/
def method (fs : List Top) (t f : Text) : Option Func :=
  fs.findSome? (fun d => match d with
    | .func g => if (g.recv.2 = .name t ∨ g.recv.2 = .ptr t) ∧ g.name = f then some g else none
    | _ => none)

/-- The arguments of a call of generated code. -/
def gvals : List XVal → M (List GVal)
  | [] => .ok []
  | .g v :: vs => do
    let us ← gvals vs
    .ok (v :: us)
  | _ :: _ => .error .stuck

/-- The results of a method of generated code; an iterator has the type that the method declares. -/
def results (p : Program) (t f : Text) (vs : List GVal) : M (List XVal) :=
  match G.method p t f with
  | some ⟨_, _, _, [.name it], _⟩ =>
    if G.isBytesType p it then
      match vs with
      | [.val .nil] => .ok [.iterVal it none]
      | [.val (.bytes (.mem b))] => .ok [.iterVal it (some b)]
      | _ => .error .stuck
    else .ok (vs.map .g)
  | some _ => .ok (vs.map .g)
  | none => .error .stuck

/-- Calls of methods of generated code. -/
abbrev GenCalls := Text → Text → List GVal → GSt → M (List GVal × GSt)

/-- Call a method of generated code. -/
def generated (p : Program) (gen : GenCalls) (t f : Text) (r : GVal) (vs : List XVal) : E (List XVal) := do
  let s ← state
  let us ← known (gvals vs)
  let (rs, g) ← known (gen t f (r :: us) s.g)
  setState { s with g := g }
  known (results p t f rs)

/-- Calls of methods of the hand-written files. -/
abbrev Meths := Func → XVal → List XVal → E (List XVal)

/-- Expressions; argument lists give several values. -/
def eval (F : Fmt) (p : Program) (fs : List Top) (call : Calls) (gen : GenCalls) (meth : Meths) (env : Env) : Expr → E (List XVal)
  | .id x => match get x env with
    | some v => pure [v]
    | none => stuck
  | .num n => pure [.g (.val (.const n))]
  | .raw t => pure [.g (.val (.str (.lit (asc t))))]
  | .sel _ _ => stuck
  | .all e => do
    match ← known (place env e) with
    | .arr i => pure [.g (.val (.arrOf i))]
    | _ => stuck
  | .addr (.id x) => match get x env with
    | some (.g (.struct t i)) => pure [.g (.ptr t i)]
    | some (.builder k) => pure [.writer k]
    | _ => stuck
  | .addr e => do
    match ← known (place env e) with
    | .map i => pure [.g (.val (.mapPtr i))]
    | _ => stuck
  | .not e => do
    match ← eval F p fs call gen meth env e with
    | [.g (.val (.bool b))] => pure [.g (.val (.bool (!b)))]
    | _ => stuck
  | .notNil e => do
    match ← eval F p fs call gen meth env e with
    | [.g (.val .nil)] => pure [.g (.val (.bool false))]
    | [.g (.val .eof)] => pure [.g (.val (.bool true))]
    | _ => stuck
  | .toString e => do
    match ← eval F p fs call gen meth env e with
    | [.g (.val .nil)] => pure [.g (.val (.str (.lit [])))]
    | [.g (.val (.bytes b))] => do
      let s ← state
      pure [.g (.val (.str (.lit (s.g.h.w.src b))))]
    | _ => stuck
  | .pkg q f es => do
    let vs ← eval F p fs call gen meth env es
    library F call q f vs
  | .method e f es => do
    let r ← eval F p fs call gen meth env e
    let vs ← eval F p fs call gen meth env es
    match r with
    | [.g (.struct t i)] => match method fs t f with
      | some g => meth g (.g (.struct t i)) vs
      | none => generated p gen t f (.ptr t i) vs
    | [.g (.iter t j)] => generated p gen t f (.iter t j) vs
    | [.builder k] => do
      let s ← state
      if f = t!"String" ∧ vs.length = 0 then pure [.g (.val (.str (.lit (s.outs k).flatten)))] else stuck
    | [.g (.val o)] =>
      if f = t!"Get" then
        match vs with
        | [.g (.val v)] => do
          let s ← state
          let (rs, h) ← known (call .Get [o, v] s.g.h)
          setState { s with g := { s.g with h := h } }
          pure (rs.map (fun v => .g (.val v)))
        | _ => stuck
      else stuck
    | _ => stuck
  | .noArgs => pure []
  | .arg e => eval F p fs call gen meth env e
  | .args e es => do
    let a ← eval F p fs call gen meth env e
    let b ← eval F p fs call gen meth env es
    pure (a ++ b)

/-- How a statement ends. -/
inductive Out where
  | next (env : Env)
  | ret (vs : List XVal)
  | brk

/-- Declare a variable; `_` is not one. -/
def bindVar (x : Text) (v : XVal) (env : Env) : Env := if x = t!"_" then env else (x, v) :: env

/-- Forget the variables declared in a block. -/
def leave (n : Nat) : Out → Out
  | .next env => .next (env.drop (env.length - n))
  | o => o

/-- The next location. -/
def fresh : E Nat := do
  let s ← state
  setState { s with g := { s.g with next := s.g.next + 1 } }
  pure s.g.next

/-- A new variable for a value; an iterator variable is a location. -/
def newVar (x : Text) (v : XVal) (env : Env) : E Env :=
  match v with
  | .iterVal t it => do
    let j ← fresh
    let s ← state
    setState { s with g := { s.g with its := fun k => if k = j then it else s.g.its k } }
    pure (bindVar x (.g (.iter t j)) env)
  | .g (.val v) => pure (bindVar x (.g (.val v)) env)
  | _ => stuck

/-- The condition of a test. -/
def condition : List XVal → E Bool
  | [.g (.val (.bool b))] => pure b
  | _ => stuck

/-- The outcome of a loop without condition. -/
noncomputable def forever (body : Env → E Out) (env : Env) : E Out := fun s =>
  iterateM (fun st => match body st.1 st.2 with
    | .error e => .error e
    | .ok (.error v, s) => .ok (.inr (.error v, s))
    | .ok (.ok (.next env), s) => .ok (.inl (env.drop (env.length - st.1.length), s))
    | .ok (.ok .brk, s) => .ok (.inr (.ok (.next st.1), s))
    | .ok (.ok (.ret vs), s) => .ok (.inr (.ok (.ret vs), s))) (env, s)

/-- Statements. -/
noncomputable def exec (F : Fmt) (p : Program) (fs : List Top) (call : Calls) (gen : GenCalls) (meth : Meths) : Stmt → Env → E Out
  | .skip, env => pure (.next env)
  | .seq a b, env => do
    match ← exec F p fs call gen meth a env with
    | .next env => exec F p fs call gen meth b env
    | o => pure o
  | .define x e, env => do
    match ← eval F p fs call gen meth env e with
    | [v] => do
      let env ← newVar x v env
      pure (.next env)
    | _ => stuck
  | .declare x (.name t), env => do
    match G.slots p t with
    | some n => do
      let i ← fresh
      let s ← state
      setState { s with g := { s.g with h := s.g.h.put i (.zero n.toNat) } }
      pure (.next (bindVar x (.g (.struct t i)) env))
    | none => stuck
  | .declare x (.qual q t), env => do
    if q = t!"strings" ∧ t = t!"Builder" then
      let k ← fresh
      let s ← state
      setState { s with outs := fun j => if j = k then [] else s.outs j }
      pure (.next (bindVar x (.builder k) env))
    else stuck
  | .declare _ _, _ => stuck
  | .expr e, env => do
    let _ ← eval F p fs call gen meth env e
    pure (.next env)
  | .ret es, env => do
    let vs ← eval F p fs call gen meth env es
    pure (.ret vs)
  | .panic e, env => do
    match ← eval F p fs call gen meth env e with
    | [v] => throw' v
    | _ => stuck
  | .brk, _ => pure .brk
  | .ite x y e k t els, env => do
    match ← eval F p fs call gen meth env e with
    | [v1, v2] => do
      let env2 := bindVar y v2 (bindVar x v1 env)
      let b ← condition (← eval F p fs call gen meth env2 k)
      let o ← if b then exec F p fs call gen meth t env2 else exec F p fs call gen meth els env2
      pure (leave env.length o)
    | _ => stuck
  | .test k t, env => do
    let b ← condition (← eval F p fs call gen meth env k)
    if b then do
      let o ← exec F p fs call gen meth t env
      pure (leave env.length o)
    else pure (.next env)
  | .loop x e b, env => do
    match ← eval F p fs call gen meth env e with
    | [v] => do
      let env2 ← newVar x v env
      let o ← forever (exec F p fs call gen meth b) env2
      pure (leave env.length o)
    | _ => stuck

/-- The receiver: a struct passed by value is copied. -/
def receiver : Ty → XVal → E XVal
  | .name t, .g (.struct u i) => if t = u then do
      let j ← fresh
      let s ← state
      setState { s with g := { s.g with h := s.g.h.put j (s.g.h.ms i) } }
      pure (.g (.struct t j))
    else stuck
  | .ptr t, .g (.struct u i) => if t = u then pure (.g (.ptr t i)) else stuck
  | _, _ => stuck

/-- Bind the arguments. -/
def params : List (Text × Ty) → List XVal → M Env
  | [], [] => .ok []
  | (x, .qual q t) :: ps, .writer k :: vs => if q = t!"io" ∧ t = t!"Writer" then do
      let env ← params ps vs
      .ok (bindVar x (.writer k) env)
    else .error .stuck
  | _, _ => .error .stuck

/-- Call a method of the hand-written files; calls nest at most `depth` deep. (Go aborts the process when the stack exceeds its limit.) -/
noncomputable def callMeth (F : Fmt) (p : Program) (fs : List Top) (call : Calls) (gen : GenCalls) : Nat → Meths
  | 0, _, _, _ => fun _ => .error (.fail .diverge)
  | n + 1, f, r, vs => do
    let env ← known (params f.params vs)
    let r ← receiver f.recv.2 r
    match ← exec F p fs call gen (callMeth F p fs call gen n) f.body (bindVar f.recv.1 r env) with
    | .next _ => if f.results.length = 0 then pure [] else stuck
    | .ret vs => if vs.length = f.results.length then pure vs else stuck
    | .brk => stuck

/-- Call the method `name` of message type `t` on struct `i`. `p` and `fs` are the generated and the hand-written files of the package. -/
noncomputable def run (F : Fmt) (p : Program) (fs : List Top) (rt : Rt) (d n : Nat) (t name : Text) (i : Nat) (args : List XVal) : E (List XVal) :=
  match method fs t name with
  | some f => callMeth F p fs (goCall rt (d + 3)) (G.run p rt d) n f (.g (.struct t i)) args
  | none => stuck

end Zeropb.GoSrc.X
