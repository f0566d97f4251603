import Verif.GoSrc.ToolGo
import Verif.Gen.Generate
/-!
# The subset of Go that the generator and the plugins use: semantics

An interpreter for the syntax trees of `GoSrc/ToolSyntax`. It is total: the only loops are `range` loops, which go over a
list that is evaluated once, and calls nest at most `depth` deep. `Err.stuck` is for what the
interpreter does not know (a type error, say); the theorems show that it does not occur.

Simplifications:
* Text is a list of characters, as in `Gen/StringTree`; indices count characters.
* `int` is unbounded. (`int32` is not.)
* Variables live in the environment, except those declared with `defineRef` and `varRef`, which live in the heap. The
  map of `Generate` and slices are values: nothing else refers to them. Pointers into the request are
  values too (`box`); the interpreter is stuck on an assignment through them. The heap is never
  collected.
* `x, err := e` declares new variables even if `err` exists; they hide the old ones.
* Struct literals have the fields given, and the declared fields for types declared in the program.
-/

set_option linter.constructorNameAsVariable false

namespace Zeropb.GoSrc.T
open Zeropb.Gen (Text Unicode Writer GenPanic)

/-- How a program can fail. -/
inductive Err where
  | panic (p : GenPanic)
  | nilDeref
  | stuck
deriving DecidableEq, Repr

abbrev M (α : Type) := Except Err α

/-- Values. `ε` are the error values of the world outside. -/
inductive V (ε : Type) where
  | str (s : Text)
  | bytes (s : Text)                     -- a []byte holding text
  | raw (b : List Byte)                  -- a []byte
  | const (n : Int)                      -- an untyped constant
  | int (n : Int)
  | i32 (x : U32)
  | rune (x : Char)
  | bool (b : Bool)
  | named (t : Id) (n : Int)             -- a number of a named type
  | stringer (s : Text)                  -- a fmt.Stringer of another package
  | other                                -- a value of a type that is not known here
  | unit
  | nil
  | err (e : ε)
  | formatted                            -- what fmt.Sprintf returns
  | struct (t : Id) (fs : List (Id × V ε))
  | box (t : Id) (v : Option (V ε))      -- pointer to a value nobody assigns to, or nil
  | ref (i : Nat)                        -- pointer into the heap
  | obj (i : Nat)                        -- (in environments) a variable in the heap
  | list (vs : List (V ε))
  | set (ks : List Text)                 -- map[string]struct{}
  | builder (s : Text)                   -- strings.Builder
  | writer                               -- an io.Writer of another package
  | file (x : Id)                        -- os.Stdin, os.Stdout, os.Stderr
  | closure (env : List (Id × V ε)) (p : Id) (body : Stmt)

/-- Local variables, the innermost first. -/
abbrev Env (ε : Type) := List (Id × V ε)

/-- Memory, and the state of the world outside. -/
structure St (σ ε : Type) where
  heap : List (V ε)
  ext : σ

variable {σ ε : Type}

/-- Everything outside of the function that is being run. -/
structure Ctx (σ ε : Type) where
  /-- package unicode -/
  U : Unicode
  /-- `Write` of a foreign io.Writer -/
  W : Writer σ ε
  /-- functions of other packages -/
  lib : Id → Id → List (V ε) → St σ ε → M (List (V ε) × St σ ε)
  /-- methods of `os.Stdout` and the like -/
  fileOp : Id → Id → List (V ε) → St σ ε → M (List (V ε) × St σ ε)
  /-- constants of the program -/
  consts : Id → Option (V ε)
  /-- declared fields of the structs of the program -/
  structs : Id → List (Id × Ty)
  /-- functions and methods of the program -/
  fns : Option Id → Id → List (V ε) → St σ ε → M (List (V ε) × St σ ε)
  /-- calling a function value -/
  apply : V ε → List (V ε) → St σ ε → M (List (V ε) × St σ ε)

/-- The value of a variable. -/
def get (x : Id) : Env ε → Option (V ε)
  | [] => none
  | (y, v) :: env => if y = x then some v else get x env

/-- Assign to a variable. -/
def put (x : Id) (v : V ε) : Env ε → Option (Env ε)
  | [] => none
  | (y, u) :: env => if y = x then some ((y, v) :: env) else (put x v env).map ((y, u) :: ·)

/-- Assign to a field of a struct. -/
def putField (f : Id) (v : V ε) : List (Id × V ε) → Option (List (Id × V ε))
  | [] => none
  | (g, u) :: fs => if g = f then some ((g, v) :: fs) else (putField f v fs).map ((g, u) :: ·)

/-- The field of a struct. -/
def fieldOf (f : Id) : V ε → M (V ε)
  | .struct _ fs => match get f fs with
    | some v => .ok v
    | none => .error .stuck
  | _ => .error .stuck

/-- What a pointer points to. -/
def deref (s : St σ ε) : V ε → M (V ε)
  | .box _ (some v) => .ok v
  | .box _ none => .error .nilDeref
  | .ref i => match s.heap[i]? with
    | some v => .ok v
    | none => .error .stuck
  | _ => .error .stuck

/-- The field of a struct or of what a pointer points to. -/
def select (s : St σ ε) (f : Id) : V ε → M (V ε)
  | .struct t fs => fieldOf f (.struct t fs)
  | v => do
    let u ← deref s v
    fieldOf f u

/-- The zero value of a type, if the program needs it. -/
def zero : Ty → M (V ε)
  | .name .int32 => .ok (.i32 0#32)
  | .name .string => .ok (.str [])
  | .name .error => .ok .nil
  | .name .StringTreeIndent => .ok (.named .StringTreeIndent 0)
  | .sel .strings .Builder => .ok (.builder [])
  | .sel .io .Writer => .ok .nil
  | .sel .generate .CodeGeneratorRequest => .ok (.struct .CodeGeneratorRequest [])
  | _ => .error .stuck

/-- An untyped constant takes the type of its context. -/
def coerce : Ty → V ε → V ε
  | .name .int32, .const n => .i32 (BitVec.ofInt 32 n)
  | .name .int, .const n => .int n
  | _, v => v

/-- Conversions. -/
def convert : Ty → V ε → M (V ε)
  | .name .int, .int n => .ok (.int n)
  | .name .int, .i32 x => .ok (.int x.toInt)
  | .name .int, .named _ n => .ok (.int n)
  | .name .int32, .i32 x => .ok (.i32 x)
  | .name .StringTreeIndent, .int n => .ok (.named .StringTreeIndent n)
  | .slice (.name .byte), .str s => .ok (.bytes s)
  | _, _ => .error .stuck

/-- Is a value nil? -/
def isNil : V ε → M Bool
  | .nil => .ok true
  | .box _ v => .ok v.isNone
  | .ref _ => .ok false
  | .err _ => .ok false
  | _ => .error .stuck

/-- Equality. -/
def equal : V ε → V ε → M Bool
  | v, .nil => isNil v
  | .named t m, .named u n => if t = u then .ok (decide (m = n)) else .error .stuck
  | .int m, .const n => .ok (decide (m = n))
  | _, _ => .error .stuck

/-- Binary operators except `&&`. -/
def binop : Op → V ε → V ε → M (V ε)
  | .add, .int a, .const b => .ok (.int (a + b))
  | .add, .i32 a, .const b => .ok (.i32 (a + BitVec.ofInt 32 b))
  | .add, .str a, .str b => .ok (.str (a ++ b))
  | .gt, .i32 a, .i32 b => .ok (.bool (decide (a.toInt > b.toInt)))
  | .eq, a, b => do
    let r ← equal a b
    .ok (.bool r)
  | .ne, a, b => do
    let r ← equal a b
    .ok (.bool (!r))
  | _, _, _ => .error .stuck

/-- One value. -/
def single : List (V ε) → M (V ε)
  | [v] => .ok v
  | _ => .error .stuck

/-- `strings.Map`: the function value is called for each character. -/
def mapRunes (call : List (V ε) → St σ ε → M (List (V ε) × St σ ε)) : Text → St σ ε → M (Text × St σ ε)
  | [], s => .ok ([], s)
  | x :: xs, s => do
    let (r, s) ← call [.rune x] s
    match r with
    | [.rune y] => do
      let (ys, s) ← mapRunes call xs s
      .ok (y :: ys, s)
    | [.const n] => if n < 0 then mapRunes call xs s else .error .stuck
    | _ => .error .stuck

/-- Functions of other packages. The standard library's packages strings, strconv, unicode and fmt are as in `Gen/Generate` and `Gen/StringTree`. -/
def library (k : Ctx σ ε) (p f : Id) (args : List (V ε)) (s : St σ ε) : M (List (V ε) × St σ ε) :=
  match p, f, args with
  | .strings, .Repeat, [.str x, .int n] => match Gen.repeatText x n with
    | .ok y => .ok ([.str y], s)
    | .error e => .error (.panic e)
  | .strings, .ReplaceAll, [.str x, .str old, .str new] =>
    if old = [] then .error .stuck else .ok ([.str (Gen.replaceAll old new x)], s)
  | .strings, .LastIndex, [.str x, .str [y]] => .ok ([.int (Gen.lastIndex y x)], s)
  | .strings, .Map, [fn, .str x] => do
    let (y, s) ← mapRunes (k.apply fn) x s
    .ok ([.str y], s)
  | .strconv, .Itoa, [.int n] => .ok ([.str (Gen.itoa n)], s)
  | .unicode, .IsLetter, [.rune x] => .ok ([.bool (k.U.isLetter x)], s)
  | .unicode, .IsDigit, [.rune x] => .ok ([.bool (k.U.isDigit x)], s)
  | .unicode, .ToTitle, [.rune x] => .ok ([.rune (k.U.toTitle x)], s)
  | .fmt, .Sprintf, .str _ :: _ => .ok ([.formatted], s)
  | p, f, args => k.lib p f args s

/-- An error value. -/
def errVal : Option ε → V ε
  | none => .nil
  | some e => .err e

/-- The type whose methods a value has, and the receiver it is passed as. -/
def recvType (s : St σ ε) : V ε → M (Id × V ε)
  | .named t n => .ok (t, .named t n)
  | .struct t fs => .ok (t, .box t (some (.struct t fs)))
  | .box t v => .ok (t, .box t v)
  | .ref i => match s.heap[i]? with
    | some (.struct t _) => .ok (t, .ref i)
    | _ => .error .stuck
  | _ => .error .stuck

/-- Methods. -/
def callMethod (k : Ctx σ ε) (r : V ε) (f : Id) (args : List (V ε)) (s : St σ ε) : M (List (V ε) × St σ ε) :=
  match r with
  | .writer => match f, args with
    | .Write, [.bytes x] =>
      .ok ([.int x.length, errVal (k.W.write s.ext x).2], { s with ext := (k.W.write s.ext x).1 })
    | _, _ => .error .stuck
  | .stringer x => match f, args with
    | .String, [] => .ok ([.str x], s)
    | _, _ => .error .stuck
  | .file x => k.fileOp x f args s
  | .ref i => match s.heap[i]? with
    | some (.builder x) => match f, args with
      | .Write, [.bytes y] => .ok ([.int y.length, .nil], { s with heap := s.heap.set i (.builder (x ++ y)) })
      | .String, [] => .ok ([.str x], s)
      | _, _ => .error .stuck
    | some (.struct t _) => k.fns (some t) f (.ref i :: args) s
    | _ => .error .stuck
  | r => do
    let (t, r) ← recvType s r
    k.fns (some t) f (r :: args) s

/-- A variable in the heap that a method is called on. -/
def heapVar (env : Env ε) : Expr → Option (V ε)
  | .id x => match get x env with
    | some (.obj i) => some (.ref i)
    | _ => none
  | _ => none

/-- Fields of a struct literal; declared fields that are not given are zero. -/
def fillFields (given : List (Id × V ε)) : List (Id × Ty) → M (List (Id × V ε))
  | [] => .ok []
  | (f, t) :: fs => do
    let v ← match get f given with
      | some v => .ok v
      | none => zero t
    let rest ← fillFields given fs
    .ok ((f, v) :: rest)

/-- The struct a literal denotes. -/
def literal (k : Ctx σ ε) (t : Id) (given : List (Id × V ε)) : M (V ε) :=
  match k.structs t with
  | [] => .ok (.struct t given)
  | fs => do
    let gs ← fillFields given fs
    .ok (.struct t gs)

/-- Expressions; argument lists give several values. The fields of a literal give the list of their values. -/
def eval (k : Ctx σ ε) (env : Env ε) : Expr → St σ ε → M (List (V ε) × St σ ε)
  | .id x, s => match get x env with
    | some (.obj i) => match s.heap[i]? with
      | some v => .ok ([v], s)
      | none => .error .stuck
    | some v => .ok ([v], s)
    | none => match k.consts x with
      | some v => .ok ([v], s)
      | none => .error .stuck
  | .num n, s => .ok ([.const n], s)
  | .neg n, s => .ok ([.const (-n)], s)
  | .str x, s => .ok ([.str x], s)
  | .raw x, s => .ok ([.str x], s)
  | .true_, s => .ok ([.bool true], s)
  | .false_, s => .ok ([.bool false], s)
  | .nil, s => .ok ([.nil], s)
  | .sel e f, s => do
    let (a, s) ← eval k env e s
    let v ← single a
    let u ← select s f v
    .ok ([u], s)
  | .pkgVar _ x, s => .ok ([.file x], s)
  | .not e, s => do
    let (a, s) ← eval k env e s
    match a with
    | [.bool b] => .ok ([.bool (!b)], s)
    | _ => .error .stuck
  | .star e, s => do
    let (a, s) ← eval k env e s
    let v ← single a
    let u ← deref s v
    .ok ([u], s)
  | .addr x, s => match get x env with
    | some (.obj i) => .ok ([.ref i], s)
    | _ => .error .stuck
  | .bin .land l r, s => do
    let (a, s) ← eval k env l s
    match a with
    | [.bool true] => eval k env r s
    | [.bool false] => .ok ([.bool false], s)
    | _ => .error .stuck
  | .bin op l r, s => do
    let (a, s) ← eval k env l s
    let (b, s) ← eval k env r s
    let x ← single a
    let y ← single b
    let v ← binop op x y
    .ok ([v], s)
  | .index e i, s => do
    let (a, s) ← eval k env e s
    let (b, s) ← eval k env i s
    match a, b with
    | [.set ks], [.str x] => .ok ([.unit, .bool (decide (x ∈ ks))], s)
    | _, _ => .error .stuck
  | .sliceFrom e lo, s => do
    let (a, s) ← eval k env e s
    let (b, s) ← eval k env lo s
    match a, b with
    | [.str x], [.int n] => if 0 ≤ n ∧ n ≤ x.length then .ok ([.str (x.drop n.toNat)], s) else .error .stuck
    | _, _ => .error .stuck
  | .conv t e, s => do
    let (a, s) ← eval k env e s
    let v ← single a
    let u ← convert t v
    .ok ([u], s)
  | .len e, s => do
    let (a, s) ← eval k env e s
    match a with
    | [.set ks] => .ok ([.int ks.eraseDups.length], s)
    | _ => .error .stuck
  | .append e x, s => do
    let (a, s) ← eval k env e s
    let (b, s) ← eval k env x s
    match a, b with
    | [.list vs], [v] => .ok ([.list (vs ++ [v])], s)
    | _, _ => .error .stuck
  | .make t n c, s => do
    let (a, s) ← eval k env n s
    let (b, s) ← eval k env c s
    match t, a, b with
    | .slice _, [.const 0], [.int _] => .ok ([.list []], s)
    | _, _, _ => .error .stuck
  | .emptySet, s => .ok ([.set []], s)
  | .unit, s => .ok ([.unit], s)
  | .newLit t fs, s => do
    let (a, s) ← eval k env fs s
    match a with
    | [.struct _ given] => do
      let v ← literal k t given
      .ok ([.ref s.heap.length], { s with heap := s.heap ++ [v] })
    | _ => .error .stuck
  | .field f e, s => do
    let (a, s) ← eval k env e s
    let v ← single a
    .ok ([.struct f [(f, v)]], s)
  | .fields f e rest, s => do
    let (a, s) ← eval k env e s
    let v ← single a
    let (b, s) ← eval k env rest s
    match b with
    | [.struct _ fs] => .ok ([.struct f ((f, v) :: fs)], s)
    | _ => .error .stuck
  | .call f es, s => do
    let (vs, s) ← eval k env es s
    k.fns none f vs s
  | .pkg p f es, s => do
    let (vs, s) ← eval k env es s
    library k p f vs s
  | .method e f es, s => do
    let (a, s) ← match heapVar env e with
      | some r => .ok ([r], s)
      | none => eval k env e s
    let r ← single a
    let (vs, s) ← eval k env es s
    callMethod k r f vs s
  | .noArgs, s => .ok ([], s)
  | .arg e, s => eval k env e s
  | .args e es, s => do
    let (a, s) ← eval k env e s
    let (b, s) ← eval k env es s
    .ok (a ++ b, s)

/-- How a statement ends. -/
inductive Out (ε : Type) where
  | next (env : Env ε)
  | cont (env : Env ε)          -- continue
  | ret (vs : List (V ε))

/-- The end of a block that began with `n` variables. -/
def Out.leave (n : Nat) : Out ε → Out ε
  | .next env => .next (env.drop (env.length - n))
  | .cont env => .cont (env.drop (env.length - n))
  | .ret vs => .ret vs

/-- Leave a block. -/
def leaving (n : Nat) (r : M (Out ε × St σ ε)) : M (Out ε × St σ ε) := do
  let (o, s) ← r
  .ok (o.leave n, s)

/-- Bind several names. -/
def bindNames : List (Option Id) → List (V ε) → Env ε → M (Env ε)
  | [], [], env => .ok env
  | some x :: xs, v :: vs, env => bindNames xs vs ((x, v) :: env)
  | none :: xs, _ :: vs, env => bindNames xs vs env
  | _, _, _ => .error .stuck

/-- Assign. -/
def assignTo (k : Ctx σ ε) (l : Expr) (v : V ε) (env : Env ε) (s : St σ ε) : M (Out ε × St σ ε) :=
  match l with
  | .id x => match get x env with
    | some (.obj i) => .ok (.next env, { s with heap := s.heap.set i v })
    | _ => match put x v env with
      | some env => .ok (.next env, s)
      | none => .error .stuck
  | .sel (.id x) f => match get x env with
    | some (.ref i) => match s.heap[i]? with
      | some (.struct t fs) => match putField f v fs with
        | some fs => .ok (.next env, { s with heap := s.heap.set i (.struct t fs) })
        | none => .error .stuck
      | _ => .error .stuck
    | _ => .error .stuck
  | .index (.id x) e => do
    let (a, s) ← eval k env e s
    match get x env, a with
    | some (.set ks), [.str y] => match put x (.set (ks ++ [y])) env with
      | some env => .ok (.next env, s)
      | none => .error .stuck
    | _, _ => .error .stuck
  | _ => .error .stuck

/-- The value a panic is about. -/
def panicOf : V ε → Err
  | .named .FieldDescriptorProto_Type n => .panic (.unsupportedType n)
  | .formatted => .panic .unknownArg
  | _ => .stuck

/-- Has a value, of an interface type, a type? -/
def hasType : Ty → V ε → M Bool
  | _, .list _ => .error .stuck
  | .name t, .named u _ => .ok (decide (t = u))
  | .name .string, .str _ => .ok true
  | .name .int32, .i32 _ => .ok true
  | .slice (.name .byte), .bytes _ => .ok true
  | .sel .fmt .Stringer, .stringer _ => .ok true
  | _, .named .StringTreeIndent _ => .ok false
  | _, .named _ _ => .error .stuck
  | _, .str _ => .ok false
  | _, .i32 _ => .ok false
  | _, .bytes _ => .ok false
  | _, .stringer _ => .ok false
  | _, .other => .ok false
  | _, _ => .error .stuck

/-- A `range` loop. -/
def rangeLoop (body : V ε → Env ε → St σ ε → M (Out ε × St σ ε)) : List (V ε) → Env ε → St σ ε → M (Out ε × St σ ε)
  | [], env, s => .ok (.next env, s)
  | v :: vs, env, s => do
    let (o, s) ← body v env s
    match o with
    | .next env => rangeLoop body vs env s
    | .cont env => rangeLoop body vs env s
    | .ret rs => .ok (.ret rs, s)

/-- Is a value among others? -/
def anyEqual (v : V ε) : List (V ε) → M Bool
  | [] => .ok false
  | u :: us => do
    let r ← equal v u
    if r then .ok true else anyEqual v us

/-- Statements. The value of the `switch` around it is passed to a `case`. -/
def exec (k : Ctx σ ε) : Stmt → Option (V ε) → Env ε → St σ ε → M (Out ε × St σ ε)
  | .skip, _, env, s => .ok (.next env, s)
  | .seq a b, _, env, s => do
    let (o, s) ← exec k a none env s
    match o with
    | .next env => exec k b none env s
    | .cont env => .ok (.cont env, s)
    | .ret vs => .ok (.ret vs, s)
  | .define xs e, _, env, s => do
    let (vs, s) ← eval k env e s
    let env ← bindNames xs vs env
    .ok (.next env, s)
  | .defineRef x e, _, env, s => do
    let (a, s) ← eval k env e s
    let v ← single a
    .ok (.next ((x, .obj s.heap.length) :: env), { s with heap := s.heap ++ [v] })
  | .defineFunc x p _ _ b, _, env, s => .ok (.next ((x, .closure env p b) :: env), s)
  | .var x t, _, env, s => do
    let v ← zero t
    .ok (.next ((x, v) :: env), s)
  | .varRef x t, _, env, s => do
    let v ← zero t
    .ok (.next ((x, .obj s.heap.length) :: env), { s with heap := s.heap ++ [v] })
  | .assign l e, _, env, s => do
    let (a, s) ← eval k env e s
    let v ← single a
    assignTo k l v env s
  | .assignSnd l e, _, env, s => do
    let (a, s) ← eval k env e s
    match a with
    | [_, v] => assignTo k l v env s
    | _ => .error .stuck
  | .expr e, _, env, s => do
    let (_, s) ← eval k env e s
    .ok (.next env, s)
  | .ret, _, _, s => .ok (.ret [], s)
  | .retVal es, _, env, s => do
    let (vs, s) ← eval k env es s
    .ok (.ret vs, s)
  | .panic e, _, env, s => do
    let (a, _) ← eval k env e s
    let v ← single a
    .error (panicOf v)
  | .continue_, _, env, s => .ok (.cont env, s)
  | .ite e t, _, env, s => do
    let (a, s) ← eval k env e s
    match a with
    | [.bool true] => leaving env.length (exec k t none env s)
    | [.bool false] => .ok (.next env, s)
    | _ => .error .stuck
  | .iteInit i e t, _, env, s => leaving env.length (do
      let (o, s) ← exec k i none env s
      match o with
      | .next env => do
        let (a, s) ← eval k env e s
        match a with
        | [.bool true] => exec k t none env s
        | [.bool false] => .ok (.next env, s)
        | _ => .error .stuck
      | _ => .error .stuck)
  | .switch e cs, _, env, s => do
    let (a, s) ← eval k env e s
    let v ← single a
    exec k cs (some v) env s
  | .case es b rest, v, env, s => do
    match v with
    | none => .error .stuck
    | some v => do
      let (us, s) ← eval k env es s
      let r ← anyEqual v us
      if r then leaving env.length (exec k b none env s) else exec k rest (some v) env s
  | .typeSwitch x e cs, _, env, s => leaving env.length (do
      let (a, s) ← eval k env e s
      let v ← single a
      exec k cs (some v) ((x, v) :: env) s)
  | .typeCase t b rest, v, env, s => do
    match v with
    | none => .error .stuck
    | some v => do
      let r ← hasType t v
      if r then leaving env.length (exec k b none env s) else exec k rest (some v) env s
  | .default b, _, env, s => leaving env.length (exec k b none env s)
  | .range x e b, _, env, s => do
    let (a, s) ← eval k env e s
    match a with
    | [.list vs] => rangeLoop (fun v env s => leaving env.length (exec k b none ((x, v) :: env) s)) vs env s
    | _ => .error .stuck

/-- Parameters one by one. -/
def flatParams : List (List Id × Ty) → List (Id × Ty)
  | [] => []
  | (xs, t) :: ps => xs.map (·, t) ++ flatParams ps

/-- Bind the arguments. -/
def bindArgs : List (Id × Ty) → Option Id → List (V ε) → M (Env ε)
  | [], none, [] => .ok []
  | [], some x, vs => .ok [(x, .list vs)]
  | (x, t) :: ps, var, v :: vs => do
    let env ← bindArgs ps var vs
    .ok ((x, coerce t v) :: env)
  | _, _, _ => .error .stuck

/-- The results get the declared types. -/
def results : List (List Id × Ty) → List (V ε) → M (List (V ε))
  | [], [] => .ok []
  | ([], t) :: ts, v :: vs => do
    let us ← results ts vs
    .ok (coerce t v :: us)
  | ([_, _], t) :: ts, v :: u :: vs => do
    let us ← results ts vs
    .ok (coerce t v :: coerce t u :: us)
  | _, _ => .error .stuck

/-- Run a function. The receiver is the first argument. -/
def invoke (k : Ctx σ ε) (f : Func) (args : List (V ε)) (s : St σ ε) : M (List (V ε) × St σ ε) := do
  let env ← bindArgs ((match f.recv with | none => [] | some p => [p]) ++ flatParams f.params) f.variadic args
  let (o, s) ← exec k f.body none env s
  match o with
  | .next _ => match f.results with
    | [] => .ok ([], s)
    | _ => .error .stuck
  | .ret vs => do
    let rs ← results f.results vs
    .ok (rs, s)
  | .cont _ => .error .stuck

/-- Call a function value. -/
def applyClosure (k : Ctx σ ε) (f : V ε) (args : List (V ε)) (s : St σ ε) : M (List (V ε) × St σ ε) :=
  match f, args with
  | .closure env p b, [v] => do
    let (o, s) ← exec k b none ((p, v) :: env) s
    match o with
    | .ret vs => .ok (vs, s)
    | _ => .error .stuck
  | _, _ => .error .stuck

/-! ## Programs -/

/-- The type a receiver belongs to. -/
def Func.recvName (f : Func) : Option Id :=
  match f.recv with
  | some (_, .name t) => some t
  | some (_, .ptr (.name t)) => some t
  | _ => none

/-- The function or method with a name. -/
def findFunc (p : List Top) (t : Option Id) (f : Id) : Option Func :=
  p.findSome? (fun d => match d with
    | .func g => if g.recvName = t ∧ g.name = f then some g else none
    | _ => none)

/-- The constants of the package. -/
def findConst (p : List Top) (x : Id) : Option (V ε) :=
  p.findSome? (fun d => match d with
    | .const y (.str t) => if y = x then some (.str t) else none
    | .consts cs => cs.findSome? (fun q => match q with
      | (y, .name t, n) => if y = x then some (.named t n) else none
      | _ => none)
    | _ => none)

/-- The fields of a struct type. -/
def findStruct (p : List Top) (x : Id) : List (Id × Ty) :=
  (p.findSome? (fun d => match d with
    | .struct y fs => if y = x then some fs else none
    | _ => none)).getD []

/-- The world outside of the program. -/
structure World (σ ε : Type) where
  U : Unicode
  W : Writer σ ε
  lib : Id → Id → List (V ε) → St σ ε → M (List (V ε) × St σ ε)
  fileOp : Id → Id → List (V ε) → St σ ε → M (List (V ε) × St σ ε)

/-- The context in which the functions of a program run; calls nest at most `d` deep. -/
def ctx (w : World σ ε) (p : List Top) : Nat → Ctx σ ε
  | 0 => ⟨w.U, w.W, w.lib, w.fileOp, findConst p, findStruct p, fun _ _ _ _ => .error .stuck, fun _ _ _ => .error .stuck⟩
  | d + 1 => ⟨w.U, w.W, w.lib, w.fileOp, findConst p, findStruct p,
      (fun t f args s => match findFunc p t f with
        | some g => invoke (ctx w p d) g args s
        | none => .error .stuck),
      applyClosure (ctx w p d)⟩

/-- Call a function or method of a program. -/
def run (w : World σ ε) (p : List Top) (d : Nat) (t : Option Id) (f : Id) (args : List (V ε)) (s : St σ ε) : M (List (V ε) × St σ ε) :=
  (ctx w p d).fns t f args s

/-- Package generate (generate/generate.go, generate/stringtree.go and the parts of generate/descriptor.pb.go it calls). -/
def generatePackage : List Top := descriptorGo ++ stringtreeGo ++ generateGo

end Zeropb.GoSrc.T
