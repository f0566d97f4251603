import Verif.GoSrc.GenSyntax
import Verif.GoSrc.OffsetsGo
import Verif.GoSrc.ZeropbGo
/-!
# Static semantics of Go, for the subset that generated files use

What a Go compiler checks before it accepts a package (The Go Programming Language Specification: "Declarations and scope", "Properties of
types and values", "Expressions", "Statements"): names are identifiers and declared once in their block; every name resolves, from the innermost
block outwards; operands have the types the operators, calls, assignments and returns need; untyped constants are representable; what is written
to or has its address taken is addressable; functions with results end in a terminating statement; local variables and imports are used; a map
literal has no constant key twice; a type has no field and method of the same name.

It is a specification: nothing here is taken from the generator. The types of the functions of package zeropb are those in the source of the package
(`GoSrc/OffsetsGo`, `GoSrc/ZeropbGo`). Where the specification of Go accepts more than is written here (for example a comparison of two slices' lengths
is accepted, a comparison of two strings with `==` is not), the check is stricter than Go.
-/

set_option linter.constructorNameAsVariable false

namespace Zeropb.GoSrc.G.Check
open Zeropb.Gen (Text)

/-- Types. -/
inductive T where
  | basic (t : Text)                      -- predeclared types, and `error`
  | named (t : Text)                      -- a type declared in the package
  | imported (t : Text)                   -- zeropb.t
  | ptr (t : T)
  | slice (t : T)
  | array (n : Int) (t : T)
  | map (k v : T)
  | struct                                -- struct{}
  | field (name : Text) (t rest : T)      -- a struct with a field `name`, and the fields of `rest`
  | constInt (n : Int)                    -- an untyped integer constant
  | constBool                             -- an untyped boolean
  | nil                                   -- the type of nil
deriving DecidableEq, Repr

/-- What a name stands for. -/
inductive Obj where
  | type (t : T)
  | var (t : T)
  | const (t : T)
  | builtin
  | pkg
deriving DecidableEq, Repr

/-- The keywords. -/
def keywords : List Text := [t!"break", t!"case", t!"chan", t!"const", t!"continue", t!"default", t!"defer", t!"else", t!"fallthrough",
  t!"for", t!"func", t!"go", t!"goto", t!"if", t!"import", t!"interface", t!"map", t!"package", t!"range", t!"return", t!"select",
  t!"struct", t!"switch", t!"type", t!"var"]

/-- The predeclared types. -/
def basics : List Text := [t!"bool", t!"string", t!"int", t!"int8", t!"int16", t!"int32", t!"int64", t!"uint", t!"uint8", t!"uint16", t!"uint32",
  t!"uint64", t!"uintptr", t!"float32", t!"float64", t!"complex64", t!"complex128", t!"error"]

/-- The predeclared functions. -/
def builtins : List Text := [t!"append", t!"cap", t!"close", t!"complex", t!"copy", t!"delete", t!"imag", t!"len", t!"make", t!"new", t!"panic",
  t!"print", t!"println", t!"real", t!"recover"]

/-- The universe block. -/
def universe_ (x : Text) : Option Obj :=
  if x ∈ basics then some (.type (.basic x))
  else if x = t!"byte" then some (.type (.basic t!"uint8"))
  else if x = t!"rune" then some (.type (.basic t!"int32"))
  else if x ∈ builtins then some .builtin
  else if x = t!"true" ∨ x = t!"false" then some (.const .constBool)
  else if x = t!"nil" then some (.const .nil)
  else none

/-- An identifier that may be declared: letters, digits and `_`, not beginning with a digit; not a keyword, nor the blank identifier.
(Letters are ASCII: stricter than Go.) -/
def identifier (x : Text) : Bool :=
  !x.isEmpty && x.all isIdChar && x.head?.all (fun a => !a.isDigit) && !(keywords.contains x) && x != t!"_"

/-- Visible outside of its package. -/
def exported (x : Text) : Bool := x.head?.any Char.isUpper

/-! ## Package zeropb, from its source -/

/-- The types of a function. -/
structure Sig where
  params : List T
  results : List T
deriving DecidableEq, Repr

/-- A type in the source of package zeropb. -/
def apiTy : GoSrc.Ty → T
  | .bool => .basic t!"bool" | .int => .basic t!"int" | .int32 => .basic t!"int32" | .int64 => .basic t!"int64" | .uint16 => .basic t!"uint16"
  | .uint32 => .basic t!"uint32" | .uint64 => .basic t!"uint64" | .float32 => .basic t!"float32" | .float64 => .basic t!"float64"
  | .string => .basic t!"string" | .error => .basic t!"error"
  | .bytes => .slice (.basic t!"uint8")
  | .bufPtr => .ptr (.slice (.basic t!"uint8"))
  | .u16s => .slice (.basic t!"uint16")
  | .map => .map (.basic t!"int") (.basic t!"uint64")
  | .mapPtr => .ptr (.map (.basic t!"int") (.basic t!"uint64"))
  | .Offsets => .imported t!"Offsets"
  | .RepeatedFields => .imported t!"RepeatedFields"
  | .StringHeader => .imported t!"StringHeader"

/-- The types of a function of package zeropb. -/
def apiSig (f : GoSrc.Func) : Sig := ⟨f.params.flatMap (fun p => p.1.map (fun _ => apiTy p.2)), f.results.map apiTy⟩

/-- The source of package zeropb. -/
def api : List GoSrc.Top := offsetsFile ++ zeropbFile

/-- The function `zeropb.f`. -/
def apiFunc (f : Text) : Option Sig :=
  if exported f then api.findSome? (fun
    | .func g => if g.recv = none ∧ g.name.text = f then some (apiSig g) else none
    | _ => none)
  else none

/-- The method `f` of the type `zeropb.t`. -/
def apiMethod (t f : Text) : Option Sig :=
  if exported f then api.findSome? (fun
    | .func g => if g.recv.map (fun r => apiTy r.2) = some (.imported t) ∧ g.name.text = f then some (apiSig g) else none
    | _ => none)
  else none

/-- The type that `zeropb.t` is defined as. -/
def apiType (t : Text) : Option T :=
  if exported t then api.findSome? (fun
    | .repeatedType => if t = t!"RepeatedFields" then some (.map (.basic t!"int") .struct) else none
    | .offsetsType => if t = t!"Offsets" then some (.field t!"a" (.slice (.basic t!"uint16")) (.field t!"m" (.ptr (.map (.basic t!"int") (.basic t!"uint64"))) .struct)) else none
    | _ => none)
  else none

/-- The name of the package with an import path. -/
def apiName (path : Text) : Option Text :=
  if path = t!"github.com/danhhz/zeropb" then api.findSome? (fun | .package n => some n | _ => none) else none

/-! ## Declarations -/

/-- All declarations of a package. -/
abbrev Decls := List Top

/-- The name a declaration introduces in the package block. -/
def objOf : Top → Option (Text × Obj)
  | .struct n _ | .bytesType n => some (n, .type (.named n))
  | .repeated n _ => some (n, .var (.imported t!"RepeatedFields"))
  | .package _ | .importOne _ | .func _ => none

/-- The type a type declaration defines a name as. -/
def underOf : Top → Option (Text × T)
  | .struct n k => some (n, .field t!"buf" (.slice (.basic t!"uint8")) (.field t!"offsets"
      (.field t!"a" (.array k (.basic t!"uint16")) (.field t!"m" (.map (.basic t!"int") (.basic t!"uint64")) .struct)) .struct))
  | .bytesType n => some (n, .slice (.basic t!"uint8"))
  | .repeated _ _ | .package _ | .importOne _ | .func _ => none

/-- The method a declaration introduces. -/
def methodOf : Top → Option ((Text × Text) × Func)
  | .func f => some ((f.recv.2, f.name), f)
  | _ => none

/-- A name that is not local: declared in the package, imported by the file, or predeclared. -/
def look (p : Decls) (imports : List Text) (x : Text) : Option Obj :=
  match (p.filterMap objOf).lookup x with
  | some o => some o
  | none => if x ∈ imports then some .pkg else universe_ x

/-- A name that is used as a type. -/
def lookType (p : Decls) (imports : List Text) (x : Text) : Option T :=
  match look p imports x with
  | some (.type t) => some t
  | _ => none

/-- A type in the source. -/
def ty (p : Decls) (imports : List Text) : Ty → Option T
  | .name t => lookType p imports t
  | .ptr t => (lookType p imports t).map .ptr
  | .bytes => (lookType p imports t!"byte").map .slice

/-- The types of a method. -/
def sig (p : Decls) (imports : List Text) (f : Func) : Option Sig := do
  let ps ← f.params.mapM (fun x => ty p imports x.2)
  let rs ← f.results.mapM (ty p imports)
  some ⟨ps, rs⟩

/-- The underlying type. -/
def under (p : Decls) : T → Option T
  | .named n => (p.filterMap underOf).lookup n
  | .imported n => apiType n
  | t => some t

/-! ## Types and values -/

/-- Types that have a name. -/
def hasName : T → Bool
  | .basic _ | .named _ | .imported _ => true
  | _ => false

/-- Types with the value nil. -/
def nilable : T → Bool
  | .ptr _ | .slice _ | .map _ _ => true
  | .basic t => t == t!"error"
  | _ => false

/-- A type that a variable may have. -/
def typed : T → Bool
  | .constInt _ | .constBool | .nil => false
  | _ => true

/-- An integer constant is representable. `int` is taken to have the least number of bits it may have, 32. -/
def representable (n : Int) (t : T) : Bool :=
  if t = .basic t!"int" ∨ t = .basic t!"int32" then -2 ^ 31 ≤ n ∧ n < 2 ^ 31
  else if t = .basic t!"int64" then -2 ^ 63 ≤ n ∧ n < 2 ^ 63
  else if t = .basic t!"uint32" then 0 ≤ n ∧ n < 2 ^ 32
  else if t = .basic t!"uint64" then 0 ≤ n ∧ n < 2 ^ 64
  else false

/-- Assignability. -/
def assignable (p : Decls) (v t : T) : Bool :=
  match v with
  | .constInt n => (under p t).any (representable n)
  | .constBool => under p t == some (.basic t!"bool")
  | .nil => (under p t).any nilable
  | v => v == t || ((under p v).isSome && under p v == under p t && (!hasName v || !hasName t))

/-- Assignability, one by one. -/
def assignableAll (p : Decls) (vs ts : List T) : Bool := vs.length == ts.length && (vs.zip ts).all (fun x => assignable p x.1 x.2)

/-- Convertibility of a value of type `v`: assignable, or the underlying types are the same. -/
def convertible (p : Decls) (v t : T) : Bool := assignable p v t || (typed v && (under p v).isSome && under p v == under p t)

/-- A field of a struct. -/
def fieldOf (f : Text) : T → Option T
  | .field n t rest => if n = f then some t else fieldOf f rest
  | _ => none

/-- The fields of a struct. -/
def fieldNames : T → List Text
  | .field n _ rest => n :: fieldNames rest
  | _ => []

/-! ## Expressions -/

/-- Where an expression or statement stands: the declarations of the package, the imports of the file, and the local variables, innermost block first. -/
structure Env where
  p : Decls
  imports : List Text
  blocks : List (List (Text × T))

/-- The meaning of a name. -/
def Env.look (Γ : Env) (x : Text) : Option Obj :=
  match Γ.blocks.flatten.lookup x with
  | some t => some (.var t)
  | none => Check.look Γ.p Γ.imports x

/-- One value: its type, and whether it is addressable. -/
def one : Option (List T × Bool) → Option (T × Bool)
  | some ([t], a) => some (t, a)
  | _ => none

/-- The method `f` of a value of type `t`: methods of types of this package have pointer receivers, so that the value must be a pointer or addressable. -/
def methodSig (Γ : Env) (t : T) (addressable : Bool) (f : Text) : Option Sig :=
  match t with
  | .ptr (.named n) => ((Γ.p.filterMap methodOf).lookup (n, f)).bind (sig Γ.p Γ.imports)
  | .named n => if addressable then ((Γ.p.filterMap methodOf).lookup (n, f)).bind (sig Γ.p Γ.imports) else none
  | .imported n => apiMethod n f
  | _ => none

/-- The types of the values of an expression or argument list, and whether it is addressable. -/
def expr (Γ : Env) : Expr → Option (List T × Bool)
  | .id x => match Γ.look x with
    | some (.var t) => some ([t], true)
    | _ => none
  | .num n => some ([.constInt n], false)
  | .true_ => match Γ.look t!"true" with
    | some (.const t) => some ([t], false)
    | _ => none
  | .false_ => match Γ.look t!"false" with
    | some (.const t) => some ([t], false)
    | _ => none
  | .nil => match Γ.look t!"nil" with
    | some (.const t) => some ([t], false)
    | _ => none
  | .sel e f => match one (expr Γ e) with
    | some (.ptr t, _) => ((under Γ.p t).bind (fieldOf f)).map (fun t => ([t], true))
    | some (t, a) => ((under Γ.p t).bind (fieldOf f)).map (fun t => ([t], a))
    | none => none
  | .all e => match one (expr Γ e) with
    | some (.array _ t, true) => some ([.slice t], false)
    | some (.slice t, _) => some ([.slice t], false)
    | _ => none
  | .addr e => match one (expr Γ e) with
    | some (t, true) => some ([.ptr t], false)
    | _ => none
  | .star e => match one (expr Γ e) with
    | some (.ptr t, _) => some ([t], true)
    | _ => none
  | .paren e => expr Γ e
  | .gt l r => match one (expr Γ l), one (expr Γ r) with
    | some (t, _), some (.constInt n, _) => if representable n t then some ([.constBool], false) else none
    | _, _ => none
  | .eq l r => match one (expr Γ l), one (expr Γ r) with
    | some (t, _), some (.nil, _) => if (under Γ.p t).any nilable then some ([.constBool], false) else none
    | _, _ => none
  | .len e => match Γ.look t!"len", one (expr Γ e) with
    | some .builtin, some (t, _) => match under Γ.p t with
      | some (.slice _) => some ([.basic t!"int"], false)
      | _ => none
    | _, _ => none
  | .conv t e => match Γ.look t, one (expr Γ e) with
    | some (.type t), some (v, _) => if convertible Γ.p v t then some ([t], false) else none
    | _, _ => none
  | .pkg f es => match Γ.look t!"zeropb", apiFunc f, expr Γ es with
    | some .pkg, some s, some (ts, _) => if assignableAll Γ.p ts s.params then some (s.results, false) else none
    | _, _, _ => none
  | .method e f es => match one (expr Γ e), expr Γ es with
    | some (t, a), some (ts, _) => match methodSig Γ t a f with
      | some s => if assignableAll Γ.p ts s.params then some (s.results, false) else none
      | none => none
    | _, _ => none
  | .noArgs => some ([], false)
  | .arg e => (one (expr Γ e)).map (fun t => ([t.1], false))
  | .args e es => match one (expr Γ e), expr Γ es with
    | some (t, _), some (ts, _) => some (t :: ts, false)
    | _, _ => none

/-- The names an expression uses. -/
def uses : Expr → List Text
  | .id x => [x]
  | .num _ | .true_ | .false_ | .nil | .noArgs => []
  | .sel e _ | .all e | .addr e | .star e | .paren e | .len e | .arg e => uses e
  | .conv t e => t :: uses e
  | .gt l r | .eq l r | .args l r => uses l ++ uses r
  | .pkg _ es => t!"zeropb" :: uses es
  | .method e _ es => uses e ++ uses es

/-! ## Statements -/

/-- Declare a local variable in the current block. -/
def Env.add (Γ : Env) (x : Text) (t : T) : Option Env :=
  match Γ.blocks with
  | b :: bs => if identifier x && (b.lookup x).isNone && typed t then some { Γ with blocks := ((x, t) :: b) :: bs } else none
  | [] => none

/-- A statement in a function with the results `res`; the variables it declares are visible to the statements after it. -/
def stmt (res : List T) (Γ : Env) : Stmt → Option Env
  | .skip => some Γ
  | .seq s rest => match stmt res Γ s with
    | some Γ' => stmt res Γ' rest
    | none => none
  | .define x e => match one (expr Γ e) with
    | some (t, _) => Γ.add x t
    | none => none
  | .varBytes x => match (match Γ.look t!"byte" with | some (.type t) => some t | _ => none) with
    | some t => Γ.add x (.slice t)
    | none => none
  | .assign l e => match one (expr Γ l), one (expr Γ e) with
    | some (t, true), some (v, _) => if assignable Γ.p v t then some Γ else none
    | _, _ => none
  | .assign2 l1 l2 e => match one (expr Γ l1), one (expr Γ l2), expr Γ e with
    | some (t1, true), some (t2, true), some ([v1, v2], _) => if assignable Γ.p v1 t1 && assignable Γ.p v2 t2 then some Γ else none
    | _, _, _ => none
  | .expr e => match e with
    | .pkg _ _ | .method _ _ _ => if (expr Γ e).isSome then some Γ else none
    | _ => none
  | .ret es => match expr Γ es with
    | some (vs, _) => if assignableAll Γ.p vs res then some Γ else none
    | none => none
  | .panic _ => if Γ.look t!"panic" = some .builtin then some Γ else none
  | .ite c t => match one (expr Γ c) with
    | some (v, _) => if assignable Γ.p v (.basic t!"bool") && (stmt res { Γ with blocks := [] :: Γ.blocks } t).isSome then some Γ else none
    | none => none

/-- The variables a statement declares. -/
def locals : Stmt → List Text
  | .seq s rest => locals s ++ locals rest
  | .define x _ | .varBytes x => [x]
  | .ite _ t => locals t
  | _ => []

/-- The names a statement uses. An assignment to a variable does not use it. -/
def usesIn : Stmt → List Text
  | .skip | .varBytes _ => []
  | .seq s rest => usesIn s ++ usesIn rest
  | .define _ e | .expr e | .ret e => uses e
  | .assign l e => target l ++ uses e
  | .assign2 l1 l2 e => target l1 ++ target l2 ++ uses e
  | .panic _ => [t!"panic"]
  | .ite c t => uses c ++ usesIn t
where
  /-- the left side of an assignment -/
  target : Expr → List Text
    | .id _ => []
    | e => uses e

/-- The statement is terminating. -/
def terminating : Stmt → Bool
  | .seq s .skip => terminating s
  | .seq _ rest => terminating rest
  | .ret _ | .panic _ => true
  | _ => false

/-! ## Functions, files and packages -/

/-- A method declaration is correct. No local variable may have the name of another one or of a parameter: stricter than Go, and it makes the names that are
used in the body the variables that are used. -/
def funcOk (p : Decls) (imports : List Text) (f : Func) : Bool :=
  identifier f.name &&
  (f.recv.1 :: f.params.map (·.1) ++ locals f.body).all identifier &&
  decide (f.recv.1 :: f.params.map (·.1) ++ locals f.body).Nodup &&
  (match lookType p imports f.recv.2, sig p imports f with
  | some (.named n), some s =>
    -- no field of the same name
    (under p (.named n)).any (fun t => !(fieldNames t).contains f.name) &&
    (stmt s.results ⟨p, imports, [(f.recv.1, .ptr (.named n)) :: (f.params.map (·.1)).zip s.params]⟩ f.body).isSome &&
    (s.results.isEmpty || terminating f.body)
  | _, _ => false) &&
  (locals f.body).all (fun x => (usesIn f.body).contains x)

/-- A declaration of a file is correct. -/
def topOk (p : Decls) (imports : List Text) : Top → Bool
  | .package n => identifier n
  | .importOne _ => true
  | .struct n k => identifier n && decide (0 ≤ k) &&
      lookType p imports t!"byte" == some (.basic t!"uint8") && lookType p imports t!"uint16" == some (.basic t!"uint16") &&
      lookType p imports t!"int" == some (.basic t!"int") && lookType p imports t!"uint64" == some (.basic t!"uint64")
  | .bytesType n => identifier n && lookType p imports t!"byte" == some (.basic t!"uint8")
  | .repeated n ks => identifier n && look p imports t!"zeropb" == some .pkg &&
      (match apiType t!"RepeatedFields" with
      | some (.map k .struct) => ks.all (fun n => representable n k) && decide ks.Nodup
      | _ => false)
  | .func f => funcOk p imports f

/-- The names a declaration uses. -/
def usesTop : Top → List Text
  | .repeated _ _ => [t!"zeropb"]
  | .func f => usesIn f.body
  | _ => []

/-- The package clause of a file. -/
def clause : List Top → Option Text
  | .package n :: _ => some n
  | _ => none

/-- The names a file imports; only after the package clause, and only packages that exist. -/
def importsOf : List Top → Option (List Text)
  | .package _ :: .importOne path :: _ => (apiName path).map (fun n => [n])
  | .package _ :: _ => some []
  | _ => none

/-- The declarations of a file, after the package clause and the import. -/
def body : List Top → List Top
  | .package _ :: .importOne _ :: ds | .package _ :: ds => ds
  | ds => ds

/-- Not a package clause or import. -/
def isDecl : Top → Bool
  | .package _ | .importOne _ => false
  | _ => true

/-- The name a declaration introduces: in the package block, or as a method of a type. -/
def declared : Top → Option (Option Text × Text)
  | .struct n _ | .bytesType n | .repeated n _ => some (none, n)
  | .func f => some (some f.recv.2, f.name)
  | .package _ | .importOne _ => none

/-- A file of the package `pkg` is correct: every declaration is, the import is used, and no name of the package is that of an import. -/
def fileOk (p : Decls) (pkg : Text) (file : List Top) : Bool :=
  clause file == some pkg && identifier pkg &&
  (match importsOf file with
  | some is => is.all (fun i => file.any (fun d => (usesTop d).contains i) && ((p.filterMap objOf).lookup i).isNone) &&
      (body file).all isDecl &&
      (body file).all (topOk p is)
  | none => false)

/-- A Go compiler accepts the package: all files are correct; no name is declared twice, and none is `init`, or `main` in package main, which may only be
the names of functions. -/
def packageOk (pkg : Text) (files : List (List Top)) : Bool :=
  files.all (fileOk files.flatten pkg) &&
  decide (files.flatten.filterMap declared).Nodup &&
  (files.flatten.filterMap objOf).all (fun x => x.1 != t!"init" && !(pkg == t!"main" && x.1 == t!"main"))

/-! ## The check rejects what Go rejects -/

/-- One message `M` with the methods the generator writes, and another method. -/
def oneMessage (f : Func) : List (List Top) := [fileAst t!"x" [.struct t!"M" 3, .repeatedTable t!"M" [2], .encode t!"M", .decode t!"M", .reset t!"M"] ++ [.func f]]

/-- A method of `M`. -/
def meth (params : List (Text × Ty)) (results : List Ty) (ss : List Stmt) : Func := ⟨(t!"m", t!"M"), t!"F", params, results, block ss⟩

/-- Accepted: `x.F(y)` of type `[]byte`, and a named result of it in a local variable. -/
example : packageOk t!"x" (oneMessage (meth [(t!"y", .bytes)] [.bytes] [.define t!"z" (.method (.id t!"m") t!"F" (.arg (.id t!"y"))), .ret (.arg (.id t!"z"))])) = true := by
  decide +kernel

/-- Rejected: an unused variable; a missing return; a wrong number of results; a wrong type; a value where a pointer is needed; a name that is not declared; a redeclared
variable; a constant out of range; an assignment to what is no variable; the address of a call; a field and a method of the same name; a method of the runtime that is
not exported; an expression that is no call as a statement; a method declared twice. -/
example : ∀ f ∈ [
    meth [(t!"y", .bytes)] [] [.define t!"z" (.id t!"y")],
    meth [(t!"y", .bytes)] [.bytes] [.expr (.method (.id t!"m") t!"Encode" .noArgs)],
    meth [(t!"y", .bytes)] [.bytes] [.ret (.args (.id t!"y") (.arg (.id t!"y")))],
    meth [(t!"y", .bytes)] [.name t!"string"] [.ret (.arg (.id t!"y"))],
    meth [] [] [.expr (.pkg t!"SetBytes" (.args mbuf (.args wrap (.args (.num 1) (.arg mbuf)))))],
    meth [] [.bytes] [.ret (.arg (.id t!"y"))],
    meth [(t!"y", .bytes)] [.bytes] [.define t!"y" mbuf, .ret (.arg (.id t!"y"))],
    meth [] [.bytes] [.ret (.arg (.pkg t!"GetBytes" (.args mbuf (.args wrap (.arg (.num (2 ^ 40)))))))],
    meth [] [] [.assign (.method (.id t!"m") t!"Encode" .noArgs) .nil],
    meth [] [.ptr t!"byte"] [.ret (.arg (.addr (.method (.id t!"m") t!"Encode" .noArgs)))],
    { meth [] [] [] with name := t!"buf" },
    meth [] [] [.expr (.pkg t!"setSingle" (.args (.addr mbuf) (.args wrap (.args (.num 1) (.arg mbuf)))))],
    meth [(t!"y", .bytes)] [] [.expr (.id t!"y")],
    { meth [] [] [] with name := t!"Encode" }], packageOk t!"x" (oneMessage f) = false := by
  decide +kernel

end Zeropb.GoSrc.G.Check
