import Verif.GoSrc.Syntax
import Verif.Spec.GoFile
/-!
# The subset of Go that generated files use: syntax

As `GoSrc/Syntax`, but names are texts, since they come from the .proto file. `Decl.ast` is the syntax
tree of each declaration the generator writes (generate/generate.go:58-186; golden/testzeropb/test.zeropb.go);
that the tokens of the generated text are those of the trees is proved in `GoSrc/GenText`.
-/

set_option linter.constructorNameAsVariable false

namespace Zeropb.GoSrc.G
open Zeropb.Gen (Text itoa)

/-- Types. -/
inductive Ty where
  | name (t : Text)
  | ptr (t : Text)      -- *t
  | bytes               -- []byte
deriving DecidableEq, Repr

/-- Expressions. -/
inductive Expr where
  | id (x : Text)
  | num (n : Int)
  | true_ | false_ | nil
  | sel (e : Expr) (f : Text)                    -- e.f
  | all (e : Expr)                               -- e[:]
  | addr (e : Expr)                              -- &e
  | star (e : Expr)                              -- *e
  | paren (e : Expr)
  | gt (l r : Expr)
  | eq (l r : Expr)
  | len (e : Expr)
  | conv (t : Text) (e : Expr)                   -- t(e)
  | pkg (f : Text) (args : Expr)                 -- zeropb.f(args)
  | method (e : Expr) (f : Text) (args : Expr)   -- e.f(args)
  | noArgs | arg (e : Expr) | args (e es : Expr)
deriving Repr

/-- Statements. A block is a sequence ended by `skip`. -/
inductive Stmt where
  | skip
  | seq (s rest : Stmt)
  | define (x : Text) (e : Expr)        -- x := e
  | varBytes (x : Text)                 -- var x []byte
  | assign (l e : Expr)                 -- l = e
  | assign2 (l1 l2 e : Expr)            -- l1, l2 = e
  | expr (e : Expr)
  | ret (es : Expr)
  | panic (msg : Text)                  -- panic(`msg`)
  | ite (c : Expr) (t : Stmt)           -- if c { t }
deriving Repr

/-- A method with a pointer receiver. -/
structure Func where
  recv : Text × Text
  name : Text
  params : List (Text × Ty)
  results : List Ty
  body : Stmt

/-- Top-level declarations. -/
inductive Top where
  | package (name : Text)
  | importOne (path : Text)
  | struct (name : Text) (slots : Int)           -- type name struct { buf []byte; offsets struct { a [slots]uint16; m map[int]uint64 } }
  | repeated (name : Text) (nums : List Int)     -- var name = zeropb.RepeatedFields{ num: struct{}{}, … }
  | bytesType (name : Text)                      -- type name []byte
  | func (f : Func)

/-! ## Printing -/

def Ty.toks : Ty → Toks
  | .name t => [t]
  | .ptr t => [c '*', t]
  | .bytes => [c '[', c ']', t!"byte"]

def Expr.toks : Expr → Toks
  | .id x => [x]
  | .num n => [itoa n]
  | .true_ => [t!"true"] | .false_ => [t!"false"] | .nil => [t!"nil"]
  | .sel e f => e.toks ++ [c '.', f]
  | .all e => e.toks ++ [c '[', c ':', c ']']
  | .addr e => [c '&'] ++ e.toks
  | .star e => [c '*'] ++ e.toks
  | .paren e => [c '('] ++ e.toks ++ [c ')']
  | .gt l r => l.toks ++ [c '>'] ++ r.toks
  | .eq l r => l.toks ++ [t!"=="] ++ r.toks
  | .len e => [t!"len", c '('] ++ e.toks ++ [c ')']
  | .conv t e => [t, c '('] ++ e.toks ++ [c ')']
  | .pkg f es => [t!"zeropb", c '.', f, c '('] ++ es.toks ++ [c ')']
  | .method e f es => e.toks ++ [c '.', f, c '('] ++ es.toks ++ [c ')']
  | .noArgs => []
  | .arg e => e.toks
  | .args e es => e.toks ++ [c ','] ++ es.toks

def Stmt.toks : Stmt → Toks
  | .skip => []
  | .seq s rest => s.toks ++ rest.toks
  | .define x e => [x, t!":="] ++ e.toks ++ [c ';']
  | .varBytes x => [t!"var", x, c '[', c ']', t!"byte", c ';']
  | .assign l e => l.toks ++ [c '='] ++ e.toks ++ [c ';']
  | .assign2 l1 l2 e => l1.toks ++ [c ','] ++ l2.toks ++ [c '='] ++ e.toks ++ [c ';']
  | .expr e => e.toks ++ [c ';']
  | .ret es => [t!"return"] ++ es.toks ++ [c ';']
  | .panic msg => [t!"panic", c '(', t!"`" ++ msg ++ t!"`", c ')', c ';']
  | .ite k t => [t!"if"] ++ k.toks ++ [c '{'] ++ t.toks ++ [c '}', c ';']

def Func.toks (f : Func) : Toks :=
  [t!"func", c '(', f.recv.1, c '*', f.recv.2, c ')', f.name, c '('] ++ commaSep (f.params.map (fun p => [p.1] ++ p.2.toks)) ++ [c ')'] ++
  (match f.results with | [] => [] | [t] => t.toks | ts => [c '('] ++ commaSep (ts.map Ty.toks) ++ [c ')']) ++
  [c '{'] ++ f.body.toks ++ [c '}', c ';']

def Top.toks : Top → Toks
  | .package n => [t!"package", n, c ';']
  | .importOne p => [t!"import", [Char.ofNat 34] ++ p ++ [Char.ofNat 34], c ';']
  | .struct n slots => [t!"type", n, t!"struct", c '{', t!"buf", c '[', c ']', t!"byte", c ';', t!"offsets", t!"struct", c '{',
      c 'a', c '[', itoa slots, c ']', t!"uint16", c ';', c 'm', t!"map", c '[', t!"int", c ']', t!"uint64", c ';', c '}', c ';', c '}', c ';']
  | .repeated n nums => [t!"var", n, c '=', t!"zeropb", c '.', t!"RepeatedFields", c '{'] ++
      (nums.map (fun k => [itoa k, c ':', t!"struct", c '{', c '}', c '{', c '}', c ','])).flatten ++ [c '}', c ';']
  | .bytesType n => [t!"type", n, c '[', c ']', t!"byte", c ';']
  | .func f => f.toks

/-! ## The declarations the generator writes -/

/-- `zeropb.WrapOffsets(m.offsets.a[:], &m.offsets.m)` (generate.go:34). -/
def wrap : Expr := .pkg t!"WrapOffsets" (.args (.all (.sel (.sel (.id t!"m") t!"offsets") t!"a")) (.arg (.addr (.sel (.sel (.id t!"m") t!"offsets") t!"m"))))

/-- `m.buf`. -/
def mbuf : Expr := .sel (.id t!"m") t!"buf"

/-- Statements in sequence. -/
def block : List Stmt → Stmt
  | [] => .skip
  | s :: ss => .seq s (block ss)

/-- The type of a scalar field. -/
def scalarTy (t : Text) : Ty := if t = t!"[]byte" then .bytes else .name t

/-- `if buf == nil { return false, nil }` -/
def ifNil : Stmt := .ite (.eq (.id t!"buf") .nil) (block [.ret (.args .false_ (.arg .nil))])

/-- `return true, x.Decode(buf)` -/
def retDecode (x : Text) : Stmt := .ret (.args .true_ (.arg (.method (.id x) t!"Decode" (.arg (.id t!"buf")))))

open Zeropb.Gen (Decl)

/-- `Encode` (generate.go:83-85, test.zeropb.go:35-37). -/
def srcEncode (msg : Text) : Func := ⟨(t!"m", msg), t!"Encode", [], [.bytes], block [.ret (.arg mbuf)]⟩

/-- `Decode` (generate.go:87-91, test.zeropb.go:39-42). -/
def srcDecode (msg : Text) : Func := ⟨(t!"m", msg), t!"Decode", [(t!"buf", .bytes)], [.name t!"error"],
  block [.assign mbuf (.id t!"buf"), .ret (.arg (.pkg t!"Decode" (.args mbuf (.args wrap (.arg (.id (t!"repeatedFields_" ++ msg)))))))]⟩

/-- `Reset` (generate.go:93-99, test.zeropb.go:44-50). -/
def srcReset (msg : Text) : Func := ⟨(t!"m", msg), t!"Reset", [(t!"buf", .bytes)], [],
  block [.ite (.gt (.len (.id t!"buf")) (.num 0)) (block [.panic t!"buf must be empty"]), .assign mbuf (.id t!"buf"),
    .expr (.method wrap t!"Clear" .noArgs)]⟩

/-- The getter of a scalar field (generate.go:131-133, test.zeropb.go:52-54). -/
def srcGet (msg name goType fn : Text) (num : Int) : Func := ⟨(t!"m", msg), name, [], [scalarTy goType],
  block [.ret (.arg (.pkg (t!"Get" ++ fn) (.args mbuf (.args wrap (.arg (.num num))))))]⟩

/-- The setter of a scalar field (generate.go:135-137, test.zeropb.go:56-58). -/
def srcSet (msg name goType fn : Text) (num : Int) : Func := ⟨(t!"m", msg), t!"Set" ++ name, [(t!"x", scalarTy goType)], [],
  block [.expr (.pkg (t!"Set" ++ fn) (.args (.addr mbuf) (.args wrap (.args (.num num) (.arg (.id t!"x"))))))]⟩

/-- The getter of a message field (generate.go:146-152, test.zeropb.go:180-186). -/
def srcGetMessage (msg name typ : Text) (num : Int) : Func := ⟨(t!"m", msg), name, [(t!"x", .ptr typ)], [.name t!"bool", .name t!"error"],
  block [.define t!"buf" (.pkg t!"GetBytes" (.args mbuf (.args wrap (.arg (.num num))))), ifNil, retDecode t!"x"]⟩

/-- The setter of a message field (generate.go:154-157, test.zeropb.go:188-191). -/
def srcSetMessage (msg name typ : Text) (num : Int) : Func := ⟨(t!"m", msg), t!"Set" ++ name, [(t!"x", .name typ)], [],
  block [.define t!"buf" (.method (.id t!"x") t!"Encode" .noArgs),
    .expr (.pkg t!"SetBytes" (.args (.addr mbuf) (.args wrap (.args (.num num) (.arg (.id t!"buf"))))))]⟩

/-- `Next` of an iterator (generate.go:169-176, test.zeropb.go:195-202). -/
def srcNext (it typ : Text) (num : Int) : Func := ⟨(t!"i", it), t!"Next", [(t!"m", .ptr typ)], [.name t!"bool", .name t!"error"],
  block [.varBytes t!"buf",
    .assign2 (.star (.id t!"i")) (.id t!"buf") (.pkg t!"FindNextField" (.args (.paren (.star (.id t!"i"))) (.arg (.num num)))),
    ifNil, retDecode t!"m"]⟩

/-- The getter of a repeated message field (generate.go:178-180, test.zeropb.go:204-206). -/
def srcGetRepeated (msg name it : Text) (num : Int) : Func := ⟨(t!"m", msg), name, [], [.name it],
  block [.ret (.arg (.conv it (.pkg t!"GetRepeatedNonPacked" (.args mbuf (.args wrap (.arg (.num num)))))))]⟩

/-- `AppendTo` of a repeated message field (generate.go:182-185, test.zeropb.go:208-211). -/
def srcAppendTo (msg name typ : Text) (num : Int) : Func := ⟨(t!"m", msg), t!"AppendTo" ++ name, [(t!"x", .name typ)], [],
  block [.define t!"buf" (.method (.id t!"x") t!"Encode" .noArgs),
    .expr (.pkg t!"AppendBytes" (.args (.addr mbuf) (.args wrap (.args (.num num) (.arg (.id t!"buf"))))))]⟩

/-- The syntax tree of a declaration. -/
def ast : Decl → Top
  | .struct msg slots => .struct msg slots
  | .repeatedTable msg nums => .repeated (t!"repeatedFields_" ++ msg) nums
  | .encode msg => .func (srcEncode msg)
  | .decode msg => .func (srcDecode msg)
  | .reset msg => .func (srcReset msg)
  | .get msg name goType fn num => .func (srcGet msg name goType fn num)
  | .set msg name goType fn num => .func (srcSet msg name goType fn num)
  | .getMessage msg name typ num => .func (srcGetMessage msg name typ num)
  | .setMessage msg name typ num => .func (srcSetMessage msg name typ num)
  | .iterType it => .bytesType it
  | .iterNext it typ num => .func (srcNext it typ num)
  | .getRepeated msg name it num => .func (srcGetRepeated msg name it num)
  | .appendTo msg name typ num => .func (srcAppendTo msg name typ num)

/-- The syntax tree of a file (generate.go:36-56). -/
def fileAst (pkg : Text) (ds : List Decl) : List Top :=
  [.package pkg, .importOne t!"github.com/danhhz/zeropb"] ++ ds.map ast

end Zeropb.GoSrc.G
