import Verif.GoSrc.GenSyntax
/-!
# The hand-written files beside generated code: syntax

The subset of Go that golden/testzeropb/string.go, golden/testzeropb/internals.go and golden/raftzeropb/internals.go use, and the
syntax trees of the three files. That the files consist of the tokens of the trees is proved in `GoSrc/StrText`.
-/

set_option linter.constructorNameAsVariable false

namespace Zeropb.GoSrc.X
open Zeropb.Gen (Text itoa)

/-- Types. -/
inductive Ty where
  | name (t : Text)
  | ptr (t : Text)          -- *t
  | qual (p t : Text)       -- p.t
  | u16s                    -- []uint16
  | mapPtr                  -- *map[int]uint64
deriving DecidableEq, Repr

/-- Expressions. -/
inductive Expr where
  | id (x : Text)
  | num (n : Nat)
  | raw (t : Text)                               -- `t`
  | sel (e : Expr) (f : Text)                    -- e.f
  | all (e : Expr)                               -- e[:]
  | addr (e : Expr)                              -- &e
  | not (e : Expr)                               -- !e
  | notNil (e : Expr)                            -- e != nil
  | toString (e : Expr)                          -- string(e)
  | pkg (p f : Text) (args : Expr)               -- p.f(args), p a package
  | method (e : Expr) (f : Text) (args : Expr)   -- e.f(args)
  | noArgs | arg (e : Expr) | args (e es : Expr)
deriving Repr

/-- Statements. A block is a sequence ended by `skip`. -/
inductive Stmt where
  | skip
  | seq (s rest : Stmt)
  | define (x : Text) (e : Expr)                       -- x := e
  | declare (x : Text) (t : Ty)                        -- var x t
  | expr (e : Expr)
  | ret (es : Expr)
  | panic (e : Expr)
  | brk                                                -- break
  | ite (x y : Text) (e k : Expr) (t els : Stmt)       -- if x, y := e; k { t } els; els is skip or a test
  | test (k : Expr) (t : Stmt)                         -- else if k { t }
  | loop (x : Text) (e : Expr) (b : Stmt)              -- for x := e; ; { b }
deriving Repr

/-- A method. -/
structure Func where
  recv : Text × Ty
  name : Text
  params : List (Text × Ty)
  results : List Ty
  body : Stmt

/-- Top-level declarations. -/
inductive Top where
  | package (name : Text)
  | imports (paths : List Text)
  | func (f : Func)

/-! ## Printing -/

def Ty.toks : Ty → Toks
  | .name t => [t]
  | .ptr t => [c '*', t]
  | .qual p t => [p, c '.', t]
  | .u16s => [c '[', c ']', t!"uint16"]
  | .mapPtr => [c '*', t!"map", c '[', t!"int", c ']', t!"uint64"]

def Expr.toks : Expr → Toks
  | .id x => [x]
  | .num n => [itoa n]
  | .raw t => [t!"`" ++ t ++ t!"`"]
  | .sel e f => e.toks ++ [c '.', f]
  | .all e => e.toks ++ [c '[', c ':', c ']']
  | .addr e => [c '&'] ++ e.toks
  | .not e => [c '!'] ++ e.toks
  | .notNil e => e.toks ++ [t!"!=", t!"nil"]
  | .toString e => [t!"string", c '('] ++ e.toks ++ [c ')']
  | .pkg p f es => [p, c '.', f, c '('] ++ es.toks ++ [c ')']
  | .method e f es => e.toks ++ [c '.', f, c '('] ++ es.toks ++ [c ')']
  | .noArgs => []
  | .arg e => e.toks
  | .args e es => e.toks ++ [c ','] ++ es.toks

def Stmt.toks : Stmt → Toks
  | .skip => []
  | .seq s rest => s.toks ++ rest.toks
  | .define x e => [x, t!":="] ++ e.toks ++ [c ';']
  | .declare x t => [t!"var", x] ++ t.toks ++ [c ';']
  | .expr e => e.toks ++ [c ';']
  | .ret es => [t!"return"] ++ es.toks ++ [c ';']
  | .panic e => [t!"panic", c '('] ++ e.toks ++ [c ')', c ';']
  | .brk => [t!"break", c ';']
  | .ite x y e k t els => [t!"if", x, c ',', y, t!":="] ++ e.toks ++ [c ';'] ++ k.toks ++ [c '{'] ++ t.toks ++ [c '}'] ++ els.toks ++ [c ';']
  | .test k t => [t!"else", t!"if"] ++ k.toks ++ [c '{'] ++ t.toks ++ [c '}']
  | .loop x e b => [t!"for", x, t!":="] ++ e.toks ++ [c ';', c ';', c '{'] ++ b.toks ++ [c '}', c ';']

def Func.toks (f : Func) : Toks :=
  [t!"func", c '(', f.recv.1] ++ f.recv.2.toks ++ [c ')', f.name, c '('] ++ commaSep (f.params.map (fun p => [p.1] ++ p.2.toks)) ++ [c ')'] ++
  (match f.results with | [] => [] | [t] => t.toks | ts => [c '('] ++ commaSep (ts.map Ty.toks) ++ [c ')']) ++
  [c '{'] ++ f.body.toks ++ [c '}', c ';']

def Top.toks : Top → Toks
  | .package n => [t!"package", n, c ';']
  | .imports ps => [t!"import", c '('] ++ (ps.map (fun p => [[Char.ofNat 34] ++ p ++ [Char.ofNat 34], c ';'])).flatten ++ [c ')', c ';']
  | .func f => f.toks

/-! ## The files -/

/-- Statements in sequence. -/
def block : List Stmt → Stmt
  | [] => .skip
  | s :: ss => .seq s (block ss)

/-- An argument list. -/
def args : List Expr → Expr
  | [] => .noArgs
  | [e] => .arg e
  | e :: es => .args e (args es)

/-- `m.offsets.a[:]`, `&m.offsets.m` -/
def wrapArgs : List Expr :=
  [.all (.sel (.sel (.id t!"m") t!"offsets") t!"a"), .addr (.sel (.sel (.id t!"m") t!"offsets") t!"m")]

/-- ```
if _, ok := offsets.Get(num); ok {
	fmt.Fprintf(w, `format`, val)
}
``` -/
def showField (num : Nat) (format : Text) (val : Expr) : Stmt :=
  .ite t!"_" t!"ok" (.method (.id t!"offsets") t!"Get" (args [.num num])) (.id t!"ok")
    (block [.expr (.pkg t!"fmt" t!"Fprintf" (args [.id t!"w", .raw format, val]))]) .skip

/-- `m.name()` -/
def getter (name : Text) : Expr := .method (.id t!"m") name .noArgs

/-- ``io.WriteString(w, `t`)`` -/
def writeString (t : Text) : Stmt := .expr (.pkg t!"io" t!"WriteString" (args [.id t!"w", .raw t]))

/-- `sub.WriteText(w)` between two strings. -/
def showSub (before after : Text) : List Stmt :=
  [writeString before, .expr (.method (.id t!"sub") t!"WriteText" (args [.id t!"w"])), writeString after]

/-- `panic(err)` -/
def panicErr : Stmt := block [.panic (.id t!"err")]

/-- string.go:15-19 `Text`. -/
def srcText : Func := ⟨(t!"m", .name t!"TestMessage"), t!"Text", [], [.name t!"string"], block [
  .declare t!"buf" (.qual t!"strings" t!"Builder"),
  .expr (.method (.id t!"m") t!"WriteText" (args [.addr (.id t!"buf")])),
  .ret (args [.method (.id t!"buf") t!"String" .noArgs])]⟩

/-- string.go:26-73: the blocks for the scalar fields. -/
def showFields : List Stmt := [
  showField 1 t!"bool=%t " (getter t!"Bool"),
  showField 2 t!"int32=%d " (getter t!"Int32"),
  showField 3 t!"int64=%d " (getter t!"Int64"),
  showField 4 t!"uint32=%d " (getter t!"Uint32"),
  showField 5 t!"uint64=%d " (getter t!"Uint64"),
  showField 6 t!"sint32=%d " (getter t!"Sint32"),
  showField 7 t!"sint64=%d " (getter t!"Sint64"),
  showField 8 t!"fixed32=%d " (getter t!"Fixed32"),
  showField 9 t!"fixed64=%d " (getter t!"Fixed64"),
  showField 10 t!"sfixed32=%d " (getter t!"Sfixed32"),
  showField 11 t!"sfixed64=%d " (getter t!"Sfixed64"),
  showField 12 t!"double=%v " (getter t!"Double"),
  showField 13 t!"float=%v " (getter t!"Float"),
  showField 14 t!"string=%s " (getter t!"String"),
  showField 15 t!"byte_array=%s " (.pkg t!"strconv" t!"Quote" (args [.toString (getter t!"ByteArray")])),
  showField 16 t!"enum=%d " (getter t!"Enum")]

/-- string.go:75-81: the embedded message. -/
def showMessage : Stmt :=
  .ite t!"ok" t!"err" (.method (.id t!"m") t!"Message" (args [.addr (.id t!"sub")])) (.notNil (.id t!"err")) panicErr
    (.test (.id t!"ok") (block (showSub t!"message=<" t!"> ")))

/-- string.go:83-91: the body of the loop. -/
def showElem : Stmt := block ([
  .ite t!"ok" t!"err" (.method (.id t!"it") t!"Next" (args [.addr (.id t!"sub")])) (.notNil (.id t!"err")) panicErr
    (.test (.not (.id t!"ok")) (block [.brk]))] ++ showSub t!"messages=<" t!"> ")

/-- string.go:22-92 `WriteText`. -/
def srcWriteText : Func := ⟨(t!"m", .name t!"TestMessage"), t!"WriteText", [(t!"w", .qual t!"io" t!"Writer")], [], block (
  [.define t!"offsets" (.pkg t!"zeropb" t!"WrapOffsets" (args wrapArgs))] ++ showFields ++ [
  .declare t!"sub" (.name t!"TestMessage"),
  showMessage,
  .loop t!"it" (getter t!"Messages") showElem])⟩

/-- golden/testzeropb/string.go. -/
def stringGo : List Top := [
  .package t!"testzeropb",
  .imports [t!"fmt", t!"io", t!"strconv", t!"strings", t!"github.com/danhhz/zeropb"],
  .func srcText, .func srcWriteText]

/-- `Offsets` (testzeropb/internals.go:6-8, raftzeropb/internals.go:6-23). -/
def srcOffsets (msg : Text) : Func := ⟨(t!"m", .ptr msg), t!"Offsets", [], [.u16s, .mapPtr], block [.ret (args wrapArgs)]⟩

/-- golden/testzeropb/internals.go. -/
def testInternalsGo : List Top := [.package t!"testzeropb", .func (srcOffsets t!"TestMessage")]

/-- golden/raftzeropb/internals.go. -/
def raftInternalsGo : List Top := [.package t!"raftzeropb", .func (srcOffsets t!"Entry"), .func (srcOffsets t!"Message"),
  .func (srcOffsets t!"SnapshotMetadata"), .func (srcOffsets t!"Snapshot")]

end Zeropb.GoSrc.X
