import Verif.GoSrc.ToolId
/-!
# The subset of Go that the generator and the plugins use: syntax

As `GoSrc/Syntax`, for generate/generate.go, generate/stringtree.go and cmd/*/main.go. A program is printed to
the list of its tokens; `GoSrc/ToolText` proves that these are the tokens of the files.

A variable that is captured by a function literal, or whose address is taken, is declared with
`defineRef` or `varRef` instead of `define` and `var` (the two are printed alike): it lives in the heap.
-/

set_option linter.constructorNameAsVariable false

namespace Zeropb.GoSrc.T
open Zeropb.Gen (Text itoa)

/-- Types. -/
inductive Ty where
  | name (x : Id)
  | sel (p x : Id)       -- p.x
  | ptr (t : Ty)         -- *t
  | slice (t : Ty)       -- []t
deriving DecidableEq, Repr

/-- Binary operators. -/
inductive Op where
  | add | eq | ne | gt | land
deriving DecidableEq, Repr

/-- Expressions. -/
inductive Expr where
  | id (x : Id)
  | num (n : Nat)
  | neg (n : Nat)                                -- -n
  | str (s : Text)                               -- "s"
  | raw (s : Text)                               -- `s`
  | true_ | false_ | nil
  | sel (e : Expr) (f : Id)                      -- e.f
  | pkgVar (p x : Id)                            -- p.x
  | not (e : Expr)
  | star (e : Expr)
  | addr (x : Id)                                -- &x
  | bin (op : Op) (l r : Expr)
  | index (e i : Expr)                           -- e[i]
  | sliceFrom (e lo : Expr)                      -- e[lo:]
  | conv (t : Ty) (e : Expr)                     -- t(e)
  | len (e : Expr)
  | append (e x : Expr)                          -- append(e, x)
  | make (t : Ty) (n k : Expr)                   -- make(t, n, k)
  | emptySet                                     -- map[string]struct{}{}
  | unit                                         -- struct{}{}
  | newLit (t : Id) (fs : Expr)                  -- &t{fs}
  | field (f : Id) (e : Expr) | fields (f : Id) (e : Expr) (rest : Expr)   -- f: e, …
  | call (f : Id) (args : Expr)
  | pkg (p f : Id) (args : Expr)                 -- p.f(args)
  | method (e : Expr) (f : Id) (args : Expr)
  | noArgs | arg (e : Expr) | args (e es : Expr)
deriving Repr

/-- Statements. A block is a sequence ended by `skip`. -/
inductive Stmt where
  | skip
  | seq (s rest : Stmt)
  | define (xs : List (Option Id)) (e : Expr)     -- x, _ := e
  | defineRef (x : Id) (e : Expr)                 -- x := e
  | defineFunc (x p : Id) (t r : Ty) (body : Stmt)  -- x := func(p t) r { body }
  | var (x : Id) (t : Ty)                         -- var x t
  | varRef (x : Id) (t : Ty)                      -- var x t
  | assign (l e : Expr)
  | assignSnd (l e : Expr)                        -- _, l = e
  | expr (e : Expr)
  | ret                                           -- return
  | retVal (es : Expr)
  | panic (e : Expr)
  | continue_
  | ite (c : Expr) (t : Stmt)
  | iteInit (init : Stmt) (c : Expr) (t : Stmt)
  | switch (e : Expr) (cases : Stmt)
  | case (es : Expr) (body rest : Stmt)           -- case es: body
  | typeSwitch (x : Id) (e : Expr) (cases : Stmt) -- switch x := e.(type) { cases }
  | typeCase (t : Ty) (body rest : Stmt)          -- case t: body
  | default (body : Stmt)
  | range (x : Id) (e : Expr) (body : Stmt)       -- for _, x := range e { body }
deriving Repr

/-- A function or method. -/
structure Func where
  recv : Option (Id × Ty)
  name : Id
  params : List (List Id × Ty)
  variadic : Option Id := none      -- x ...interface{}
  trailing : Bool := false          -- a comma after the last parameter
  results : List (List Id × Ty)     -- the list of names may be empty
  body : Stmt

/-- Top-level declarations. -/
inductive Top where
  | package (name : Text)
  | imports (paths : List (Option Text × Text))
  | const (x : Id) (e : Expr)
  | consts (cs : List (Id × Ty × Nat))
  | typeDef (x : Id) (t : Ty)
  | struct (x : Id) (fs : List (Id × Ty))
  | func (f : Func)

/-! ## Printing -/

def Ty.toks : Ty → Toks
  | .name x => [x.text]
  | .sel p x => [p.text, c '.', x.text]
  | .ptr t => c '*' :: t.toks
  | .slice t => c '[' :: c ']' :: t.toks

def Op.toks : Op → Toks
  | .add => [t!"+"] | .eq => [t!"=="] | .ne => [t!"!="] | .gt => [t!">"] | .land => [t!"&&"]

/-- The escape sequences of a string constant. -/
def escape (x : Char) : Text :=
  if x = '\n' then ['\\', 'n'] else if x = '\\' then ['\\', '\\'] else if x = Char.ofNat 34 then ['\\', x] else [x]

/-- A string constant in double quotes. -/
def quoted (s : Text) : Text := Char.ofNat 34 :: ((s.map escape).flatten ++ [Char.ofNat 34])

def Expr.toks : Expr → Toks
  | .id x => [x.text]
  | .num n => [decimal n]
  | .neg n => [c '-', decimal n]
  | .str s => [quoted s]
  | .raw s => ['`' :: (s ++ ['`'])]
  | .true_ => [t!"true"] | .false_ => [t!"false"] | .nil => [t!"nil"]
  | .sel e f => e.toks ++ [c '.', f.text]
  | .pkgVar p x => [p.text, c '.', x.text]
  | .not e => [c '!'] ++ e.toks
  | .star e => [c '*'] ++ e.toks
  | .addr x => [c '&', x.text]
  | .bin op l r => l.toks ++ op.toks ++ r.toks
  | .index e i => e.toks ++ [c '['] ++ i.toks ++ [c ']']
  | .sliceFrom e lo => e.toks ++ [c '['] ++ lo.toks ++ [c ':', c ']']
  | .conv t e => t.toks ++ [c '('] ++ e.toks ++ [c ')']
  | .len e => [t!"len", c '('] ++ e.toks ++ [c ')']
  | .append e x => [t!"append", c '('] ++ e.toks ++ [c ','] ++ x.toks ++ [c ')']
  | .make t n k => [t!"make", c '('] ++ t.toks ++ [c ','] ++ n.toks ++ [c ','] ++ k.toks ++ [c ')']
  | .emptySet => [t!"map", c '[', t!"string", c ']', t!"struct", c '{', c '}', c '{', c '}']
  | .unit => [t!"struct", c '{', c '}', c '{', c '}']
  | .newLit t fs => [c '&', t.text, c '{'] ++ fs.toks ++ [c '}']
  | .field f e => [f.text, c ':'] ++ e.toks
  | .fields f e rest => [f.text, c ':'] ++ e.toks ++ [c ','] ++ rest.toks
  | .call f es => [f.text, c '('] ++ es.toks ++ [c ')']
  | .pkg p f es => [p.text, c '.', f.text, c '('] ++ es.toks ++ [c ')']
  | .method e f es => e.toks ++ [c '.', f.text, c '('] ++ es.toks ++ [c ')']
  | .noArgs => []
  | .arg e => e.toks
  | .args e es => e.toks ++ [c ','] ++ es.toks

/-- A name or `_`. -/
def binder : Option Id → Toks
  | some x => [x.text]
  | none => [c '_']

/-- Tokens of a simple statement, without the semicolon at the end of the line. -/
def Stmt.line : Stmt → Toks
  | .define xs e => commaSep (xs.map binder) ++ [t!":="] ++ e.toks
  | .defineRef x e => [x.text, t!":="] ++ e.toks
  | .var x t | .varRef x t => [t!"var", x.text] ++ t.toks
  | .assign l e => l.toks ++ [c '='] ++ e.toks
  | .assignSnd l e => [c '_', c ','] ++ l.toks ++ [c '='] ++ e.toks
  | .expr e => e.toks
  | .ret => [t!"return"]
  | .retVal es => [t!"return"] ++ es.toks
  | .panic e => [t!"panic", c '('] ++ e.toks ++ [c ')']
  | .continue_ => [t!"continue"]
  | _ => []

/-- Tokens of a statement. -/
def Stmt.toks : Stmt → Toks
  | .skip => []
  | .seq s rest => s.toks ++ rest.toks
  | .defineFunc x p t r b => [x.text, t!":=", t!"func", c '(', p.text] ++ t.toks ++ [c ')'] ++ r.toks ++ [c '{'] ++ b.toks ++ [c '}', c ';']
  | .ite k t => [t!"if"] ++ k.toks ++ [c '{'] ++ t.toks ++ [c '}', c ';']
  | .iteInit s k t => [t!"if"] ++ s.line ++ [c ';'] ++ k.toks ++ [c '{'] ++ t.toks ++ [c '}', c ';']
  | .switch e cs => [t!"switch"] ++ e.toks ++ [c '{'] ++ cs.toks ++ [c '}', c ';']
  | .case es b rest => [t!"case"] ++ es.toks ++ [c ':'] ++ b.toks ++ rest.toks
  | .typeSwitch x e cs => [t!"switch", x.text, t!":="] ++ e.toks ++ [c '.', c '(', t!"type", c ')', c '{'] ++ cs.toks ++ [c '}', c ';']
  | .typeCase t b rest => [t!"case"] ++ t.toks ++ [c ':'] ++ b.toks ++ rest.toks
  | .default b => [t!"default", c ':'] ++ b.toks
  | .range x e b => [t!"for", c '_', c ',', x.text, t!":=", t!"range"] ++ e.toks ++ [c '{'] ++ b.toks ++ [c '}', c ';']
  | s => s.line ++ [c ';']

/-- Names with their type. -/
def namesToks (p : List Id × Ty) : Toks := commaSep (p.1.map (fun x => [x.text])) ++ p.2.toks

def Func.toks (f : Func) : Toks :=
  [t!"func"] ++ (match f.recv with | none => [] | some (x, t) => [c '(', x.text] ++ t.toks ++ [c ')']) ++
  [f.name.text, c '('] ++
  commaSep (f.params.map namesToks ++ (match f.variadic with | none => [] | some x => [[x.text, t!"...", t!"interface", c '{', c '}']])) ++
  (if f.trailing then [c ','] else []) ++ [c ')'] ++
  (match f.results with | [] => [] | [([], t)] => t.toks | ts => [c '('] ++ commaSep (ts.map namesToks) ++ [c ')']) ++
  [c '{'] ++ f.body.toks ++ [c '}', c ';']

/-- One imported package. -/
def importToks (p : Option Text × Text) : Toks := (match p.1 with | none => [] | some n => [n]) ++ [quoted p.2, c ';']

def Top.toks : Top → Toks
  | .package n => [t!"package", n, c ';']
  | .imports ps => [t!"import", c '('] ++ (ps.map importToks).flatten ++ [c ')', c ';']
  | .const x e => [t!"const", x.text, c '='] ++ e.toks ++ [c ';']
  | .consts cs => [t!"const", c '('] ++ (cs.map (fun k => [k.1.text] ++ k.2.1.toks ++ [c '=', decimal k.2.2, c ';'])).flatten ++ [c ')', c ';']
  | .typeDef x t => [t!"type", x.text] ++ t.toks ++ [c ';']
  | .struct x fs => [t!"type", x.text, t!"struct", c '{'] ++ (fs.map (fun f => [f.1.text] ++ f.2.toks ++ [c ';'])).flatten ++ [c '}', c ';']
  | .func f => f.toks

end Zeropb.GoSrc.T
