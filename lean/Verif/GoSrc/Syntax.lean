import Verif.Gen.StringTree
/-!
# A small subset of Go: syntax

Enough for `offsets.go` and `zeropb.go`. A program is printed to the list of its tokens;
`tokenize` gives the tokens of a source text, so that "this syntax tree is this file" is an equation
(`GoSrc/Text`). Different meanings of the same notation have different constructors (a conversion
and a call, say); which one is meant is clear from the printed name.
-/

set_option linter.constructorNameAsVariable false

namespace Zeropb.GoSrc
open Zeropb.Gen (Text)

/-- Names of variables, functions and fields. -/
inductive Id where
  -- variables and parameters
  | a | bits | buf | data | f | field | fieldBegin | fieldEnd | fieldID | hdr | i | idx | len | lenSize | m | msg | msgLen | n | o
  | offset | offsets | ok | oldLen | oldValLen | oldValLenLen | previous | removedBytes | repeatedFields | s | scratch | size | tag
  | tagLen | typ | val | valLen | x
  -- constants of the package
  | offsetUnset | offsetInMap | offsetMaxInArray
  -- functions of the package
  | WrapOffsets | Get | Set | Clear
  | GetBool | GetInt32 | GetInt64 | GetUint32 | GetUint64 | GetZigZagInt32 | GetZigZagInt64 | GetFixedUint32 | GetFixedUint64
  | GetFixedInt32 | GetFixedInt64 | GetFloat32 | GetFloat64 | GetString | GetBytes
  | SetBool | SetInt32 | SetInt64 | SetUint32 | SetUint64 | SetZigZagInt32 | SetZigZagInt64 | SetFixedUint32 | SetFixedUint64
  | SetFixedInt32 | SetFixedInt64 | SetFloat32 | SetFloat64 | SetString | SetBytes | AppendBytes
  | setSingle | appendSingle | GetRepeatedNonPacked | Decode | FindNextField | fieldDataSize
deriving DecidableEq, Repr

/-- The spelling of a name. -/
def Id.text : Id → Text
  | .a => t!"a" | .bits => t!"bits" | .buf => t!"buf" | .data => t!"data" | .f => t!"f" | .field => t!"field"
  | .fieldBegin => t!"fieldBegin" | .fieldEnd => t!"fieldEnd" | .fieldID => t!"fieldID" | .hdr => t!"hdr" | .i => t!"i"
  | .idx => t!"idx" | .len => t!"len" | .lenSize => t!"lenSize" | .m => t!"m" | .msg => t!"msg" | .msgLen => t!"msgLen"
  | .n => t!"n" | .o => t!"o" | .offset => t!"offset" | .offsets => t!"offsets" | .ok => t!"ok" | .oldLen => t!"oldLen"
  | .oldValLen => t!"oldValLen" | .oldValLenLen => t!"oldValLenLen" | .previous => t!"previous" | .removedBytes => t!"removedBytes"
  | .repeatedFields => t!"repeatedFields" | .s => t!"s" | .scratch => t!"scratch" | .size => t!"size" | .tag => t!"tag"
  | .tagLen => t!"tagLen" | .typ => t!"typ" | .val => t!"val" | .valLen => t!"valLen" | .x => t!"x"
  | .offsetUnset => t!"offsetUnset" | .offsetInMap => t!"offsetInMap" | .offsetMaxInArray => t!"offsetMaxInArray"
  | .WrapOffsets => t!"WrapOffsets" | .Get => t!"Get" | .Set => t!"Set" | .Clear => t!"Clear"
  | .GetBool => t!"GetBool" | .GetInt32 => t!"GetInt32" | .GetInt64 => t!"GetInt64" | .GetUint32 => t!"GetUint32"
  | .GetUint64 => t!"GetUint64" | .GetZigZagInt32 => t!"GetZigZagInt32" | .GetZigZagInt64 => t!"GetZigZagInt64"
  | .GetFixedUint32 => t!"GetFixedUint32" | .GetFixedUint64 => t!"GetFixedUint64" | .GetFixedInt32 => t!"GetFixedInt32"
  | .GetFixedInt64 => t!"GetFixedInt64" | .GetFloat32 => t!"GetFloat32" | .GetFloat64 => t!"GetFloat64"
  | .GetString => t!"GetString" | .GetBytes => t!"GetBytes"
  | .SetBool => t!"SetBool" | .SetInt32 => t!"SetInt32" | .SetInt64 => t!"SetInt64" | .SetUint32 => t!"SetUint32"
  | .SetUint64 => t!"SetUint64" | .SetZigZagInt32 => t!"SetZigZagInt32" | .SetZigZagInt64 => t!"SetZigZagInt64"
  | .SetFixedUint32 => t!"SetFixedUint32" | .SetFixedUint64 => t!"SetFixedUint64" | .SetFixedInt32 => t!"SetFixedInt32"
  | .SetFixedInt64 => t!"SetFixedInt64" | .SetFloat32 => t!"SetFloat32" | .SetFloat64 => t!"SetFloat64"
  | .SetString => t!"SetString" | .SetBytes => t!"SetBytes" | .AppendBytes => t!"AppendBytes"
  | .setSingle => t!"setSingle" | .appendSingle => t!"appendSingle" | .GetRepeatedNonPacked => t!"GetRepeatedNonPacked"
  | .Decode => t!"Decode" | .FindNextField => t!"FindNextField" | .fieldDataSize => t!"fieldDataSize"

/-- Types. -/
inductive Ty where
  | bool | int | int32 | int64 | uint16 | uint32 | uint64 | float32 | float64 | string | error
  | bytes      -- []byte
  | bufPtr     -- *[]byte
  | u16s       -- []uint16
  | map        -- map[int]uint64
  | mapPtr     -- *map[int]uint64
  | Offsets | RepeatedFields | StringHeader
deriving DecidableEq, Repr

/-- Functions of the language and of the standard library that have no effect on local variables. -/
inductive Lib where
  | len | copy | delete
  | Uvarint | Varint | leUint32 | leUint64
  | Float32bits | Float32frombits | Float64bits | Float64frombits
deriving DecidableEq, Repr

/-- Library functions that write into a scratch array. -/
inductive Put where
  | PutUvarint | PutVarint | lePutUint32 | lePutUint64
deriving DecidableEq, Repr

/-- Constants of other packages. -/
inductive Const where
  | WireVarint | WireFixed32 | WireFixed64 | WireBytes | MaxUint16 | MaxVarintLen32 | MaxVarintLen64
deriving DecidableEq, Repr

/-- Binary operators. -/
inductive Op where
  | add | sub | or | and | shl | shr | eq | ne | lt | le | gt | ge | land
deriving DecidableEq, Repr

/-- Expressions. -/
inductive Expr where
  | id (x : Id)
  | num (n : Nat)                      -- a decimal number
  | hex (n : Nat)                      -- a one-digit hexadecimal number
  | const (c : Const)
  | true_ | false_ | nil
  | emptyStr                           -- ``
  | eof                                -- io.ErrUnexpectedEOF
  | sel (e : Expr) (f : Id)            -- e.f
  | selLen (e : Expr) | selData (e : Expr)
  | paren (e : Expr)
  | star (e : Expr)
  | not (e : Expr)
  | bin (op : Op) (l r : Expr)
  | index (e i : Expr)
  | slice (e : Expr)                   -- e[:]
  | sliceFrom (e lo : Expr)            -- e[lo:]
  | sliceTo (e hi : Expr)              -- e[:hi]
  | sliceRange (e lo hi : Expr)        -- e[lo:hi]
  | conv (t : Ty) (e : Expr)           -- uint64(e)
  | lib (f : Lib) (args : Expr)
  | append (e args : Expr)             -- append(e, args...)
  | put (p : Put) (x : Id) (v : Expr)  -- binary.PutUvarint(x[:], v)
  | call (f : Id) (args : Expr)
  | method (e : Expr) (f : Id) (args : Expr)
  | cast (t : Ty) (x : Id)             -- *(*t)(unsafe.Pointer(&x))
  | sliceOf (d l c : Expr)             -- *(*[]byte)(unsafe.Pointer(&reflect.SliceHeader{Data: d, Len: l, Cap: c}))
  | offsetsLit (a m : Expr)            -- Offsets{a: a, m: m}
  | makeMap (n : Expr)                 -- make(map[int]uint64, n)
  | noArgs | arg (e : Expr) | args (e es : Expr)
deriving Repr

/-- Statements. A block is a sequence ended by `skip`. -/
inductive Stmt where
  | skip
  | seq (s rest : Stmt)
  | define (xs : List (Option Id)) (e : Expr)     -- x, _ := e
  | varArray (x : Id) (n : Expr)                  -- var x [n]byte
  | var (x : Id) (t : Ty)                         -- var x t
  | varBytes (x y : Id) (es : Expr)               -- var x, y []byte = es
  | assign (l e : Expr)
  | assignSnd (x : Id) (e : Expr)                 -- _, x = e
  | addAssign (x : Id) (e : Expr)                 -- x += e
  | expr (e : Expr)
  | ret                                           -- return
  | retVal (es : Expr)
  | panicType (e : Expr)                          -- panic(e)
  | panicErrorf (e : Expr)                        -- panic(errors.Errorf(`unsupported type: %d`, e))
  | ite (c : Expr) (t e : Stmt)
  | iteInit (init : Stmt) (c : Expr) (t e : Stmt)
  | switch (e : Expr) (cases : Stmt)
  | case (c : Expr) (body rest : Stmt)
  | default (body : Stmt)
  | loop (init : Stmt) (c : Option Expr) (body : Stmt)   -- for init; c; { body }
  | range (k : Id) (v : Option Id) (e : Expr) (body : Stmt)
deriving Repr

/-- A function or method. -/
structure Func where
  recv : Option (Id × Ty)
  name : Id
  params : List (List Id × Ty)
  results : List Ty
  body : Stmt

/-- Top-level declarations. -/
inductive Top where
  | package (name : Text)
  | imports (paths : List Text)
  | consts (cs : List (Id × Ty × Expr))
  | offsetsType                          -- type Offsets struct { a []uint16; m *map[int]uint64 }
  | repeatedType                         -- type RepeatedFields map[int]struct{}
  | func (f : Func)

/-! ## Printing -/

/-- Tokens are texts. -/
abbrev Toks := List Text

/-- A one-character token. -/
def c (x : Char) : Text := [x]

/-- Tokens separated by commas. -/
def commaSep : List Toks → Toks
  | [] => []
  | [t] => t
  | t :: ts => t ++ [c ','] ++ commaSep ts

/-- Decimal digits. -/
def decimal (n : Nat) : Text := if n < 10 then [Char.ofNat (48 + n)] else decimal (n / 10) ++ [Char.ofNat (48 + n % 10)]

def Ty.toks : Ty → Toks
  | .bool => [t!"bool"] | .int => [t!"int"] | .int32 => [t!"int32"] | .int64 => [t!"int64"] | .uint16 => [t!"uint16"]
  | .uint32 => [t!"uint32"] | .uint64 => [t!"uint64"] | .float32 => [t!"float32"] | .float64 => [t!"float64"]
  | .string => [t!"string"] | .error => [t!"error"]
  | .bytes => [c '[', c ']', t!"byte"]
  | .bufPtr => [c '*', c '[', c ']', t!"byte"]
  | .u16s => [c '[', c ']', t!"uint16"]
  | .map => [t!"map", c '[', t!"int", c ']', t!"uint64"]
  | .mapPtr => [c '*', t!"map", c '[', t!"int", c ']', t!"uint64"]
  | .Offsets => [t!"Offsets"] | .RepeatedFields => [t!"RepeatedFields"]
  | .StringHeader => [t!"reflect", c '.', t!"StringHeader"]

def Lib.toks : Lib → Toks
  | .len => [t!"len"] | .copy => [t!"copy"] | .delete => [t!"delete"]
  | .Uvarint => [t!"binary", c '.', t!"Uvarint"] | .Varint => [t!"binary", c '.', t!"Varint"]
  | .leUint32 => [t!"binary", c '.', t!"LittleEndian", c '.', t!"Uint32"]
  | .leUint64 => [t!"binary", c '.', t!"LittleEndian", c '.', t!"Uint64"]
  | .Float32bits => [t!"math", c '.', t!"Float32bits"] | .Float32frombits => [t!"math", c '.', t!"Float32frombits"]
  | .Float64bits => [t!"math", c '.', t!"Float64bits"] | .Float64frombits => [t!"math", c '.', t!"Float64frombits"]

def Put.toks : Put → Toks
  | .PutUvarint => [t!"binary", c '.', t!"PutUvarint"] | .PutVarint => [t!"binary", c '.', t!"PutVarint"]
  | .lePutUint32 => [t!"binary", c '.', t!"LittleEndian", c '.', t!"PutUint32"]
  | .lePutUint64 => [t!"binary", c '.', t!"LittleEndian", c '.', t!"PutUint64"]

def Const.toks : Const → Toks
  | .WireVarint => [t!"proto", c '.', t!"WireVarint"] | .WireFixed32 => [t!"proto", c '.', t!"WireFixed32"]
  | .WireFixed64 => [t!"proto", c '.', t!"WireFixed64"] | .WireBytes => [t!"proto", c '.', t!"WireBytes"]
  | .MaxUint16 => [t!"math", c '.', t!"MaxUint16"]
  | .MaxVarintLen32 => [t!"binary", c '.', t!"MaxVarintLen32"] | .MaxVarintLen64 => [t!"binary", c '.', t!"MaxVarintLen64"]

def Op.toks : Op → Toks
  | .add => [t!"+"] | .sub => [t!"-"] | .or => [t!"|"] | .and => [t!"&"] | .shl => [t!"<<"] | .shr => [t!">>"] | .eq => [t!"=="]
  | .ne => [t!"!="] | .lt => [t!"<"] | .le => [t!"<="] | .gt => [t!">"] | .ge => [t!">="] | .land => [t!"&&"]

def Expr.toks : Expr → Toks
  | .id x => [x.text]
  | .num n => [decimal n]
  | .hex n => [t!"0x" ++ decimal n]
  | .const k => k.toks
  | .true_ => [t!"true"] | .false_ => [t!"false"] | .nil => [t!"nil"]
  | .emptyStr => [t!"``"]
  | .eof => [t!"io", c '.', t!"ErrUnexpectedEOF"]
  | .sel e f => e.toks ++ [c '.', f.text]
  | .selLen e => e.toks ++ [c '.', t!"Len"]
  | .selData e => e.toks ++ [c '.', t!"Data"]
  | .paren e => [c '('] ++ e.toks ++ [c ')']
  | .star e => [c '*'] ++ e.toks
  | .not e => [c '!'] ++ e.toks
  | .bin op l r => l.toks ++ op.toks ++ r.toks
  | .index e i => e.toks ++ [c '['] ++ i.toks ++ [c ']']
  | .slice e => e.toks ++ [c '[', c ':', c ']']
  | .sliceFrom e lo => e.toks ++ [c '['] ++ lo.toks ++ [c ':', c ']']
  | .sliceTo e hi => e.toks ++ [c '[', c ':'] ++ hi.toks ++ [c ']']
  | .sliceRange e lo hi => e.toks ++ [c '['] ++ lo.toks ++ [c ':'] ++ hi.toks ++ [c ']']
  | .conv t e => t.toks ++ [c '('] ++ e.toks ++ [c ')']
  | .lib f es => f.toks ++ [c '('] ++ es.toks ++ [c ')']
  | .append e es => [t!"append", c '('] ++ e.toks ++ [c ','] ++ es.toks ++ [t!"...", c ')']
  | .put p x v => p.toks ++ [c '(', x.text, c '[', c ':', c ']', c ','] ++ v.toks ++ [c ')']
  | .call f es => [f.text, c '('] ++ es.toks ++ [c ')']
  | .method e f es => e.toks ++ [c '.', f.text, c '('] ++ es.toks ++ [c ')']
  | .cast t x => [c '*', c '(', c '*'] ++ t.toks ++ [c ')', c '(', t!"unsafe", c '.', t!"Pointer", c '(', c '&', x.text, c ')', c ')']
  | .sliceOf d l k => [c '*', c '(', c '*', c '[', c ']', t!"byte", c ')', c '(', t!"unsafe", c '.', t!"Pointer", c '(', c '&', t!"reflect",
      c '.', t!"SliceHeader", c '{', t!"Data", c ':'] ++ d.toks ++ [c ',', t!"Len", c ':'] ++ l.toks ++ [c ',', t!"Cap", c ':'] ++
      k.toks ++ [c ',', c '}', c ')', c ')']
  | .offsetsLit a m => [t!"Offsets", c '{', c 'a', c ':'] ++ a.toks ++ [c ',', c 'm', c ':'] ++ m.toks ++ [c '}']
  | .makeMap n => [t!"make", c '(', t!"map", c '[', t!"int", c ']', t!"uint64", c ','] ++ n.toks ++ [c ')']
  | .noArgs => []
  | .arg e => e.toks
  | .args e es => e.toks ++ [c ','] ++ es.toks

/-- A name or `_`. -/
def binder : Option Id → Toks
  | some x => [x.text]
  | none => [c '_']

/-- Tokens without the semicolon at the end of the line. -/
def Stmt.line : Stmt → Toks
  | .define xs e => commaSep (xs.map binder) ++ [t!":="] ++ e.toks
  | .varArray x n => [t!"var", x.text, c '['] ++ n.toks ++ [c ']', t!"byte"]
  | .var x t => [t!"var", x.text] ++ t.toks
  | .varBytes x y es => [t!"var", x.text, c ',', y.text, c '[', c ']', t!"byte", c '='] ++ es.toks
  | .assign l e => l.toks ++ [c '='] ++ e.toks
  | .assignSnd x e => [c '_', c ',', x.text, c '='] ++ e.toks
  | .addAssign x e => [x.text, t!"+="] ++ e.toks
  | .expr e => e.toks
  | .ret => [t!"return"]
  | .retVal es => [t!"return"] ++ es.toks
  | .panicType e => [t!"panic", c '('] ++ e.toks ++ [c ')']
  | .panicErrorf e => [t!"panic", c '(', t!"errors", c '.', t!"Errorf", c '(', t!"`unsupported type: %d`", c ','] ++ e.toks ++ [c ')', c ')']
  | _ => []

mutual
/-- Tokens of a statement; simple statements end with a semicolon (which the Go lexer inserts at the
end of the line). -/
def Stmt.toks : Stmt → Toks
  | .skip => []
  | .seq s rest => s.toks ++ rest.toks
  | .ite k t e => [t!"if"] ++ k.toks ++ [c '{'] ++ t.toks ++ [c '}'] ++ e.elseToks
  | .iteInit s k t e => [t!"if"] ++ s.line ++ [c ';'] ++ k.toks ++ [c '{'] ++ t.toks ++ [c '}'] ++ e.elseToks
  | .switch e cs => [t!"switch"] ++ e.toks ++ [c '{'] ++ cs.toks ++ [c '}', c ';']
  | .case k b rest => [t!"case"] ++ k.toks ++ [c ':'] ++ b.toks ++ rest.toks
  | .default b => [t!"default", c ':'] ++ b.toks
  | .loop s none b => [t!"for"] ++ s.line ++ [c ';', c ';', c '{'] ++ b.toks ++ [c '}', c ';']
  | .loop s (some k) b => [t!"for"] ++ s.line ++ [c ';'] ++ k.toks ++ [c ';', c '{'] ++ b.toks ++ [c '}', c ';']
  | .range k none e b => [t!"for", k.text, t!":=", t!"range"] ++ e.toks ++ [c '{'] ++ b.toks ++ [c '}', c ';']
  | .range k (some v) e b => [t!"for", k.text, c ',', v.text, t!":=", t!"range"] ++ e.toks ++ [c '{'] ++ b.toks ++ [c '}', c ';']
  | s => s.line ++ [c ';']
/-- The `else` part. -/
def Stmt.elseToks : Stmt → Toks
  | .skip => [c ';']
  | .ite k t e => [t!"else", t!"if"] ++ k.toks ++ [c '{'] ++ t.toks ++ [c '}'] ++ e.elseToks
  | .seq s rest => [t!"else", c '{'] ++ s.toks ++ rest.toks ++ [c '}', c ';']
  | _ => []
end

/-- Parameters with their type. -/
def paramToks (p : List Id × Ty) : Toks := commaSep (p.1.map (fun x => [x.text])) ++ p.2.toks

def Func.toks (f : Func) : Toks :=
  [t!"func"] ++ (match f.recv with | none => [] | some (x, t) => [c '(', x.text] ++ t.toks ++ [c ')']) ++
  [f.name.text, c '('] ++ commaSep (f.params.map paramToks) ++ [c ')'] ++
  (match f.results with | [] => [] | [t] => t.toks | ts => [c '('] ++ commaSep (ts.map Ty.toks) ++ [c ')']) ++
  [c '{'] ++ f.body.toks ++ [c '}', c ';']

def Top.toks : Top → Toks
  | .package n => [t!"package", n, c ';']
  | .imports ps => [t!"import", c '('] ++ (ps.map (fun p => [[Char.ofNat 34] ++ p ++ [Char.ofNat 34], c ';'])).flatten ++ [c ')', c ';']
  | .consts cs => [t!"const", c '('] ++ (cs.map (fun k => [k.1.text] ++ k.2.1.toks ++ [c '='] ++ k.2.2.toks ++ [c ';'])).flatten ++ [c ')', c ';']
  | .offsetsType => [t!"type", t!"Offsets", t!"struct", c '{', c 'a'] ++ Ty.toks .u16s ++ [c ';', c 'm'] ++ Ty.toks .mapPtr ++ [c ';', c '}', c ';']
  | .repeatedType => [t!"type", t!"RepeatedFields", t!"map", c '[', t!"int", c ']', t!"struct", c '{', c '}', c ';']
  | .func f => f.toks

/-! ## Lexing -/

def isIdChar (x : Char) : Bool := x.isAlphanum || x = '_'

/-- Go inserts a semicolon at the end of a line after these tokens (names, literals and closing
brackets, and `return`, which is made of letters as well). -/
def endsStmt (t : Text) : Bool :=
  match t.getLast? with
  | some x => isIdChar x || x = ')' || x = ']' || x = '}' || x = '`' || x = Char.ofNat 34
  | none => false

/-- Operators of more than one character used here. -/
def longOps : List Text := [t!":=", t!"+=", t!"<<", t!">>", t!"==", t!"!=", t!"<=", t!">=", t!"&&", t!"..."]

/-- The lexer: what is inside the current token (reversed), the last token, the text. States:
0 between tokens, 1 in a name or number, 2 in a comment, 3 in a `"` string, 4 in a backquoted string. -/
def lex : Nat → Text → Text → Text → Toks
  | _, [], _, [] => []
  | _, cur, _, [] => [cur.reverse]
  | 0, _, last, x :: xs =>
    if x = '\n' then (if endsStmt last then c ';' :: lex 0 [] [] xs else lex 0 [] [] xs)
    else if x = ' ' || x = '\t' then lex 0 [] last xs
    else if x = '/' && xs.head? = some '/' then lex 2 [] last xs
    else if isIdChar x then (if (xs.head?.map isIdChar).getD false then lex 1 [x] last xs else [x] :: lex 0 [] [x] xs)
    else if x = Char.ofNat 34 then lex 3 [x] last xs
    else if x = '`' then lex 4 [x] last xs
    else match longOps.find? (fun op => op.isPrefixOf (x :: xs)) with
      | some op => lex (8 + op.length) op last xs
      | none => [x] :: lex 0 [] [x] xs
  | 1, cur, last, x :: xs =>
    if (xs.head?.map isIdChar).getD false then lex 1 (x :: cur) last xs
    else (x :: cur).reverse :: lex 0 [] (x :: cur).reverse xs
  | 2, _, last, x :: xs =>
    if x = '\n' then (if endsStmt last then c ';' :: lex 0 [] [] xs else lex 0 [] [] xs) else lex 2 [] last xs
  | 3, cur, last, x :: xs =>
    if x = Char.ofNat 34 then (x :: cur).reverse :: lex 0 [] (x :: cur).reverse xs else lex 3 (x :: cur) last xs
  | 4, cur, last, x :: xs =>
    if x = '`' then (x :: cur).reverse :: lex 0 [] (x :: cur).reverse xs else lex 4 (x :: cur) last xs
  | 10, cur, _, _ :: xs => cur :: lex 0 [] cur xs
  | 11, cur, last, _ :: xs => lex 10 cur last xs
  | _, _, _, _ :: _ => []

/-- The tokens of a source text. -/
def tokenize (src : Text) : Toks := lex 0 [] [] src

end Zeropb.GoSrc
