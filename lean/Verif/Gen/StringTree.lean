import Verif.Go.Prim
/-!
# generate/stringtree.go

Text is modelled as a list of Unicode characters. Go strings are bytes; the two agree through UTF-8
for the valid strings a protobuf descriptor contains (UTF-8 encoding is a homomorphism for
concatenation, and no encoding of a character occurs inside that of another).
-/

namespace Zeropb.Gen

/-- A Go string (or `[]byte` holding text). -/
abbrev Text := List Char

/-- `t!"abc"` is the string constant `['a', 'b', 'c']`. -/
macro:max "t!" x:str : term => do
  let cs := x.getString.toList.toArray.map fun c => Lean.Syntax.mkCharLit c
  `(([$cs,*] : Text))

/-- The ways the generator can panic. -/
inductive GenPanic where
  /-- stringtree.go:53 `panic(fmt.Sprintf("unknown %T: %v", str, str))` -/
  | unknownArg
  /-- `strings.Repeat` with a negative count (stringtree.go:42) -/
  | negativeRepeat
  /-- generate.go:239 `panic(typ)` -/
  | unsupportedType (typ : Int)
deriving DecidableEq, Repr

/-- An `io.Writer` with states `σ` and errors `ε`: what `Write` makes of the state, and the error it
returns, if any. The number of bytes written is not modelled, as StringTree ignores it. -/
structure Writer (σ ε : Type) where
  write : σ → Text → σ × Option ε

/-- The arguments `Write` distinguishes by type (stringtree.go:40-54). A `fmt.Stringer` is represented by
the result of its `String` method; `other` is a value of any other type. -/
inductive Arg where
  | indent (n : Int)
  | bytes (b : Text)
  | string (s : Text)
  | stringer (s : Text)
  | int32 (n : U32)
  | other
deriving Repr

/-- `strings.Repeat(s, n)`: panics for a negative count (stringtree.go:42). Its other panic, on a result
too long for `int`, is not modelled. -/
def repeatText (s : Text) (n : Int) : Except GenPanic Text :=
  if n < 0 then .error .negativeRepeat else .ok (List.replicate n.toNat s).flatten

/-- The decimal digits of a natural number. -/
def natDigits (n : Nat) : Text := Nat.toDigits 10 n

/-- `strconv.Itoa` (stringtree.go:51). -/
def itoa (n : Int) : Text := if n < 0 then '-' :: natDigits n.natAbs else natDigits n.natAbs

/-- stringtree.go:21-25 `StringTree`: `w` is the state of the wrapped writer. -/
structure StringTree (σ ε : Type) where
  w : σ
  indent : Text
  err : Option ε

/-- stringtree.go:29-31 `NewStringTree`. -/
def newStringTree {σ ε : Type} (w : σ) (indent : Text) : StringTree σ ε := ⟨w, indent, none⟩

/-- stringtree.go:16-18 `StringTreeIndent.Next` (wrap-around at 2^63 is not modelled). -/
def next (i : Int) : Int := i + 1

namespace StringTree
variable {σ ε : Type}

/-- The assignment `_, st.err = st.w.Write(x)` (stringtree.go:42-51). -/
def put (W : Writer σ ε) (st : StringTree σ ε) (x : Text) : StringTree σ ε :=
  let (w, err) := W.write st.w x
  { st with w, err }

/-- stringtree.go:35-56 `Write`. When it panics the partially written output is not represented. -/
def write (W : Writer σ ε) (st : StringTree σ ε) : List Arg → Except GenPanic (StringTree σ ε)
  | [] => .ok st
  | str :: strs =>
    if st.err.isSome then .ok st
    else
      match str with
      | .indent x => do
        let s ← repeatText st.indent x
        write W (st.put W s) strs
      | .bytes x => write W (st.put W x) strs
      | .string x => write W (st.put W x) strs
      | .stringer s => write W (st.put W s) strs
      | .int32 x => write W (st.put W (itoa x.toInt)) strs
      | .other => .error .unknownArg

/-- stringtree.go:59-61 `Error`. -/
def error (st : StringTree σ ε) : Option ε := st.err

end StringTree

/-- `strings.Builder` as a writer: it appends and never fails (Go documents that its `Write` always
returns a nil error). -/
def builder : Writer Text Empty := ⟨fun s x => (s ++ x, none)⟩

end Zeropb.Gen
