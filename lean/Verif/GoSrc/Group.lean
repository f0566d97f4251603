import Verif.Spec.GoExpr
import Verif.GoSrc.Text
import Verif.GoSrc.ToolText
import Verif.GoSrc.GenText
import Verif.GoSrc.StrText
/-!
# The expressions of the syntax trees as Go groups them

Every expression of the four syntaxes (`GoSrc/Syntax`, `GoSrc/ToolSyntax`, `GoSrc/GenSyntax`, `GoSrc/StrSyntax`) as a tree over its tokens: an operator of the syntax tree becomes an operator
over the same two operands. `e.before k` is the expression (or the list of expressions) `e` in front of `k`. A type with brackets, as in `[]byte(e)`, is read as a pair of brackets followed by
`byte(e)`.
-/

set_option linter.constructorNameAsVariable false

namespace Zeropb.GoSrc
open Zeropb.Gen (Text)
open Zeropb.GoExpr

/-- `a.b.c`. -/
def names (ts : Toks) : Tree :=
  match ts.filter (· ≠ t!".") with
  | t :: ts => ts.foldl .dot (.atom t)
  | [] => .group [] .done

/-- The first of the expressions. -/
def first : Items → Tree
  | .item e _ => e
  | _ => .group [] .done

/-- One expression. -/
def one (e : Tree) : Items := .item e .done

/-! ## offsets.go and zeropb.go (`GoSrc/Syntax`) -/

/-- `t(s)`. -/
def Ty.applied (t : Ty) (s k : Items) : Items :=
  match t with
  | .bytes => .item (.group t!"[" .done) (.item (.app (.atom t!"byte") t!"(" s) k)
  | .u16s => .item (.group t!"[" .done) (.item (.app (.atom t!"uint16") t!"(" s) k)
  | t => .item (.app (names t.toks) t!"(" s) k

/-- `*t`. -/
def Ty.pointer : Ty → Items
  | .bytes => .item (.pre t!"*" (.group t!"[" .done)) (one (.atom t!"byte"))
  | .u16s => .item (.pre t!"*" (.group t!"[" .done)) (one (.atom t!"uint16"))
  | t => one (.pre t!"*" (names t.toks))

/-- An expression or a list of expressions in front of others. -/
def Expr.before : Expr → Items → Items
  | .id x, k => .item (.atom x.text) k
  | .num n, k => .item (.atom (decimal n)) k
  | .hex n, k => .item (.atom (t!"0x" ++ decimal n)) k
  | .const x, k => .item (names x.toks) k
  | .true_, k => .item (.atom t!"true") k
  | .false_, k => .item (.atom t!"false") k
  | .nil, k => .item (.atom t!"nil") k
  | .emptyStr, k => .item (.atom t!"``") k
  | .eof, k => .item (.dot (.atom t!"io") t!"ErrUnexpectedEOF") k
  | .sel e f, k => .item (.dot (first (e.before .done)) f.text) k
  | .selLen e, k => .item (.dot (first (e.before .done)) t!"Len") k
  | .selData e, k => .item (.dot (first (e.before .done)) t!"Data") k
  | .paren e, k => .item (.group t!"(" (e.before .done)) k
  | .star e, k => .item (.pre t!"*" (first (e.before .done))) k
  | .not e, k => .item (.pre t!"!" (first (e.before .done))) k
  | .bin op l r, k => .item (.bin (op.toks.headD []) (first (l.before .done)) (first (r.before .done))) k
  | .index e i, k => .item (.app (first (e.before .done)) t!"[" (i.before .done)) k
  | .slice e, k => .item (.app (first (e.before .done)) t!"[" (.sep t!":" .done)) k
  | .sliceFrom e lo, k => .item (.app (first (e.before .done)) t!"[" (lo.before (.sep t!":" .done))) k
  | .sliceTo e hi, k => .item (.app (first (e.before .done)) t!"[" (.sep t!":" (hi.before .done))) k
  | .sliceRange e lo hi, k => .item (.app (first (e.before .done)) t!"[" (lo.before (.sep t!":" (hi.before .done)))) k
  | .conv t e, k => t.applied (e.before .done) k
  | .lib f es, k => .item (.app (names f.toks) t!"(" (es.before .done)) k
  | .append e es, k => .item (.app (.atom t!"append") t!"(" (e.before (.sep t!"," (es.before (.sep t!"..." .done))))) k
  | .put p x v, k => .item (.app (names p.toks) t!"(" (.item (.app (.atom x.text) t!"[" (.sep t!":" .done)) (.sep t!"," (v.before .done)))) k
  | .call f es, k => .item (.app (.atom f.text) t!"(" (es.before .done)) k
  | .method e f es, k => .item (.app (.dot (first (e.before .done)) f.text) t!"(" (es.before .done)) k
  | .cast t x, k => .item (.pre t!"*" (.app (.group t!"(" t.pointer) t!"("
      (one (.app (names [t!"unsafe", t!"Pointer"]) t!"(" (one (.pre t!"&" (.atom x.text))))))) k
  | .sliceOf d l m, k => .item (.pre t!"*" (.app (.group t!"(" (Ty.pointer .bytes)) t!"("
      (one (.app (names [t!"unsafe", t!"Pointer"]) t!"(" (one (.pre t!"&" (.app (names [t!"reflect", t!"SliceHeader"]) t!"{"
        (.item (.atom t!"Data") (.sep t!":" (d.before (.sep t!"," (.item (.atom t!"Len") (.sep t!":" (l.before (.sep t!","
          (.item (.atom t!"Cap") (.sep t!":" (m.before (.sep t!"," .done))))))))))))))))))) k
  | .offsetsLit a m, k => .item (.app (.atom t!"Offsets") t!"{" (.item (.atom t!"a") (.sep t!":" (a.before (.sep t!","
      (.item (.atom t!"m") (.sep t!":" (m.before .done)))))))) k
  | .makeMap n, k => .item (.app (.atom t!"make") t!"(" (.item (.app (.atom t!"map") t!"[" (one (.atom t!"int")))
      (.item (.atom t!"uint64") (.sep t!"," (n.before .done))))) k
  | .noArgs, k => k
  | .arg e, k => e.before k
  | .args e es, k => e.before (.sep t!"," (es.before k))

/-- The expressions of a statement. -/
def Stmt.exprs : Stmt → List Expr
  | .skip | .var _ _ | .ret => []
  | .seq s rest => s.exprs ++ rest.exprs
  | .define _ e | .assignSnd _ e | .addAssign _ e | .expr e | .panicType e | .panicErrorf e | .retVal e | .varBytes _ _ e | .varArray _ e => [e]
  | .assign l e => [l, e]
  | .ite k t e => k :: (t.exprs ++ e.exprs)
  | .iteInit s k t e => s.exprs ++ k :: (t.exprs ++ e.exprs)
  | .switch e cs => e :: cs.exprs
  | .case k b rest => k :: (b.exprs ++ rest.exprs)
  | .default b => b.exprs
  | .loop s k b => s.exprs ++ (k.toList ++ b.exprs)
  | .range _ _ e b => e :: b.exprs

def Top.exprs : Top → List Expr
  | .consts cs => cs.map (·.2.2)
  | .func f => f.body.exprs
  | _ => []

/-! ## The generator and its plugin (`GoSrc/ToolSyntax`) -/

namespace T

/-- A type in front of others. -/
def Ty.before : Ty → Items → Items
  | .name x, k => .item (.atom x.text) k
  | .sel p x, k => .item (.dot (.atom p.text) x.text) k
  | .ptr (.name x), k => .item (.pre t!"*" (.atom x.text)) k
  | .ptr (.sel p x), k => .item (.pre t!"*" (.dot (.atom p.text) x.text)) k
  | .slice (.name x), k => .item (.group t!"[" .done) (.item (.atom x.text) k)
  | .slice (.ptr (.name x)), k => .item (.bin t!"*" (.group t!"[" .done) (.atom x.text)) k
  | .slice (.ptr (.sel p x)), k => .item (.bin t!"*" (.group t!"[" .done) (.dot (.atom p.text) x.text)) k
  | _, _ => .done

/-- `t(s)`. -/
def Ty.applied (t : Ty) (s k : Items) : Items :=
  match t with
  | .slice (.name x) => .item (.group t!"[" .done) (.item (.app (.atom x.text) t!"(" s) k)
  | t => .item (.app (first (t.before .done)) t!"(" s) k

/-- An expression or a list of expressions in front of others. -/
def Expr.before : Expr → Items → Items
  | .id x, k => .item (.atom x.text) k
  | .num n, k => .item (.atom (decimal n)) k
  | .neg n, k => .item (.pre t!"-" (.atom (decimal n))) k
  | .str s, k => .item (.atom (quoted s)) k
  | .raw s, k => .item (.atom ('`' :: (s ++ ['`']))) k
  | .true_, k => .item (.atom t!"true") k
  | .false_, k => .item (.atom t!"false") k
  | .nil, k => .item (.atom t!"nil") k
  | .sel e f, k => .item (.dot (first (e.before .done)) f.text) k
  | .pkgVar p x, k => .item (.dot (.atom p.text) x.text) k
  | .not e, k => .item (.pre t!"!" (first (e.before .done))) k
  | .star e, k => .item (.pre t!"*" (first (e.before .done))) k
  | .addr x, k => .item (.pre t!"&" (.atom x.text)) k
  | .bin op l r, k => .item (.bin (op.toks.headD []) (first (l.before .done)) (first (r.before .done))) k
  | .index e i, k => .item (.app (first (e.before .done)) t!"[" (i.before .done)) k
  | .sliceFrom e lo, k => .item (.app (first (e.before .done)) t!"[" (lo.before (.sep t!":" .done))) k
  | .conv t e, k => t.applied (e.before .done) k
  | .len e, k => .item (.app (.atom t!"len") t!"(" (e.before .done)) k
  | .append e x, k => .item (.app (.atom t!"append") t!"(" (e.before (.sep t!"," (x.before .done)))) k
  | .make t n m, k => .item (.app (.atom t!"make") t!"(" (t.before (.sep t!"," (n.before (.sep t!"," (m.before .done)))))) k
  | .emptySet, k => .item (.app (.atom t!"map") t!"[" (one (.atom t!"string")))
      (.item (.app (.app (.atom t!"struct") t!"{" .done) t!"{" .done) k)
  | .unit, k => .item (.app (.app (.atom t!"struct") t!"{" .done) t!"{" .done) k
  | .newLit t fs, k => .item (.pre t!"&" (.app (.atom t.text) t!"{" (fs.before .done))) k
  | .field f e, k => .item (.atom f.text) (.sep t!":" (e.before k))
  | .fields f e rest, k => .item (.atom f.text) (.sep t!":" (e.before (.sep t!"," (rest.before k))))
  | .call f es, k => .item (.app (.atom f.text) t!"(" (es.before .done)) k
  | .pkg p f es, k => .item (.app (.dot (.atom p.text) f.text) t!"(" (es.before .done)) k
  | .method e f es, k => .item (.app (.dot (first (e.before .done)) f.text) t!"(" (es.before .done)) k
  | .noArgs, k => k
  | .arg e, k => e.before k
  | .args e es, k => e.before (.sep t!"," (es.before k))

/-- The expressions of a statement. -/
def Stmt.exprs : Stmt → List Expr
  | .skip | .var _ _ | .varRef _ _ | .ret | .continue_ => []
  | .seq s rest => s.exprs ++ rest.exprs
  | .define _ e | .defineRef _ e | .expr e | .retVal e | .panic e => [e]
  | .defineFunc _ _ _ _ b => b.exprs
  | .assign l e | .assignSnd l e => [l, e]
  | .ite k t => k :: t.exprs
  | .iteInit s k t => s.exprs ++ k :: t.exprs
  | .switch e cs | .typeSwitch _ e cs => e :: cs.exprs
  | .case es b rest => es :: (b.exprs ++ rest.exprs)
  | .typeCase _ b rest => b.exprs ++ rest.exprs
  | .default b => b.exprs
  | .range _ e b => e :: b.exprs

def Top.exprs : Top → List Expr
  | .const _ e => [e]
  | .func f => f.body.exprs
  | _ => []

end T

/-! ## The generated files (`GoSrc/GenSyntax`) -/

namespace G

/-- An expression or a list of expressions in front of others. -/
def Expr.before : Expr → Items → Items
  | .id x, k => .item (.atom x) k
  | .num n, k => .item (.atom (Gen.itoa n)) k
  | .true_, k => .item (.atom t!"true") k
  | .false_, k => .item (.atom t!"false") k
  | .nil, k => .item (.atom t!"nil") k
  | .sel e f, k => .item (.dot (first (e.before .done)) f) k
  | .all e, k => .item (.app (first (e.before .done)) t!"[" (.sep t!":" .done)) k
  | .addr e, k => .item (.pre t!"&" (first (e.before .done))) k
  | .star e, k => .item (.pre t!"*" (first (e.before .done))) k
  | .paren e, k => .item (.group t!"(" (e.before .done)) k
  | .gt l r, k => .item (.bin t!">" (first (l.before .done)) (first (r.before .done))) k
  | .eq l r, k => .item (.bin t!"==" (first (l.before .done)) (first (r.before .done))) k
  | .len e, k => .item (.app (.atom t!"len") t!"(" (e.before .done)) k
  | .conv t e, k => .item (.app (.atom t) t!"(" (e.before .done)) k
  | .pkg f es, k => .item (.app (.dot (.atom t!"zeropb") f) t!"(" (es.before .done)) k
  | .method e f es, k => .item (.app (.dot (first (e.before .done)) f) t!"(" (es.before .done)) k
  | .noArgs, k => k
  | .arg e, k => e.before k
  | .args e es, k => e.before (.sep t!"," (es.before k))

/-- The expressions of a statement. -/
def Stmt.exprs : Stmt → List Expr
  | .skip | .varBytes _ | .panic _ => []
  | .seq s rest => s.exprs ++ rest.exprs
  | .define _ e | .expr e | .ret e => [e]
  | .assign l e => [l, e]
  | .assign2 l l' e => [l, l', e]
  | .ite k t => k :: t.exprs

def Top.exprs : Top → List Expr
  | .func f => f.body.exprs
  | _ => []

end G

/-! ## string.go and internals.go (`GoSrc/StrSyntax`) -/

namespace X

/-- An expression or a list of expressions in front of others. -/
def Expr.before : Expr → Items → Items
  | .id x, k => .item (.atom x) k
  | .num n, k => .item (.atom (Gen.itoa n)) k
  | .raw t, k => .item (.atom (t!"`" ++ t ++ t!"`")) k
  | .sel e f, k => .item (.dot (first (e.before .done)) f) k
  | .all e, k => .item (.app (first (e.before .done)) t!"[" (.sep t!":" .done)) k
  | .addr e, k => .item (.pre t!"&" (first (e.before .done))) k
  | .not e, k => .item (.pre t!"!" (first (e.before .done))) k
  | .notNil e, k => .item (.bin t!"!=" (first (e.before .done)) (.atom t!"nil")) k
  | .toString e, k => .item (.app (.atom t!"string") t!"(" (e.before .done)) k
  | .pkg p f es, k => .item (.app (.dot (.atom p) f) t!"(" (es.before .done)) k
  | .method e f es, k => .item (.app (.dot (first (e.before .done)) f) t!"(" (es.before .done)) k
  | .noArgs, k => k
  | .arg e, k => e.before k
  | .args e es, k => e.before (.sep t!"," (es.before k))

/-- The expressions of a statement. -/
def Stmt.exprs : Stmt → List Expr
  | .skip | .declare _ _ | .brk => []
  | .seq s rest => s.exprs ++ rest.exprs
  | .define _ e | .expr e | .ret e | .panic e => [e]
  | .ite _ _ e k t els => e :: k :: (t.exprs ++ els.exprs)
  | .test k t => k :: t.exprs
  | .loop _ e b => e :: b.exprs

def Top.exprs : Top → List Expr
  | .func f => f.body.exprs
  | _ => []

end X

end Zeropb.GoSrc
