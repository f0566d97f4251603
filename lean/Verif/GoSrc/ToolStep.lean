import Verif.GoSrc.ToolSem
/-!
# The interpreter, statement by statement
-/

set_option linter.constructorNameAsVariable false

namespace Zeropb.GoSrc.T

variable {σ ε : Type}

theorem exec_skip (k : Ctx σ ε)  (w : Option (V ε)) (env : Env ε) (s : St σ ε) :
    exec k (.skip) w env s = (.ok (.next env, s)) := by first | (rw [exec]; done) | (rw [exec]; rfl) | (rename Option _ => v; cases v <;> first | rfl | (rw [exec]; done) | (rw [exec]; rfl))

theorem exec_seq (k : Ctx σ ε) (a b : Stmt) (w : Option (V ε)) (env : Env ε) (s : St σ ε) :
    exec k (.seq a b) w env s = (
    do
    let (o, s) ← exec k a none env s
    match o with
    | .next env => exec k b none env s
    | .cont env => .ok (.cont env, s)
    | .ret vs => .ok (.ret vs, s)) := by first | (rw [exec]; done) | (rw [exec]; rfl) | (rename Option _ => v; cases v <;> first | rfl | (rw [exec]; done) | (rw [exec]; rfl))

theorem exec_define (k : Ctx σ ε) (xs : List (Option Id)) (e : Expr) (w : Option (V ε)) (env : Env ε) (s : St σ ε) :
    exec k (.define xs e) w env s = (
    do
    let (vs, s) ← eval k env e s
    let env ← bindNames xs vs env
    .ok (.next env, s)) := by first | (rw [exec]; done) | (rw [exec]; rfl) | (rename Option _ => v; cases v <;> first | rfl | (rw [exec]; done) | (rw [exec]; rfl))

theorem exec_defineRef (k : Ctx σ ε) (x : Id) (e : Expr) (w : Option (V ε)) (env : Env ε) (s : St σ ε) :
    exec k (.defineRef x e) w env s = (
    do
    let (a, s) ← eval k env e s
    let v ← single a
    .ok (.next ((x, .obj s.heap.length) :: env), { s with heap := s.heap ++ [v] })) := by first | (rw [exec]; done) | (rw [exec]; rfl) | (rename Option _ => v; cases v <;> first | rfl | (rw [exec]; done) | (rw [exec]; rfl))

theorem exec_defineFunc (k : Ctx σ ε) (x p : Id) (u1 u2 : Ty) (b : Stmt) (w : Option (V ε)) (env : Env ε) (s : St σ ε) :
    exec k (.defineFunc x p u1 u2 b) w env s = (.ok (.next ((x, .closure env p b) :: env), s)) := by first | (rw [exec]; done) | (rw [exec]; rfl) | (rename Option _ => v; cases v <;> first | rfl | (rw [exec]; done) | (rw [exec]; rfl))

theorem exec_var (k : Ctx σ ε) (x : Id) (t : Ty) (w : Option (V ε)) (env : Env ε) (s : St σ ε) :
    exec k (.var x t) w env s = (
    do
    let v ← zero t
    .ok (.next ((x, v) :: env), s)) := by first | (rw [exec]; done) | (rw [exec]; rfl) | (rename Option _ => v; cases v <;> first | rfl | (rw [exec]; done) | (rw [exec]; rfl))

theorem exec_varRef (k : Ctx σ ε) (x : Id) (t : Ty) (w : Option (V ε)) (env : Env ε) (s : St σ ε) :
    exec k (.varRef x t) w env s = (
    do
    let v ← zero t
    .ok (.next ((x, .obj s.heap.length) :: env), { s with heap := s.heap ++ [v] })) := by first | (rw [exec]; done) | (rw [exec]; rfl) | (rename Option _ => v; cases v <;> first | rfl | (rw [exec]; done) | (rw [exec]; rfl))

theorem exec_assign (k : Ctx σ ε) (l e : Expr) (w : Option (V ε)) (env : Env ε) (s : St σ ε) :
    exec k (.assign l e) w env s = (
    do
    let (a, s) ← eval k env e s
    let v ← single a
    assignTo k l v env s) := by first | (rw [exec]; done) | (rw [exec]; rfl) | (rename Option _ => v; cases v <;> first | rfl | (rw [exec]; done) | (rw [exec]; rfl))

theorem exec_assignSnd (k : Ctx σ ε) (l e : Expr) (w : Option (V ε)) (env : Env ε) (s : St σ ε) :
    exec k (.assignSnd l e) w env s = (
    do
    let (a, s) ← eval k env e s
    match a with
    | [_, v] => assignTo k l v env s
    | _ => .error .stuck) := by first | (rw [exec]; done) | (rw [exec]; rfl) | (rename Option _ => v; cases v <;> first | rfl | (rw [exec]; done) | (rw [exec]; rfl))

theorem exec_expr (k : Ctx σ ε) (e : Expr) (w : Option (V ε)) (env : Env ε) (s : St σ ε) :
    exec k (.expr e) w env s = (
    do
    let (_, s) ← eval k env e s
    .ok (.next env, s)) := by first | (rw [exec]; done) | (rw [exec]; rfl) | (rename Option _ => v; cases v <;> first | rfl | (rw [exec]; done) | (rw [exec]; rfl))

theorem exec_ret (k : Ctx σ ε)  (w : Option (V ε)) (env : Env ε) (s : St σ ε) :
    exec k (.ret) w env s = (.ok (.ret [], s)) := by first | (rw [exec]; done) | (rw [exec]; rfl) | (rename Option _ => v; cases v <;> first | rfl | (rw [exec]; done) | (rw [exec]; rfl))

theorem exec_retVal (k : Ctx σ ε) (es : Expr) (w : Option (V ε)) (env : Env ε) (s : St σ ε) :
    exec k (.retVal es) w env s = (
    do
    let (vs, s) ← eval k env es s
    .ok (.ret vs, s)) := by first | (rw [exec]; done) | (rw [exec]; rfl) | (rename Option _ => v; cases v <;> first | rfl | (rw [exec]; done) | (rw [exec]; rfl))

theorem exec_panic (k : Ctx σ ε) (e : Expr) (w : Option (V ε)) (env : Env ε) (s : St σ ε) :
    exec k (.panic e) w env s = (
    do
    let (a, _) ← eval k env e s
    let v ← single a
    .error (panicOf v)) := by first | (rw [exec]; done) | (rw [exec]; rfl) | (rename Option _ => v; cases v <;> first | rfl | (rw [exec]; done) | (rw [exec]; rfl))

theorem exec_continue (k : Ctx σ ε)  (w : Option (V ε)) (env : Env ε) (s : St σ ε) :
    exec k (.continue_) w env s = (.ok (.cont env, s)) := by first | (rw [exec]; done) | (rw [exec]; rfl) | (rename Option _ => v; cases v <;> first | rfl | (rw [exec]; done) | (rw [exec]; rfl))

theorem exec_ite (k : Ctx σ ε) (e : Expr) (t : Stmt) (w : Option (V ε)) (env : Env ε) (s : St σ ε) :
    exec k (.ite e t) w env s = (
    do
    let (a, s) ← eval k env e s
    match a with
    | [.bool true] => leaving env.length (exec k t none env s)
    | [.bool false] => .ok (.next env, s)
    | _ => .error .stuck) := by first | (rw [exec]; done) | (rw [exec]; rfl) | (rename Option _ => v; cases v <;> first | rfl | (rw [exec]; done) | (rw [exec]; rfl))

theorem exec_iteInit (k : Ctx σ ε) (i : Stmt) (e : Expr) (t : Stmt) (w : Option (V ε)) (env : Env ε) (s : St σ ε) :
    exec k (.iteInit i e t) w env s = (
    leaving env.length (do
      let (o, s) ← exec k i none env s
      match o with
      | .next env => do
        let (a, s) ← eval k env e s
        match a with
        | [.bool true] => exec k t none env s
        | [.bool false] => .ok (.next env, s)
        | _ => .error .stuck
      | _ => .error .stuck)) := by first | (rw [exec]; done) | (rw [exec]; rfl) | (rename Option _ => v; cases v <;> first | rfl | (rw [exec]; done) | (rw [exec]; rfl))

theorem exec_switch (k : Ctx σ ε) (e : Expr) (cs : Stmt) (w : Option (V ε)) (env : Env ε) (s : St σ ε) :
    exec k (.switch e cs) w env s = (
    do
    let (a, s) ← eval k env e s
    let v ← single a
    exec k cs (some v) env s) := by first | (rw [exec]; done) | (rw [exec]; rfl) | (rename Option _ => v; cases v <;> first | rfl | (rw [exec]; done) | (rw [exec]; rfl))

theorem exec_case (k : Ctx σ ε) (es : Expr) (b rest : Stmt) (v : Option (V ε)) (env : Env ε) (s : St σ ε) :
    exec k (.case es b rest) v env s = (
    do
    match v with
    | none => .error .stuck
    | some v => do
      let (us, s) ← eval k env es s
      let r ← anyEqual v us
      if r then leaving env.length (exec k b none env s) else exec k rest (some v) env s) := by first | (rw [exec]; done) | (rw [exec]; rfl) | (rename Option _ => v; cases v <;> first | rfl | (rw [exec]; done) | (rw [exec]; rfl))

theorem exec_typeSwitch (k : Ctx σ ε) (x : Id) (e : Expr) (cs : Stmt) (w : Option (V ε)) (env : Env ε) (s : St σ ε) :
    exec k (.typeSwitch x e cs) w env s = (
    leaving env.length (do
      let (a, s) ← eval k env e s
      let v ← single a
      exec k cs (some v) ((x, v) :: env) s)) := by first | (rw [exec]; done) | (rw [exec]; rfl) | (rename Option _ => v; cases v <;> first | rfl | (rw [exec]; done) | (rw [exec]; rfl))

theorem exec_typeCase (k : Ctx σ ε) (t : Ty) (b rest : Stmt) (v : Option (V ε)) (env : Env ε) (s : St σ ε) :
    exec k (.typeCase t b rest) v env s = (
    do
    match v with
    | none => .error .stuck
    | some v => do
      let r ← hasType t v
      if r then leaving env.length (exec k b none env s) else exec k rest (some v) env s) := by first | (rw [exec]; done) | (rw [exec]; rfl) | (rename Option _ => v; cases v <;> first | rfl | (rw [exec]; done) | (rw [exec]; rfl))

theorem exec_default (k : Ctx σ ε) (b : Stmt) (w : Option (V ε)) (env : Env ε) (s : St σ ε) :
    exec k (.default b) w env s = (leaving env.length (exec k b none env s)) := by first | (rw [exec]; done) | (rw [exec]; rfl) | (rename Option _ => v; cases v <;> first | rfl | (rw [exec]; done) | (rw [exec]; rfl))

theorem exec_range (k : Ctx σ ε) (x : Id) (e : Expr) (b : Stmt) (w : Option (V ε)) (env : Env ε) (s : St σ ε) :
    exec k (.range x e b) w env s = (
    do
    let (a, s) ← eval k env e s
    match a with
    | [.list vs] => rangeLoop (fun v env s => leaving env.length (exec k b none ((x, v) :: env) s)) vs env s
    | _ => .error .stuck) := by first | (rw [exec]; done) | (rw [exec]; rfl) | (rename Option _ => v; cases v <;> first | rfl | (rw [exec]; done) | (rw [exec]; rfl))

end Zeropb.GoSrc.T
