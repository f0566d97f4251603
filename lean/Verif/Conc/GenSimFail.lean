import Verif.Conc.SimFail
import Verif.Conc.GenSim
import Verif.Conc.Halt
/-!
# Alone, the access-by-access interpreter panics where `GoSrc/GenSem` says so
-/

set_option linter.constructorNameAsVariable false

namespace Zeropb.GoSrc.Conc
open Zeropb.GoSrc.G
open Zeropb.Gen (Text)

theorem Ev.go {α β : Type} {p : Nat → Prog α} {f : Nat → α → Prog β} {s s1 : GSt} {a : α} {e : Fail} (h1 : Ev fun m => To (p m) s a s1)
    (h2 : Evf (fun m => f m a) s1 e) : Evf (fun m => p m >>= f m) s e :=
  h2.imp fun _ h2 => (h1.and h2).mono fun _ h => (Prog.halt_bind_ok h.1).trans h.2

theorem To.fl {α β : Type} {p : Prog α} {f : α → Prog β} {s s1 : GSt} {a : α} {e : Fail} (h1 : To p s a s1) (h2 : Fl (f a) s1 e) : Fl (p >>= f) s e := by
  unfold To Fl at *
  rw [Prog.run_bind, h1]
  exact h2

/-- Calls of methods panic as `meth` says. -/
def MethodsFail (mp : Nat → Methods) (meth : G.Methods) (x : Fail) : Prop :=
  ∀ t f args s, meth t f args s = .error (.fail x) → Evf (fun m => mp m t f args) s x

section
variable {p : Program} {call : GoSrc.Calls} {meth : G.Methods} {cp : Nat → Calls} {mp : Nat → Methods} {x : Fail}

theorem fl_gload {env : Env} {s : GSt} {q : Place} (h : G.load env s q = .error (.fail x)) : Fl (gload env q) s x := by
  cases q <;> simp only [G.load] at h
  case var y => split at h <;> cases h
  all_goals cases h

theorem fl_gstore {q : Place} {v : GVal} {env : Env} {s : GSt} (h : storeAt q v env s = .error (.fail x)) : Fl (gstore q v env) s x := by
  unfold storeAt at h
  split at h
  · split at h <;> cases h
  all_goals cases h

theorem fl_gruntime (hf : CallsFail cp call x) {f : Text} {args : List GVal} {s : GSt} (h : runtime call f args s = .error (.fail x)) :
    Evf (fun m => gruntime (cp m) f args) s x := by
  unfold runtime at h
  unfold gruntime
  split at h
  · next g hg =>
    simp only [hg]
    rcases bindErr h with h | ⟨vs, h1, h⟩
    · exact .of_left (fl_lift h _)
    refine Ev.go (.of fun m => to_lift h1 s) ?_
    rcases bindErr h with h | ⟨⟨rs, h'⟩, h2, h⟩
    · exact (hf g vs s h).left
    cases h
  · cases h

theorem fl_geval (hc : CallsEnd cp call) (hf : CallsFail cp call x) (hm : MethodsEnd mp meth) (hn : MethodsFail mp meth x) {env : Env} (e : G.Expr) :
    ∀ {s : GSt}, G.eval p call meth env e s = .error (.fail x) → Evf (fun m => geval p (cp m) (mp m) env e) s x := by
  induction e with
  | id y =>
    intro s h
    simp only [G.eval] at h
    split at h
    · cases h
    · split at h <;> cases h
  | num n =>
    intro s h
    simp only [G.eval] at h
    split at h <;> cases h
  | true_ | false_ | nil | noArgs => intro s h; cases h
  | sel e f _ | star e _ =>
    intro s h
    rcases bindErr h with h | ⟨q, h1, h⟩
    · exact .of_left (fl_lift h _)
    rcases bindErr h with h | ⟨v, h2, h⟩
    · exact Ev.go (.of fun m => to_lift h1 _) (.of_left (fl_gload h))
    cases h
  | all e _ | addr e _ =>
    intro s h
    rcases bindErr h with h | ⟨q, h1, h⟩
    · exact .of_left (fl_lift h _)
    cases q <;> cases h
  | paren e ih => intro s h; exact ih h
  | gt a b ih1 ih2 | eq a b ih1 ih2 =>
    intro s h
    rcases bindErr h with h | ⟨⟨y, s1⟩, h1, h⟩
    · exact (ih1 h).left
    refine (to_geval hc hm _ h1).go ?_
    rcases bindErr h with h | ⟨⟨z, s2⟩, h2, h⟩
    · exact (ih2 h).left
    refine (to_geval hc hm _ h2).go ?_
    rcases bindErr h with h | ⟨u, h3, h⟩
    · exact .of_left (fl_lift h _)
    refine Ev.go (.of fun m => to_lift h3 _) ?_
    rcases bindErr h with h | ⟨w, h4, h⟩
    · exact .of_left (fl_lift h _)
    refine Ev.go (.of fun m => to_lift h4 _) ?_
    rcases bindErr h with h | ⟨v, h5, h⟩
    · exact .of_left (fl_lift h _)
    cases h
  | len e ih =>
    intro s h
    rcases bindErr h with h | ⟨⟨y, s1⟩, h1, h⟩
    · exact (ih h).left
    refine (to_geval hc hm _ h1).go ?_
    rcases bindErr h with h | ⟨u, h3, h⟩
    · exact .of_left (fl_lift h _)
    refine Ev.go (.of fun m => to_lift h3 _) ?_
    rcases bindErr h with h | ⟨w, h4, h⟩
    · exact .of_left (fl_lift h _)
    cases h
  | conv t e ih =>
    intro s h
    rcases bindErr h with h | ⟨⟨y, s1⟩, h1, h⟩
    · exact (ih h).left
    refine (to_geval hc hm _ h1).go ?_
    rcases bindErr h with h | ⟨u, h3, h⟩
    · exact .of_left (fl_lift h _)
    split at h
    · split at h <;> cases h
    · cases h
  | pkg f es ih =>
    intro s h
    rcases bindErr h with h | ⟨⟨y, s1⟩, h1, h⟩
    · exact (ih h).left
    exact (to_geval hc hm _ h1).go (fl_gruntime hf h)
  | method e f es ih1 ih2 =>
    intro s h
    rcases bindErr h with h | ⟨⟨y, s1⟩, h1, h⟩
    · exact (ih1 h).left
    refine (to_geval hc hm _ h1).go ?_
    rcases bindErr h with h | ⟨u, h2, h⟩
    · exact .of_left (fl_lift h _)
    refine Ev.go (.of fun m => to_lift h2 _) ?_
    rcases bindErr h with h | ⟨⟨vs, s2⟩, h3, h⟩
    · exact (ih2 h).left
    refine (to_geval hc hm _ h3).go ?_
    cases u with
    | ptr t i => exact hn _ _ _ _ h
    | struct t i => exact hn _ _ _ _ h
    | iter t i => exact hn _ _ _ _ h
    | val v => exact fl_gruntime hf h
  | arg e ih => intro s h; exact ih h
  | args e es ih1 ih2 =>
    intro s h
    rcases bindErr h with h | ⟨⟨y, s1⟩, h1, h⟩
    · exact (ih1 h).left
    refine (to_geval hc hm _ h1).go ?_
    rcases bindErr h with h | ⟨⟨z, s2⟩, h2, h⟩
    · exact (ih2 h).left
    cases h

theorem fl_gexec (hc : CallsEnd cp call) (hf : CallsFail cp call x) (hm : MethodsEnd mp meth) (hn : MethodsFail mp meth x) (st : G.Stmt) :
    ∀ {env : Env} {s : GSt}, G.exec p call meth st env s = .error (.fail x) → Evf (fun m => gexec p (cp m) (mp m) st env) s x := by
  induction st with
  | skip => intro env s h; cases h
  | seq a b ih1 ih2 =>
    intro env s h
    rcases bindErr h with h | ⟨⟨o1, s1⟩, h1, h⟩
    · exact (ih1 h).left
    refine (to_gexec hc hm _ h1).go ?_
    cases o1 with
    | next env1 => exact ih2 h
    | ret vs => cases h
  | define y e =>
    intro env s h
    rcases bindErr h with h | ⟨⟨a, s1⟩, h1, h⟩
    · exact (fl_geval hc hf hm hn e h).left
    refine (to_geval hc hm _ h1).go ?_
    rcases bindErr h with h | ⟨v, h2, h⟩
    · exact .of_left (fl_lift h _)
    cases h
  | varBytes y => intro env s h; cases h
  | assign l e =>
    intro env s h
    rcases bindErr h with h | ⟨⟨a, s1⟩, h1, h⟩
    · exact (fl_geval hc hf hm hn e h).left
    refine (to_geval hc hm _ h1).go ?_
    rcases bindErr h with h | ⟨v, h2, h⟩
    · exact .of_left (fl_lift h _)
    refine Ev.go (.of fun m => to_lift h2 _) ?_
    rcases bindErr h with h | ⟨q, h3, h⟩
    · exact .of_left (fl_lift h _)
    refine Ev.go (.of fun m => to_lift h3 _) ?_
    rcases bindErr h with h | ⟨⟨env', s2⟩, h4, h⟩
    · exact .of_left (fl_gstore h)
    cases h
  | assign2 l1 l2 e =>
    intro env s h
    rcases bindErr h with h | ⟨q1, h1, h⟩
    · exact .of_left (fl_lift h _)
    refine Ev.go (.of fun m => to_lift h1 _) ?_
    rcases bindErr h with h | ⟨q2, h2, h⟩
    · exact .of_left (fl_lift h _)
    refine Ev.go (.of fun m => to_lift h2 _) ?_
    rcases bindErr h with h | ⟨⟨a, s1⟩, h3, h⟩
    · exact (fl_geval hc hf hm hn e h).left
    refine (to_geval hc hm _ h3).go ?_
    simp only at h
    split at h
    · rcases bindErr h with h | ⟨⟨env1, s2⟩, h4, h⟩
      · exact .of_left (fl_gstore h)
      refine Ev.go (.of fun m => to_gstore h4) ?_
      rcases bindErr h with h | ⟨⟨env2, s3⟩, h5, h⟩
      · exact .of_left (fl_gstore h)
      cases h
    · cases h
  | expr e | ret e =>
    intro env s h
    rcases bindErr h with h | ⟨⟨a, s1⟩, h1, h⟩
    · exact (fl_geval hc hf hm hn e h).left
    cases h
  | panic t =>
    intro env s h
    injection h with h; injection h with h; subst h
    exact .of rfl
  | ite k t ih =>
    intro env s h
    rcases bindErr h with h | ⟨⟨a, s1⟩, h1, h⟩
    · exact (fl_geval hc hf hm hn k h).left
    refine (to_geval hc hm _ h1).go ?_
    rcases bindErr h with h | ⟨v, h2, h⟩
    · exact .of_left (fl_lift h _)
    refine Ev.go (.of fun m => to_lift h2 _) ?_
    simp only at h
    split at h
    · rcases bindErr h with h | ⟨⟨o1, s2⟩, h3, h⟩
      · exact (ih h).left
      cases o1 <;> cases h
    · cases h
    · cases h

theorem fl_gbindArg {t : G.Ty} {v : GVal} {s : GSt} (h : bindArg p t v s = .error (.fail x)) : Fl (gbindArg p t v) s x := by
  unfold bindArg at h
  split at h
  · split at h <;> cases h
  · split at h <;> cases h
  · split at h <;> cases h
  · cases h
  · cases h

theorem fl_gbindAll {ps : List (Text × G.Ty)} : ∀ {vs : List GVal} {s : GSt}, bindAll p ps vs s = .error (.fail x) → Fl (gbindAll p ps vs) s x := by
  induction ps with
  | nil => intro vs s h; cases vs <;> cases h
  | cons y ps ih =>
    intro vs s h
    obtain ⟨y, t⟩ := y
    cases vs with
    | nil => cases h
    | cons v vs =>
      rcases bindErr h with h | ⟨⟨u, s1⟩, h1, h⟩
      · exact (fl_gbindArg h).left
      rcases bindErr h with h | ⟨⟨env1, s2⟩, h2, h⟩
      · exact (to_gbindArg h1).fl (ih h).left
      cases h

theorem fl_ginvoke (hc : CallsEnd cp call) (hf : CallsFail cp call x) (hm : MethodsEnd mp meth) (hn : MethodsFail mp meth x) {f : G.Func} {args : List GVal} {s : GSt}
    (h : G.invoke p call meth f args s = .error (.fail x)) : Evf (fun m => ginvoke p (cp m) (mp m) f args) s x := by
  unfold G.invoke at h
  unfold ginvoke
  cases args with
  | nil => cases h
  | cons y args =>
    rcases bindErr h with h | ⟨⟨env, s1⟩, h1, h⟩
    · exact .of_left (fl_gbindAll h)
    refine Ev.go (.of fun m => to_gbindAll h1) ?_
    rcases bindErr h with h | ⟨⟨o, s2⟩, h2, h⟩
    · exact (fl_gexec hc hf hm hn f.body h).left
    cases o with
    | next env' => simp only at h; split at h <;> cases h
    | ret vs => simp only at h; split at h <;> cases h

theorem fl_gcallMethod (hc : CallsEnd cp call) (hf : CallsFail cp call x) (d : Nat) : MethodsFail (fun m => gcallMethod p (cp m) d) (callMethod p call d) x := by
  induction d with
  | zero => intro t f args s h; cases h
  | succ d ih =>
    intro t f args s h
    simp only [callMethod] at h
    simp only [gcallMethod]
    split at h
    · next g hg => simp only [hg]; exact fl_ginvoke hc hf (to_gcallMethod hc d) ih h
    · cases h

end

/-- Alone, a call of a method of a generated type panics where `GoSrc/GenSem` says so. -/
theorem fl_grun {p : Program} {rt : Rt} {d : Nat} {t name : Text} {args : List GVal} {s : GSt} {x : Fail} (hx : x ≠ .diverge)
    (h : callMethod p (GoSrc.goCall rt (d + 3)) (d + 2) t name args s = .error (.fail x)) :
    ∃ s', Ev fun m => (grun p rt m d t name args).halt s = some (.fail x, s') :=
  fl_gcallMethod (ends_goCall rt (d + 3)) (fl_goCall hx rt (d + 3)) (d + 2) t name args s h

end Zeropb.GoSrc.Conc
