import Verif.Conc.Sim
import Verif.Conc.Halt
/-!
# Alone, the access-by-access interpreter panics where `GoSrc/Sem` says so
-/

set_option linter.constructorNameAsVariable false

namespace Zeropb.GoSrc.Conc
open Zeropb.GoSrc.G

/-- The program panics with `e`. -/
def Fl {α : Type} (p : Prog α) (s : GSt) (e : Fail) : Prop := p.run s = .error (.fail e)

theorem Fl.left {α β : Type} {p : Prog α} {f : α → Prog β} {s : GSt} {e : Fail} (h : Fl p s e) : Fl (p >>= f) s e := by
  unfold Fl at *
  rw [Prog.run_bind, h]
  rfl

theorem Ends.fl {α β : Type} {p : Prog α} {f : α → Prog β} {s : GSt} {a : α} {h : Heap} {e : Fail} (h1 : Ends p s a h) (h2 : Fl (f a) (withH s h) e) : Fl (p >>= f) s e := by
  unfold Ends Fl at *
  rw [Prog.run_bind, h1]
  exact h2

theorem fl_lift {α : Type} {x : M α} {e : Fail} (hx : x = .error (.fail e)) (s : GSt) : Fl (lift x) s e := by subst hx; rfl

theorem bindErr {α β ε : Type} {x : Except ε α} {f : α → Except ε β} {e : ε} (h : (x >>= f) = .error e) : x = .error e ∨ ∃ a, x = .ok a ∧ f a = .error e := by
  cases x with
  | error e' => left; injection h with h; subst h; rfl
  | ok a => exact .inr ⟨a, rfl, h⟩

theorem Prog.halt_bind_stop {α β : Type} {p : Prog α} {f : α → Prog β} {s : GSt} {r : Stop × GSt} (h : p.halt s = some r) : (p >>= f).halt s = some r := by
  show (p.bind f).halt s = _
  induction p generalizing s with
  | done b => cases h
  | stop e => exact h
  | load l k ih => exact ih _ h
  | store w k ih => exact ih h
  | newArr bs k ih => exact ih _ h
  | newMap k ih => exact ih _ h
  | newStruct m k ih => exact ih _ h

/-- The program panics with `e`, in a state that does not depend on the number of rounds that limits loops, if that is large enough. -/
def Evf {α : Type} (p : Nat → Prog α) (s : GSt) (e : Fail) : Prop := ∃ s', Ev fun m => (p m).halt s = some (.fail e, s')

theorem Evf.left {α β : Type} {p : Nat → Prog α} {f : Nat → α → Prog β} {s : GSt} {e : Fail} (h : Evf p s e) : Evf (fun m => p m >>= f m) s e :=
  h.imp fun _ h => h.mono fun _ h => Prog.halt_bind_stop h

theorem Evf.of {α : Type} {p : Prog α} {s : GSt} {e : Fail} (h : Fl p s e) : Evf (fun _ => p) s e := (Prog.run_halt h).imp fun _ h => Ev.of fun _ => h

theorem Evf.of_left {α β : Type} {p : Prog α} {f : Nat → α → Prog β} {s : GSt} {e : Fail} (h : Fl p s e) : Evf (fun m => p >>= f m) s e := Evf.left (Evf.of h)

theorem Ev.right {α β : Type} {p : Nat → Prog α} {f : Nat → α → Prog β} {s : GSt} {a : α} {h : Heap} {e : Fail} (h1 : Ev fun m => Ends (p m) s a h)
    (h2 : Evf (fun m => f m a) (withH s h) e) : Evf (fun m => p m >>= f m) s e :=
  h2.imp fun _ h2 => (h1.and h2).mono fun _ h => (Prog.halt_bind_ok h.1).trans h.2

/-! ## Bytes -/

theorem fl_contents {v : Val} {s : GSt} {e : Fail} (h : v.contents s.h.w = .error (.fail e)) : Fl (contents v) s e := by
  unfold Val.contents at h
  split at h <;> cases h

theorem fl_append {rt : Rt} {t : HSlice} {xs : List Byte} {s : GSt} {e : Fail} (h : GoSrc.lift (s.h.w.append rt t xs) = .error (.fail e)) :
    Fl (append rt t xs) s e := by
  unfold World.append at h
  unfold append
  split at h
  · split at h <;> cases h
  · next h1 =>
    rw [if_neg h1]
    injection h with h; injection h with h; subst h; rfl

theorem fl_indexOf {v k : Val} {s : GSt} {e : Fail} (h : GoSrc.indexOf s.h v k = .error (.fail e)) : Fl (indexOf v k) s e := by
  unfold GoSrc.indexOf at h
  unfold indexOf
  split at h
  · rcases bindErr h with h | ⟨n, h1, h2⟩
    · exact (fl_lift h s).left
    refine (ends_lift h1 s).fl ?_
    simp only [withH_self]
    split at h2
    · next h3 =>
      rw [if_pos h3]
      split at h2
      · cases h2
      · next h4 =>
        injection h2 with h2; injection h2 with h2; subst h2
        simp only [Fl, Prog.run, read, h4]
    · next h3 =>
      rw [if_neg h3]
      injection h2 with h2; injection h2 with h2; subst h2
      rfl
  · rcases bindErr h with h | ⟨n, h1, h2⟩
    · exact (fl_lift h s).left
    split at h2 <;> cases h2
  · rcases bindErr h with h | ⟨n, h1, h2⟩
    · exact (fl_lift h s).left
    cases h2
  · cases h

theorem fl_libApply {f : Lib} {vs : List Val} {s : GSt} {e : Fail} (h : f.apply s.h vs = .error (.fail e)) : Fl (libApply f vs) s e := by
  unfold Lib.apply at h
  unfold libApply
  split at h
  · rcases bindErr h with h | ⟨n, h1, h2⟩
    · exact (fl_lift h s).left
    cases h2
  · rcases bindErr h with h | ⟨n, h1, h2⟩
    · exact (fl_contents h).left
    cases h2
  · rcases bindErr h with h | ⟨n, h1, h2⟩
    · exact (fl_lift h s).left
    split at h2 <;> cases h2
  · cases h
  · cases h
  · rcases bindErr h with h | ⟨n, h1, h2⟩
    · exact (ends_readSrc _ s).fl (fl_lift h _).left
    cases h2
  · rcases bindErr h with h | ⟨n, h1, h2⟩
    · exact (ends_readSrc _ s).fl (fl_lift h _).left
    cases h2
  all_goals cases h

theorem fl_deref {v : Val} {s : GSt} {e : Fail} (h : GoSrc.deref s.h v = .error (.fail e)) : Fl (deref v) s e := by
  unfold GoSrc.deref at h
  split at h <;> cases h

/-! ## Expressions -/

/-- Calls panic as they do in `GoSrc/Sem`, if the number of rounds of a loop is limited by a number that is large enough. -/
def CallsFail (cp : Nat → Calls) (call : GoSrc.Calls) (x : Fail) : Prop :=
  ∀ f args s, call f args s.h = .error (.fail x) → Evf (fun m => cp m f args) s x

section
variable {rt : Rt} {cp : Nat → Calls} {call : GoSrc.Calls} {x : Fail}

theorem fl_eval (hc : CallsEnd cp call) (hf : CallsFail cp call x) (e : Expr) : ∀ {env : Vars} {s : GSt}, GoSrc.eval rt call e ⟨s.h, env⟩ = .error (.fail x) →
    Evf (fun m => eval rt (cp m) e env) s x := by
  induction e with
  | id y =>
    intro env s h
    simp only [GoSrc.eval] at h
    split at h
    · cases h
    · split at h <;> cases h
  | num | hex | const | true_ | false_ | nil | emptyStr | eof | noArgs => intro env s h; simp only [GoSrc.eval] at h; cases h
  | sel e f ih =>
    intro env s h
    simp only [GoSrc.eval] at h
    rcases bindErr h with h | ⟨⟨a, s1⟩, h1, h⟩
    · exact (ih h).left
    refine (ends_eval hc _ h1).right ?_
    rcases bindErr h with h | ⟨b, h2, h⟩
    · exact .of_left (fl_lift h _)
    cases h
  | selLen e ih =>
    intro env s h
    simp only [GoSrc.eval] at h
    rcases bindErr h with h | ⟨⟨a, s1⟩, h1, h⟩
    · exact (ih h).left
    simp only at h
    split at h <;> cases h
  | selData e ih =>
    intro env s h
    simp only [GoSrc.eval] at h
    rcases bindErr h with h | ⟨⟨a, s1⟩, h1, h⟩
    · exact (ih h).left
    simp only at h
    split at h <;> cases h
  | paren e ih =>
    intro env s h
    simp only [GoSrc.eval] at h
    simp only [eval]
    exact ih h
  | star e ih =>
    intro env s h
    simp only [GoSrc.eval] at h
    rcases bindErr h with h | ⟨⟨a, s1⟩, h1, h⟩
    · exact (ih h).left
    refine (ends_eval hc _ h1).right ?_
    rcases bindErr h with h | ⟨b, h2, h⟩
    · exact .of_left (fl_deref (s := withH s s1.h) h)
    cases h
  | not e ih =>
    intro env s h
    simp only [GoSrc.eval] at h
    rcases bindErr h with h | ⟨⟨a, s1⟩, h1, h⟩
    · exact (ih h).left
    simp only at h
    split at h <;> cases h
  | bin op l r ihl ihr =>
    intro env s h
    simp only [GoSrc.eval] at h
    rcases bindErr h with h | ⟨⟨a, s1⟩, h1, h⟩
    · exact (ihl h).left
    simp only at h
    split at h
    · next ho =>
      simp only [eval, if_pos ho]
      split at h
      · cases h
      · exact (ends_eval hc _ h1).right (ihr (s := withH s s1.h) h)
      · cases h
    · next ho =>
      simp only [eval, if_neg ho]
      refine (ends_eval hc _ h1).right ?_
      rcases bindErr h with h | ⟨⟨b, s2⟩, h2, h⟩
      · exact (ihr (s := withH s s1.h) h).left
      refine (ends_eval hc _ (s := withH s s1.h) h2).right ?_
      rcases bindErr h with h | ⟨z, h3, h⟩
      · exact .of_left (fl_lift h _)
      cases h
  | index e i ihl ihr =>
    intro env s h
    simp only [GoSrc.eval] at h
    rcases bindErr h with h | ⟨⟨a, s1⟩, h1, h⟩
    · exact (ihl h).left
    refine (ends_eval hc _ h1).right ?_
    rcases bindErr h with h | ⟨⟨b, s2⟩, h2, h⟩
    · exact (ihr (s := withH s s1.h) h).left
    refine (ends_eval hc _ (s := withH s s1.h) h2).right ?_
    rcases bindErr h with h | ⟨z, h3, h⟩
    · exact .of_left (fl_indexOf (s := withH s s2.h) h)
    cases h
  | slice e ih =>
    intro env s h
    simp only [GoSrc.eval] at h
    rcases bindErr h with h | ⟨⟨a, s1⟩, h1, h⟩
    · exact (ih h).left
    simp only at h
    split at h <;> cases h
  | sliceFrom e lo ihl ihr =>
    intro env s h
    simp only [GoSrc.eval] at h
    rcases bindErr h with h | ⟨⟨a, s1⟩, h1, h⟩
    · exact (ihl h).left
    refine (ends_eval hc _ h1).right ?_
    rcases bindErr h with h | ⟨⟨b, s2⟩, h2, h⟩
    · exact (ihr (s := withH s s1.h) h).left
    refine (ends_eval hc _ (s := withH s s1.h) h2).right ?_
    rcases bindErr h with h | ⟨z0, hz0, h⟩
    · exact .of_left (fl_lift h _)
    refine Ev.right (.of fun m => ends_lift hz0 _) ?_
    rcases bindErr h with h | ⟨z1, hz1, h⟩
    · exact .of_left (fl_lift h _)
    cases h
  | sliceTo e lo ihl ihr =>
    intro env s h
    simp only [GoSrc.eval] at h
    rcases bindErr h with h | ⟨⟨a, s1⟩, h1, h⟩
    · exact (ihl h).left
    refine (ends_eval hc _ h1).right ?_
    rcases bindErr h with h | ⟨⟨b, s2⟩, h2, h⟩
    · exact (ihr (s := withH s s1.h) h).left
    refine (ends_eval hc _ (s := withH s s1.h) h2).right ?_
    rcases bindErr h with h | ⟨z0, hz0, h⟩
    · exact .of_left (fl_lift h _)
    refine Ev.right (.of fun m => ends_lift hz0 _) ?_
    rcases bindErr h with h | ⟨z1, hz1, h⟩
    · exact .of_left (fl_lift h _)
    cases h
  | sliceRange e lo hi ih1 ih2 ih3 =>
    intro env s h
    simp only [GoSrc.eval] at h
    rcases bindErr h with h | ⟨⟨a, s1⟩, h1, h⟩
    · exact (ih1 h).left
    refine (ends_eval hc _ h1).right ?_
    rcases bindErr h with h | ⟨⟨b, s2⟩, h2, h⟩
    · exact (ih2 (s := withH s s1.h) h).left
    refine (ends_eval hc _ (s := withH s s1.h) h2).right ?_
    rcases bindErr h with h | ⟨⟨c, s3⟩, h3, h⟩
    · exact (ih3 (s := withH s s2.h) h).left
    refine (ends_eval hc _ (s := withH s s2.h) h3).right ?_
    rcases bindErr h with h | ⟨z0, hz0, h⟩
    · exact .of_left (fl_lift h _)
    refine Ev.right (.of fun m => ends_lift hz0 _) ?_
    rcases bindErr h with h | ⟨z1, hz1, h⟩
    · exact .of_left (fl_lift h _)
    refine Ev.right (.of fun m => ends_lift hz1 _) ?_
    rcases bindErr h with h | ⟨z2, hz2, h⟩
    · exact .of_left (fl_lift h _)
    cases h
  | conv t e ih =>
    intro env s h
    simp only [GoSrc.eval] at h
    rcases bindErr h with h | ⟨⟨a, s1⟩, h1, h⟩
    · exact (ih h).left
    refine (ends_eval hc _ h1).right ?_
    rcases bindErr h with h | ⟨b, h2, h⟩
    · exact .of_left (fl_lift h _)
    cases h
  | lib f es ih =>
    intro env s h
    simp only [GoSrc.eval] at h
    rcases bindErr h with h | ⟨⟨a, s1⟩, h1, h⟩
    · exact (ih h).left
    refine (ends_eval hc _ h1).right ?_
    rcases bindErr h with h | ⟨b, h2, h⟩
    · exact .of_left (fl_libApply (s := withH s s1.h) h)
    cases h
  | append e es ihl ihr =>
    intro env s h
    simp only [GoSrc.eval] at h
    rcases bindErr h with h | ⟨⟨a, s1⟩, h1, h⟩
    · exact (ihl h).left
    refine (ends_eval hc _ h1).right ?_
    rcases bindErr h with h | ⟨⟨b, s2⟩, h2, h⟩
    · exact (ihr (s := withH s s1.h) h).left
    refine (ends_eval hc _ (s := withH s s1.h) h2).right ?_
    rcases bindErr h with h | ⟨bs, h3, h⟩
    · exact .of_left (fl_contents (s := withH s s2.h) h)
    refine Ev.right (.of fun m => ends_contents (s := withH s s2.h) h3) ?_
    simp only at h
    split at h
    · rcases bindErr h with h | ⟨r, h4, h⟩
      · exact .of_left (fl_append (s := withH s s2.h) h)
      cases h
    · cases h
  | put p y e ih =>
    intro env s h
    simp only [GoSrc.eval] at h
    rcases bindErr h with h | ⟨⟨a, s1⟩, h1, h⟩
    · exact (ih h).left
    refine (ends_eval hc _ h1).right ?_
    simp only at h
    split at h
    · next bs hl =>
      rcases bindErr h with h | ⟨⟨n, y⟩, h2, h⟩
      · simp only [hl]
        exact .of_left (fl_lift h _)
      simp only at h
      split at h <;> cases h
    · cases h
  | call f es ih =>
    intro env s h
    simp only [GoSrc.eval] at h
    rcases bindErr h with h | ⟨⟨a, s1⟩, h1, h⟩
    · exact (ih h).left
    refine (ends_eval hc _ h1).right ?_
    rcases bindErr h with h | ⟨⟨rs, h'⟩, h2, h⟩
    · exact (hf f a.flat (withH s s1.h) h).left
    cases h
  | method e f es ihl ihr =>
    intro env s h
    simp only [GoSrc.eval] at h
    rcases bindErr h with h | ⟨⟨a, s1⟩, h1, h⟩
    · exact (ihl h).left
    refine (ends_eval hc _ h1).right ?_
    rcases bindErr h with h | ⟨⟨b, s2⟩, h2, h⟩
    · exact (ihr (s := withH s s1.h) h).left
    refine (ends_eval hc _ (s := withH s s1.h) h2).right ?_
    rcases bindErr h with h | ⟨⟨rs, h'⟩, h3, h⟩
    · exact (hf f (a :: b.flat) (withH s s2.h) h).left
    cases h
  | cast ty y =>
    intro env s h
    simp only [GoSrc.eval] at h
    simp only [eval]
    split at h
    · next u hl =>
      rcases bindErr h with h | ⟨b, h2, h⟩
      · simp only [hl]; exact .of_left (fl_lift h _)
      cases h
    · cases h
  | sliceOf d l k ih1 ih2 ih3 =>
    intro env s h
    simp only [GoSrc.eval] at h
    rcases bindErr h with h | ⟨⟨a, s1⟩, h1, h⟩
    · exact (ih1 h).left
    refine (ends_eval hc _ h1).right ?_
    rcases bindErr h with h | ⟨⟨b, s2⟩, h2, h⟩
    · exact (ih2 (s := withH s s1.h) h).left
    refine (ends_eval hc _ (s := withH s s1.h) h2).right ?_
    rcases bindErr h with h | ⟨⟨c, s3⟩, h3, h⟩
    · exact (ih3 (s := withH s s2.h) h).left
    refine (ends_eval hc _ (s := withH s s2.h) h3).right ?_
    rcases bindErr h with h | ⟨z0, hz0, h⟩
    · exact .of_left (fl_lift h _)
    cases h
  | offsetsLit a k ihl ihr =>
    intro env s h
    simp only [GoSrc.eval] at h
    rcases bindErr h with h | ⟨⟨a, s1⟩, h1, h⟩
    · exact (ihl h).left
    refine (ends_eval hc _ h1).right ?_
    rcases bindErr h with h | ⟨⟨b, s2⟩, h2, h⟩
    · exact (ihr (s := withH s s1.h) h).left
    refine (ends_eval hc _ (s := withH s s1.h) h2).right ?_
    simp only at h
    split at h
    · split at h <;> cases h
    · cases h
  | makeMap n ih =>
    intro env s h
    simp only [GoSrc.eval] at h
    rcases bindErr h with h | ⟨⟨a, s1⟩, h1, h⟩
    · exact (ih h).left
    cases h
  | arg e ih =>
    intro env s h
    simp only [GoSrc.eval] at h
    rcases bindErr h with h | ⟨⟨a, s1⟩, h1, h⟩
    · exact (ih h).left
    cases h
  | args e es ihl ihr =>
    intro env s h
    simp only [GoSrc.eval] at h
    rcases bindErr h with h | ⟨⟨a, s1⟩, h1, h⟩
    · exact (ihl h).left
    refine (ends_eval hc _ h1).right ?_
    rcases bindErr h with h | ⟨⟨b, s2⟩, h2, h⟩
    · exact (ihr (s := withH s s1.h) h).left
    refine (ends_eval hc _ (s := withH s s1.h) h2).right ?_
    cases h

/-! ## Statements -/

theorem fl_store (hc : CallsEnd cp call) (hf : CallsFail cp call x) (e : Expr) : ∀ {u : Val} {env : Vars} {s : GSt}, GoSrc.store rt call e u ⟨s.h, env⟩ = .error (.fail x) →
    Evf (fun m => store rt (cp m) e u env) s x := by
  induction e with
  | id y =>
    intro u env s h
    simp only [GoSrc.store] at h
    split at h
    · split at h <;> cases h
    · cases h
  | paren e ih =>
    intro u env s h
    simp only [GoSrc.store] at h
    simp only [store]
    exact ih h
  | star e _ =>
    intro u env s h
    simp only [GoSrc.store] at h
    rcases bindErr h with h | ⟨⟨a, s1⟩, h1, h⟩
    · exact (fl_eval hc hf e h).left
    simp only at h
    split at h <;> cases h
  | index e k _ _ =>
    intro u env s h
    simp only [GoSrc.store] at h
    rcases bindErr h with h | ⟨⟨a, s1⟩, h1, h⟩
    · exact (fl_eval hc hf e h).left
    refine (ends_eval hc _ h1).right ?_
    rcases bindErr h with h | ⟨⟨b, s2⟩, h2, h⟩
    · exact (fl_eval hc hf k (s := withH s s1.h) h).left
    refine (ends_eval hc _ (s := withH s s1.h) h2).right ?_
    simp only at h
    split at h
    · rcases bindErr h with h | ⟨n, h3, h⟩
      · exact .of_left (fl_lift h _)
      refine Ev.right (.of fun m => ends_lift h3 _) ?_
      split at h
      · split at h <;> cases h
      · next hn =>
        injection h with h; injection h with h; subst h
        exact .of (congrArg (fun p => Prog.run p (withH s s2.h)) (if_neg hn))
    · rcases bindErr h with h | ⟨n, h3, h⟩
      · exact .of_left (fl_lift h _)
      split at h <;> cases h
    · rcases bindErr h with h | ⟨n, h3, h⟩
      · exact .of_left (fl_lift h _)
      refine Ev.right (.of fun m => ends_lift h3 _) ?_
      split at h
      · split at h
        · split at h <;> cases h
        · cases h
      · next hn =>
        injection h with h; injection h with h; subst h
        simp only [if_neg hn]
        exact .of rfl
    · cases h
  | _ => intro u env s h; simp only [GoSrc.store] at h; cases h

theorem fl_inScope {f : St → M (Out × St)} {fp : Nat → Vars → Prog (Out × Vars)} {env : Vars} {s : GSt}
    (hf : f ⟨s.h, env⟩ = .error (.fail x) → Evf (fun m => fp m env) s x) (h : GoSrc.inScope f ⟨s.h, env⟩ = .error (.fail x)) :
    Evf (fun m => inScope (fp m) env) s x := by
  simp only [GoSrc.inScope] at h
  rcases bindErr h with h | ⟨⟨a, s1⟩, h1, h⟩
  · exact (hf h).left
  cases h

theorem fl_forEach {f : Nat → St → M (Out × St)} {fp : Nat → Nat → Vars → Prog (Out × Vars)}
    (hg : ∀ {k : Nat} {env : Vars} {s : GSt} {o : Out} {t : St}, f k ⟨s.h, env⟩ = .ok (o, t) → Ev fun m => Ends (fp m k env) s (o, t.env) t.h)
    (hf : ∀ {k : Nat} {env : Vars} {s : GSt}, f k ⟨s.h, env⟩ = .error (.fail x) → Evf (fun m => fp m k env) s x) (ks : List Nat) :
    ∀ {env : Vars} {s : GSt}, GoSrc.forEach f ks ⟨s.h, env⟩ = .error (.fail x) → Evf (fun m => forEach (fp m) ks env) s x := by
  induction ks with
  | nil => intro env s h; cases h
  | cons k ks ih =>
    intro env s h
    simp only [GoSrc.forEach] at h
    rcases bindErr h with h | ⟨⟨a, s1⟩, h1, h⟩
    · exact (hf h).left
    refine (hg h1).right ?_
    simp only at h
    split at h
    · exact ih (s := withH s s1.h) h
    · cases h

theorem iterateM_fail {σ α : Type} {step : σ → M (σ ⊕ α)} {s : σ} (h : iterateM step s = .error (.fail x)) (hx : x ≠ .diverge) :
    ∃ n, Zeropb.run (fun s => flatStep (step s)) n s = some (.error x) := by
  unfold iterateM at h
  have h : iterate (fun s => flatStep (step s)) s = .error x := by
    unfold unflat at h
    split at h
    · cases h
    · cases h
    · next e => injection h with h; injection h with h; rw [e, h]
  unfold iterate at h
  split at h
  · next hex =>
    obtain ⟨n, hn⟩ := Classical.choose_spec hex
    exact ⟨n, by rw [hn, h]⟩
  · injection h with h; exact absurd h.symm hx

theorem flatStep_error {σ α : Type} {y : M (σ ⊕ α)} (h : flatStep y = .error x) : y = .error (.fail x) := by
  unfold flatStep at h
  split at h
  · cases h
  · cases h
  · injection h with h; rw [h]
  · cases h

theorem fl_loopWhile {cond : St → M (Val × St)} {body : St → M (Out × St)} {condP : Nat → Vars → Prog (Val × Vars)} {bodyP : Nat → Vars → Prog (Out × Vars)} (hx : x ≠ .diverge)
    (hcond : ∀ {env : Vars} {s : GSt} {v : Val} {t : St}, cond ⟨s.h, env⟩ = .ok (v, t) → Ev fun m => Ends (condP m env) s (v, t.env) t.h)
    (hbody : ∀ {env : Vars} {s : GSt} {o : Out} {t : St}, body ⟨s.h, env⟩ = .ok (o, t) → Ev fun m => Ends (bodyP m env) s (o, t.env) t.h)
    (fcond : ∀ {env : Vars} {s : GSt}, cond ⟨s.h, env⟩ = .error (.fail x) → Evf (fun m => condP m env) s x)
    (fbody : ∀ {env : Vars} {s : GSt}, body ⟨s.h, env⟩ = .error (.fail x) → Evf (fun m => bodyP m env) s x)
    {env : Vars} {s : GSt} (h : GoSrc.loopWhile cond body ⟨s.h, env⟩ = .error (.fail x)) : Evf (fun m => loopWhile (condP m) (bodyP m) m env) s x := by
  obtain ⟨n, hn⟩ := iterateM_fail h hx
  have key : ∀ n env s, Zeropb.run (fun s => flatStep ((fun s => do
      let (v, s) ← cond s
      match v with
      | .bool false => .ok (.inr (.next, s))
      | .bool true => do
        let (o, s) ← GoSrc.inScope body s
        match o with
        | .next => .ok (.inl s)
        | .ret vs => .ok (.inr (.ret vs, s))
      | _ => .error .stuck : St → M (St ⊕ (Out × St))) s)) n ⟨GSt.h s, env⟩ = some (.error x) →
      ∃ s', Ev fun m => ∀ fuel, n ≤ fuel → (loopWhile (condP m) (bodyP m) fuel env).halt s = some (.fail x, s') := by
    intro n
    induction n with
    | zero => intro env s hn; cases hn
    | succ n ih =>
      intro env s hn
      simp only [Zeropb.run] at hn
      split at hn
      · next a hs =>
        injection hn with hn; injection hn with hn; subst hn
        rcases bindErr (flatStep_error hs) with h1 | ⟨⟨v, s1⟩, h1, h2⟩
        · refine (fcond h1).imp fun s' e1 => e1.mono fun m e1 fuel hf => ?_
          obtain ⟨k, rfl⟩ := Nat.exists_eq_add_of_le hf
          rw [show n + 1 + k = n + k + 1 by omega]
          simp only [loopWhile]
          exact Prog.halt_bind_stop e1
        simp only at h2
        split at h2
        · cases h2
        · rcases bindErr h2 with h3 | ⟨⟨o2, s2⟩, h3, h4⟩
          · refine (fl_inScope (s := withH s s1.h) fbody h3).imp fun s' e' => ((hcond h1).and e').mono fun m e fuel hf => ?_
            obtain ⟨k, rfl⟩ := Nat.exists_eq_add_of_le hf
            rw [show n + 1 + k = n + k + 1 by omega]
            simp only [loopWhile]
            exact (Prog.halt_bind_ok e.1).trans (Prog.halt_bind_stop e.2)
          · simp only at h4
            split at h4 <;> cases h4
        · cases h2
      · injection hn with hn; cases hn
      · next s' hs =>
        obtain ⟨⟨v, s1⟩, h1, h2⟩ := bindOk (flatStep_inl hs)
        simp only at h2
        split at h2
        · injection h2 with h2; cases h2
        · obtain ⟨⟨o2, s2⟩, h3, h4⟩ := bindOk h2
          simp only at h4
          split at h4
          · injection h4 with h4; injection h4 with h4; subst h4
            refine (ih s2.env (withH s s2.h) hn).imp fun s' e' => ((hcond h1).and ((ends_inScope (s := withH s s1.h) hbody h3).and e')).mono fun m e fuel hf => ?_
            obtain ⟨k, rfl⟩ := Nat.exists_eq_add_of_le hf
            rw [show n + 1 + k = n + k + 1 by omega]
            simp only [loopWhile]
            exact (Prog.halt_bind_ok e.1).trans ((Prog.halt_bind_ok e.2.1).trans (e.2.2 _ (by omega)))
          · injection h4 with h4; cases h4
        · cases h2
  obtain ⟨s', k, hk⟩ := key n env s hn
  exact ⟨s', max n k, fun m hm => hk m (by omega) m (by omega)⟩

theorem fl_exec (hx : x ≠ .diverge) (hc : CallsEnd cp call) (hf : CallsFail cp call x) (st : Stmt) :
    (∀ {env : Vars} {s : GSt}, GoSrc.exec rt call st ⟨s.h, env⟩ = .error (.fail x) → Evf (fun m => exec rt (cp m) m st env) s x) ∧
    (∀ {u : Val} {env : Vars} {s : GSt}, GoSrc.execCases rt call u st ⟨s.h, env⟩ = .error (.fail x) → Evf (fun m => execCases rt (cp m) m u st env) s x) := by
  induction st with
  | skip =>
    refine ⟨?_, ?_⟩
    · intro env s h
      simp only [GoSrc.exec] at h
      simp only [exec]
      cases h
    · intro u env s h
      simp only [GoSrc.execCases] at h
      cases h
  | ret =>
    refine ⟨?_, ?_⟩
    · intro env s h
      simp only [GoSrc.exec] at h
      simp only [exec]
      cases h
    · intro u env s h
      simp only [GoSrc.execCases] at h
      cases h
  | seq a b iha ihb =>
    refine ⟨?_, ?_⟩
    · intro env s h
      simp only [GoSrc.exec] at h
      simp only [exec]
      rcases bindErr h with h | ⟨⟨y, s1⟩, h1, h⟩
      · exact (iha.1 h).left
      refine ((ends_exec hc a).1 h1).right ?_
      simp only at h
      split at h
      · exact ihb.1 (s := withH s s1.h) h
      · cases h
    · intro u env s h
      simp only [GoSrc.execCases] at h
      cases h
  | define xs e =>
    refine ⟨?_, ?_⟩
    · intro env s h
      simp only [GoSrc.exec] at h
      simp only [exec]
      rcases bindErr h with h | ⟨⟨y, s1⟩, h1, h⟩
      · exact (fl_eval hc hf _ h).left
      refine (ends_eval hc _ h1).right ?_
      rcases bindErr h with h | ⟨b, h2, h⟩
      · exact .of_left (fl_lift h _)
      cases h
    · intro u env s h
      simp only [GoSrc.execCases] at h
      cases h
  | varBytes v w e =>
    refine ⟨?_, ?_⟩
    · intro env s h
      simp only [GoSrc.exec] at h
      simp only [exec]
      rcases bindErr h with h | ⟨⟨y, s1⟩, h1, h⟩
      · exact (fl_eval hc hf _ h).left
      refine (ends_eval hc _ h1).right ?_
      rcases bindErr h with h | ⟨b, h2, h⟩
      · exact .of_left (fl_lift h _)
      cases h
    · intro u env s h
      simp only [GoSrc.execCases] at h
      cases h
  | varArray y n =>
    refine ⟨?_, ?_⟩
    · intro env s h
      simp only [GoSrc.exec] at h
      simp only [exec]
      rcases bindErr h with h | ⟨⟨y, s1⟩, h1, h⟩
      · exact (fl_eval hc hf _ h).left
      simp only at h
      split at h <;> cases h
    · intro u env s h
      simp only [GoSrc.execCases] at h
      cases h
  | var y ty =>
    refine ⟨?_, ?_⟩
    · intro env s h
      simp only [GoSrc.exec] at h
      simp only [exec]
      split at h <;> cases h
    · intro u env s h
      simp only [GoSrc.execCases] at h
      cases h
  | assign l e =>
    refine ⟨?_, ?_⟩
    · intro env s h
      simp only [GoSrc.exec] at h
      simp only [exec]
      rcases bindErr h with h | ⟨⟨y, s1⟩, h1, h⟩
      · exact (fl_eval hc hf _ h).left
      refine (ends_eval hc _ h1).right ?_
      rcases bindErr h with h | ⟨s2, h2, h⟩
      · exact (fl_store hc hf l (s := withH s s1.h) h).left
      cases h
    · intro u env s h
      simp only [GoSrc.execCases] at h
      cases h
  | assignSnd y e =>
    refine ⟨?_, ?_⟩
    · intro env s h
      simp only [GoSrc.exec] at h
      simp only [exec]
      rcases bindErr h with h | ⟨⟨z, s1⟩, h1, h⟩
      · exact (fl_eval hc hf _ h).left
      refine (ends_eval hc _ h1).right ?_
      simp only at h
      split at h
      · next v1 v2 hz =>
        simp only [hz]
        rcases bindErr h with h | ⟨s2, h2, h⟩
        · exact (fl_store hc hf (.id y) (s := withH s s1.h) h).left
        cases h
      · cases h
    · intro u env s h
      simp only [GoSrc.execCases] at h
      cases h
  | addAssign y e =>
    refine ⟨?_, ?_⟩
    · intro env s h
      simp only [GoSrc.exec] at h
      simp only [exec]
      rcases bindErr h with h | ⟨⟨z, s1⟩, h1, h⟩
      · exact (fl_eval hc hf _ h).left
      refine (ends_eval hc _ h1).right ?_
      rcases bindErr h with h | ⟨⟨w, s2⟩, h2, h⟩
      · exact (fl_eval hc hf _ (s := withH s s1.h) h).left
      refine (ends_eval hc _ (s := withH s s1.h) h2).right ?_
      rcases bindErr h with h | ⟨q, h3, h⟩
      · exact .of_left (fl_lift h _)
      refine Ev.right (.of fun m => ends_lift h3 _) ?_
      rcases bindErr h with h | ⟨s4, h4, h⟩
      · exact (fl_store hc hf (.id y) (s := withH s s2.h) h).left
      cases h
    · intro u env s h
      simp only [GoSrc.execCases] at h
      cases h
  | expr e =>
    refine ⟨?_, ?_⟩
    · intro env s h
      simp only [GoSrc.exec] at h
      simp only [exec]
      rcases bindErr h with h | ⟨⟨y, s1⟩, h1, h⟩
      · exact (fl_eval hc hf _ h).left
      cases h
    · intro u env s h
      simp only [GoSrc.execCases] at h
      cases h
  | retVal e =>
    refine ⟨?_, ?_⟩
    · intro env s h
      simp only [GoSrc.exec] at h
      simp only [exec]
      rcases bindErr h with h | ⟨⟨y, s1⟩, h1, h⟩
      · exact (fl_eval hc hf _ h).left
      cases h
    · intro u env s h
      simp only [GoSrc.execCases] at h
      cases h
  | panicType e =>
    refine ⟨?_, ?_⟩
    · intro env s h
      simp only [GoSrc.exec] at h
      simp only [exec]
      injection h with h
      injection h with h
      subst h
      exact .of rfl
    · intro u env s h
      simp only [GoSrc.execCases] at h
      cases h
  | panicErrorf e =>
    refine ⟨?_, ?_⟩
    · intro env s h
      simp only [GoSrc.exec] at h
      simp only [exec]
      injection h with h
      injection h with h
      subst h
      exact .of rfl
    · intro u env s h
      simp only [GoSrc.execCases] at h
      cases h
  | ite k a b iha ihb =>
    refine ⟨?_, ?_⟩
    · intro env s h
      simp only [GoSrc.exec] at h
      simp only [exec]
      rcases bindErr h with h | ⟨⟨y, s1⟩, h1, h⟩
      · exact (fl_eval hc hf _ h).left
      refine (ends_eval hc _ h1).right ?_
      simp only at h
      split at h
      · exact fl_inScope (s := withH s s1.h) iha.1 h
      · exact fl_inScope (s := withH s s1.h) ihb.1 h
      · cases h
    · intro u env s h
      simp only [GoSrc.execCases] at h
      cases h
  | iteInit i k a b ihi iha ihb =>
    refine ⟨?_, ?_⟩
    · intro env s h
      simp only [GoSrc.exec] at h
      simp only [exec]
      refine fl_inScope (fp := fun m env => _) ?_ h
      intro h
      rcases bindErr h with h | ⟨⟨y, s0⟩, h0, h⟩
      · exact (ihi.1 h).left
      refine ((ends_exec hc i).1 h0).right ?_
      rcases bindErr h with h | ⟨⟨y, s1⟩, h1, h⟩
      · exact (fl_eval hc hf _ (s := withH s s0.h) h).left
      refine (ends_eval hc _ (s := withH s s0.h) h1).right ?_
      simp only at h
      split at h
      · exact fl_inScope (s := withH s s1.h) iha.1 h
      · exact fl_inScope (s := withH s s1.h) ihb.1 h
      · cases h
    · intro u env s h
      simp only [GoSrc.execCases] at h
      cases h
  | switch e cs ih =>
    refine ⟨?_, ?_⟩
    · intro env s h
      simp only [GoSrc.exec] at h
      simp only [exec]
      rcases bindErr h with h | ⟨⟨y, s1⟩, h1, h⟩
      · exact (fl_eval hc hf _ h).left
      refine (ends_eval hc _ h1).right ?_
      exact ih.2 (s := withH s s1.h) h
    · intro u env s h
      simp only [GoSrc.execCases] at h
      cases h
  | case k b rest ihb ihr =>
    refine ⟨?_, ?_⟩
    · intro env s h
      simp only [GoSrc.exec] at h
      simp only [exec]
      cases h
    · intro u env s h
      simp only [GoSrc.execCases] at h
      simp only [execCases]
      rcases bindErr h with h | ⟨⟨y, s1⟩, h1, h⟩
      · exact (fl_eval hc hf _ h).left
      refine (ends_eval hc _ h1).right ?_
      rcases bindErr h with h | ⟨z, h2, h⟩
      · exact .of_left (fl_lift h _)
      refine Ev.right (.of fun m => ends_lift h2 _) ?_
      split at h
      · exact fl_inScope (s := withH s s1.h) ihb.1 h
      · exact ihr.2 (s := withH s s1.h) h
      · cases h
  | default b ih =>
    refine ⟨?_, ?_⟩
    · intro env s h
      simp only [GoSrc.exec] at h
      simp only [exec]
      cases h
    · intro u env s h
      simp only [GoSrc.execCases] at h
      simp only [execCases]
      exact fl_inScope ih.1 h
  | loop i k b ihi ihb =>
    refine ⟨?_, ?_⟩
    · intro env s h
      simp only [GoSrc.exec] at h
      simp only [exec]
      refine fl_inScope (fp := fun m env => _) ?_ h
      intro h
      rcases bindErr h with h | ⟨⟨y, s0⟩, h0, h⟩
      · exact (ihi.1 h).left
      refine ((ends_exec hc i).1 h0).right ?_
      cases k with
      | none =>
        refine fl_loopWhile (s := withH s s0.h) (condP := fun m env => .done (.bool true, env)) hx ?_ (ends_exec hc b).1 ?_ ihb.1 h
        · intro env s v t h
          obtain ⟨rfl, rfl⟩ := okPair h
          exact .of fun m => rfl
        · intro env s h; cases h
      | some k =>
        exact fl_loopWhile (s := withH s s0.h) (condP := fun m env => eval rt (cp m) k env) hx (ends_eval hc k) (ends_exec hc b).1 (fl_eval hc hf k) ihb.1 h
    · intro u env s h
      simp only [GoSrc.execCases] at h
      cases h
  | range k v e b ih =>
    refine ⟨?_, ?_⟩
    · intro env s h
      simp only [GoSrc.exec] at h
      simp only [exec]
      rcases bindErr h with h | ⟨⟨y, s1⟩, h1, h⟩
      · exact (fl_eval hc hf _ h).left
      refine (ends_eval hc _ h1).right ?_
      simp only at h
      split at h
      · next i =>
        unfold GoSrc.rangeArr at h
        refine (fl_forEach (s := withH s s1.h) (fp := fun m n env => .load (.slot i n) fun (x : Option U16) => match x with
          | some x => inScope (fun env => exec rt (cp m) m b (bindSnd v (.u16 x) ((k, .int n) :: env))) env
          | none => .stop .stuck) ?_ ?_ _ h)
        · intro n env s o t h
          split at h
          · next x hx =>
            refine (ends_inScope (fp := fun m env => exec rt (cp m) m b (bindSnd v (.u16 x) ((k, .int n) :: env))) (fun h => (ends_exec hc b).1 h) h).mono fun m e => ?_
            simp only [Ends, Prog.run, read, hx]
            exact e
          · cases h
        · intro n env s h
          split at h
          · next x hx =>
            refine (fl_inScope (fp := fun m env => exec rt (cp m) m b (bindSnd v (.u16 x) ((k, .int n) :: env))) (fun h => ih.1 h) h).imp fun s' e => e.mono fun m e => ?_
            simp only [Prog.halt, read, hx]
            exact e
          · cases h
      · cases h
      · next id =>
        unfold GoSrc.rangeMap at h
        refine (fl_forEach (s := withH s s1.h) (fp := fun m n env => .load (.map id) fun (mp : GoMap) => match mp.find n with
          | some x => inScope (fun env => exec rt (cp m) m b (bindSnd v (.u64 x) ((k, .int n) :: env))) env
          | none => .done (.next, env)) ?_ ?_ _ h)
        · intro n env s o t h
          split at h
          · next x hx =>
            refine (ends_inScope (fp := fun m env => exec rt (cp m) m b (bindSnd v (.u64 x) ((k, .int n) :: env))) (fun h => (ends_exec hc b).1 h) h).mono fun m e => ?_
            simp only [Ends, Prog.run, read, hx]
            exact e
          · next hx =>
            obtain ⟨rfl, rfl⟩ := okPair h
            refine .of fun m => ?_
            simp only [Ends, Prog.run, read, hx]
            rfl
        · intro n env s h
          split at h
          · next x hx =>
            refine (fl_inScope (fp := fun m env => exec rt (cp m) m b (bindSnd v (.u64 x) ((k, .int n) :: env))) (fun h => ih.1 h) h).imp fun s' e => e.mono fun m e => ?_
            simp only [Prog.halt, read, hx]
            exact e
          · cases h
      · cases h
    · intro u env s h
      simp only [GoSrc.execCases] at h
      cases h

theorem fl_invoke (hx : x ≠ .diverge) (hc : CallsEnd cp call) (hf : CallsFail cp call x) (f : Func) (args : List Val) (s : GSt) (h : GoSrc.invoke rt call f args s.h = .error (.fail x)) :
    Evf (fun m => invoke rt (cp m) m f args) s x := by
  unfold GoSrc.invoke at h
  unfold invoke
  rcases bindErr h with h | ⟨env, h1, h⟩
  · exact .of_left (fl_lift h _)
  refine Ev.right (.of fun m => ends_lift h1 _) ?_
  rcases bindErr h with h | ⟨⟨o, s1⟩, h2, h⟩
  · exact ((fl_exec hx hc hf f.body).1 h).left
  refine ((ends_exec hc f.body).1 h2).right ?_
  simp only at h
  split at h
  · split at h <;> cases h
  · rcases bindErr h with h | ⟨rs, h3, h⟩
    · exact .of (fl_lift h _)
    cases h

/-- Alone, a call of a function of offsets.go or zeropb.go panics where `GoSrc/Sem` says so. -/
theorem fl_goCall (hx : x ≠ .diverge) (rt : Rt) (d : Nat) : CallsFail (fun m => goCall rt m d) (GoSrc.goCall rt d) x := by
  induction d with
  | zero => intro f args s h; cases h
  | succ d ih =>
    intro f args s h
    simp only [GoSrc.goCall] at h
    simp only [goCall]
    split at h
    · next g hg => simp only [hg]; exact fl_invoke hx (ends_goCall rt d) ih g args s h
    · cases h

end
end Zeropb.GoSrc.Conc
