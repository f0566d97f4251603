import Verif.Conc.Gen
/-!
# Alone, the access-by-access interpreter computes what `GoSrc/GenSem` says
-/

set_option linter.constructorNameAsVariable false

namespace Zeropb.GoSrc.Conc
open Zeropb.GoSrc.G
open Zeropb.Gen (Text)

/-- The program ends with `a` in state `s'`. -/
def To {α : Type} (p : Prog α) (s : GSt) (a : α) (s' : GSt) : Prop := p.run s = .ok (a, s')

theorem To.bind {α β : Type} {p : Prog α} {f : α → Prog β} {s s1 s2 : GSt} {a : α} {b : β} (h1 : To p s a s1) (h2 : To (f a) s1 b s2) : To (p >>= f) s b s2 := by
  unfold To at *
  rw [Prog.run_bind, h1]
  exact h2

theorem to_done {α : Type} (a : α) (s : GSt) : To (.done a) s a s := rfl

theorem to_lift {α : Type} {x : M α} {a : α} (hx : x = .ok a) (s : GSt) : To (lift x) s a s := by subst hx; rfl

/-- Calls of methods end as `meth` says. -/
def MethodsEnd (mp : Nat → Methods) (meth : G.Methods) : Prop :=
  ∀ t f args s r s', meth t f args s = .ok (r, s') → Ev fun m => To (mp m t f args) s r s'

section
variable {p : Program} {call : GoSrc.Calls} {meth : G.Methods} {cp : Nat → Calls} {mp : Nat → Methods}

theorem to_gload {env : Env} {s : GSt} {q : Place} {v : GVal} (h : G.load env s q = .ok v) : To (gload env q) s v s := by
  cases q <;> simp only [G.load] at h <;> simp only [gload]
  case var x =>
    split at h
    · next hx => injection h with h; subst h; rw [hx]; rfl
    · cases h
  case buf i => injection h with h; subst h; rfl
  case iter j => injection h with h; subst h; rfl
  all_goals cases h

theorem to_gstore {q : Place} {v : GVal} {env env' : Env} {s s' : GSt} (h : storeAt q v env s = .ok (env', s')) : To (gstore q v env) s env' s' := by
  unfold storeAt at h
  unfold gstore
  split at h
  · split at h
    · next hp => obtain ⟨rfl, rfl⟩ := okPair h; simp only [hp]; rfl
    · cases h
  all_goals first | (obtain ⟨rfl, rfl⟩ := okPair h; rfl) | cases h

theorem to_gruntime (hc : CallsEnd cp call) {f : Text} {args r : List GVal} {s s' : GSt} (h : runtime call f args s = .ok (r, s')) :
    Ev fun m => To (gruntime (cp m) f args) s r s' := by
  unfold runtime at h
  unfold gruntime
  split at h
  · next g hg =>
    obtain ⟨vs, h1, h⟩ := bindOk h
    obtain ⟨⟨rs, h'⟩, h2, h⟩ := bindOk h
    obtain ⟨rfl, rfl⟩ := okPair h
    simp only [hg]
    refine (hc g vs s rs h' h2).mono fun m e => (to_lift h1 s).bind (To.bind (s1 := withH s h') (a := rs) e ?_)
    rfl
  · cases h

theorem to_geval (hc : CallsEnd cp call) (hm : MethodsEnd mp meth) {env : Env} (e : G.Expr) :
    ∀ {s s' : GSt} {r : List GVal}, G.eval p call meth env e s = .ok (r, s') → Ev fun m => To (geval p (cp m) (mp m) env e) s r s' := by
  induction e with
  | id x =>
    intro s s' r h
    simp only [G.eval] at h
    refine .of fun m => ?_
    simp only [geval]
    split at h
    · next hx => obtain ⟨rfl, rfl⟩ := okPair h; rw [hx]; rfl
    · next hx =>
      split at h
      · next hg => obtain ⟨rfl, rfl⟩ := okPair h; rw [hx]; simp only [hg]; rfl
      · cases h
  | num n =>
    intro s s' r h
    simp only [G.eval] at h
    refine .of fun m => ?_
    simp only [geval]
    split at h
    · next hn => obtain ⟨rfl, rfl⟩ := okPair h; rw [if_pos hn]; rfl
    · cases h
  | true_ | false_ | nil | noArgs =>
    intro s s' r h
    obtain ⟨rfl, rfl⟩ := okPair h
    exact .of fun m => rfl
  | sel e f _ =>
    intro s s' r h
    obtain ⟨q, h1, h⟩ := bindOk h
    obtain ⟨v, h2, h⟩ := bindOk h
    obtain ⟨rfl, rfl⟩ := okPair h
    exact .of fun m => (to_lift h1 _).bind ((to_gload h2).bind rfl)
  | star e _ =>
    intro s s' r h
    obtain ⟨q, h1, h⟩ := bindOk h
    obtain ⟨v, h2, h⟩ := bindOk h
    obtain ⟨rfl, rfl⟩ := okPair h
    exact .of fun m => (to_lift h1 _).bind ((to_gload h2).bind rfl)
  | all e _ =>
    intro s s' r h
    obtain ⟨q, h1, h⟩ := bindOk h
    cases q <;> simp only at h <;> first | cases h; done | skip
    case arr i =>
      obtain ⟨rfl, rfl⟩ := okPair h
      exact .of fun m => (to_lift h1 _).bind rfl
  | addr e _ =>
    intro s s' r h
    obtain ⟨q, h1, h⟩ := bindOk h
    cases q <;> simp only at h <;> first | cases h; done | skip
    case buf i => obtain ⟨rfl, rfl⟩ := okPair h; exact .of fun m => (to_lift h1 _).bind rfl
    case map i => obtain ⟨rfl, rfl⟩ := okPair h; exact .of fun m => (to_lift h1 _).bind rfl
  | paren e ih => intro s s' r h; exact ih h
  | gt a b ih1 ih2 =>
    intro s s' r h
    obtain ⟨⟨x, s1⟩, h1, h⟩ := bindOk h
    obtain ⟨⟨y, s2⟩, h2, h⟩ := bindOk h
    obtain ⟨u, h3, h⟩ := bindOk h
    obtain ⟨w, h4, h⟩ := bindOk h
    obtain ⟨v, h5, h⟩ := bindOk h
    obtain ⟨rfl, rfl⟩ := okPair h
    exact ((ih1 h1).and (ih2 h2)).mono fun m e => e.1.bind (e.2.bind ((to_lift h3 _).bind ((to_lift h4 _).bind ((to_lift h5 _).bind rfl))))
  | eq a b ih1 ih2 =>
    intro s s' r h
    obtain ⟨⟨x, s1⟩, h1, h⟩ := bindOk h
    obtain ⟨⟨y, s2⟩, h2, h⟩ := bindOk h
    obtain ⟨u, h3, h⟩ := bindOk h
    obtain ⟨w, h4, h⟩ := bindOk h
    obtain ⟨v, h5, h⟩ := bindOk h
    obtain ⟨rfl, rfl⟩ := okPair h
    exact ((ih1 h1).and (ih2 h2)).mono fun m e => e.1.bind (e.2.bind ((to_lift h3 _).bind ((to_lift h4 _).bind ((to_lift h5 _).bind rfl))))
  | len e ih =>
    intro s s' r h
    obtain ⟨⟨x, s1⟩, h1, h⟩ := bindOk h
    obtain ⟨u, h2, h⟩ := bindOk h
    obtain ⟨n, h3, h⟩ := bindOk h
    obtain ⟨rfl, rfl⟩ := okPair h
    exact (ih h1).mono fun m e => e.bind ((to_lift h2 _).bind ((to_lift h3 _).bind rfl))
  | conv t e ih =>
    intro s s' r h
    obtain ⟨⟨x, s1⟩, h1, h⟩ := bindOk h
    obtain ⟨u, h2, h⟩ := bindOk h
    refine (ih h1).mono fun m e => e.bind ((to_lift h2 _).bind ?_)
    split at h
    · next ht =>
      rw [if_pos ht]
      split at h
      · obtain ⟨rfl, rfl⟩ := okPair h; rfl
      · obtain ⟨rfl, rfl⟩ := okPair h; rfl
      · cases h
    · cases h
  | pkg f es ih =>
    intro s s' r h
    obtain ⟨⟨x, s1⟩, h1, h⟩ := bindOk h
    exact ((ih h1).and (to_gruntime hc h)).mono fun m e => e.1.bind e.2
  | method e f es ih1 ih2 =>
    intro s s' r h
    obtain ⟨⟨x, s1⟩, h1, h⟩ := bindOk h
    obtain ⟨u, h2, h⟩ := bindOk h
    obtain ⟨⟨vs, s2⟩, h3, h⟩ := bindOk h
    have : Ev fun m => To (match u with
        | .ptr t i | .struct t i => mp m t f (.ptr t i :: vs)
        | .iter t j => mp m t f (.iter t j :: vs)
        | .val v => gruntime (cp m) f (.val v :: vs)) s2 r s' := by
      cases u with
      | ptr t i => exact hm _ _ _ _ _ _ h
      | struct t i => exact hm _ _ _ _ _ _ h
      | iter t i => exact hm _ _ _ _ _ _ h
      | val v => exact to_gruntime hc h
    exact (((ih1 h1).and (ih2 h3)).and this).mono fun m e => e.1.1.bind ((to_lift h2 _).bind (e.1.2.bind e.2))
  | arg e ih => intro s s' r h; exact ih h
  | args e es ih1 ih2 =>
    intro s s' r h
    obtain ⟨⟨x, s1⟩, h1, h⟩ := bindOk h
    obtain ⟨⟨y, s2⟩, h2, h⟩ := bindOk h
    obtain ⟨rfl, rfl⟩ := okPair h
    exact ((ih1 h1).and (ih2 h2)).mono fun m e => e.1.bind (e.2.bind rfl)

theorem to_gexec (hc : CallsEnd cp call) (hm : MethodsEnd mp meth) (st : G.Stmt) :
    ∀ {env : Env} {s s' : GSt} {o : GOut}, G.exec p call meth st env s = .ok (o, s') → Ev fun m => To (gexec p (cp m) (mp m) st env) s o s' := by
  induction st with
  | skip => intro env s s' o h; obtain ⟨rfl, rfl⟩ := okPair h; exact .of fun m => rfl
  | seq a b ih1 ih2 =>
    intro env s s' o h
    obtain ⟨⟨o1, s1⟩, h1, h⟩ := bindOk h
    cases o1 with
    | next env1 => exact ((ih1 h1).and (ih2 h)).mono fun m e => e.1.bind e.2
    | ret vs => obtain ⟨rfl, rfl⟩ := okPair h; exact (ih1 h1).mono fun m e => e.bind rfl
  | define x e =>
    intro env s s' o h
    obtain ⟨⟨a, s1⟩, h1, h⟩ := bindOk h
    obtain ⟨v, h2, h⟩ := bindOk h
    obtain ⟨rfl, rfl⟩ := okPair h
    exact (to_geval hc hm e h1).mono fun m e => e.bind ((to_lift h2 _).bind rfl)
  | varBytes x => intro env s s' o h; obtain ⟨rfl, rfl⟩ := okPair h; exact .of fun m => rfl
  | assign l e =>
    intro env s s' o h
    obtain ⟨⟨a, s1⟩, h1, h⟩ := bindOk h
    obtain ⟨v, h2, h⟩ := bindOk h
    obtain ⟨q, h3, h⟩ := bindOk h
    obtain ⟨⟨env', s2⟩, h4, h⟩ := bindOk h
    obtain ⟨rfl, rfl⟩ := okPair h
    exact (to_geval hc hm e h1).mono fun m e => e.bind ((to_lift h2 _).bind ((to_lift h3 _).bind ((to_gstore h4).bind rfl)))
  | assign2 l1 l2 e =>
    intro env s s' o h
    obtain ⟨q1, h1, h⟩ := bindOk h
    obtain ⟨q2, h2, h⟩ := bindOk h
    obtain ⟨⟨a, s1⟩, h3, h⟩ := bindOk h
    refine (to_geval hc hm e h3).mono fun m e => (to_lift h1 _).bind ((to_lift h2 _).bind (e.bind ?_))
    simp only at h
    split at h
    · obtain ⟨⟨env1, s2⟩, h4, h⟩ := bindOk h
      obtain ⟨⟨env2, s3⟩, h5, h⟩ := bindOk h
      obtain ⟨rfl, rfl⟩ := okPair h
      exact (to_gstore h4).bind ((to_gstore h5).bind rfl)
    · cases h
  | expr e =>
    intro env s s' o h
    obtain ⟨⟨a, s1⟩, h1, h⟩ := bindOk h
    obtain ⟨rfl, rfl⟩ := okPair h
    exact (to_geval hc hm e h1).mono fun m e => e.bind rfl
  | ret es =>
    intro env s s' o h
    obtain ⟨⟨a, s1⟩, h1, h⟩ := bindOk h
    obtain ⟨rfl, rfl⟩ := okPair h
    exact (to_geval hc hm es h1).mono fun m e => e.bind rfl
  | panic t => intro env s s' o h; cases h
  | ite k t ih =>
    intro env s s' o h
    obtain ⟨⟨a, s1⟩, h1, h⟩ := bindOk h
    obtain ⟨v, h2, h⟩ := bindOk h
    simp only at h
    split at h
    · obtain ⟨⟨o1, s2⟩, h3, h⟩ := bindOk h
      refine ((to_geval hc hm k h1).and (ih h3)).mono fun m e => e.1.bind ((to_lift h2 _).bind (To.bind e.2 ?_))
      cases o1 with
      | next env1 => obtain ⟨rfl, rfl⟩ := okPair h; rfl
      | ret vs => obtain ⟨rfl, rfl⟩ := okPair h; rfl
    · obtain ⟨rfl, rfl⟩ := okPair h
      exact (to_geval hc hm k h1).mono fun m e => e.bind ((to_lift h2 _).bind rfl)
    · cases h

theorem to_readSlots (i k n : Nat) (s : GSt) : To (readSlots i k n) s (((s.h.ms i).a.drop k).take n) s := by
  induction n generalizing k with
  | zero => simp only [readSlots, List.take_zero]; rfl
  | succ n ih =>
    have : ((s.h.ms i).a.drop k).take (n + 1) = ((s.h.ms i).a[k]?).toList ++ ((s.h.ms i).a.drop (k + 1)).take n := by
      rcases Nat.lt_or_ge k (s.h.ms i).a.length with h | h
      · rw [List.drop_eq_getElem_cons h, List.getElem?_eq_getElem h]; rfl
      · rw [List.drop_eq_nil_of_le h, List.drop_eq_nil_of_le (by omega), List.getElem?_eq_none h]; simp
    rw [this]
    exact (ih (k + 1)).bind rfl

theorem to_copyStruct (i : Nat) (s : GSt) : To (copyStruct i) s s.next ⟨s.h.put s.next (s.h.ms i), s.next + 1, s.its⟩ := by
  have h := to_readSlots i 0 (s.h.ms i).a.length s
  rw [List.drop_zero, List.take_length] at h
  show To (readSlots i 0 (s.h.ms i).a.length >>= fun a => _) s _ _
  refine h.bind ?_
  rfl

theorem to_gbindArg {t : G.Ty} {v u : GVal} {s s' : GSt} (h : bindArg p t v s = .ok (u, s')) : To (gbindArg p t v) s u s' := by
  unfold bindArg at h
  unfold gbindArg
  split at h
  · split at h
    · next ht => obtain ⟨rfl, rfl⟩ := okPair h; simp only [ht, if_true]; rfl
    · cases h
  · split at h
    · next ht =>
      obtain ⟨rfl, rfl⟩ := okPair h
      show To (ite _ _ _) _ _ _
      rw [if_pos ht]
      exact (to_copyStruct _ s).bind (to_done _ _)
    · cases h
  · split at h
    · cases h
    · next ht => obtain ⟨rfl, rfl⟩ := okPair h; simp only [ht]; rfl
  · obtain ⟨rfl, rfl⟩ := okPair h; rfl
  · cases h

theorem to_gbindAll {ps : List (Text × G.Ty)} : ∀ {vs : List GVal} {env : Env} {s s' : GSt}, bindAll p ps vs s = .ok (env, s') → To (gbindAll p ps vs) s env s' := by
  induction ps with
  | nil =>
    intro vs env s s' h
    cases vs with
    | nil => obtain ⟨rfl, rfl⟩ := okPair h; rfl
    | cons => cases h
  | cons x ps ih =>
    intro vs env s s' h
    obtain ⟨x, t⟩ := x
    cases vs with
    | nil => cases h
    | cons v vs =>
      obtain ⟨⟨u, s1⟩, h1, h⟩ := bindOk h
      obtain ⟨⟨env1, s2⟩, h2, h⟩ := bindOk h
      obtain ⟨rfl, rfl⟩ := okPair h
      exact (to_gbindArg h1).bind ((ih h2).bind rfl)

theorem to_ginvoke (hc : CallsEnd cp call) (hm : MethodsEnd mp meth) {f : G.Func} {args r : List GVal} {s s' : GSt}
    (h : G.invoke p call meth f args s = .ok (r, s')) : Ev fun m => To (ginvoke p (cp m) (mp m) f args) s r s' := by
  unfold G.invoke at h
  unfold ginvoke
  cases args with
  | nil => cases h
  | cons x args =>
    obtain ⟨⟨env, s1⟩, h1, h⟩ := bindOk h
    obtain ⟨⟨o, s2⟩, h2, h⟩ := bindOk h
    refine (to_gexec hc hm f.body h2).mono fun m e => (to_gbindAll h1).bind (e.bind ?_)
    cases o with
    | next env' =>
      simp only at h ⊢
      split at h
      · next hr => obtain ⟨rfl, rfl⟩ := okPair h; simp only [hr]; rfl
      · cases h
    | ret vs =>
      simp only at h ⊢
      split at h
      · next hr => obtain ⟨rfl, rfl⟩ := okPair h; rw [if_pos hr]; rfl
      · cases h

theorem to_gcallMethod (hc : CallsEnd cp call) (d : Nat) : MethodsEnd (fun m => gcallMethod p (cp m) d) (callMethod p call d) := by
  induction d with
  | zero => intro t f args s r s' h; cases h
  | succ d ih =>
    intro t f args s r s' h
    simp only [callMethod] at h
    simp only [gcallMethod]
    split at h
    · next g hg => simp only [hg]; exact to_ginvoke hc ih h
    · cases h

end

/-- Alone, a call of a method of a generated type does what `GoSrc/GenSem` says. -/
theorem to_grun {p : Program} {rt : Rt} {d : Nat} {t name : Text} {args out : List GVal} {s s' : GSt} (h : callMethod p (GoSrc.goCall rt (d + 3)) (d + 2) t name args s = .ok (out, s')) :
    Ev fun m => (grun p rt m d t name args).run s = .ok (out, s') :=
  to_gcallMethod (ends_goCall rt (d + 3)) (d + 2) t name args s out s' h

end Zeropb.GoSrc.Conc
