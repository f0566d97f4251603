import Verif.Props.Races
import Verif.Props.Overwrite
import Verif.Conc.HoldHalt
/-!
# C80: goroutines that recover from panics

A server starts a goroutine for every request. The goroutine decodes bytes that come from elsewhere, which may panic, and recovers. In C67 the calls of a goroutine return; here they return or
panic, and the goroutine goes on either way.
-/

set_option linter.constructorNameAsVariable false

namespace Zeropb.GoSrc.Conc
open Zeropb.Gen Zeropb.GoSrc.G Wire
open Zeropb.GoSrc.E (ScalarField MessageField RepeatedField goName goType iterOf num Compilable programOf decl_get decl_message decl_repeated sub_of Compilable.program Compilable.target Known Entry Within Inv Ledger Loose Lives lives_whole Crashes Panics Ends)

/-! ## Specification: what a goroutine does -/

/-- A goroutine that recovers from the panics of its calls. -/
inductive Worker (α : Type) where
  /-- it ends, with a result -/
  | done (a : α)
  /-- `var x T`, for a message type with `n` slots -/
  | new (n : Nat) (k : Nat → Worker α)
  /-- `y := x` -/
  | copy (i : Nat) (k : Nat → Worker α)
  /-- memory is allocated, with the bytes `bs` -/
  | make (bs : List Byte) (k : HSlice → Worker α)
  /-- the bytes of `b` -/
  | peek (b : HSlice) (k : List Byte → Worker α)
  /-- `b[q] = x` -/
  | poke (a q : Nat) (x : Byte) (k : Worker α)
  /-- an iterator variable gets a value -/
  | point (v : Nat) (o : Option HSlice) (k : Worker α)
  /-- the value of an iterator variable -/
  | look (v : Nat) (k : Option HSlice → Worker α)
  /-- the method `name` of type `t` is called, in a function that recovers: the goroutine goes on with the results, or, after a panic, with `none`; `rt` and `d` as for `Client` -/
  | call (rt : Rt) (d : Nat) (t name : Text) (args : List GVal) (k : Option (List GVal) → Worker α)

/-- The goroutine runs alone, method by method, from memory `s`: it ends with result `a` and memory `s'`. -/
inductive Worker.Alone {α : Type} (p : Program) : Worker α → GSt → α → GSt → Prop
  | done {a s} : Worker.Alone p (.done a) s a s
  | new {n k s a s'} : (k s.next).Alone p ⟨s.h.put s.next (.zero n), s.next + 1, s.its⟩ a s' → Worker.Alone p (.new n k) s a s'
  | copy {i k s a s'} : (k s.next).Alone p ⟨s.h.put s.next (s.h.ms i), s.next + 1, s.its⟩ a s' → Worker.Alone p (.copy i k) s a s'
  | make {bs k s a s'} : (k ⟨s.h.w.arrs.length, 0, bs.length, bs.length⟩).Alone p { s with h := { s.h with w := { s.h.w with arrs := s.h.w.arrs ++ [bs] } } } a s' → Worker.Alone p (.make bs k) s a s'
  | peek {b k s a s'} : (k (s.h.w.slice b).data).Alone p s a s' → Worker.Alone p (.peek b k) s a s'
  | poke {r q x k s a s'} : k.Alone p { s with h := { s.h with w := s.h.w.write r q [x] } } a s' → Worker.Alone p (.poke r q x k) s a s'
  | point {v o k s a s'} : k.Alone p { s with its := fun u => if u = v then o else s.its u } a s' → Worker.Alone p (.point v o k) s a s'
  | look {v k s a s'} : (k (s.its v)).Alone p s a s' → Worker.Alone p (.look v k) s a s'
  /-- the call returns -/
  | returns {rt d t name args k s out s1 a s'} : G.run p rt d t name args s = .ok (out, s1) → (k (some out)).Alone p s1 a s' → Worker.Alone p (.call rt d t name args k) s a s'
  /-- the call panics: memory is `s1` at that moment -/
  | panics {rt d t name args k s s1 a s'} : Crashes p rt d t name args s s1 → (k none).Alone p s1 a s' → Worker.Alone p (.call rt d t name args k) s a s'

/-- Do what the program does, and recover from a panic. An infinite loop is no panic. -/
def Prog.attempt {α : Type} : Prog α → Prog (Option α)
  | .done a => .done (some a)
  | .stop (.fail .diverge) => .stop (.fail .diverge)
  | .stop (.fail _) => .done none
  | .stop .stuck => .stop .stuck
  | .load l k => .load l fun x => (k x).attempt
  | .store w k => .store w k.attempt
  | .newArr bs k => .newArr bs fun a => (k a).attempt
  | .newMap k => .newMap fun a => (k a).attempt
  | .newStruct m k => .newStruct m fun a => (k a).attempt

/-- Its memory accesses. Loops of the source are cut off after `m` rounds. -/
def Worker.prog {α : Type} (p : Program) (m : Nat) : Worker α → Prog α
  | .done a => .done a
  | .new n k => .newStruct (.zero n) fun i => (k i).prog p m
  | .copy i k => copyStruct i >>= fun j => (k j).prog p m
  | .make bs k => .newArr bs fun a => (k ⟨a, 0, bs.length, bs.length⟩).prog p m
  | .peek b k => readSlice b >>= fun bs => (k bs).prog p m
  | .poke a q x k => .store (.cell a q x) (k.prog p m)
  | .point v o k => .store (.iter v o) (k.prog p m)
  | .look v k => .load (.iter v) fun (o : Option HSlice) => (k o).prog p m
  | .call rt d t name args k => (grun p rt m d t name args).attempt >>= fun out => (k out).prog p m

/-! ## Specification: the rules -/

/-- The rights `g'` are no more than `g`. -/
def Rights.NoMore (g' g : Rights) : Prop := ∀ i lv, g'.level i = some lv → ∃ lv', g.level i = some lv' ∧ lv ≤ lv'

/-- The goroutine keeps to the rules of C67, and its calls return or panic. After a panic it may use what it could if the call had returned, as far as it could before. -/
def Worker.Follows {α : Type} (U : Unicode) (fs : List FileDesc) (R W : Loc → Prop) : Worker α → Rights → GSt → Prop
  | .done _, _, _ => True
  | .new n k, g, s => (k s.next).Follows U fs R W (g.set s.next 2) ⟨s.h.put s.next (.zero n), s.next + 1, s.its⟩
  | .copy i k, g, s => ∃ lv, g.level i = some lv ∧ (k s.next).Follows U fs R W (g.set s.next lv) ⟨s.h.put s.next (s.h.ms i), s.next + 1, s.its⟩
  | .make bs k, g, s => (k ⟨s.h.w.arrs.length, 0, bs.length, bs.length⟩).Follows U fs R W g { s with h := { s.h with w := { s.h.w with arrs := s.h.w.arrs ++ [bs] } } }
  | .peek b k, g, s => Reaches R b ∧ (k (s.h.w.slice b).data).Follows U fs R W g s
  | .poke a q x k, g, s => W (.cell a q) ∧ k.Follows U fs R W g { s with h := { s.h with w := s.h.w.write a q [x] } }
  | .point v o k, g, s => g.iter v ∧ (∀ b, o = some b → Reaches R b) ∧ k.Follows U fs R W g { s with its := fun u => if u = v then o else s.its u }
  | .look v k, g, s => g.iter v ∧ (k (s.its v)).Follows U fs R W g s
  | .call rt d t name args k, g, s => ∃ g', May U fs R W g t name args g' ∧
      ((∃ out s', G.run (programOf U fs) rt d t name args s = .ok (out, s') ∧ (k (some out)).Follows U fs R W g' s') ∨
       (∃ s', Crashes (programOf U fs) rt d t name args s s' ∧ g'.NoMore g ∧ (k none).Follows U fs R W g' s'))

/-! ## Recovering -/

section
variable {α β : Type} {R W : Loc → Prop} {s s' : GSt}

theorem Prog.attempt_run {p : Prog α} {a : α} (h : p.run s = .ok (a, s')) : p.attempt.run s = .ok (some a, s') := by
  induction p generalizing s with
  | done b => simp only [Prog.run, Except.ok.injEq, Prod.mk.injEq] at h; obtain ⟨rfl, rfl⟩ := h; rfl
  | stop e => cases h
  | load l k ih => exact ih _ h
  | store w k ih => exact ih h
  | newArr bs k ih => exact ih _ h
  | newMap k ih => exact ih _ h
  | newStruct m k ih => exact ih _ h

theorem Prog.attempt_halt {p : Prog α} {x : Fail} (hx : x ≠ .diverge) (h : p.halt s = some (.fail x, s')) : p.attempt.run s = .ok (none, s') := by
  induction p generalizing s with
  | done b => cases h
  | stop e =>
    injection h with h; injection h with h1 h2
    subst h1; subst h2
    cases x <;> first | rfl | exact absurd rfl hx
  | load l k ih => exact ih _ h
  | store w k ih => exact ih h
  | newArr bs k ih => exact ih _ h
  | newMap k ih => exact ih _ h
  | newStruct m k ih => exact ih _ h

theorem Prog.SafeZ.attempt {Z : GSt → Prop} {Q : α → GSt → Prop} {p : Prog α} (h : p.SafeZ Z R W Q s) :
    p.attempt.Safe R W (fun o s' => match o with | some a => Q a s' | none => Z s') s := by
  induction p generalizing s with
  | done b => exact h
  | stop e =>
    cases e with
    | stuck => trivial
    | fail x => cases x <;> first | trivial | exact h
  | load l k ih => exact ⟨h.1, ih _ h.2⟩
  | store w k ih => exact ⟨h.1, ih h.2⟩
  | newArr bs k ih => exact ih _ h
  | newMap k ih => exact ih _ h
  | newStruct m k ih => exact ih _ h

theorem Prog.Safe.safez_true {Q : α → GSt → Prop} {p : Prog α} (h : p.Safe R W Q s) : p.SafeZ (fun _ => True) R W Q s := by
  induction p generalizing s with
  | done b => exact h
  | stop e => trivial
  | load l k ih => exact ⟨h.1, ih _ h.2⟩
  | store w k ih => exact ⟨h.1, ih h.2⟩
  | newArr bs k ih => exact ih _ h
  | newMap k ih => exact ih _ h
  | newStruct m k ih => exact ih _ h

/-- A call that panics, access by access. -/
theorem halts_of_crashes {p : Program} {rt : Rt} {d : Nat} {t name : Text} {args : List GVal} (h : Crashes p rt d t name args s s') :
    ∃ x, x ≠ .diverge ∧ Ev fun m => (grun p rt m d t name args).halt s = some (.fail x, s') := by
  obtain ⟨⟨x, hx, hr⟩, e, he⟩ := h
  obtain ⟨s1, h1⟩ := fl_grun hx hr
  obtain ⟨n, hn⟩ := h1.and he
  obtain ⟨a1, a2⟩ := hn n (Nat.le_refl _)
  rw [a1] at a2
  injection a2 with a2; injection a2 with a2 _; injection a2 with a2
  subst a2
  exact ⟨x, hx, he⟩

end

/-! ## What a goroutine may use after a panic -/

section
variable {U : Unicode} {fs : List FileDesc} {pkg : Text} {R W : Loc → Prop} {g g' : Rights} {s : GSt}

theorem Rights.NoMore.set {i lv lv' : Nat} (h : (g.set i lv').NoMore g) (hi : g.level i = some lv) : lv' ≤ lv := by
  obtain ⟨l2, h1, h2⟩ := h i lv' (by simp [Rights.set])
  rw [hi] at h1
  injection h1 with h1
  omega

/-- If an allowed call panics, the goroutine may use afterwards what it could if the call had returned. -/
theorem May.holds (hc : Compilable U fs pkg) {t name : Text} {args : List GVal} (h : May U fs R W g t name args g') (hh : Holds R W g s) (hle : g'.NoMore g) (rt : Rt) (m d : Nat) :
    ∃ Q, (grun (programOf U fs) rt m d t name args).SafeZ (Holds R W g') R W Q s := by
  have hp := hc.program
  unfold grun
  cases h with
  | get hf hm hfd hi =>
    exact ⟨_, gholds_get hh hi (hp.method (sub_of hf hm _ (decl_get (hc.valid _ hf _ hm) hfd).1) rfl) (pkg_get _) (getter_callable _)⟩
  | @encode _ m _ _ hf hm hi => exact ⟨_, gholds_encode (hp.method (sub_of hf hm (.encode m.getName) (by simp [messageDecls])) rfl) hh hi⟩
  | set hf hm hfd hi hv =>
    have := gholds_set (m := m) (d := d + 2) (n := d + 1) (rt := rt) hh hi (hp.method (sub_of hf hm _ (decl_get (hc.valid _ hf _ hm) hfd).2) rfl) (pkg_set _) (goType_slots hp _) hv
    rw [Rights.set_self hi] at this
    exact ⟨_, this⟩
  | setMessage hf hm hfd hi hj =>
    obtain ⟨c1, _, ⟨n, c2⟩, _⟩ := hc.target hf hm (Or.inl hfd)
    have := gholds_setBuf (m := m) (d := d + 2) (n := d) (rt := rt) hh hi hj (hp.method (sub_of hf hm _ (decl_message (hc.valid _ hf _ hm) hfd).2) rfl) (hp.method c1 rfl)
      (by rw [hp.slots c2]; rfl) (F := t!"SetBytes") (q := .SetBytes) rfl
    rw [Rights.set_self hi] at this
    exact ⟨_, this⟩
  | append hf hm hfd hi hj =>
    obtain ⟨c1, _, ⟨n, c2⟩, _⟩ := hc.target hf hm (Or.inr hfd)
    have := gholds_setBuf (m := m) (d := d + 2) (n := d) (rt := rt) hh hi hj (hp.method (sub_of hf hm _ (decl_repeated (hc.valid _ hf _ hm) hfd).2.2.2) rfl) (hp.method c1 rfl)
      (by rw [hp.slots c2]; rfl) (F := t!"AppendBytes") (q := .AppendBytes) rfl
    rw [Rights.set_self hi] at this
    exact ⟨_, this⟩
  | message hf hm hfd hi hj hlj =>
    obtain ⟨_, c1, _, nums, c2⟩ := hc.target hf hm (Or.inl hfd)
    exact ⟨_, gholds_getMessage hh hi hj hlj (hp.method (sub_of hf hm _ (decl_message (hc.valid _ hf _ hm) hfd).1) rfl) (hp.method c1 rfl) (hp.table c2)⟩
  | iterate hf hm hfd hi => exact ⟨_, gholds_getRepeated hh hi (hp.method (sub_of hf hm _ (decl_repeated (hc.valid _ hf _ hm) hfd).2.2.1) rfl)⟩
  | next hf hm hfd hv hj hlj =>
    obtain ⟨_, c1, _, nums, c2⟩ := hc.target hf hm (Or.inr hfd)
    exact ⟨_, gholds_next hh hv hj hlj (hp.method (sub_of hf hm _ (decl_repeated (hc.valid _ hf _ hm) hfd).2.1) rfl) (hp.method c1 rfl) (hp.table c2)⟩
  | @resetNil _ m _ _ hf hm hi hlv => exact ⟨_, gholds_reset_nil hh hi hlv (hp.method (sub_of hf hm (.reset m.getName) (by simp [messageDecls])) rfl)⟩
  | @reset _ m _ _ _ _ hf hm hi hlv hb h1 h2 hw =>
    refine ⟨_, (gholds_reset hh hi hlv (hp.method (sub_of hf hm (.reset m.getName) (by simp [messageDecls])) rfl) hb h1 h2 hw).mono ?_ (fun _ x => x) (fun _ x => x) fun _ _ x => x⟩
    rintro s' (rfl | hz)
    · exact hh.lower hi (hle.set hi)
    · exact hz
  | @decode _ m _ _ _ _ hf hm hi hlv hb h1 h2 hw =>
    have ht := sub_of (U := U) hf hm _ (List.mem_append_left _ (List.mem_cons_of_mem _ (List.mem_cons_self ..)))
    exact ⟨_, gholds_decode hh hi hlv (hp.method (sub_of hf hm (.decode m.getName) (by simp [messageDecls])) rfl) (hp.table ht) hb h2 hw⟩

/-- A goroutine that keeps to the rules ends when it runs alone, access by access, with the same result as method by method; and it uses only what it may. -/
theorem Worker.Follows.ends {α : Type} (hc : Compilable U fs pkg) (c : Worker α) : ∀ {g : Rights} {s : GSt}, Holds R W g s → c.Follows U fs R W g s →
    ∃ a s', c.Alone (programOf U fs) s a s' ∧
      Ev fun m => (c.prog (programOf U fs) m).Safe R W (fun _ _ => True) s ∧ (c.prog (programOf U fs) m).run s = .ok (a, s') := by
  induction c with
  | done a => exact fun _ _ => ⟨a, _, .done, .of fun _ => ⟨trivial, rfl⟩⟩
  | new n k ih =>
    intro g s hh hf
    obtain ⟨a, s', h1, h2⟩ := ih _ (hh.newStruct (m := .zero n) (Nat.le_refl _) (reaches_nil R) nofun nofun fun _ => reaches_nil W) hf
    exact ⟨a, s', .new h1, h2⟩
  | copy i k ih =>
    intro g s hh hf
    obtain ⟨lv, hi, hf⟩ := hf
    obtain ⟨hl, _, hs⟩ := hh.struct i lv hi
    obtain ⟨a, s', h1, h2⟩ := ih _ (hh.newStruct hl hs.bytes hs.map hs.wmap hs.wbytes) hf
    refine ⟨a, s', .copy h1, h2.mono fun m hm => ⟨?_, ?_⟩⟩
    · refine Prog.safe_bind ((safe_copyStruct hs).imp ?_)
      rintro _ _ ⟨rfl, rfl⟩
      exact hm.1
    · exact (to_copyStruct i s).bind hm.2
  | make bs k ih =>
    intro g s hh hf
    obtain ⟨a, s', h1, h2⟩ := ih _ (hh.quiet (i := 0) (keeps_newArr bs s)) hf
    exact ⟨a, s', .make h1, h2⟩
  | peek b k ih =>
    intro g s hh hf
    obtain ⟨a, s', h1, h2⟩ := ih _ hh hf.2
    refine ⟨a, s', .peek h1, h2.mono fun m hm => ⟨?_, ?_⟩⟩
    · refine Prog.safe_bind ((safe_readSlice (Z := fun _ => True) hf.1 s).safe.and_run.imp ?_)
      rintro bs _ ⟨rfl, hr⟩
      rw [ends_readSlice b _] at hr
      injection hr with hr; injection hr with hr _
      rw [← hr]
      exact hm.1
    · exact To.bind (ends_readSlice b s) hm.2
  | poke a q x k ih =>
    intro g s hh hf
    obtain ⟨a, s', h1, h2⟩ := ih (hh.cell _ _ _) hf.2
    exact ⟨a, s', .poke h1, h2.mono fun m hm => ⟨⟨hf.1, hm.1⟩, hm.2⟩⟩
  | point v o k ih =>
    intro g s hh hf
    obtain ⟨hv, ho, hf⟩ := hf
    obtain ⟨a, s', h1, h2⟩ := ih (hh.point ho) hf
    exact ⟨a, s', .point h1, h2.mono fun m hm => ⟨⟨(hh.iter v hv).2.1, hm.1⟩, hm.2⟩⟩
  | look v k ih =>
    intro g s hh hf
    obtain ⟨a, s', h1, h2⟩ := ih _ hh hf.2
    exact ⟨a, s', .look h1, h2.mono fun m hm => ⟨⟨(hh.iter v hf.1).1, hm.1⟩, hm.2⟩⟩
  | call rt d t name args k ih =>
    intro g s hh hf
    obtain ⟨g', hmay, hf⟩ := hf
    have hsafe := fun m => hmay.safe hc hh rt m d
    have next : ∀ o s1, Ev (fun m => (grun (programOf U fs) rt m d t name args).attempt.run s = .ok (o, s1)) →
        (∀ m, ∃ Q, (grun (programOf U fs) rt m d t name args).attempt.Safe R W Q s) → ∀ a s', 
        Ev (fun m => ((k o).prog (programOf U fs) m).Safe R W (fun _ _ => True) s1 ∧ ((k o).prog (programOf U fs) m).run s1 = .ok (a, s')) →
        Ev fun m => ((Worker.call rt d t name args k).prog (programOf U fs) m).Safe R W (fun _ _ => True) s ∧ ((Worker.call rt d t name args k).prog (programOf U fs) m).run s = .ok (a, s') := by
      intro o s1 h1 hQ a s' h2
      refine (Ev.and h1 h2).mono fun m hm => ⟨?_, To.bind hm.1 hm.2.2⟩
      obtain ⟨Q, hQ⟩ := hQ m
      refine Prog.safe_bind (hQ.and_run.imp ?_)
      rintro o' s2 ⟨_, hr⟩
      rw [hm.1] at hr
      injection hr with hr; injection hr with hr1 hr2
      rw [← hr1, ← hr2]
      exact hm.2.1
    have any : ∀ m, ∃ Q, (grun (programOf U fs) rt m d t name args).attempt.Safe R W Q s := fun m =>
      ⟨_, Prog.SafeZ.attempt ((hsafe m).safez_true)⟩
    rcases hf with ⟨out, s1, hrun, hf⟩ | ⟨s1, hcr, hle, hf⟩
    · have hto := to_grun hrun
      obtain ⟨n0, hn0⟩ := hto
      have hafter := (hsafe n0).run (hn0 n0 (Nat.le_refl _))
      obtain ⟨a, s', h1, h2⟩ := ih (some out) hafter.1 hf
      exact ⟨a, s', .returns hrun h1, next _ _ (Ev.mono ⟨n0, hn0⟩ fun m hm => Prog.attempt_run hm) any a s' h2⟩
    · obtain ⟨x, hx, n0, hn0⟩ := halts_of_crashes hcr
      obtain ⟨Q, hz⟩ := hmay.holds hc hh hle rt n0 d
      obtain ⟨a, s', h1, h2⟩ := ih none (hz.halt (hn0 n0 (Nat.le_refl _))) hf
      exact ⟨a, s', .panics hcr h1, next _ _ (Ev.mono ⟨n0, hn0⟩ fun m hm => Prog.attempt_halt hx hm) any a s' h2⟩

end

/-! ## C80 -/

/-- What is true whenever goroutines `c` have been started in memory `s`, whatever the order of their accesses so far, as in `RunsAsAlone`; goroutine `t` has result `a t`. -/
def RecoversAsAlone {α : Type} (p : Program) (o : Owner) (c : Nat → Worker α) (s : GSt) (a : Nat → α) : Prop :=
  ∃ s' : Nat → GSt, (∀ t, (c t).Alone p s (a t) (s' t)) ∧
    ∃ m0 : Nat → Nat, ∀ m : Nat → Nat, (∀ t, m0 t ≤ m t) → ∃ n : Nat → Nat, ∀ ts pool, Moves (Base.of s) (start (fun t => (c t).prog p (m t)) s) ts pool →
      Raceless (Base.of s) pool ∧ (∀ t u, OneMemory (Base.of s) (pool t).2 (pool u).2) ∧
      ∀ t, ts.count t ≤ n t ∧ (ts.count t < n t → ∃ pool', Move (Base.of s) t pool pool') ∧
        (ts.count t = n t → (pool t).1 = .done (a t) ∧ Agree (MayRead (Base.of s) o t) (s' t) (pool t).2)

section
variable {U : Unicode} {fs : List FileDesc} {pkg : Text} {s : GSt} {α : Type}

/-- C80: what a goroutine that runs alone does is determined. -/
theorem C80_alone {p : Program} {c : Worker α} {a a' : α} {s s1 s2 : GSt} (h : c.Alone p s a s1) (h' : c.Alone p s a' s2) : a = a' ∧ s1 = s2 := by
  induction h generalizing a' s2 with
  | done => cases h'; exact ⟨rfl, rfl⟩
  | new _ ih => cases h' with | new h => exact ih h
  | copy _ ih => cases h' with | copy h => exact ih h
  | make _ ih => cases h' with | make h => exact ih h
  | peek _ ih => cases h' with | peek h => exact ih h
  | poke _ ih => cases h' with | poke h => exact ih h
  | point _ ih => cases h' with | point h => exact ih h
  | look _ ih => cases h' with | look h => exact ih h
  | returns hr _ ih =>
    cases h' with
    | returns hr' h =>
      rw [hr] at hr'
      injection hr' with hr'; injection hr' with e1 e2
      subst e1; subst e2
      exact ih h
    | panics hc _ => exact absurd hr ((E.C76_panics hc.2).1 _)
  | panics hc _ ih =>
    cases h' with
    | returns hr' h => exact absurd hr' ((E.C76_panics hc.2).1 _)
    | panics hc' h =>
      have := (E.C76_panics hc.2).2 _ hc'.2
      subst this
      exact ih h

/-- C80: goroutines that keep to the rules do not race, however often their calls panic, and each one gets the results that it gets alone. -/
theorem C80_races (hc : Compilable U fs pkg) (o : Owner) (c : Nat → Worker α) (g : Nat → Rights)
    (hh : ∀ t, Holds (MayRead (Base.of s) o t) (MayWrite (Base.of s) o t) (g t) s)
    (hf : ∀ t, (c t).Follows U fs (MayRead (Base.of s) o t) (MayWrite (Base.of s) o t) (g t) s) : ∃ a, RecoversAsAlone (programOf U fs) o c s a := by
  have hall := fun t => (hf t).ends hc (c t) (hh t)
  obtain ⟨a, hall⟩ := Classical.axiomOfChoice hall
  obtain ⟨s', hall⟩ := Classical.axiomOfChoice hall
  have h1 := fun t => (hall t).1
  obtain ⟨m0, hm0⟩ := Classical.axiomOfChoice fun t => (hall t).2
  refine ⟨a, s', h1, m0, fun m hm => ⟨fun t => ((c t).prog (programOf U fs) (m t)).size s, fun ts pool hmv => ?_⟩⟩
  have hsafe := fun t => (hm0 t (m t) (hm t)).1
  have hrun := fun t => (hm0 t (m t) (hm t)).2
  have hsep := separate (Base.of s) o
  refine ⟨raceless hsep (fun t l => Or.inl) hsafe hmv, oneMemory hmv, fun t => ?_⟩
  obtain ⟨s1, r1, _, r3, r4⟩ := interleave hsep hsafe hmv t
  have r5 : (pool t).1.run s1 = .ok (a t, s' t) := by rw [← r1.run]; exact hrun t
  dsimp only
  refine ⟨by omega, fun hlt => move_of_size (s := s1) (by omega), fun he => ?_⟩
  obtain ⟨e1, e2⟩ := done_of_size (by omega) r5
  exact ⟨e1, e2 ▸ r3⟩

/-- C80: after an allowed call that panicked, the goroutine may use what the rules say. -/
theorem C80_call (hc : Compilable U fs pkg) {R W : Loc → Prop} {g g' : Rights} (hh : Holds R W g s) {t name : Text} {args : List GVal} {s' : GSt} {rt : Rt} {d : Nat}
    (h : May U fs R W g t name args g') (hle : g'.NoMore g) (hcr : Crashes (programOf U fs) rt d t name args s s') : Holds R W g' s' := by
  obtain ⟨x, hx, n0, hn0⟩ := halts_of_crashes hcr
  obtain ⟨Q, hz⟩ := h.holds hc hh hle rt n0 d
  exact hz.halt (hn0 n0 (Nat.le_refl _))

/-- C80: a program that kept to the rules of C78, and has recovered from panics itself, hands out its structs to goroutines that recover from panics. -/
theorem C80_fork (hc : Compilable U fs pkg) {s0 : GSt} {k : Ledger} {l : Loose} (h : Lives U fs s0 s k l) {mine its : Nat → Option Nat}
    (hm : ∀ i e, k.known.structs i = some e → mine i = mine (e.root i)) (c : Nat → Worker α)
    (hf : ∀ t, (c t).Follows U fs (MayRead (Base.of s) (handOut k.known s mine its) t) (MayWrite (Base.of s) (handOut k.known s mine its) t) (rightsOf k.known s mine its t) s) :
    ∃ a, RecoversAsAlone (programOf U fs) (handOut k.known s mine its) c s a :=
  C80_races hc _ c _ (fun t => holds_rightsOf (lives_whole hc h).sound.known hm t) hf

end

/-! ## A server -/

/-- The goroutine that decodes the requests `bs`, each one into a new struct, and collects what `Decode` returned; `none` if it panicked. -/
def serve (m : Desc) (rt : Rt) (d : Nat) : List HSlice → List (Option (List GVal)) → Worker (List (Option (List GVal)))
  | [], acc => .done acc
  | b :: bs, acc => .new (slotsOf m) fun i => .call rt d m.getName t!"Decode" [.ptr m.getName i, .val (.bytes (.mem b))] fun o => serve m rt d bs (acc ++ [o])

/-- What `Decode` does with the bytes `b`, according to the model of `Decode` on values. -/
noncomputable def verdict (m : Desc) (hv : ValidDesc m) (b : Slice) : Option (List GVal) :=
  match (Msg.zero (slotsOf m)).decode (schemaOf m hv).rep b with
  | .ok (_, err) => some [.val (errVal err)]
  | .error _ => none

/-- `Decode` ends on the bytes `b`: C14 says when it does not. -/
def Terminates (m : Desc) (hv : ValidDesc m) (b : Slice) : Prop :=
  (Msg.zero (slotsOf m)).decode (schemaOf m hv).rep b ≠ .error .diverge

section
variable {U : Unicode} {fs : List FileDesc} {pkg : Text} {s : GSt}

/-- The memory `s'` still has the bytes of `s`. -/
structure Preserves (s s' : GSt) : Prop where
  sized : E.Sized s.h.w s'.h.w
  cells : ∀ a q, a < s.h.w.arrs.length → s'.h.w.cell a q = s.h.w.cell a q

theorem Preserves.slice {s s' : GSt} (h : Preserves s s') {b : HSlice} (hb : s.h.w.WFs b) : s'.h.w.WFs b ∧ s'.h.w.slice b = s.h.w.slice b :=
  E.keep_slice h.sized hb (fun _ _ h => h) fun a q ho => h.cells a q (hb.cell_lt ho)

theorem Preserves.trans {s s1 s2 : GSt} (h : Preserves s s1) (h' : Preserves s1 s2) : Preserves s s2 :=
  ⟨⟨Nat.le_trans h.sized.1 h'.sized.1, fun i hi => by rw [h'.sized.2.1 i (Nat.lt_of_lt_of_le hi h.sized.1), h.sized.2.1 i hi], Nat.le_trans h.sized.2.2 h'.sized.2.2⟩,
    fun a q ha => by rw [h'.cells a q (Nat.lt_of_lt_of_le ha h.sized.1), h.cells a q ha]⟩

theorem Preserves.of_arrs {s s' : GSt} (h : s'.h.w.arrs = s.h.w.arrs) (hm : s.h.w.maps.length ≤ s'.h.w.maps.length) : Preserves s s' :=
  ⟨⟨by rw [h]; exact Nat.le_refl _, fun i _ => by simp only [World.arr, h], hm⟩, fun a q _ => by simp only [World.cell, World.arr, h]⟩

theorem wf_zero (w : World) (n : Nat) : w.WF (.zero n) := ⟨⟨Nat.le_refl _, by simp [HMsg.zero, HSlice.nil]⟩, fun _ h => by cases h⟩

theorem msg_zero (w : World) (n : Nat) : w.msg (.zero n) = Msg.zero n := by
  simp [World.msg, World.slice, World.full, World.offs, HMsg.zero, HSlice.nil, Msg.zero, Slice.empty, Offsets.zero]

/-- `Decode` into a new struct, in memory `s`: it does what `verdict` says, and leaves the bytes alone. -/
theorem decode_verdict (hc : Compilable U fs pkg) {f : FileDesc} {m : Desc} (hf : f ∈ fs) (hm : some m ∈ f.messageType) (rt : Rt) (d : Nat) {i : Nat} (hi : i < s.next) (hz : s.h.ms i = .zero (slotsOf m)) {b : HSlice} (hb : s.h.w.WFs b)
    (ht : Terminates m (hc.valid f hf m hm) (s.h.w.slice b)) :
    (∃ out s', verdict m (hc.valid f hf m hm) (s.h.w.slice b) = some out ∧ Preserves s s' ∧ s.next ≤ s'.next ∧
      G.run (programOf U fs) rt d m.getName t!"Decode" [.ptr m.getName i, .val (.bytes (.mem b))] s = .ok (out, s')) ∨
    (∃ s', verdict m (hc.valid f hf m hm) (s.h.w.slice b) = none ∧ Preserves s s' ∧ s.next ≤ s'.next ∧
      Crashes (programOf U fs) rt d m.getName t!"Decode" [.ptr m.getName i, .val (.bytes (.mem b))] s s') := by
  have hv := hc.valid f hf m hm
  have hdi := decls_implements U m hv
  have hsub := sub_of (U := U) hf hm
  obtain ⟨nums, t1, t2⟩ := hdi.table
  have hw : s.h.w.WF (s.h.ms i) := by rw [hz]; exact wf_zero _ _
  have hq := C63_decode hc.program rt d s (hsub _ hdi.fixed.2.1) (hsub _ ((t1 _ _).2 ⟨rfl, rfl⟩)) b hb hw
  rw [rep_table t2] at hq
  have hr := decode_refines (schemaOf m hv).rep hw hb
  have hmsg : s.h.w.msg (s.h.ms i) = Msg.zero (slotsOf m) := by rw [hz]; exact msg_zero _ _
  rw [hmsg] at hr
  unfold Terminates at ht
  unfold verdict
  cases hd : (Msg.zero (slotsOf m)).decode (schemaOf m hv).rep (s.h.w.slice b) with
  | ok r =>
    obtain ⟨v, err⟩ := r
    rw [hd] at hr
    obtain ⟨m', w', r1, _, _, _, r5, r6⟩ := hr
    rw [r1] at hq
    exact .inl ⟨_, { s with h := s.h.upd i (m', w') }, rfl, .of_arrs r5 r6.mgrow, Nat.le_refl _, hq⟩
  | error e =>
    rw [hd] at hr ht
    simp only at hr
    rw [hr] at hq
    have he : e ≠ .diverge := fun h => ht (by rw [h])
    have hq : G.run (programOf U fs) rt d m.getName t!"Decode" [.ptr m.getName i, .val (.bytes (.mem b))] s = .error (.fail e) := hq
    obtain ⟨s', hp⟩ := E.panics_of he hq
    refine .inr ⟨s', rfl, ?_, ?_, ⟨e, he, hq⟩, hp⟩
    all_goals
      obtain ⟨x, n0, hn0⟩ := hp
      obtain ⟨d1, rep, d2⟩ := E.decode_there hc ⟨f, hf, hm⟩
      have hfa := E.fallen d1 d2 hi hw hb (hn0 n0 (Nat.le_refl _))
      first | exact ⟨hfa.sized, hfa.cells⟩ | exact hfa.next

/-- A goroutine of the server keeps to the rules, and alone it has one outcome for every request. -/
theorem serve_follows (hc : Compilable U fs pkg) {f : FileDesc} {m : Desc} (hf : f ∈ fs) (hm : some m ∈ f.messageType) (rt : Rt) (d : Nat) {R W : Loc → Prop} (hR : ∀ l, R l) (bs : List HSlice) :
    ∀ {s' : GSt} (acc : List (Option (List GVal))) (g : Rights), Preserves s s' → (∀ b ∈ bs, s.h.w.WFs b ∧ Terminates m (hc.valid f hf m hm) (s.h.w.slice b)) →
      (serve m rt d bs acc).Follows U fs R W g s' ∧
      ∃ s2, (serve m rt d bs acc).Alone (programOf U fs) s' (acc ++ bs.map fun b => verdict m (hc.valid f hf m hm) (s.h.w.slice b)) s2 := by
  induction bs with
  | nil => exact fun acc g _ _ => ⟨trivial, _, by rw [List.map_nil, List.append_nil]; exact .done⟩
  | cons b bs ih =>
    intro s' acc g hp hb
    obtain ⟨b1, b2⟩ := hb b (List.mem_cons_self ..)
    have hrest := fun x hx => hb x (List.mem_cons_of_mem _ hx)
    have hnew : Preserves s' ⟨s'.h.put s'.next (.zero (slotsOf m)), s'.next + 1, s'.its⟩ := .of_arrs rfl (Nat.le_refl _)
    obtain ⟨c1, c2⟩ := (hp.trans hnew).slice b1
    have hmay : May U fs R W (g.set s'.next 2) m.getName t!"Decode" [.ptr m.getName s'.next, .val (.bytes (.mem b))] ((g.set s'.next 2).set s'.next 1) :=
      .decode (lv := 2) hf hm (by simp [Rights.set]) (by decide) (fun _ _ _ => hR _) (Nat.le_refl _) (by decide) (fun h => absurd h (by decide))
    have hv := decode_verdict hc hf hm rt d (s := ⟨s'.h.put s'.next (.zero (slotsOf m)), s'.next + 1, s'.its⟩) (i := s'.next) (Nat.lt_succ_self _) (by simp [Heap.put]) c1 (by rw [c2]; exact b2)
    rw [c2] at hv
    rcases hv with ⟨out, s1, v1, v2, _, v4⟩ | ⟨s1, v1, v2, _, v4⟩
    · obtain ⟨i1, s2, i2⟩ := ih (acc ++ [some out]) ((g.set s'.next 2).set s'.next 1) ((hp.trans hnew).trans v2) hrest
      refine ⟨⟨_, hmay, .inl ⟨out, s1, v4, i1⟩⟩, s2, .new (.returns v4 ?_)⟩
      rw [show acc ++ (b :: bs).map (fun b => verdict m (hc.valid f hf m hm) (s.h.w.slice b)) = acc ++ [some out] ++ bs.map fun b => verdict m (hc.valid f hf m hm) (s.h.w.slice b) by simp [v1]]
      exact i2
    · obtain ⟨i1, s2, i2⟩ := ih (acc ++ [none]) ((g.set s'.next 2).set s'.next 1) ((hp.trans hnew).trans v2) hrest
      refine ⟨⟨_, hmay, .inr ⟨s1, v4, ?_, i1⟩⟩, s2, .new (.panics v4 ?_)⟩
      · intro i lv hi
        by_cases h : i = s'.next
        · subst h
          simp only [Rights.set, if_true, Option.some.injEq] at hi ⊢
          exact ⟨2, rfl, by omega⟩
        · simp only [Rights.set, if_neg h] at hi ⊢
          exact ⟨lv, hi, Nat.le_refl _⟩
      · rw [show acc ++ (b :: bs).map (fun b => verdict m (hc.valid f hf m hm) (s.h.w.slice b)) = acc ++ [none] ++ bs.map fun b => verdict m (hc.valid f hf m hm) (s.h.w.slice b) by simp [v1]]
        exact i2

/-- C80: a server. Whatever is in memory, any number of goroutines each decode any number of requests, all from buffers that nobody changes, and recover from the panics. They do not race,
and every goroutine ends up with one outcome for each of its requests: what `Decode` returns for its bytes, or that it panicked; whatever the other requests are, and in whatever order memory is accessed. -/
theorem C80_server (hc : Compilable U fs pkg) {f : FileDesc} {m : Desc} (hf : f ∈ fs) (hm : some m ∈ f.messageType) (rt : Nat → Rt) (d : Nat → Nat) (requests : Nat → List HSlice)
    (hb : ∀ t, ∀ b ∈ requests t, s.h.w.WFs b ∧ Terminates m (hc.valid f hf m hm) (s.h.w.slice b)) :
    RecoversAsAlone (programOf U fs) (fun _ => none) (fun t => serve m (rt t) (d t) (requests t) []) s
      (fun t => (requests t).map fun b => verdict m (hc.valid f hf m hm) (s.h.w.slice b)) := by
  have key := fun t => serve_follows (s := s) hc hf hm (rt t) (d t) (R := MayRead (Base.of s) (fun _ => none) t) (W := MayWrite (Base.of s) (fun _ => none) t) (fun l => .inr rfl) (requests t) []
    ⟨fun _ => none, fun _ => False⟩ (.of_arrs rfl (Nat.le_refl _)) (hb t)
  obtain ⟨a, s', h1, h2⟩ := C80_races hc (fun _ => none) _ (fun _ => ⟨fun _ => none, fun _ => False⟩)
    (fun t => ⟨⟨fun l hl => ⟨Or.inl (Or.inl hl), Or.inl hl⟩⟩, nofun, nofun⟩) (fun t => (key t).1)
  have ha : a = fun t => (requests t).map fun b => verdict m (hc.valid f hf m hm) (s.h.w.slice b) := by
    funext t
    obtain ⟨s2, k2⟩ := (key t).2
    exact (C80_alone (h1 t) k2).1
  subst ha
  exact ⟨s', h1, h2⟩

/-- C80: what the outcome is: nil for a valid message of known fields; `io.ErrUnexpectedEOF` if the last record of such a message is cut off; a panic if there is, in a valid message, a field with a number larger
than those of the type. -/
theorem C80_verdict {m : Desc} (hv : ValidDesc m) {b : Slice} :
    (∀ rs, IsMessage rs b.data → b.data.length < maxLen → (∀ r ∈ rs, r.num < slotsOf m) → Terminates m hv b ∧ verdict m hv b = some [.val .nil]) ∧
    (∀ rs r A B C, b.data = A ++ B → IsMessage rs A → IsRecord r (B ++ C) → B ≠ [] → C ≠ [] → (∀ r' ∈ rs ++ [r], r'.num < slotsOf m) → (A ++ B ++ C).length + 8 < maxLen →
      Terminates m hv b ∧ verdict m hv b = some [.val .eof]) ∧
    (∀ rs, IsMessage rs b.data → b.data.length < maxLen → (∃ r ∈ rs, slotsOf m ≤ r.num) → Terminates m hv b ∧ verdict m hv b = none) := by
  have h0 : (Msg.zero (slotsOf m)).off.a.length = (schemaOf m hv).n := by simp [Msg.zero, Offsets.zero, schemaOf]
  refine ⟨fun rs hm hl hlt => ?_, fun rs r A B C h1 h2 h3 h4 h5 h6 h7 => ?_, fun rs hm hl hex => ?_⟩
  · obtain ⟨cs, c1, c2, c3⟩ := isMessage_iff.1 hm
    obtain ⟨o', e1, _⟩ := decode_spec (rep := (schemaOf m hv).rep) (o := (Msg.zero (slotsOf m)).off) hl c1.symm c2 (fun c hc => by
      have := hlt c.record (by rw [← c3]; exact List.mem_map_of_mem hc)
      exact this) h0
    have := Msg.decode_eq (m := Msg.zero (slotsOf m)) e1
    exact ⟨by unfold Terminates; rw [this]; exact nofun, by unfold verdict; rw [this]; rfl⟩
  · obtain ⟨m', this⟩ := C13_truncated (S := schemaOf m hv) h0 h1 h2 h3 h4 h5 h6 h7
    exact ⟨by unfold Terminates; rw [this]; exact nofun, by unfold verdict; rw [this]; rfl⟩
  · have := C29_false_unknown_panics (S := schemaOf m hv) (m0 := Msg.zero (slotsOf m)) h0 (buf := b) hl hm hex
    exact ⟨by unfold Terminates; rw [this]; exact nofun, by unfold verdict; rw [this]⟩

end

/-! ## The hypotheses are met -/

open Zeropb.GoSrc.E (testFile_compilable testFile_has testField received2 nothingYet)

/-- `C80_server` on golden/test.proto: goroutine 0 gets the bytes of a message with a field 100, and then a valid message; the others get both in the other order. The first panics, the second one does not. -/
example (rt : Nat → Rt) : RecoversAsAlone (programOf asciiUnicode [testFile]) (fun _ => none)
    (fun t => serve testDesc (rt t) 0 (match t with | 0 => [⟨0, 0, 5, 5⟩, ⟨1, 0, 2, 2⟩] | _ + 1 => [⟨1, 0, 2, 2⟩, ⟨0, 0, 5, 5⟩]) []) received2
    (fun t => match t with | 0 => [none, some [.val .nil]] | _ + 1 => [some [.val .nil], none]) := by
  obtain ⟨hf, hm⟩ := testFile_has
  have hv := testFile_compilable.valid _ hf _ hm
  have v08 : IsVarint 8 [0x08#8] := ⟨[], 0x08#8, rfl, by simp, by decide, by decide, by decide, by decide⟩
  have v01 : IsVarint 1 [0x01#8] := ⟨[], 0x01#8, rfl, by simp, by decide, by decide, by decide, by decide⟩
  have v800 : IsVarint 800 [0xA0#8, 0x06#8] := ⟨[0xA0#8], 0x06#8, rfl, by decide, by decide, by decide, by decide, by decide⟩
  have h1 : IsMessage [⟨1, .varint 1#64⟩, ⟨100, .varint 1#64⟩] [0x08#8, 0x01#8, 0xA0#8, 0x06#8, 0x01#8] :=
    .cons (bs := [0x08#8, 0x01#8]) (rest := [0xA0#8, 0x06#8, 0x01#8]) ⟨[0x08#8], [0x01#8], rfl, v08, v01⟩
      (.cons (bs := [0xA0#8, 0x06#8, 0x01#8]) (rest := []) ⟨[0xA0#8, 0x06#8], [0x01#8], rfl, v800, v01⟩ .nil)
  have h2 : IsMessage [⟨1, .varint 1#64⟩] [0x08#8, 0x01#8] := .cons (bs := [0x08#8, 0x01#8]) (rest := []) ⟨[0x08#8], [0x01#8], rfl, v08, v01⟩ .nil
  have n1 : slotsOf testDesc ≤ 100 := by decide +kernel
  have n2 : 1 < slotsOf testDesc := by decide +kernel
  have q1 := (C80_verdict hv (b := received2.h.w.slice ⟨0, 0, 5, 5⟩)).2.2 _ h1 (by decide) ⟨⟨100, .varint 1#64⟩, by simp, n1⟩
  have q2 := (C80_verdict hv (b := received2.h.w.slice ⟨1, 0, 2, 2⟩)).1 _ h2 (by decide) (by simp; exact n2)
  have w1 : received2.h.w.WFs ⟨0, 0, 5, 5⟩ := ⟨by decide, by decide⟩
  have w2 : received2.h.w.WFs ⟨1, 0, 2, 2⟩ := ⟨by decide, by decide⟩
  have := C80_server (s := received2) testFile_compilable hf hm rt (fun _ => 0) (fun t => match t with | 0 => [⟨0, 0, 5, 5⟩, ⟨1, 0, 2, 2⟩] | _ + 1 => [⟨1, 0, 2, 2⟩, ⟨0, 0, 5, 5⟩]) (fun t b hb => by
    have : b = ⟨0, 0, 5, 5⟩ ∨ b = ⟨1, 0, 2, 2⟩ := by
      cases t <;> simp at hb <;> rcases hb with h | h <;> simp [h]
    rcases this with rfl | rfl
    · exact ⟨w1, q1.1⟩
    · exact ⟨w2, q2.1⟩)
  have e : (fun t : Nat => (match t with | 0 => [⟨0, 0, 5, 5⟩, ⟨1, 0, 2, 2⟩] | _ + 1 => [⟨1, 0, 2, 2⟩, ⟨0, 0, 5, 5⟩] : List HSlice).map fun b => verdict testDesc (testFile_compilable.valid _ hf _ hm) (received2.h.w.slice b)) =
      fun t => match t with | 0 => [none, some [.val .nil]] | _ + 1 => [some [.val .nil], none] := by
    funext t
    cases t <;> simp only [List.map_cons, List.map_nil, q1.2, q2.2]
  rw [e] at this
  exact this

/-- `C80_fork` on golden/test.proto: after `var x TestMessage`, goroutine 0 has `x`; it calls `x.Decode` with a message with a field 100, which panics, recovers, and calls `x.Reset(nil)`. -/
example (rt : Rt) : ∃ s k l mine a, Lives asciiUnicode [testFile] received2 s k l ∧
    RecoversAsAlone (programOf asciiUnicode [testFile]) (handOut k.known s mine (fun _ => none))
      (fun t => if t = 0 then .call rt 0 testDesc.getName t!"Decode" [.ptr testDesc.getName 0, .val (.bytes (.mem ⟨0, 0, 5, 5⟩))] (fun o =>
        if o.isNone then .call rt 0 testDesc.getName t!"Reset" [.ptr testDesc.getName 0, .val .nil] (fun out => .done out) else .done none) else .done none) s a ∧ a 0 = some [] ∧ a 1 = none := by
  have hc := testFile_compilable
  obtain ⟨hf, hm⟩ := testFile_has
  have hv := hc.valid _ hf _ hm
  have v08 : IsVarint 8 [0x08#8] := ⟨[], 0x08#8, rfl, by simp, by decide, by decide, by decide, by decide⟩
  have v01 : IsVarint 1 [0x01#8] := ⟨[], 0x01#8, rfl, by simp, by decide, by decide, by decide, by decide⟩
  have v800 : IsVarint 800 [0xA0#8, 0x06#8] := ⟨[0xA0#8], 0x06#8, rfl, by decide, by decide, by decide, by decide, by decide⟩
  have h1 : IsMessage [⟨1, .varint 1#64⟩, ⟨100, .varint 1#64⟩] [0x08#8, 0x01#8, 0xA0#8, 0x06#8, 0x01#8] :=
    .cons (bs := [0x08#8, 0x01#8]) (rest := [0xA0#8, 0x06#8, 0x01#8]) ⟨[0x08#8], [0x01#8], rfl, v08, v01⟩
      (.cons (bs := [0xA0#8, 0x06#8, 0x01#8]) (rest := []) ⟨[0xA0#8, 0x06#8], [0x01#8], rfl, v800, v01⟩ .nil)
  have n1 : slotsOf testDesc ≤ 100 := by decide +kernel
  have w1 : received2.h.w.WFs ⟨0, 0, 5, 5⟩ := ⟨by decide, by decide⟩
  obtain ⟨s, k, r1, r2, hs, hk, hn, hw⟩ : ∃ s k, Lives asciiUnicode [testFile] received2 s k (fun _ => none) ∧ E.Roams asciiUnicode [testFile] received2 s k (fun _ => none) ∧ s.h.ms 0 = .zero (slotsOf testDesc) ∧
      (∀ i, k.known.structs i = if i = 0 then some ⟨testDesc, none, .empty⟩ else none) ∧ s.next = 1 ∧ s.h.w = received2.h.w :=
    ⟨_, _, Lives.start.step (.moves (.goes (.does (.new hf hm)) nofun)), E.Roams.start.step (.goes (.does (.new hf hm)) nofun), rfl, fun i => by cases i <;> rfl, rfl, rfl⟩
  have q1 := (C80_verdict hv (b := s.h.w.slice ⟨0, 0, 5, 5⟩)).2.2 _ (by rw [hw]; exact h1) (by rw [hw]; decide) ⟨⟨100, .varint 1#64⟩, by simp, n1⟩
  have hd := decode_verdict hc hf hm rt 0 (s := s) (i := 0) (by omega) hs (b := ⟨0, 0, 5, 5⟩) (by rw [hw]; exact w1) q1.1
  rw [q1.2] at hd
  obtain ⟨s1, _, hp, hnx, hcr⟩ : ∃ s1, True ∧ Preserves s s1 ∧ s.next ≤ s1.next ∧ Crashes (programOf asciiUnicode [testFile]) rt 0 testDesc.getName t!"Decode" [.ptr testDesc.getName 0, .val (.bytes (.mem ⟨0, 0, 5, 5⟩))] s s1 := by
    rcases hd with ⟨out, _, h, _⟩ | ⟨s1, _, h2, h3, h4⟩
    · cases h
    · exact ⟨s1, trivial, h2, h3, h4⟩
  have ht : k.type 0 = some testDesc := E.type_known (e := ⟨testDesc, none, .empty⟩) (by rw [hk]; rfl)
  have r3 := r2.step (.goes (.decode ht (by rw [hw]; exact w1) hcr.2) nofun)
  obtain ⟨s2, hr, _⟩ := E.C77_reset hc r3 (j := 0) (m := testDesc) (by rw [E.type_spoil, if_pos rfl]) rt 0
  let mine : Nat → Option Nat := fun i => if i = 0 then some 0 else none
  have hlv : (rightsOf k.known s mine (fun _ => none) 0).level 0 = some 2 := by simp [rightsOf, hk, mine]
  have key := C80_fork (α := Option (List GVal)) hc r1 (mine := mine) (its := fun _ => none) (fun i e hi => by
    rw [hk] at hi
    split at hi
    · injection hi with hi; subst hi; rfl
    · cases hi) (fun t => if t = 0 then .call rt 0 testDesc.getName t!"Decode" [.ptr testDesc.getName 0, .val (.bytes (.mem ⟨0, 0, 5, 5⟩))] (fun o =>
        if o.isNone then .call rt 0 testDesc.getName t!"Reset" [.ptr testDesc.getName 0, .val .nil] (fun out => .done out) else .done none) else .done none) (fun t => by
    by_cases h : t = 0
    · subst h
      rw [if_pos rfl]
      refine ⟨_, .decode (lv' := 1) hf hm hlv (by decide) (fun q _ hq => .inr ?_) (Nat.le_refl _) (by decide) (fun h => absurd h (by decide)), .inr ⟨s1, hcr, ?_, ?_⟩⟩
      · have : ¬ ∃ i e, k.known.structs i = some e ∧ e.view = none ∧ (s.h.ms i).buf.owns 0 q := by
          rintro ⟨i, e, h1, _, h3⟩
          rw [hk] at h1
          split at h1
          · next hi => subst hi; rw [hs] at h3; exact E.owns_nil h3
          · cases h1
        simp only [handOut, dif_neg this]
      · intro i lv hi
        by_cases h : i = 0
        · subst h
          simp only [Rights.set, if_true, Option.some.injEq] at hi
          exact ⟨2, hlv, by omega⟩
        · simp only [Rights.set, if_neg h] at hi
          exact ⟨lv, hi, Nat.le_refl _⟩
      · exact ⟨_, .resetNil (lv := 1) hf hm (by simp [Rights.set]) (by decide), .inl ⟨[], s2, hr, trivial⟩⟩
    · rw [if_neg h]
      trivial)
  obtain ⟨a, key⟩ := key
  refine ⟨s, k, _, mine, a, r1, key, ?_, ?_⟩
  · obtain ⟨s', h1, _⟩ := key
    exact (C80_alone (h1 0) (.panics hcr (.returns hr .done))).1
  · obtain ⟨s', h1, _⟩ := key
    exact (C80_alone (h1 1) .done).1

end Zeropb.GoSrc.Conc
