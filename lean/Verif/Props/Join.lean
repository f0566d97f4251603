import Verif.Props.Races
/-!
# C79: goroutines that are waited for

A program that uses messages starts goroutines, hands out its structs to them, waits until all have ended, and goes on, with the structs that they had and with those that
they made; and it may do so again and again. In C66 a program makes one call after the other; in C67 goroutines run to their end, and the program ends with them. Here
programs do both. While goroutines run, every one of them keeps to the rules of C67, and, for itself, to those of C66. After they have ended, the program knows
everything that the goroutines knew about the structs that were theirs, whatever the order in which they made their accesses.
-/

set_option linter.constructorNameAsVariable false

namespace Zeropb.GoSrc.Conc
open Zeropb.Gen Zeropb.GoSrc.G
open Zeropb.GoSrc.E (ScalarField goName Compilable programOf Compilable.program Known Entry Cursor Inv Within Shows Points)

/-! ## Specification: the memory after the goroutines have ended

In `Conc/Prog`, every goroutine names what it allocates by numbers of its own. When the goroutines have ended, everything that was allocated gets one number. -/

/-- What goroutine `t` of `n` allocated as number `a`, when there were `b` at the start, gets this number. What was there before keeps its number. -/
def place (b n t a : Nat) : Nat := if a < b then a else b + ((a - b) * n + t)

/-- The goroutine that allocated what is now number `a`; 0 for what was there before. -/
def whose (b n a : Nat) : Nat := if a < b then 0 else (a - b) % n

/-- The number that it had there. -/
def number (b n a : Nat) : Nat := if a < b then a else b + (a - b) / n

/-- A reference to bytes. -/
def placeSlice (b : Base) (n t : Nat) (x : HSlice) : HSlice := { x with arr := place b.arrs n t x.arr }

/-- A struct: its buffer and its map have new numbers. -/
def placeStruct (b : Base) (n t : Nat) (m : HMsg) : HMsg := { m with buf := placeSlice b n t m.buf, m := m.m.map (place b.maps n t) }

/-- The largest of the numbers `f 0`, …, `f (n - 1)`. -/
def most (f : Nat → Nat) : Nat → Nat
  | 0 => 0
  | n + 1 => max (most f n) (f n)

/-- How many numbers are needed, if goroutine `t` has `f t` in the end. -/
def room (b n : Nat) (f : Nat → Nat) : Nat := b + most (fun t => f t - b) n * n

/-- The memory after `n` goroutines have ended. Structs and iterator variables that were there before, and that a goroutine had, have been written by this goroutine, and so have
references to what it allocated. -/
def join {α : Type} (b : Base) (n : Nat) (mine its : Nat → Option Nat) (pool : Pool α) : GSt where
  h :=
    { w :=
        { arrs := (List.range (room b.arrs n fun t => (pool t).2.h.w.arrs.length)).map fun a => (pool (whose b.arrs n a)).2.h.w.arr (number b.arrs n a)
          maps := (List.range (room b.maps n fun t => (pool t).2.h.w.maps.length)).map fun a => (pool (whose b.maps n a)).2.h.w.maps.getD (number b.maps n a) [] }
      ms := fun i =>
        if i < b.structs then
          match mine i with
          | none => (pool 0).2.h.ms i
          | some t => placeStruct b n t ((pool 0).2.h.ms i)
        else placeStruct b n (whose b.structs n i) ((pool (whose b.structs n i)).2.h.ms (number b.structs n i)) }
  next := room b.structs n fun t => (pool t).2.next
  its := fun v =>
    match its v with
    | none => (pool 0).2.its v
    | some t => ((pool 0).2.its v).map (placeSlice b n t)

/-! ## Specification: what the program knows then -/

/-- Struct `i` is one that goroutine `t` was given, or made; and so is its map. -/
structure Yours (b : Base) (o : Owner) (t : Nat) (s : GSt) (i : Nat) : Prop where
  struct : ∀ l, l = .buf i ∨ (∃ k, l = .slot i k) ∨ l = .ref i → MayWrite b o t l
  map : ∀ id, (s.h.ms i).m = some id → MayWrite b o t (.map id)

/-- The entry `e` of what goroutine `t` knows in the end, in memory `s`, is about a struct of its own, with memory of its own; or about a view of such a struct, or of one that the program
did not hand out. -/
def Back (b : Base) (o : Owner) (mine : Nat → Option Nat) (k : Known) (t : Nat) (s : GSt) (kt : Known) (i : Nat) (e : Entry) : Prop :=
  kt.structs i = some e ∧ Yours b o t s i ∧
    match e.view with
    | none => Reaches (MayWrite b o t) (s.h.ms i).buf
    | some r => (∃ er, kt.structs r = some er ∧ er.view = none ∧ Yours b o t s r ∧ Reaches (MayWrite b o t) (s.h.ms r).buf) ∨
        (mine r = none ∧ ∃ er, k.structs r = some er ∧ er.view = none)

/-- What the program gets to know about struct `i` of goroutine `t`. -/
noncomputable def back (b : Base) (o : Owner) (mine : Nat → Option Nat) (k : Known) (n t : Nat) (s : GSt) (kt : Known) (i : Nat) : Option Entry :=
  open Classical in
  (kt.structs i).bind fun e => if Back b o mine k t s kt i e then some { e with view := e.view.map (place b.structs n t) } else none

/-- What the program knows after `n` goroutines have ended: what it knew, about structs that it did not hand out; and what the goroutines know, about those that are theirs. It
goes on with those iterators that it did not hand out and that are over structs that it did not hand out. -/
noncomputable def rejoin (s : GSt) (k : Known) (mine its : Nat → Option Nat) (n : Nat) (s' : Nat → GSt) (k' : Nat → Known) : Known where
  structs i :=
    let b := Base.of s
    let theirs := fun t => back b (handOut k s mine its) mine k n t (s' t) (k' t)
    if i < s.next then
      match mine i with
      | none => k.structs i
      | some t => if t < n then theirs t i else none
    else theirs (whose s.next n i) (number s.next n i)
  iters v := if its v = none then (k.iters v).filter (fun c => mine c.over = none) else none

/-! ## Specification: programs -/

/-- Any number of steps of C66. -/
inductive Steps (U : Unicode) (fs : List FileDesc) : GSt → Known → GSt → Known → Prop
  | refl {s k} : Steps U fs s k s k
  | step {s k s' k' s'' k''} : Steps U fs s k s' k' → E.Step U fs s' k' s'' k'' → Steps U fs s k s'' k''

/-- The bound `m` for the rounds of a loop, in `Client.prog`, is large enough: no loop is cut off. -/
def Enough {α : Type} (p : Program) (m : Nat) : Client α → GSt → Prop
  | .done _, _ => True
  | .new n k, s => Enough p m (k s.next) ⟨s.h.put s.next (.zero n), s.next + 1, s.its⟩
  | .copy i k, s => Enough p m (k s.next) ⟨s.h.put s.next (s.h.ms i), s.next + 1, s.its⟩
  | .make bs k, s => Enough p m (k ⟨s.h.w.arrs.length, 0, bs.length, bs.length⟩) { s with h := { s.h with w := { s.h.w with arrs := s.h.w.arrs ++ [bs] } } }
  | .peek b k, s => Enough p m (k (s.h.w.slice b).data) s
  | .poke a q x k, s => Enough p m k { s with h := { s.h with w := s.h.w.write a q [x] } }
  | .point v o k, s => Enough p m k { s with its := fun u => if u = v then o else s.its u }
  | .look v k, s => Enough p m (k (s.its v)) s
  | .call rt d t name args k, s => (grun p rt m d t name args).run s = G.run p rt d t name args s ∧
      ∀ out s', G.run p rt d t name args s = .ok (out, s') → Enough p m (k out) s'

/-- A program that knows `k`, in memory `s`, starts goroutines `c`, of which `n` do something. Goroutine `t` gets the structs `i` with `mine i = some t`, and the iterator variables `v` with
`its v = some t`; if it ran alone, memory would be `s' t` in the end, and it would know `k' t`. The goroutines made the accesses `ts`, and all have ended. -/
structure Forked (U : Unicode) (fs : List FileDesc) {α : Type} (s : GSt) (k : Known) (mine its : Nat → Option Nat) (n : Nat) (c : Nat → Client α) (s' : Nat → GSt) (k' : Nat → Known)
    (m : Nat → Nat) (ts : List Nat) (pool : Pool α) : Prop where
  pos : 0 < n
  /-- a struct and its views go to the same goroutine -/
  views : ∀ i e, k.structs i = some e → mine i = mine (e.root i)
  /-- the goroutines keep to the rules of C67 -/
  rules : ∀ t, Follows U fs (MayRead (Base.of s) (handOut k s mine its) t) (MayWrite (Base.of s) (handOut k s mine its) t) (c t) (rightsOf k s mine its t) s
  /-- alone, they keep to the rules of C66 -/
  alone : ∀ t, ∃ a, (c t).alone (programOf U fs) s = .ok (a, s' t)
  steps : ∀ t, Steps U fs s k (s' t) (k' t)
  enough : ∀ t, Enough (programOf U fs) (m t) (c t) s
  moves : Moves (Base.of s) (start (fun t => (c t).prog (programOf U fs) (m t)) s) ts pool
  ended : ∀ t, ∃ a, (pool t).1 = .done a

/-- A run of a program that starts goroutines and waits for them, from a state in which it knows nothing. -/
inductive Waits (U : Unicode) (fs : List FileDesc) (s0 : GSt) : GSt → Known → Prop
  | start : Waits U fs s0 s0 .nothing
  | step {s k s' k'} : Waits U fs s0 s k → E.Step U fs s k s' k' → Waits U fs s0 s' k'
  | join {α : Type} {s k mine its n s' k' m ts} {c : Nat → Client α} {pool : Pool α} : Waits U fs s0 s k → Forked U fs s k mine its n c s' k' m ts pool →
      Waits U fs s0 (join (Base.of s) n mine its pool) (rejoin s k mine its n s' k')

/-! ## Numbers -/

section
variable {b n t u a a' : Nat}

theorem place_old (h : a < b) : place b n t a = a := by simp [place, h]
theorem place_new (h : b ≤ a) : place b n t a = b + ((a - b) * n + t) := by simp [place, Nat.not_lt.mpr h]

theorem place_lt_iff : place b n t a < b ↔ a < b := by
  unfold place; split <;> omega

theorem whose_place (h : b ≤ a) (ht : t < n) : whose b n (place b n t a) = t := by
  rw [place_new h]
  unfold whose
  rw [if_neg (by omega), Nat.add_sub_cancel_left, Nat.add_comm, Nat.add_mul_mod_self_right, Nat.mod_eq_of_lt ht]

theorem number_place (ht : t < n) : number b n (place b n t a) = a := by
  rcases Nat.lt_or_ge a b with h | h
  · rw [place_old h]; simp [number, h]
  · rw [place_new h]
    unfold number
    rw [if_neg (by omega), Nat.add_sub_cancel_left, Nat.add_comm _ t, Nat.add_mul_div_right _ _ (by omega), Nat.div_eq_of_lt ht]
    omega

theorem place_number (h : b ≤ a) : place b n (whose b n a) (number b n a) = a := by
  have e := Nat.div_add_mod (a - b) n
  simp only [whose, number, if_neg (Nat.not_lt.mpr h)]
  rw [place_new (Nat.le_add_right _ _), Nat.add_sub_cancel_left, Nat.mul_comm]
  omega

theorem place_inj (ht : t < n) (h : place b n t a = place b n t a') : a = a' := by
  rw [← number_place (b := b) (a := a) ht, h, number_place ht]

/-- Two goroutines name the same thing only if it was there before. -/
theorem place_two (ht : t < n) (hu : u < n) (hne : t ≠ u) (h : place b n t a = place b n u a') : a < b ∧ a' = a := by
  rcases Nat.lt_or_ge a b with h1 | h1
  · have h2 : a' < b := by rw [← place_lt_iff (n := n) (t := u), ← h, place_lt_iff]; exact h1
    rw [place_old h1, place_old h2] at h
    exact ⟨h1, h.symm⟩
  · have h2 : b ≤ a' := by
      rcases Nat.lt_or_ge a' b with h2 | h2
      · rw [← place_lt_iff (n := n) (t := u), ← h, place_lt_iff] at h2; omega
      · exact h2
    exact absurd (by rw [← whose_place h1 ht, h, whose_place h2 hu]) hne

theorem le_most {f : Nat → Nat} (ht : t < n) : f t ≤ most f n := by
  induction n with
  | zero => omega
  | succ n ih =>
    simp only [most]
    rcases Nat.lt_or_ge t n with h | h
    · have := ih h; omega
    · have : t = n := by omega
      subst this; omega

theorem place_lt_room {f : Nat → Nat} (ht : t < n) (h : a < f t) : place b n t a < room b n f := by
  unfold room
  rcases Nat.lt_or_ge a b with h1 | h1
  · rw [place_old h1]; omega
  · rw [place_new h1]
    have h2 : a - b + 1 ≤ most (fun t => f t - b) n := Nat.le_trans (by omega) (le_most (f := fun t => f t - b) ht)
    have h3 := Nat.mul_le_mul_right n h2
    rw [Nat.add_mul] at h3
    omega

theorem le_of_room {f : Nat → Nat} (ht : t < n) (h' : room b n f ≤ place b n t a) : f t ≤ a := by
  rcases Nat.lt_or_ge a (f t) with h1 | h1
  · have := place_lt_room (b := b) ht h1; omega
  · exact h1

theorem le_room {f : Nat → Nat} : b ≤ room b n f := Nat.le_add_right _ _

end

theorem getD_map_range {β : Type} (f : Nat → β) (L i : Nat) (d : β) : ((List.range L).map f).getD i d = if i < L then f i else d := by
  rw [List.getD_eq_getElem?_getD, List.getElem?_map]
  split
  · next h => rw [List.getElem?_range h]; rfl
  · next h => rw [List.getElem?_eq_none (by simpa using Nat.not_lt.mp h)]; rfl

/-! ## What a goroutine leaves as it was -/

/-- From `s` to `s'`, old locations that are not in `W` keep their value. -/
structure Kept (W : Loc → Prop) (s s' : GSt) : Prop where
  sized : E.Sized s.h.w s'.h.w
  next : s.next ≤ s'.next
  old : ∀ l, l.Old (Base.of s) → ¬ W l → read l s' = read l s

theorem Kept.trans {W : Loc → Prop} {s s1 s2 : GSt} (h : Kept W s s1) (h' : Kept W s1 s2) : Kept W s s2 := by
  obtain ⟨⟨a1, a2, a3⟩, a4, a5⟩ := h
  obtain ⟨⟨b1, b2, b3⟩, b4, b5⟩ := h'
  refine ⟨⟨by omega, fun i hi => (b2 i (by omega)).trans (a2 i hi), by omega⟩, by omega, fun l ho hw => (b5 l ?_ hw).trans (a5 l ho hw)⟩
  cases l <;> simp only [Loc.Old, Base.of] at ho ⊢ <;> omega

theorem read_newArr {l : Loc} {s : GSt} (h : l.Old (Base.of s)) (bs : List Byte) : read l (newArr bs s) = read l s := by
  cases l <;> try rfl
  case cell a q =>
    simp only [Loc.Old, Base.of] at h
    simp only [read, World.cell, World.arr, Conc.newArr, withW, List.getD_eq_getElem?_getD, List.getElem?_append_left h]
    rfl

theorem read_newMap {l : Loc} {s : GSt} (h : l.Old (Base.of s)) : read l (newMap s) = read l s := by
  cases l <;> try rfl
  case map id =>
    simp only [Loc.Old, Base.of] at h
    simp only [read, Conc.newMap, withW, List.getD_eq_getElem?_getD, List.getElem?_append_left h]
    rfl

theorem read_newStruct {l : Loc} {s : GSt} (h : l.Old (Base.of s)) (m : HMsg) : read l (newStruct m s) = read l s := by
  cases l <;> (try rfl) <;> (simp only [Loc.Old, Base.of] at h; simp only [read, Conc.newStruct, Heap.put]; rw [if_neg (by omega)])

theorem Prog.Safe.kept {α : Type} {R W : Loc → Prop} {Q : α → GSt → Prop} {p : Prog α} {s s' : GSt} {a : α} (h : p.Safe R W Q s) (hr : p.run s = .ok (a, s')) : Kept W s s' := by
  induction p generalizing s with
  | done b =>
    simp only [Prog.run, Except.ok.injEq, Prod.mk.injEq] at hr
    obtain ⟨rfl, rfl⟩ := hr
    exact ⟨⟨Nat.le_refl _, fun _ _ => rfl, Nat.le_refl _⟩, Nat.le_refl _, fun _ _ _ => rfl⟩
  | stop e => cases hr
  | load l k ih => exact ih _ h.2 hr
  | store w k ih =>
    refine Kept.trans ?_ (ih h.2 hr)
    obtain ⟨h1, h2, h3, _, h5⟩ := w.sameSize s
    exact ⟨⟨by omega, fun i _ => h2 i, by omega⟩, by omega, fun l _ hw => read_apply_ne (by rintro rfl; exact hw h.1)⟩
  | newArr bs k ih =>
    refine Kept.trans ?_ (ih _ h hr)
    refine ⟨⟨by simp [Conc.newArr, withW], fun i hi => ?_, Nat.le_refl _⟩, Nat.le_refl _, fun l ho _ => read_newArr ho bs⟩
    simp only [World.arr, Conc.newArr, withW, List.getD_eq_getElem?_getD, List.getElem?_append_left hi]
  | newMap k ih =>
    refine Kept.trans ?_ (ih _ h hr)
    exact ⟨⟨Nat.le_refl _, fun i hi => rfl, by simp [Conc.newMap, withW]⟩, Nat.le_refl _, fun l ho _ => read_newMap ho⟩
  | newStruct m k ih =>
    refine Kept.trans ?_ (ih _ h hr)
    exact ⟨⟨Nat.le_refl _, fun i hi => rfl, Nat.le_refl _⟩, Nat.le_succ _, fun l ho _ => read_newStruct ho m⟩

/-! ## Goroutines, with loops that are not cut off -/

section
variable {U : Unicode} {fs : List FileDesc} {pkg : Text} {R W : Loc → Prop} {α : Type}

/-- A goroutine that keeps to the rules makes no infinite loops. -/
theorem Follows.enough (c : Client α) : ∀ {g : Rights} {s : GSt}, Follows U fs R W c g s → Ev fun m => Enough (programOf U fs) m c s := by
  induction c with
  | done a => exact fun _ => .of fun _ => trivial
  | new n k ih => exact fun hf => ih _ hf
  | copy i k ih => exact fun ⟨_, _, hf⟩ => ih _ hf
  | make bs k ih => exact fun hf => ih _ hf
  | peek b k ih => exact fun hf => ih _ hf.2
  | poke a q x k ih => exact fun hf => ih hf.2
  | point v o k ih => exact fun hf => ih hf.2.2
  | look v k ih => exact fun hf => ih _ hf.2
  | call rt d t name args k ih =>
    rintro g s ⟨g', out, s1, _, hrun, hf⟩
    refine ((Ev.and (to_grun hrun) (ih out hf)).mono fun m hm => ⟨hm.1.trans hrun.symm, ?_⟩)
    rintro out' s' h
    rw [hrun] at h
    injection h with h; injection h with h1 h2
    subst h1; subst h2
    exact hm.2

/-- A goroutine that keeps to the rules ends when it runs alone, access by access, with the same result as method by method; and it uses only what it may. -/
theorem Follows.safe (hc : Compilable U fs pkg) {m : Nat} (c : Client α) : ∀ {g : Rights} {s : GSt}, Holds R W g s → Follows U fs R W c g s → Enough (programOf U fs) m c s →
    ∃ a s', c.alone (programOf U fs) s = .ok (a, s') ∧ (c.prog (programOf U fs) m).Safe R W (fun _ _ => True) s ∧ (c.prog (programOf U fs) m).run s = .ok (a, s') := by
  induction c with
  | done a => exact fun _ _ _ => ⟨a, _, rfl, trivial, rfl⟩
  | new n k ih =>
    intro g s hh hf he
    exact ih _ (hh.newStruct (m := .zero n) (Nat.le_refl _) (reaches_nil R) nofun nofun fun _ => reaches_nil W) hf he
  | copy i k ih =>
    intro g s hh hf he
    obtain ⟨lv, hi, hf⟩ := hf
    obtain ⟨hl, _, hs⟩ := hh.struct i lv hi
    obtain ⟨a, s', h1, h2, h3⟩ := ih _ (hh.newStruct hl hs.bytes hs.map hs.wmap hs.wbytes) hf he
    refine ⟨a, s', h1, ?_, ?_⟩
    · refine Prog.safe_bind ((safe_copyStruct hs).imp ?_)
      rintro _ _ ⟨rfl, rfl⟩
      exact h2
    · exact (to_copyStruct i s).bind h3
  | make bs k ih =>
    intro g s hh hf he
    exact ih _ (hh.quiet (i := 0) (keeps_newArr bs s)) hf he
  | peek b k ih =>
    intro g s hh hf he
    obtain ⟨a, s', h1, h2, h3⟩ := ih _ hh hf.2 he
    refine ⟨a, s', h1, ?_, ?_⟩
    · refine Prog.safe_bind ((safe_readSlice (Z := fun _ => True) hf.1 s).safe.and_run.imp ?_)
      rintro bs _ ⟨rfl, hr⟩
      rw [ends_readSlice b _] at hr
      injection hr with hr; injection hr with hr _
      rw [← hr]
      exact h2
    · exact To.bind (ends_readSlice b s) h3
  | poke a q x k ih =>
    intro g s hh hf he
    obtain ⟨a, s', h1, h2, h3⟩ := ih (hh.cell _ _ _) hf.2 he
    exact ⟨a, s', h1, ⟨hf.1, h2⟩, h3⟩
  | point v o k ih =>
    intro g s hh hf he
    obtain ⟨hv, ho, hf⟩ := hf
    obtain ⟨a, s', h1, h2, h3⟩ := ih (hh.point ho) hf he
    exact ⟨a, s', h1, ⟨(hh.iter v hv).2.1, h2⟩, h3⟩
  | look v k ih =>
    intro g s hh hf he
    obtain ⟨a, s', h1, h2, h3⟩ := ih _ hh hf.2 he
    exact ⟨a, s', h1, ⟨(hh.iter v hf.1).1, h2⟩, h3⟩
  | call rt d t name args k ih =>
    intro g s hh hf he
    obtain ⟨g', out, s1, hmay, hrun, hf⟩ := hf
    have hsafe := hmay.safe hc hh rt m d
    have hm := he.1.trans hrun
    obtain ⟨a, s', h1, h2, h3⟩ := ih out (hsafe.run hm).1 hf (he.2 _ _ hrun)
    refine ⟨a, s', ?_, ?_, ?_⟩
    · simp only [Client.alone, hrun]; exact h1
    · refine Prog.safe_bind (hsafe.and_run.imp ?_)
      rintro out' s2 ⟨_, hr⟩
      rw [hm] at hr
      injection hr with hr; injection hr with hr1 hr2
      rw [← hr1, ← hr2]
      exact h2
    · exact To.bind hm h3

end

/-! ## The memory after the goroutines have ended -/

/-- What is known about goroutines that have ended. -/
structure Ended {α : Type} (b : Base) (o : Owner) (s : GSt) (s' : Nat → GSt) (pool : Pool α) : Prop where
  one : ∀ t u, OneMemory b (pool t).2 (pool u).2
  agree : ∀ t, Agree (MayRead b o t) (s' t) (pool t).2
  kept : ∀ t, Kept (MayWrite b o t) s (s' t)

section
variable {α : Type} {b : Base} {o : Owner} {s : GSt} {s' : Nat → GSt} {pool : Pool α} {n : Nat} {mine its : Nat → Option Nat}

theorem join_arr (h : Ended b o s s' pool) {t : Nat} (ht : t < n) (a : Nat) : (join b n mine its pool).h.w.arr (place b.arrs n t a) = (pool t).2.h.w.arr a := by
  show ((List.range _).map _).getD _ [] = _
  rw [getD_map_range]
  rcases Nat.lt_or_ge a b.arrs with h1 | h1
  · have h2 := (h.one 0 t).arrs.2
    rw [place_old h1, if_pos (Nat.lt_of_lt_of_le h1 le_room)]
    simp only [whose, number, if_pos h1]
    exact ((h.one 0 t).arr a h1).symm
  · split
    · rw [whose_place h1 ht, number_place ht]
    · next h2 =>
      have := le_of_room (f := fun t => (pool t).2.h.w.arrs.length) ht (Nat.not_lt.mp h2)
      unfold World.arr
      rw [List.getD_eq_getElem?_getD, List.getElem?_eq_none this]; rfl

theorem join_map (h : Ended b o s s' pool) {t : Nat} (ht : t < n) (a : Nat) :
    (join b n mine its pool).h.w.maps.getD (place b.maps n t a) [] = (pool t).2.h.w.maps.getD a [] := by
  show ((List.range _).map _).getD _ [] = _
  rw [getD_map_range]
  rcases Nat.lt_or_ge a b.maps with h1 | h1
  · rw [place_old h1, if_pos (Nat.lt_of_lt_of_le h1 le_room)]
    simp only [whose, number, if_pos h1]
    exact ((h.one 0 t).map a h1).symm
  · split
    · rw [whose_place h1 ht, number_place ht]
    · next h2 =>
      have := le_of_room (f := fun t => (pool t).2.h.w.maps.length) ht (Nat.not_lt.mp h2)
      rw [List.getD_eq_getElem?_getD, List.getElem?_eq_none this]; rfl

/-- A struct, its bytes and its map, under their new numbers. -/
theorem join_msg (h : Ended b o s s' pool) {t : Nat} (ht : t < n) (m : HMsg) :
    (join b n mine its pool).h.w.msg (placeStruct b n t m) = (pool t).2.h.w.msg m ∧
    ((pool t).2.h.w.WF m → (join b n mine its pool).h.w.WF (placeStruct b n t m)) := by
  have e1 := join_arr (n := n) (mine := mine) (its := its) h ht m.buf.arr
  refine ⟨?_, fun ⟨⟨h1, h2⟩, h3⟩ => ⟨⟨h1, ?_⟩, ?_⟩⟩
  · have e2 : (join b n mine its pool).h.w.slice (placeSlice b n t m.buf) = (pool t).2.h.w.slice m.buf := by
      simp only [World.slice, World.full, placeSlice, e1]
    have e3 : (join b n mine its pool).h.w.offs (placeStruct b n t m) = (pool t).2.h.w.offs m := by
      unfold World.offs
      cases hm : m.m with
      | none => simp [placeStruct, hm]
      | some id =>
        simp only [placeStruct, hm, Option.map_some, Offsets.mk.injEq, true_and, Option.some.injEq]
        exact join_map h ht id
    unfold World.msg
    rw [e3]
    show Msg.mk _ _ = _
    rw [← e2]; rfl
  · show m.buf.off + m.buf.cap ≤ ((join b n mine its pool).h.w.arr (place b.arrs n t m.buf.arr)).length
    rw [e1]; exact h2
  · intro id hid
    simp only [placeStruct, Option.map_eq_some_iff] at hid
    obtain ⟨id0, h4, rfl⟩ := hid
    show _ < ((List.range _).map _).length
    rw [List.length_map, List.length_range]
    exact place_lt_room (f := fun t => (pool t).2.h.w.maps.length) ht (h3 id0 h4)

/-- A struct that a goroutine has or made. -/
theorem join_ms (h : Ended b o s s' pool) {t : Nat} (ht : t < n) {i : Nat} (hi : i < b.structs → mine i = some t) :
    (join b n mine its pool).h.ms (place b.structs n t i) = placeStruct b n t ((pool t).2.h.ms i) := by
  rcases Nat.lt_or_ge i b.structs with h1 | h1
  · rw [place_old h1]
    simp only [join, if_pos h1, hi h1]
    rw [(h.one 0 t).ms i h1]
  · have h2 : ¬ place b.structs n t i < b.structs := by rw [place_lt_iff]; omega
    simp only [join, if_neg h2]
    rw [whose_place h1 ht, number_place ht]

theorem join_ms_old (h : i < b.structs) (hi : mine i = none) : (join b n mine its pool).h.ms i = (pool 0).2.h.ms i := by
  simp only [join, if_pos h, hi]

/-- What a goroutine may read, it reads as if it had run alone. -/
theorem Agree.ms {R : Loc → Prop} {s s1 : GSt} (h : Agree R s s1) {i : Nat} (h1 : R (.buf i)) (h2 : ∀ k, R (.slot i k)) (h3 : R (.ref i)) : s1.h.ms i = s.h.ms i := by
  have e1 := h.same _ h1
  have e2 := fun k => h.same _ (h2 k)
  have e3 := h.same _ h3
  simp only [read] at e1 e2 e3
  cases hm : s1.h.ms i with
  | mk x1 x2 x3 =>
    cases hm' : s.h.ms i with
    | mk y1 y2 y3 =>
      rw [hm, hm'] at e1 e2 e3
      simp only at e1 e2 e3
      rw [e1, e3, List.ext_getElem? e2]

theorem Agree.msg {R : Loc → Prop} {s s1 : GSt} (h : Agree R s s1) {m : HMsg} (hw : s.h.w.WF m) (h1 : ∀ a q, m.buf.owns a q → R (.cell a q)) (h2 : ∀ id, m.m = some id → R (.map id)) :
    s1.h.w.WF m ∧ s1.h.w.msg m = s.h.w.msg m :=
  E.keep_msg ⟨by have := h.size.arrs; omega, fun i _ => h.size.arr i, by have := h.size.maps; omega⟩ hw (.refl _) (fun a q ho => h.same _ (h1 a q ho)) fun id hid => h.same _ (h2 id hid)

end

theorem ms_ext {s s1 : GSt} {i : Nat} (e1 : read (.buf i) s1 = read (.buf i) s) (e2 : ∀ k, read (.slot i k) s1 = read (.slot i k) s) (e3 : read (.ref i) s1 = read (.ref i) s) :
    s1.h.ms i = s.h.ms i := by
  simp only [read] at e1 e2 e3
  cases hm : s1.h.ms i with
  | mk x1 x2 x3 =>
    cases hm' : s.h.ms i with
    | mk y1 y2 y3 =>
      rw [hm, hm'] at e1 e2 e3
      simp only at e1 e2 e3
      rw [e1, e3, List.ext_getElem? e2]

theorem not_mayWrite {b : Base} {o : Owner} {l : Loc} (ho : l.Old b) (hn : o l = none) (t : Nat) : ¬ MayWrite b o t l := by
  rintro (h | h)
  · exact h ho
  · rw [hn] at h; cases h

section
variable {U : Unicode} {fs : List FileDesc} {pkg : Text} {α : Type} {s : GSt} {k : Known} {mine its : Nat → Option Nat} {s' : Nat → GSt} {k' : Nat → Known} {pool : Pool α} {n : Nat}

/-- A location that was there before and that nobody had. -/
theorem Ended.shared {b : Base} {o : Owner} (h : Ended b o s s' pool) (hb : b = Base.of s) {l : Loc} (ho : l.Old b) (hn : o l = none) : read l (pool 0).2 = read l s := by
  subst hb
  exact ((h.agree 0).same l (Or.inr hn)).trans ((h.kept 0).old l ho (not_mayWrite ho hn 0))

theorem join_shared_ms (h : Ended (Base.of s) (handOut k s mine its) s s' pool) {i : Nat} (hi : i < s.next) (hn : mine i = none) : (join (Base.of s) n mine its pool).h.ms i = s.h.ms i := by
  rw [join_ms_old (b := Base.of s) hi hn]
  exact ms_ext (h.shared rfl (l := .buf i) hi hn) (fun j => h.shared rfl (l := .slot i j) hi hn) (h.shared rfl (l := .ref i) hi hn)

theorem join_shared_cell (h : Ended (Base.of s) (handOut k s mine its) s s' pool) (hpos : 0 < n) {a q : Nat} (ha : a < s.h.w.arrs.length) (hn : handOut k s mine its (.cell a q) = none) :
    (join (Base.of s) n mine its pool).h.w.cell a q = s.h.w.cell a q := by
  have e := join_arr (n := n) (mine := mine) (its := its) h hpos a
  rw [place_old (b := (Base.of s).arrs) ha] at e
  have := h.shared rfl (l := .cell a q) ha hn
  simp only [read] at this
  rw [← this]
  unfold World.cell
  rw [e]

theorem join_shared_map (h : Ended (Base.of s) (handOut k s mine its) s s' pool) (hpos : 0 < n) {id : Nat} (ha : id < s.h.w.maps.length) (hn : handOut k s mine its (.map id) = none) :
    (join (Base.of s) n mine its pool).h.w.maps.getD id [] = s.h.w.maps.getD id [] := by
  have e := join_map (n := n) (mine := mine) (its := its) h hpos id
  rw [place_old (b := (Base.of s).maps) ha] at e
  rw [e]
  exact h.shared rfl (l := .map id) ha hn

theorem join_sized (h : Ended (Base.of s) (handOut k s mine its) s s' pool) (hpos : 0 < n) : E.Sized s.h.w (join (Base.of s) n mine its pool).h.w := by
  refine ⟨?_, fun a ha => ?_, ?_⟩
  · show _ ≤ ((List.range _).map _).length
    rw [List.length_map, List.length_range]
    exact le_room
  · have e := join_arr (n := n) (mine := mine) (its := its) h hpos a
    rw [place_old (b := (Base.of s).arrs) ha] at e
    rw [e, (h.agree 0).size.arr, (h.kept 0).sized.2.1 a ha]
  · show _ ≤ ((List.range _).map _).length
    rw [List.length_map, List.length_range]
    exact le_room

/-- A struct of goroutine `t`. -/
theorem Yours.given {t i : Nat} {x : GSt} (h : Yours (Base.of s) (handOut k s mine its) t x i) (hi : i < s.next) : mine i = some t :=
  (h.struct (.buf i) (Or.inl rfl)).resolve_left fun ho => ho hi

theorem Yours.ms {t i : Nat} (he : Ended (Base.of s) (handOut k s mine its) s s' pool) (h : Yours (Base.of s) (handOut k s mine its) t (s' t) i) : (pool t).2.h.ms i = (s' t).h.ms i :=
  (he.agree t).ms (Or.inl (h.struct _ (Or.inl rfl))) (fun j => Or.inl (h.struct _ (Or.inr (Or.inl ⟨j, rfl⟩)))) (Or.inl (h.struct _ (Or.inr (Or.inr rfl))))

/-- Where the entries come from. -/
theorem rejoin_from (hpos : 0 < n) {i : Nat} {e : Entry} (h : (rejoin s k mine its n s' k').structs i = some e) :
    (i < s.next ∧ mine i = none ∧ k.structs i = some e) ∨
    ∃ t j e0, t < n ∧ i = place s.next n t j ∧ Back (Base.of s) (handOut k s mine its) mine k t (s' t) (k' t) j e0 ∧ e = { e0 with view := e0.view.map (place s.next n t) } := by
  have hback : ∀ t j, back (Base.of s) (handOut k s mine its) mine k n t (s' t) (k' t) j = some e →
      ∃ e0, Back (Base.of s) (handOut k s mine its) mine k t (s' t) (k' t) j e0 ∧ e = { e0 with view := e0.view.map (place s.next n t) } := by
    intro t j hb
    unfold back at hb
    rw [Option.bind_eq_some_iff] at hb
    obtain ⟨e0, h1, h2⟩ := hb
    split at h2
    · next h3 => injection h2 with h2; exact ⟨e0, h3, h2.symm⟩
    · cases h2
  simp only [rejoin] at h
  split at h
  · next hi =>
    cases hm : mine i with
    | none => rw [hm] at h; exact Or.inl ⟨hi, rfl, h⟩
    | some t =>
      rw [hm] at h
      simp only at h
      split at h
      · next ht =>
        obtain ⟨e0, h1, h2⟩ := hback t i h
        exact Or.inr ⟨t, i, e0, ht, (place_old hi).symm, h1, h2⟩
      · cases h
  · next hi =>
    obtain ⟨e0, h1, h2⟩ := hback _ _ h
    refine Or.inr ⟨whose s.next n i, number s.next n i, e0, ?_, (place_number (Nat.not_lt.mp hi)).symm, h1, h2⟩
    simp only [whose, if_neg hi]
    exact Nat.mod_lt _ hpos

/-- The entries that come from goroutines. -/
theorem rejoin_back {t j : Nat} {e0 : Entry} (ht : t < n) (h : Back (Base.of s) (handOut k s mine its) mine k t (s' t) (k' t) j e0) :
    (rejoin s k mine its n s' k').structs (place s.next n t j) = some { e0 with view := e0.view.map (place s.next n t) } := by
  have hback : back (Base.of s) (handOut k s mine its) mine k n t (s' t) (k' t) j = some { e0 with view := e0.view.map (place s.next n t) } := by
    unfold back
    rw [h.1]
    simp only [Option.bind_some, if_pos h]
    rfl
  rcases Nat.lt_or_ge j s.next with hj | hj
  · rw [place_old hj]
    simp only [rejoin, if_pos hj, h.2.1.given hj, if_pos ht]
    exact hback
  · have : ¬ place s.next n t j < s.next := by rw [place_lt_iff]; omega
    simp only [rejoin, if_neg this]
    rw [whose_place hj ht, number_place ht]
    exact hback

theorem rejoin_shared {i : Nat} (hi : i < s.next) (hn : mine i = none) : (rejoin s k mine its n s' k').structs i = k.structs i := by
  simp only [rejoin, if_pos hi, hn]

/-- The invariant holds after the goroutines have ended. -/
theorem join_inv (hinv : Inv U fs s k) (hm : ∀ i e, k.structs i = some e → mine i = mine (e.root i)) (hpos : 0 < n)
    (he : Ended (Base.of s) (handOut k s mine its) s s' pool) (hk : ∀ t, Inv U fs (s' t) (k' t)) :
    Inv U fs (join (Base.of s) n mine its pool) (rejoin s k mine its n s' k') := by
  have hsized := join_sized (n := n) he hpos
  -- structs that were not handed out
  have cell0 : ∀ i e, k.structs i = some e → mine i = none → ∀ a q, (s.h.ms i).buf.owns a q → a < s.h.w.arrs.length ∧ handOut k s mine its (.cell a q) = none := by
    intro i e hi hn a q ho
    exact ⟨(hinv.struct i e hi).2.2.1.1.cell_lt ho, (handOut_cell hinv hm hi ho).trans hn⟩
  have map0 : ∀ i e, k.structs i = some e → mine i = none → ∀ id, (s.h.ms i).m = some id → id < s.h.w.maps.length ∧ handOut k s mine its (.map id) = none := by
    intro i e hi hn id ho
    exact ⟨(hinv.struct i e hi).2.2.1.2 id ho, (handOut_map hinv hi ho).trans hn⟩
  have ms0 : ∀ i e, k.structs i = some e → mine i = none → (join (Base.of s) n mine its pool).h.ms i = s.h.ms i :=
    fun i e hi hn => join_shared_ms he (hinv.struct i e hi).2.1 hn
  -- structs of goroutines
  have ms1 : ∀ t j, t < n → Yours (Base.of s) (handOut k s mine its) t (s' t) j →
      (join (Base.of s) n mine its pool).h.ms (place s.next n t j) = placeStruct (Base.of s) n t ((s' t).h.ms j) := by
    intro t j ht hy
    rw [← hy.ms he]
    exact join_ms he ht hy.given
  have cell1 : ∀ t j e0, Back (Base.of s) (handOut k s mine its) mine k t (s' t) (k' t) j e0 → e0.view = none → ∀ a q, ((s' t).h.ms j).buf.owns a q →
      MayWrite (Base.of s) (handOut k s mine its) t (.cell a q) := by
    rintro t j e0 ⟨_, _, h3⟩ hv a q ⟨rfl, h4, h5⟩
    rw [hv] at h3
    exact h3 q h4 (by omega)
  -- what a goroutine reads of the others
  have ms2 : ∀ t r er, k.structs r = some er → mine r = none → (s' t).h.ms r = s.h.ms r := by
    intro t r er hr hn
    have hlt := (hinv.struct r er hr).2.1
    exact ms_ext ((he.kept t).old (.buf r) hlt (not_mayWrite (b := Base.of s) (l := .buf r) hlt hn t)) (fun j => (he.kept t).old (.slot r j) hlt (not_mayWrite (b := Base.of s) (l := .slot r j) hlt hn t))
      ((he.kept t).old (.ref r) hlt (not_mayWrite (b := Base.of s) (l := .ref r) hlt hn t))
  have cell2 : ∀ t j e0, Back (Base.of s) (handOut k s mine its) mine k t (s' t) (k' t) j e0 → ∀ a q, ((s' t).h.ms j).buf.owns a q →
      MayRead (Base.of s) (handOut k s mine its) t (.cell a q) := by
    intro t j e0 hb a q ho
    cases hv : e0.view with
    | none => exact Or.inl (cell1 t j e0 hb hv a q ho)
    | some r =>
      obtain ⟨h1, h2, h3⟩ := hb
      rw [hv] at h3
      obtain ⟨er, v1, v2, v3⟩ := (hk t).views j e0 r h1 hv
      have ho := v3 a q ho
      rcases h3 with ⟨_, _, _, _, h4⟩ | ⟨h4, er', h5, h6⟩
      · obtain ⟨rfl, h5, h6⟩ := ho
        exact Or.inl (h4 q h5 (by omega))
      · rw [ms2 t r er' h5 h4] at ho
        exact Or.inr (cell0 r er' h5 h4 a q ho).2
  refine ⟨?_, ?_, ?_, ?_, ?_⟩
  · intro i e hi
    rcases rejoin_from hpos hi with ⟨hlt, hn, hi⟩ | ⟨t, j, e0, ht, rfl, hb, rfl⟩
    · obtain ⟨s1, s2, s3, hv, rs, s4⟩ := hinv.struct i e hi
      rw [ms0 i e hi hn]
      obtain ⟨k1, k2⟩ := E.keep_msg hsized s3 (.refl _) (fun a q ho => join_shared_cell he hpos (cell0 i e hi hn a q ho).1 (cell0 i e hi hn a q ho).2)
        fun id ho => join_shared_map he hpos (map0 i e hi hn id ho).1 (map0 i e hi hn id ho).2
      exact ⟨s1, Nat.lt_of_lt_of_le s2 (le_room (n := n)), k1, hv, rs, by rw [k2]; exact s4⟩
    · obtain ⟨s1, s2, s3, hv, rs, s4⟩ := (hk t).struct j e0 hb.1
      rw [ms1 t j ht hb.2.1]
      obtain ⟨k1, k2⟩ := (he.agree t).msg s3 (cell2 t j e0 hb) fun id hid => Or.inl (hb.2.1.map id hid)
      obtain ⟨j1, j2⟩ := join_msg (n := n) (mine := mine) (its := its) he ht ((s' t).h.ms j)
      refine ⟨s1, ?_, j2 k1, hv, rs, by rw [j1, k2]; exact s4⟩
      exact place_lt_room (f := fun t => (pool t).2.next) ht (by rw [(he.agree t).size.next]; exact s2)
  · intro i i' e e' hne hi hi' hv hv' a q ho ho'
    rcases rejoin_from hpos hi with ⟨hlt, hn, hi⟩ | ⟨t, j, e0, ht, rfl, hb, rfl⟩
    · rw [ms0 i e hi hn] at ho
      rcases rejoin_from hpos hi' with ⟨hlt', hn', hi'⟩ | ⟨t', j', e0', ht', rfl, hb', rfl⟩
      · rw [ms0 i' e' hi' hn'] at ho'
        exact hinv.bufs i i' e e' hne hi hi' hv hv' a q ho ho'
      · rw [ms1 t' j' ht' hb'.2.1] at ho'
        obtain ⟨ha, hc⟩ := cell0 i e hi hn a q ho
        obtain ⟨rfl, h2, h3⟩ := ho'
        have ha' : ((s' t').h.ms j').buf.arr < s.h.w.arrs.length := place_lt_iff.1 ha
        have hw := cell1 t' j' e0' hb' (by simpa using hv') ((s' t').h.ms j').buf.arr q ⟨rfl, h2, h3⟩
        simp only [placeStruct, placeSlice, Base.of, place_old ha'] at hc
        exact not_mayWrite (show Loc.Old (Base.of s) (.cell _ _) from ha') hc t' hw
    · rw [ms1 t j ht hb.2.1] at ho
      obtain ⟨rfl, h2, h3⟩ := ho
      rcases rejoin_from hpos hi' with ⟨hlt', hn', hi'⟩ | ⟨t', j', e0', ht', rfl, hb', rfl⟩
      · rw [ms0 i' e' hi' hn'] at ho'
        obtain ⟨ha, hc⟩ := cell0 i' e' hi' hn' _ q ho'
        have ha' : ((s' t).h.ms j).buf.arr < s.h.w.arrs.length := place_lt_iff.1 ha
        have hw := cell1 t j e0 hb (by simpa using hv) ((s' t).h.ms j).buf.arr q ⟨rfl, h2, h3⟩
        simp only [placeStruct, placeSlice, Base.of, place_old ha'] at hc
        exact not_mayWrite (show Loc.Old (Base.of s) (.cell _ _) from ha') hc t hw
      · rw [ms1 t' j' ht' hb'.2.1] at ho'
        obtain ⟨h4, h5, h6⟩ := ho'
        have o1 : ((s' t).h.ms j).buf.owns ((s' t).h.ms j).buf.arr q := ⟨rfl, h2, h3⟩
        have o2 : ((s' t').h.ms j').buf.owns ((s' t').h.ms j').buf.arr q := ⟨rfl, h5, h6⟩
        by_cases htt : t = t'
        · subst htt
          have e1 : ((s' t).h.ms j').buf.arr = ((s' t).h.ms j).buf.arr := place_inj ht h4
          rw [e1] at o2
          exact (hk t).bufs j j' e0 e0' (fun h => hne (by rw [h])) hb.1 hb'.1 (by simpa using hv) (by simpa using hv') _ q o1 o2
        · obtain ⟨h7, h8⟩ := place_two ht ht' htt (Eq.symm h4)
          rw [h8] at o2
          have w1 := cell1 t j e0 hb (by simpa using hv) _ q o1
          have w2 := cell1 t' j' e0' hb' (by simpa using hv') _ q o2
          exact (separate (Base.of s) (handOut k s mine its) t t' _ htt (show Loc.Old (Base.of s) (.cell _ _) from h7) w1).2 w2
  · intro i e r hi hv
    rcases rejoin_from hpos hi with ⟨hlt, hn, hi⟩ | ⟨t, j, e0, ht, rfl, hb, rfl⟩
    · obtain ⟨er, v1, v2, v3⟩ := hinv.views i e r hi hv
      have hnr : mine r = none := by
        have := hm i e hi
        simp only [Entry.root, hv, Option.getD_some] at this
        rw [← this]; exact hn
      refine ⟨er, ?_, v2, ?_⟩
      · rw [rejoin_shared (hinv.struct r er v1).2.1 hnr]; exact v1
      · rw [ms0 i e hi hn, ms0 r er v1 hnr]; exact v3
    · simp only [Option.map_eq_some_iff] at hv
      obtain ⟨r0, hv, rfl⟩ := hv
      obtain ⟨er, v1, v2, v3⟩ := (hk t).views j e0 r0 hb.1 hv
      have h3 := hb.2.2
      rw [hv] at h3
      rw [ms1 t j ht hb.2.1]
      rcases h3 with ⟨er', h4, h5, h6, h7⟩ | ⟨h4, er', h5, h6⟩
      · refine ⟨_, rejoin_back (e0 := er') ht ⟨h4, h6, by rw [h5]; exact h7⟩, by simp [h5], ?_⟩
        rw [ms1 t r0 ht h6]
        rintro a q ⟨h8, h9, h10⟩
        obtain ⟨w1, w2, w3⟩ := v3 _ q ⟨rfl, h9, h10⟩
        exact ⟨by rw [← h8]; exact congrArg (place s.h.w.arrs.length n t) w1, w2, w3⟩
      · have hlt := (hinv.struct r0 er' h5).2.1
        rw [place_old hlt]
        refine ⟨er', by rw [rejoin_shared hlt h4]; exact h5, h6, ?_⟩
        rw [ms0 r0 er' h5 h4]
        rintro a q ⟨h8, h9, h10⟩
        have w := v3 _ q ⟨rfl, h9, h10⟩
        rw [ms2 t r0 er' h5 h4] at w
        have hlt := (cell0 r0 er' h5 h4 _ q w).1
        rw [← h8]
        simp only [placeStruct, placeSlice, Base.of, place_old hlt]
        exact w
  · intro i i' e e' hne hi hi' id ho ho'
    rcases rejoin_from hpos hi with ⟨hlt, hn, hi⟩ | ⟨t, j, e0, ht, rfl, hb, rfl⟩
    · rw [ms0 i e hi hn] at ho
      rcases rejoin_from hpos hi' with ⟨hlt', hn', hi'⟩ | ⟨t', j', e0', ht', rfl, hb', rfl⟩
      · rw [ms0 i' e' hi' hn'] at ho'
        exact hinv.maps i i' e e' hne hi hi' id ho ho'
      · rw [ms1 t' j' ht' hb'.2.1] at ho'
        obtain ⟨ha, hc⟩ := map0 i e hi hn id ho
        simp only [placeStruct, Option.map_eq_some_iff] at ho'
        obtain ⟨id0, h2, rfl⟩ := ho'
        have ha' : id0 < s.h.w.maps.length := place_lt_iff.1 ha
        simp only [Base.of, place_old ha'] at hc
        exact not_mayWrite (show Loc.Old (Base.of s) (.map _) from ha') hc t' (hb'.2.1.map id0 h2)
    · rw [ms1 t j ht hb.2.1] at ho
      simp only [placeStruct, Option.map_eq_some_iff] at ho
      obtain ⟨id0, h2, rfl⟩ := ho
      rcases rejoin_from hpos hi' with ⟨hlt', hn', hi'⟩ | ⟨t', j', e0', ht', rfl, hb', rfl⟩
      · rw [ms0 i' e' hi' hn'] at ho'
        obtain ⟨ha, hc⟩ := map0 i' e' hi' hn' _ ho'
        have ha' : id0 < s.h.w.maps.length := place_lt_iff.1 ha
        simp only [Base.of, place_old ha'] at hc
        exact not_mayWrite (show Loc.Old (Base.of s) (.map _) from ha') hc t (hb.2.1.map id0 h2)
      · rw [ms1 t' j' ht' hb'.2.1] at ho'
        simp only [placeStruct, Option.map_eq_some_iff] at ho'
        obtain ⟨id1, h3, h4⟩ := ho'
        by_cases htt : t = t'
        · subst htt
          have e1 := place_inj ht h4
          rw [e1] at h3
          exact (hk t).maps j j' e0 e0' (fun h => hne (by rw [h])) hb.1 hb'.1 id0 h2 h3
        · obtain ⟨h7, h8⟩ := place_two ht ht' htt (Eq.symm h4)
          subst h8
          exact (separate (Base.of s) (handOut k s mine its) t t' _ htt (show Loc.Old (Base.of s) (.map _) from h7) (hb.2.1.map _ h2)).2 (hb'.2.1.map _ h3)
  · intro v c hv
    simp only [rejoin] at hv
    split at hv
    · next hn =>
      simp only [Option.filter_eq_some_iff, decide_eq_true_eq] at hv
      obtain ⟨hv, hno⟩ := hv
      obtain ⟨⟨eo, o1, o2⟩, B, w0, it, m, els, b1, b2, b3, b4, b5, b6, b7⟩ := hinv.iters v c hv
      have hlt := (hinv.struct _ _ o1).2.1
      have hkeep := E.keep_slice hsized b2 b1 fun a q ho => join_shared_cell he hpos (cell0 _ _ o1 hno a q ho).1 (cell0 _ _ o1 hno a q ho).2
      refine ⟨⟨eo, by rw [rejoin_shared hlt hno]; exact o1, o2⟩, B, w0, it, m, els, ?_, hkeep.1, ⟨hkeep.1, by rw [hkeep.2]; exact b3.2⟩, ?_, b5, b6, b7⟩
      · rw [ms0 _ _ o1 hno]; exact b1
      · rw [← b4]
        simp only [join, hn]
        exact he.shared rfl (l := .iter v) trivial hn
    · cases hv

end

/-! ## C79 -/

section
variable {U : Unicode} {fs : List FileDesc} {pkg : Text} {α : Type} {s0 s : GSt} {k : Known} {mine its : Nat → Option Nat} {s' : Nat → GSt} {k' : Nat → Known} {pool : Pool α} {n : Nat}
  {c : Nat → Client α} {m : Nat → Nat} {ts : List Nat}

theorem Steps.inv (hc : Compilable U fs pkg) {s s' : GSt} {k k' : Known} (h : Steps U fs s k s' k') (hi : Inv U fs s k) : Inv U fs s' k' := by
  induction h with
  | refl => exact hi
  | step _ h ih => exact ih.step hc h

theorem Inv.forked (hc : Compilable U fs pkg) (hinv : Inv U fs s k) (h : Forked U fs s k mine its n c s' k' m ts pool) :
    Ended (Base.of s) (handOut k s mine its) s s' pool ∧ Raceless (Base.of s) pool ∧ ∀ t a, (pool t).1 = .done a → (c t).alone (programOf U fs) s = .ok (a, s' t) := by
  have hall := fun t => (h.rules t).safe hc (c t) (holds_rightsOf hinv h.views t) (h.enough t)
  have hall : ∀ t, ∃ a, (c t).alone (programOf U fs) s = .ok (a, s' t) ∧ ((c t).prog (programOf U fs) (m t)).Safe (MayRead (Base.of s) (handOut k s mine its) t) (MayWrite (Base.of s) (handOut k s mine its) t)
      (fun _ _ => True) s ∧ ((c t).prog (programOf U fs) (m t)).run s = .ok (a, s' t) := by
    intro t
    obtain ⟨a, x, h1, h2, h3⟩ := hall t
    obtain ⟨a', h4⟩ := h.alone t
    rw [h1] at h4
    injection h4 with h4; injection h4 with h4 h5
    subst h5
    exact ⟨a, h1, h2, h3⟩
  have hsafe := fun t => (hall t).choose_spec.2.1
  have hsep := separate (Base.of s) (handOut k s mine its)
  have key : ∀ t a, (pool t).1 = .done a → (c t).alone (programOf U fs) s = .ok (a, s' t) ∧ Agree (MayRead (Base.of s) (handOut k s mine its) t) (s' t) (pool t).2 := by
    intro t a ha
    obtain ⟨s1, r1, _, r3, _⟩ := interleave hsep hsafe h.moves t
    obtain ⟨a', h1, _, h3⟩ := hall t
    have r5 : (pool t).1.run s1 = .ok (a', s' t) := by rw [← r1.run]; exact h3
    rw [ha] at r5
    injection r5 with r5; injection r5 with e1 e2
    subst e1; subst e2
    exact ⟨h1, r3⟩
  refine ⟨⟨oneMemory h.moves, fun t => ?_, fun t => ?_⟩, raceless hsep (fun t l => Or.inl) hsafe h.moves, fun t a ha => (key t a ha).1⟩
  · obtain ⟨a, ha⟩ := h.ended t
    exact (key t a ha).2
  · obtain ⟨a, _, h2, h3⟩ := hall t
    exact h2.kept h3

theorem waits_inv (hc : Compilable U fs pkg) (h : Waits U fs s0 s k) : Inv U fs s k := by
  induction h with
  | start => exact ⟨nofun, nofun, nofun, nofun, nofun⟩
  | step _ hs ih => exact ih.step hc hs
  | join _ hf ih => exact join_inv ih hf.views hf.pos (Inv.forked hc ih hf).1 fun t => (hf.steps t).inv hc ih

/-- An iterator that the invariant is about. -/
theorem Inv.points (hinv : Inv U fs s k) {v : Nat} {q : Cursor} (hv : k.iters v = some q) : Points (programOf U fs) s v q := by
  obtain ⟨_, B, w0, its, n, els, b1, b2, b3, b4, b5, b6, b7⟩ := hinv.iters v q hv
  refine ⟨fun bs rest hk rt d j hj => ?_, fun hk rt d j hj => ?_⟩
  · rw [hk] at b5
    have hn : n < els.length := by
      rcases Nat.lt_or_ge n els.length with hn | hn
      · exact hn
      · rw [List.drop_eq_nil_of_le hn] at b5; cases b5
    have hcons := List.drop_eq_getElem_cons hn
    rw [← b5] at hcons
    injection hcons with c1 c2
    obtain ⟨b, e1, e2, e3, e4⟩ := (b7.1 n v j s b3 b4 hj rt d).1 hn
    exact ⟨b, its (n + 1), e1.trans b1, e2, by rw [e3, c1], e4⟩
  · rw [hk] at b5
    have hn : els.length ≤ n := by
      rcases Nat.lt_or_ge n els.length with hn | hn
      · rw [List.drop_eq_getElem_cons hn] at b5; cases b5
      · exact hn
    exact (b7.1 n v j s b3 b4 hj rt d).2 hn

/-- C79: a program makes calls, starts goroutines and waits for them, as often as it likes. At every moment between, every struct that it knows, of its own or from a goroutine, is seen as the
record of the calls made on it, and its iterators are about to yield what they have not yielded. -/
theorem C79_programs (hc : Compilable U fs pkg) (h : Waits U fs s0 s k) :
    (∀ i e, k.structs i = some e → Shows U (programOf U fs) e.type i s e.contents) ∧ (∀ v q, k.iters v = some q → Points (programOf U fs) s v q) :=
  ⟨fun _ _ hi => (waits_inv hc h).shows hc hi, fun _ _ hv => Inv.points (waits_inv hc h) hv⟩

/-- C79: when such a program starts goroutines that keep to the rules, they do not race, and each one gets the results that it gets alone. -/
theorem C79_fork (hc : Compilable U fs pkg) (h : Waits U fs s0 s k) (hm : ∀ i e, k.structs i = some e → mine i = mine (e.root i)) (c : Nat → Client α)
    (hf : ∀ t, Follows U fs (MayRead (Base.of s) (handOut k s mine its) t) (MayWrite (Base.of s) (handOut k s mine its) t) (c t) (rightsOf k s mine its t) s) :
    RunsAsAlone (programOf U fs) (handOut k s mine its) c s :=
  C67_races hc _ c _ (fun t => holds_rightsOf (waits_inv hc h) hm t) hf

/-- C79: what the program gets from the goroutines it waited for: the results that they have alone; every struct of a goroutine, seen as the goroutine knows it; and every struct that it
did not hand out, as it was. -/
theorem C79_join (hc : Compilable U fs pkg) (h : Waits U fs s0 s k) (hf : Forked U fs s k mine its n c s' k' m ts pool) :
    (∀ t, ∃ a, (pool t).1 = .done a ∧ (c t).alone (programOf U fs) s = .ok (a, s' t)) ∧
    (∀ t i e, t < n → Back (Base.of s) (handOut k s mine its) mine k t (s' t) (k' t) i e →
      Shows U (programOf U fs) e.type (place s.next n t i) (join (Base.of s) n mine its pool) e.contents) ∧
    (∀ i e, k.structs i = some e → mine i = none → Shows U (programOf U fs) e.type i (join (Base.of s) n mine its pool) e.contents) := by
  have hinv := waits_inv hc h
  have h2 := C79_programs hc (h.join hf)
  refine ⟨fun t => ?_, fun t i e ht hb => ?_, fun i e hi hn => ?_⟩
  · obtain ⟨a, ha⟩ := hf.ended t
    exact ⟨a, ha, (Inv.forked hc hinv hf).2.2 t a ha⟩
  · have := h2.1 _ _ (rejoin_back (s' := s') (k' := k') ht hb)
    exact this
  · exact h2.1 i e (by rw [rejoin_shared (hinv.struct i e hi).2.1 hn]; exact hi)

/-- C79: a struct that a goroutine may change in the end, with memory of its own, comes back to the program. -/
theorem C79_back {t i : Nat} {g : Rights} {x : GSt} {kt : Known} {e : Entry} (hh : Holds (MayRead (Base.of s) (handOut k s mine its) t) (MayWrite (Base.of s) (handOut k s mine its) t) g x)
    (hi : g.level i = some 2) (he : kt.structs i = some e) (hv : e.view = none) : Back (Base.of s) (handOut k s mine its) mine k t x kt i e := by
  obtain ⟨_, _, h⟩ := hh.struct i 2 hi
  refine ⟨he, ⟨?_, fun id hid => h.wmap id (by omega) hid⟩, by rw [hv]; exact h.wbytes (by omega)⟩
  rintro l (rfl | ⟨q, rfl⟩ | rfl)
  · exact h.wbuf (by omega)
  · exact h.wslot q (by omega)
  · exact h.wref (by omega)

/-- C79: and so does a view that a goroutine filled, of such a struct or of one that was not handed out. -/
theorem C79_back_view {t i r lv : Nat} {g : Rights} {x : GSt} {kt : Known} {e er : Entry}
    (hh : Holds (MayRead (Base.of s) (handOut k s mine its) t) (MayWrite (Base.of s) (handOut k s mine its) t) g x) (hi : g.level i = some lv) (hlv : 1 ≤ lv) (he : kt.structs i = some e)
    (hv : e.view = some r) (hvr : er.view = none) (hr : (kt.structs r = some er ∧ g.level r = some 2) ∨ (k.structs r = some er ∧ mine r = none)) :
    Back (Base.of s) (handOut k s mine its) mine k t x kt i e := by
  obtain ⟨_, _, h⟩ := hh.struct i lv hi
  refine ⟨he, ⟨?_, fun id hid => h.wmap id hlv hid⟩, ?_⟩
  · rintro l (rfl | ⟨q, rfl⟩ | rfl)
    · exact h.wbuf hlv
    · exact h.wslot q hlv
    · exact h.wref hlv
  · rw [hv]
    rcases hr with ⟨h1, h2⟩ | ⟨h1, h2⟩
    · have hb := C79_back (mine := mine) (its := its) hh h2 h1 hvr
      have h3 := hb.2.2
      rw [hvr] at h3
      exact Or.inl ⟨er, h1, hvr, hb.2.1, h3⟩
    · exact Or.inr ⟨h2, er, h1, hvr⟩

/-- The sum of `f 0`, …, `f (n - 1)`. -/
def total (f : Nat → Nat) : Nat → Nat
  | 0 => 0
  | n + 1 => total f n + f n

theorem total_le {f g : Nat → Nat} (h : ∀ u, g u ≤ f u) : total g n ≤ total f n := by
  induction n with
  | zero => exact Nat.le_refl _
  | succ n ih => have := h n; simp only [total]; omega

theorem total_lt {f g : Nat → Nat} (h : ∀ u, g u ≤ f u) {t : Nat} (ht : t < n) (hlt : g t < f t) : total g n < total f n := by
  induction n with
  | zero => omega
  | succ n ih =>
    have h1 := h n
    have h2 : total g n ≤ total f n := total_le h
    simp only [total]
    rcases Nat.lt_or_ge t n with h3 | h3
    · have := ih h3; omega
    · have : t = n := by omega
      subst this; omega

/-- C79: the goroutines end: if only `n` of them do something, then however they have been interleaved so far, there is a way to go on to the end of all. -/
theorem C79_ends (hc : Compilable U fs pkg) (h : Waits U fs s0 s k) (hm : ∀ i e, k.structs i = some e → mine i = mine (e.root i)) (c : Nat → Client α)
    (hf : ∀ t, Follows U fs (MayRead (Base.of s) (handOut k s mine its) t) (MayWrite (Base.of s) (handOut k s mine its) t) (c t) (rightsOf k s mine its t) s)
    (hn : ∀ t, n ≤ t → ∃ a, c t = .done a) :
    ∃ m0 : Nat → Nat, ∀ m : Nat → Nat, (∀ t, m0 t ≤ m t) → (∀ t, Enough (programOf U fs) (m t) (c t) s) ∧
      ∀ ts pool, Moves (Base.of s) (start (fun t => (c t).prog (programOf U fs) (m t)) s) ts pool →
        ∃ ts' pool', Moves (Base.of s) (start (fun t => (c t).prog (programOf U fs) (m t)) s) (ts' ++ ts) pool' ∧ ∀ t, ∃ a, (pool' t).1 = .done a := by
  have hen := fun t => (hf t).enough (c t)
  obtain ⟨m0, hm0⟩ := Classical.axiomOfChoice hen
  refine ⟨m0, fun m hmm => ⟨fun t => hm0 t (m t) (hmm t), ?_⟩⟩
  have hall := fun t => (hf t).safe hc (c t) (holds_rightsOf (waits_inv hc h) hm t) (hm0 t (m t) (hmm t))
  have hsafe := fun t => (hall t).choose_spec.choose_spec.2.1
  have hsep := separate (Base.of s) (handOut k s mine its)
  suffices ∀ N ts pool, Moves (Base.of s) (start (fun t => (c t).prog (programOf U fs) (m t)) s) ts pool →
      total (fun t => ((c t).prog (programOf U fs) (m t)).size s - ts.count t) n ≤ N →
      ∃ ts' pool', Moves (Base.of s) (start (fun t => (c t).prog (programOf U fs) (m t)) s) (ts' ++ ts) pool' ∧ ∀ t, ∃ a, (pool' t).1 = .done a from
    fun ts pool hmv => this _ ts pool hmv (Nat.le_refl _)
  intro N
  induction N with
  | zero => ?_
  | succ N ih => ?_
  all_goals
    intro ts pool hmv hN
    by_cases hd : ∀ t, ∃ a, (pool t).1 = .done a
    · exact ⟨[], pool, hmv, hd⟩
    · obtain ⟨t, hd⟩ := Classical.not_forall.1 hd
      obtain ⟨s1, r1, _, _, r4⟩ := interleave hsep hsafe hmv t
      obtain ⟨a, x, _, _, h3⟩ := hall t
      have r5 : (pool t).1.run s1 = .ok (a, x) := by rw [← r1.run]; exact h3
      have hsz : 0 < (pool t).1.size s1 := by
        rcases Nat.eq_zero_or_pos ((pool t).1.size s1) with h0 | h0
        · exact absurd ⟨a, (done_of_size h0 r5).1⟩ hd
        · exact h0
      have ht : t < n := by
        rcases Nat.lt_or_ge t n with ht | ht
        · exact ht
        · obtain ⟨a', ha'⟩ := hn t ht
          rw [ha'] at r4
          simp only [Client.prog, Prog.size] at r4
          omega
      obtain ⟨pool1, hmove⟩ := move_of_size (b := Base.of s) hsz
      have hlt : total (fun u => ((c u).prog (programOf U fs) (m u)).size s - (t :: ts).count u) n < total (fun u => ((c u).prog (programOf U fs) (m u)).size s - ts.count u) n := by
        refine total_lt (fun u => ?_) ht ?_
        · have : ts.count u ≤ (t :: ts).count u := List.count_le_count_cons
          omega
        · rw [List.count_cons_self]
          omega
      first
      | omega
      | obtain ⟨ts', pool', q1, q2⟩ := ih (t :: ts) pool1 (.step hmv hmove) (by omega)
        exact ⟨ts' ++ [t], pool', by rw [List.append_assoc]; exact q1, q2⟩

end

/-! ## The hypotheses are met -/

open Zeropb.GoSrc.E (testFile_compilable testFile_has testField nothingYet C66_programs)

/-- On golden/test.proto: after `var x, y TestMessage`, one goroutine calls `x.SetInt32(7)`, another one `y.SetInt32(8)`; the program waits for both, then calls `y.SetInt32(9)`. Then
`x` has 7 and `y` has 9. -/
example (rt : Rt) : ∃ s k fi c1 c2, Waits asciiUnicode [testFile] nothingYet s k ∧ ScalarField testDesc fi .int32 ∧
    k.structs 0 = some ⟨testDesc, none, c1⟩ ∧ c1 = (Zeropb.Op.set rt (E.num fi) .int32 7#32).apply .empty ∧
    k.structs 1 = some ⟨testDesc, none, c2⟩ ∧ c2 = (Zeropb.Op.set rt (E.num fi) .int32 9#32).apply ((Zeropb.Op.set rt (E.num fi) .int32 8#32).apply .empty) := by
  have hc := testFile_compilable
  obtain ⟨hf, hm⟩ := testFile_has
  obtain ⟨fi, i1, i2, i3, i4⟩ := testField (P := fun fd => (getLabel (some fd) = 1 ∨ getLabel (some fd) = 2) ∧ protoKind (getType (some fd)) = some .int32 ∧ E.num fd = 2) (by decide +kernel)
  have hfi : ScalarField testDesc fi .int32 := ⟨i1, i2, i3⟩
  have cs : ∀ i s (x : BitVec 32), E.Calls asciiUnicode testDesc rt i s (t!"Set" ++ goName asciiUnicode fi) [.ptr testDesc.getName i, .val (.i32 x)] (.set rt (E.num fi) .int32 x) :=
    fun i _ x => .set hfi rfl (by intro _ h; rcases h with h | h <;> cases h) (by show 0 + 10 < maxLen; decide)
  have w2 := (Waits.start (U := asciiUnicode) (fs := [testFile]) (s0 := nothingYet) |>.step (.new hf hm)).step (.new hf hm)
  have hsh := (C79_programs hc w2).1
  obtain ⟨x1, q1, _⟩ := (hsh 0 ⟨testDesc, none, .empty⟩ rfl).calls rt 0 _ _ _ (cs 0 _ 7#32) (by show 0 + (20 + Kind.size .int32 7#32) < maxLen; decide)
  obtain ⟨x2, q2, _, l2⟩ := (hsh 1 ⟨testDesc, none, .empty⟩ rfl).calls rt 0 _ _ _ (cs 1 _ 8#32) (by show 0 + (20 + Kind.size .int32 8#32) < maxLen; decide)
  have l2 : (x2.h.ms 1).buf.len ≤ 0 + (20 + Kind.size .int32 8#32) := l2
  revert w2 hsh q1 q2
  generalize hk0 : (Known.nothing.put nothingYet.next ⟨testDesc, none, .empty⟩).put _ _ = k0
  generalize hs0 : GSt.mk _ _ _ = s
  intro w2 hsh q1 q2
  have k00 : k0.structs 0 = some ⟨testDesc, none, .empty⟩ := by rw [← hk0]; rfl
  have k01 : k0.structs 1 = some ⟨testDesc, none, .empty⟩ := by rw [← hk0]; rfl
  have hnext : s.next = 2 := by rw [← hs0]; rfl
  let mine : Nat → Option Nat := fun i => if i = 0 then some 0 else if i = 1 then some 1 else none
  let its : Nat → Option Nat := fun _ => none
  let c : Nat → Client (List GVal) := fun t => match t with
    | 0 => .call rt 0 testDesc.getName (t!"Set" ++ goName asciiUnicode fi) [.ptr testDesc.getName 0, .val (.i32 7#32)] .done
    | 1 => .call rt 0 testDesc.getName (t!"Set" ++ goName asciiUnicode fi) [.ptr testDesc.getName 1, .val (.i32 8#32)] .done
    | _ + 2 => .done []
  let s' : Nat → GSt := fun t => match t with
    | 0 => x1
    | 1 => x2
    | _ + 2 => s
  let k' : Nat → Known := fun t => match t with
    | 0 => (k0.drop 0).put 0 ⟨testDesc, none, (Zeropb.Op.set rt (E.num fi) .int32 7#32).apply .empty⟩
    | 1 => (k0.drop 1).put 1 ⟨testDesc, none, (Zeropb.Op.set rt (E.num fi) .int32 8#32).apply .empty⟩
    | _ + 2 => k0
  have hviews : ∀ i e, k0.structs i = some e → mine i = mine (e.root i) := by
    intro i e hi
    have : e.view = none := by
      rw [← hk0] at hi
      simp only [Known.put] at hi
      split at hi
      · injection hi with hi; rw [← hi]
      · split at hi
        · injection hi with hi; rw [← hi]
        · cases hi
    simp [Entry.root, this]
  have hlv0 : (rightsOf k0 s mine its 0).level 0 = some 2 := by simp only [rightsOf, k00]; rfl
  have hlv1 : (rightsOf k0 s mine its 1).level 1 = some 2 := by simp only [rightsOf, k01]; rfl
  have may0 : May asciiUnicode [testFile] (MayRead (Base.of s) (handOut k0 s mine its) 0) (MayWrite (Base.of s) (handOut k0 s mine its) 0) (rightsOf k0 s mine its 0) testDesc.getName
      (t!"Set" ++ goName asciiUnicode fi) [.ptr testDesc.getName 0, .val (.i32 7#32)] (rightsOf k0 s mine its 0) := .set hf hm hfi hlv0 (Or.inl rfl)
  have may1 : May asciiUnicode [testFile] (MayRead (Base.of s) (handOut k0 s mine its) 1) (MayWrite (Base.of s) (handOut k0 s mine its) 1) (rightsOf k0 s mine its 1) testDesc.getName
      (t!"Set" ++ goName asciiUnicode fi) [.ptr testDesc.getName 1, .val (.i32 8#32)] (rightsOf k0 s mine its 1) := .set hf hm hfi hlv1 (Or.inl rfl)
  have hrules : ∀ t, Follows asciiUnicode [testFile] (MayRead (Base.of s) (handOut k0 s mine its) t) (MayWrite (Base.of s) (handOut k0 s mine its) t) (c t) (rightsOf k0 s mine its t) s := by
    intro t
    match t with
    | 0 => exact ⟨_, _, _, may0, q1, trivial⟩
    | 1 => exact ⟨_, _, _, may1, q2, trivial⟩
    | t + 2 => trivial
  obtain ⟨m, hm0⟩ := C79_ends (n := 2) hc w2 hviews c hrules (by
    intro t ht
    match t with
    | t + 2 => exact ⟨_, rfl⟩)
  obtain ⟨hen, hgo⟩ := hm0 m fun _ => Nat.le_refl _
  obtain ⟨ts, pool, hmv, hend⟩ := hgo _ _ .refl
  have hfork : Forked asciiUnicode [testFile] s k0 mine its 2 c s' k' m _ pool := {
    pos := by decide
    views := hviews
    rules := hrules
    alone := fun t => match t with
      | 0 => ⟨_, by show (G.run _ _ _ _ _ _ _ >>= _) = _; rw [q1]; rfl⟩
      | 1 => ⟨_, by show (G.run _ _ _ _ _ _ _ >>= _) = _; rw [q2]; rfl⟩
      | _ + 2 => ⟨[], rfl⟩
    steps := fun t => match t with
      | 0 => .step .refl (.set k00 (cs 0 _ 7#32) trivial q1)
      | 1 => .step .refl (.set k01 (cs 1 _ 8#32) trivial q2)
      | _ + 2 => .refl
    enough := hen
    moves := hmv
    ended := hend }
  have hinv := waits_inv hc w2
  have b0 : Back (Base.of s) (handOut k0 s mine its) mine k0 0 (s' 0) (k' 0) 0 ⟨testDesc, none, (Zeropb.Op.set rt (E.num fi) .int32 7#32).apply .empty⟩ :=
    C79_back (C67_call hc (holds_rightsOf hinv hviews 0) may0 q1).1 hlv0 rfl rfl
  have b1 : Back (Base.of s) (handOut k0 s mine its) mine k0 1 (s' 1) (k' 1) 1 ⟨testDesc, none, (Zeropb.Op.set rt (E.num fi) .int32 8#32).apply .empty⟩ :=
    C79_back (C67_call hc (holds_rightsOf hinv hviews 1) may1 q2).1 hlv1 rfl rfl
  have w3 := w2.join hfork
  have j0 := rejoin_back (n := 2) (by decide) b0
  have j1 := rejoin_back (n := 2) (by decide) b1
  rw [place_old (by rw [hnext]; decide)] at j0 j1
  have he := (Inv.forked hc hinv hfork).1
  have hlen : ((join (Base.of s) 2 mine its pool).h.ms 1).buf.len ≤ 20 + Kind.size .int32 8#32 := by
    have e := join_ms (n := 2) (t := 1) (mine := mine) (its := its) he (by decide) (fun _ => (rfl : mine 1 = some 1))
    rw [place_old (show 1 < (Base.of s).structs by show 1 < s.next; rw [hnext]; decide)] at e
    rw [e, b1.2.1.ms he]
    show (x2.h.ms 1).buf.len ≤ _
    omega
  obtain ⟨x3, q3, _⟩ := ((C79_programs hc w3).1 1 _ j1).calls rt 0 _ _ _ (cs 1 _ 9#32) (by
    refine Nat.lt_of_le_of_lt (Nat.add_le_add_right hlen _) ?_
    show 20 + Kind.size .int32 8#32 + (20 + Kind.size .int32 9#32) < maxLen
    decide)
  have w4 := w3.step (.set j1 (cs 1 _ 9#32) trivial q3)
  refine ⟨_, _, fi, _, _, w4, hfi, ?_, rfl, ?_, rfl⟩
  · have : ((rejoin s k0 mine its 2 s' k').drop 1).structs 0 = _ := E.drop_structs.2 ⟨j0, by simp⟩
    exact this
  · rfl

end Zeropb.GoSrc.Conc
