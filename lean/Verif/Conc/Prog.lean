import Verif.GoSrc.GenSem
/-!
# Goroutines: single memory accesses

A goroutine is a program that makes one memory access after the other; what it does next may depend on everything it has read. Several goroutines
run at the same time: at any moment any one of them makes its next access. Memory allocated by a goroutine while they run is named by numbers
of its own: every goroutine has a view of the memory, and a write to memory that existed when the goroutines were started is a write to all views.

Accesses are as small as the hardware makes them, or smaller: one byte of a buffer, one entry of an offset array, one reference, one slice
header. A map is one location, as the runtime of Go treats it. Memory is sequentially consistent; this is what the memory model of Go promises to
programs without data races, and `Raceless` below is what it asks for.
-/

set_option linter.constructorNameAsVariable false

namespace Zeropb.GoSrc.Conc
open Zeropb.GoSrc.G

/-- Memory locations. -/
inductive Loc where
  /-- byte `q` of array `a` -/
  | cell (a q : Nat)
  /-- the overflow map `id` -/
  | map (id : Nat)
  /-- the field `buf` of struct `i` -/
  | buf (i : Nat)
  /-- the entry `offsets.a[k]` of struct `i` -/
  | slot (i k : Nat)
  /-- the number of these entries: part of the type, never written -/
  | slots (i : Nat)
  /-- the field `offsets.m` of struct `i` -/
  | ref (i : Nat)
  /-- iterator variable `v` -/
  | iter (v : Nat)
deriving DecidableEq

/-- What is read from a location. -/
def Loc.ty : Loc → Type
  | .cell _ _ => Option Byte
  | .map _ => GoMap
  | .buf _ => HSlice
  | .slot _ _ => Option U16
  | .slots _ => Nat
  | .ref _ => Option Nat
  | .iter _ => Option HSlice

/-- Read a location. -/
def read : (l : Loc) → GSt → l.ty
  | .cell a q, s => s.h.w.cell a q
  | .map id, s => s.h.w.maps.getD id []
  | .buf i, s => (s.h.ms i).buf
  | .slot i k, s => (s.h.ms i).a[k]?
  | .slots i, s => (s.h.ms i).a.length
  | .ref i, s => (s.h.ms i).m
  | .iter v, s => s.its v

/-- Writes. -/
inductive Write where
  | cell (a q : Nat) (b : Byte)
  | map (id : Nat) (m : GoMap)
  | buf (i : Nat) (b : HSlice)
  | slot (i k : Nat) (x : U16)
  | ref (i : Nat) (r : Option Nat)
  | iter (v : Nat) (o : Option HSlice)

/-- The location written. -/
def Write.loc : Write → Loc
  | .cell a q _ => .cell a q
  | .map id _ => .map id
  | .buf i _ => .buf i
  | .slot i k _ => .slot i k
  | .ref i _ => .ref i
  | .iter v _ => .iter v

/-- Change the byte arrays and maps. -/
def withW (s : GSt) (w : World) : GSt := { s with h := { s.h with w := w } }

/-- Write. -/
def Write.apply : Write → GSt → GSt
  | .cell a q b, s => withW s (s.h.w.write a q [b])
  | .map id m, s => withW s { s.h.w with maps := s.h.w.maps.set id m }
  | .buf i b, s => { s with h := s.h.put i { s.h.ms i with buf := b } }
  | .slot i k x, s => { s with h := s.h.put i { s.h.ms i with a := (s.h.ms i).a.set k x } }
  | .ref i r, s => { s with h := s.h.put i { s.h.ms i with m := r } }
  | .iter v o, s => { s with its := fun u => if u = v then o else s.its u }

/-- Allocate a byte array. -/
def newArr (bs : List Byte) (s : GSt) : GSt := withW s { s.h.w with arrs := s.h.w.arrs ++ [bs] }

/-- Allocate a map. -/
def newMap (s : GSt) : GSt := withW s { s.h.w with maps := s.h.w.maps ++ [[]] }

/-- Allocate a struct. -/
def newStruct (m : HMsg) (s : GSt) : GSt := ⟨s.h.put s.next m, s.next + 1, s.its⟩

/-- Programs with a result of type `α`. -/
inductive Prog (α : Type) where
  | done (a : α)
  /-- a panic -/
  | stop (e : Stop)
  | load (l : Loc) (k : l.ty → Prog α)
  | store (w : Write) (k : Prog α)
  | newArr (bs : List Byte) (k : Nat → Prog α)
  | newMap (k : Nat → Prog α)
  | newStruct (m : HMsg) (k : Nat → Prog α)

namespace Prog

/-- One program after another. -/
def bind {α β : Type} : Prog α → (α → Prog β) → Prog β
  | .done a, f => f a
  | .stop e, _ => .stop e
  | .load l k, f => .load l (fun x => (k x).bind f)
  | .store w k, f => .store w (k.bind f)
  | .newArr bs k, f => .newArr bs (fun x => (k x).bind f)
  | .newMap k, f => .newMap (fun x => (k x).bind f)
  | .newStruct m k, f => .newStruct m (fun x => (k x).bind f)

instance : Monad Prog where
  pure := .done
  bind := .bind

/-- The program runs alone. -/
def run {α : Type} : Prog α → GSt → M (α × GSt)
  | .done a, s => .ok (a, s)
  | .stop e, _ => .error e
  | .load l k, s => (k (read l s)).run s
  | .store w k, s => k.run (w.apply s)
  | .newArr bs k, s => (k s.h.w.arrs.length).run (Conc.newArr bs s)
  | .newMap k, s => (k s.h.w.maps.length).run (Conc.newMap s)
  | .newStruct m k, s => (k s.next).run (Conc.newStruct m s)

/-- When it runs alone from `s`, the program reads only locations of `R`, writes only locations of `W`, and if it ends, `Q` holds of result and memory. -/
def Safe {α : Type} (R W : Loc → Prop) (Q : α → GSt → Prop) : Prog α → GSt → Prop
  | .done a, s => Q a s
  | .stop _, _ => True
  | .load l k, s => R l ∧ Safe R W Q (k (read l s)) s
  | .store w k, s => W w.loc ∧ Safe R W Q k (w.apply s)
  | .newArr bs k, s => Safe R W Q (k s.h.w.arrs.length) (Conc.newArr bs s)
  | .newMap k, s => Safe R W Q (k s.h.w.maps.length) (Conc.newMap s)
  | .newStruct m k, s => Safe R W Q (k s.next) (Conc.newStruct m s)

/-- The number of accesses and allocations of the program when it runs alone. -/
def size {α : Type} : Prog α → GSt → Nat
  | .done _, _ => 0
  | .stop _, _ => 0
  | .load l k, s => size (k (read l s)) s + 1
  | .store w k, s => size k (w.apply s) + 1
  | .newArr bs k, s => size (k s.h.w.arrs.length) (Conc.newArr bs s) + 1
  | .newMap k, s => size (k s.h.w.maps.length) (Conc.newMap s) + 1
  | .newStruct m k, s => size (k s.next) (Conc.newStruct m s) + 1

end Prog

/-! ## Several goroutines -/

/-- What exists when the goroutines are started. -/
structure Base where
  arrs : Nat
  maps : Nat
  structs : Nat

/-- What exists in a state. -/
def Base.of (s : GSt) : Base := ⟨s.h.w.arrs.length, s.h.w.maps.length, s.next⟩

/-- Locations that existed when the goroutines were started: they are the same for all. -/
def Loc.Old (b : Base) : Loc → Prop
  | .cell a _ => a < b.arrs
  | .map id => id < b.maps
  | .buf i | .slot i _ | .slots i | .ref i => i < b.structs
  | .iter _ => True

instance (b : Base) (l : Loc) : Decidable (l.Old b) := by cases l <;> unfold Loc.Old <;> infer_instance

/-- The goroutines: what each one has still to do, and how it sees the memory. -/
abbrev Pool (α : Type) := Nat → Prog α × GSt

/-- Goroutine `t` is now `x`. -/
def Pool.set {α : Type} (c : Pool α) (t : Nat) (x : Prog α × GSt) : Pool α := fun u => if u = t then x else c u

/-- Goroutine `t` makes one access. -/
inductive Move {α : Type} (b : Base) (t : Nat) (c : Pool α) : Pool α → Prop
  | load {l k s} : c t = (.load l k, s) → Move b t c (c.set t (k (read l s), s))
  | store {w k s} : c t = (.store w k, s) →
      Move b t c (fun u => if u = t then (k, w.apply s) else if w.loc.Old b then ((c u).1, w.apply (c u).2) else c u)
  | newArr {bs k s} : c t = (.newArr bs k, s) → Move b t c (c.set t (k s.h.w.arrs.length, newArr bs s))
  | newMap {k s} : c t = (.newMap k, s) → Move b t c (c.set t (k s.h.w.maps.length, newMap s))
  | newStruct {m k s} : c t = (.newStruct m k, s) → Move b t c (c.set t (k s.next, newStruct m s))

/-- What can happen, in any order of the accesses: the list says which goroutines made them, the last one first. -/
inductive Moves {α : Type} (b : Base) (c : Pool α) : List Nat → Pool α → Prop
  | refl : Moves b c [] c
  | step {ts c' c'' t} : Moves b c ts c' → Move b t c' c'' → Moves b c (t :: ts) c''

/-- The goroutines `p` are started in memory `s`. -/
def start {α : Type} (p : Nat → Prog α) (s : GSt) : Pool α := fun u => (p u, s)

/-- The next access of a program. -/
inductive Next {α : Type} : Prog α → Loc → Bool → Prop
  | load {l k} : Next (.load l k) l false
  | store {w k} : Next (.store w k) w.loc true

/-- No data race: no two goroutines are about to access the same location, one of them to write it. -/
def Raceless {α : Type} (b : Base) (c : Pool α) : Prop :=
  ∀ t u l x y, t ≠ u → Next (c t).1 l x → Next (c u).1 l y → l.Old b → x = false ∧ y = false

/-! ## Facts about programs -/

namespace Prog
variable {α β γ : Type}

@[simp] theorem bind_done (a : α) (f : α → Prog β) : (Prog.done a >>= f) = f a := rfl
@[simp] theorem bind_stop (e : Stop) (f : α → Prog β) : (Prog.stop e >>= f) = .stop e := rfl
@[simp] theorem bind_load (l : Loc) (k : l.ty → Prog α) (f : α → Prog β) : (Prog.load l k >>= f) = .load l (fun x => k x >>= f) := rfl
@[simp] theorem bind_store (w : Write) (k : Prog α) (f : α → Prog β) : (Prog.store w k >>= f) = .store w (k >>= f) := rfl
@[simp] theorem pure_eq (a : α) : (pure a : Prog α) = .done a := rfl

theorem run_bind (p : Prog α) (f : α → Prog β) (s : GSt) : (p >>= f).run s = p.run s >>= fun r => (f r.1).run r.2 := by
  show (p.bind f).run s = _
  induction p generalizing s with
  | done a => rfl
  | stop e => rfl
  | load l k ih => exact ih _ s
  | store w k ih => exact ih _
  | newArr bs k ih => exact ih _ _
  | newMap k ih => exact ih _ _
  | newStruct m k ih => exact ih _ _

theorem safe_bind {R W : Loc → Prop} {Q : β → GSt → Prop} {p : Prog α} {f : α → Prog β} {s : GSt}
    (h : p.Safe R W (fun a s => (f a).Safe R W Q s) s) : (p >>= f).Safe R W Q s := by
  show (p.bind f).Safe R W Q s
  induction p generalizing s with
  | done a => exact h
  | stop e => trivial
  | load l k ih => exact ⟨h.1, ih _ h.2⟩
  | store w k ih => exact ⟨h.1, ih h.2⟩
  | newArr bs k ih => exact ih _ h
  | newMap k ih => exact ih _ h
  | newStruct m k ih => exact ih _ h

theorem Safe.mono {R W R' W' : Loc → Prop} {Q Q' : α → GSt → Prop} {p : Prog α} {s : GSt} (h : p.Safe R W Q s) (hR : ∀ l, R l → R' l) (hW : ∀ l, W l → W' l)
    (hQ : ∀ a s, Q a s → Q' a s) : p.Safe R' W' Q' s := by
  induction p generalizing s with
  | done a => exact hQ _ _ h
  | stop e => trivial
  | load l k ih => exact ⟨hR _ h.1, ih _ h.2⟩
  | store w k ih => exact ⟨hW _ h.1, ih h.2⟩
  | newArr bs k ih => exact ih _ h
  | newMap k ih => exact ih _ h
  | newStruct m k ih => exact ih _ h

theorem Safe.imp {R W : Loc → Prop} {Q Q' : α → GSt → Prop} {p : Prog α} {s : GSt} (h : p.Safe R W Q s) (hQ : ∀ a s, Q a s → Q' a s) : p.Safe R W Q' s :=
  h.mono (fun _ x => x) (fun _ x => x) hQ

/-- The postcondition may use what the program computes when it runs alone. -/
theorem Safe.and_run {R W : Loc → Prop} {Q : α → GSt → Prop} {p : Prog α} {s : GSt} (h : p.Safe R W Q s) :
    p.Safe R W (fun a s' => Q a s' ∧ p.run s = .ok (a, s')) s := by
  induction p generalizing s with
  | done a => exact ⟨h, rfl⟩
  | stop e => trivial
  | load l k ih => exact ⟨h.1, ih _ h.2⟩
  | store w k ih => exact ⟨h.1, ih h.2⟩
  | newArr bs k ih => exact ih _ h
  | newMap k ih => exact ih _ h
  | newStruct m k ih => exact ih _ h

theorem Safe.run {R W : Loc → Prop} {Q : α → GSt → Prop} {p : Prog α} {s s' : GSt} {a : α} (h : p.Safe R W Q s) (hr : p.run s = .ok (a, s')) : Q a s' := by
  induction p generalizing s with
  | done b => simp only [Prog.run, Except.ok.injEq, Prod.mk.injEq] at hr; obtain ⟨rfl, rfl⟩ := hr; exact h
  | stop e => cases hr
  | load l k ih => exact ih _ h.2 hr
  | store w k ih => exact ih h.2 hr
  | newArr bs k ih => exact ih _ h hr
  | newMap k ih => exact ih _ h hr
  | newStruct m k ih => exact ih _ h hr

end Prog

/-! ## Writes and sizes -/

/-- Everything has the same size. -/
structure SameSize (s s' : GSt) : Prop where
  arrs : s'.h.w.arrs.length = s.h.w.arrs.length
  arr : ∀ a, (s'.h.w.arr a).length = (s.h.w.arr a).length
  maps : s'.h.w.maps.length = s.h.w.maps.length
  slots : ∀ i, (s'.h.ms i).a.length = (s.h.ms i).a.length
  next : s'.next = s.next

theorem SameSize.refl (s : GSt) : SameSize s s := ⟨rfl, fun _ => rfl, rfl, fun _ => rfl, rfl⟩
theorem SameSize.symm {s s' : GSt} (h : SameSize s s') : SameSize s' s :=
  ⟨h.arrs.symm, fun a => (h.arr a).symm, h.maps.symm, fun i => (h.slots i).symm, h.next.symm⟩
theorem SameSize.trans {s s' s'' : GSt} (h : SameSize s s') (h' : SameSize s' s'') : SameSize s s'' :=
  ⟨h'.arrs.trans h.arrs, fun a => (h'.arr a).trans (h.arr a), h'.maps.trans h.maps, fun i => (h'.slots i).trans (h.slots i), h'.next.trans h.next⟩

theorem overwrite_one (xs : List Byte) (q : Nat) (b : Byte) : overwriteAt xs q [b] = xs.set q b := by
  unfold overwriteAt
  by_cases h : q < xs.length
  · have : min [b].length (xs.length - q) = 1 := by simp; omega
    rw [this, List.set_eq_take_append_cons_drop, if_pos h]
    simp
  · have : min [b].length (xs.length - q) = 0 := by simp; omega
    rw [this, List.set_eq_of_length_le (by omega)]
    simp

theorem arr_write (w : World) (a q : Nat) (b : Byte) (a' : Nat) : (w.write a q [b]).arr a' = if a' = a then (w.arr a).set q b else w.arr a' := by
  unfold World.write
  rw [overwrite_one]
  unfold World.arr
  simp only [List.getD_eq_getElem?_getD, List.getElem?_set]
  by_cases e : a' = a
  · subst e
    rw [if_pos rfl, if_pos rfl]
    by_cases h : a' < w.arrs.length
    · rw [if_pos h]; rfl
    · rw [if_neg h, List.getElem?_eq_none (by omega)]; rfl
  · rw [if_neg e, if_neg (Ne.symm e)]

theorem Write.sameSize (w : Write) (s : GSt) : SameSize s (w.apply s) := by
  cases w with
  | cell a q b =>
    refine ⟨?_, ?_, rfl, fun _ => rfl, rfl⟩
    · show (s.h.w.write a q [b]).arrs.length = _; unfold World.write; simp
    · intro a'; show ((s.h.w.write a q [b]).arr a').length = _; rw [arr_write]; split
      · next h => subst h; simp
      · rfl
  | map id m => exact ⟨rfl, fun _ => rfl, by simp [Write.apply, withW], fun _ => rfl, rfl⟩
  | buf i b =>
    refine ⟨rfl, fun _ => rfl, rfl, ?_, rfl⟩
    intro j; simp only [Write.apply, Heap.put]; split
    · next h => subst h; rfl
    · rfl
  | slot i k x =>
    refine ⟨rfl, fun _ => rfl, rfl, ?_, rfl⟩
    intro j; simp only [Write.apply, Heap.put]; split
    · next h => subst h; simp
    · rfl
  | ref i r =>
    refine ⟨rfl, fun _ => rfl, rfl, ?_, rfl⟩
    intro j; simp only [Write.apply, Heap.put]; split
    · next h => subst h; rfl
    · rfl
  | iter v o => exact ⟨rfl, fun _ => rfl, rfl, fun _ => rfl, rfl⟩

/-- A write changes only its location. -/
theorem read_apply_ne {w : Write} {l : Loc} {s : GSt} (h : l ≠ w.loc) : read l (w.apply s) = read l s := by
  cases w with
  | cell a q b =>
    cases l <;> try rfl
    case cell a' q' =>
      simp only [read, Write.apply, withW, World.cell, arr_write]
      split
      · next e =>
        subst e
        rw [List.getElem?_set, if_neg]
        rintro rfl; exact h rfl
      · rfl
  | map id m =>
    cases l <;> try rfl
    case map id' =>
      simp only [read, Write.apply, withW, List.getD_eq_getElem?_getD, List.getElem?_set]
      rw [if_neg]
      rintro rfl; exact h rfl
  | buf i b =>
    cases l <;> (try rfl) <;> (simp only [read, Write.apply, Heap.put]; split <;> first | rfl | (next e => subst e; first | rfl | exact absurd rfl h))
  | slot i k x =>
    cases l <;> (try rfl)
    case slot j k' =>
      simp only [read, Write.apply, Heap.put]; split
      · next e =>
        subst e
        rw [List.getElem?_set, if_neg]
        rintro rfl; exact h rfl
      · rfl
    all_goals
      simp only [read, Write.apply, Heap.put]; split
      · next e => subst e; simp only [List.length_set]; rfl
      · rfl
  | ref i r =>
    cases l <;> (try rfl) <;> (simp only [read, Write.apply, Heap.put]; split <;> first | rfl | (next e => subst e; first | rfl | exact absurd rfl h))
  | iter v o =>
    cases l <;> (try rfl)
    case iter u => simp only [read, Write.apply]; rw [if_neg]; rintro rfl; exact h rfl

/-- What is read from the location of a write depends only on the sizes. -/
theorem read_apply_eq {w : Write} {s s' : GSt} (h : SameSize s s') : read w.loc (w.apply s) = read w.loc (w.apply s') := by
  cases w with
  | cell a q b =>
    simp only [Write.loc, read, Write.apply, withW, World.cell, arr_write, if_true, List.getElem?_set, h.arr]; rfl
  | map id m => simp only [Write.loc, read, Write.apply, withW, List.getD_eq_getElem?_getD, List.getElem?_set, if_true, h.maps]; rfl
  | buf i b => simp only [Write.loc, read, Write.apply, Heap.put, if_true]; rfl
  | slot i k x => simp only [Write.loc, read, Write.apply, Heap.put, if_true, List.getElem?_set, h.slots]; rfl
  | ref i r => simp only [Write.loc, read, Write.apply, Heap.put, if_true]; rfl
  | iter v o => simp only [Write.loc, read, Write.apply, if_true]; rfl

/-- Both states have the same sizes and the same values at the locations `R`. -/
structure Agree (R : Loc → Prop) (s s' : GSt) : Prop where
  size : SameSize s s'
  same : ∀ l, R l → read l s' = read l s

theorem Agree.refl {R : Loc → Prop} (s : GSt) : Agree R s s := ⟨.refl s, fun _ _ => rfl⟩

theorem Agree.write {R : Loc → Prop} {s s' : GSt} (h : Agree R s s') (w : Write) : Agree R (w.apply s) (w.apply s') := by
  refine ⟨(w.sameSize s).symm.trans (h.size.trans (w.sameSize s')), ?_⟩
  intro l hl
  by_cases e : l = w.loc
  · subst e; exact (read_apply_eq h.size).symm
  · rw [read_apply_ne e, read_apply_ne e]; exact h.same l hl

/-- A write elsewhere. -/
theorem Agree.foreign {R : Loc → Prop} {s s' : GSt} (h : Agree R s s') {w : Write} (hw : ¬ R w.loc) : Agree R s (w.apply s') := by
  refine ⟨h.size.trans (w.sameSize s'), ?_⟩
  intro l hl
  rw [read_apply_ne (by rintro rfl; exact hw hl)]; exact h.same l hl

theorem SameSize.newArr {s s' : GSt} (h : SameSize s s') (bs : List Byte) : SameSize (newArr bs s) (newArr bs s') := by
  refine ⟨by simp [Conc.newArr, withW, h.arrs], ?_, h.maps, h.slots, h.next⟩
  intro a
  have := h.arr a
  unfold World.arr at this
  simp only [Conc.newArr, withW, World.arr, List.getD_eq_getElem?_getD, List.getElem?_append, h.arrs] at this ⊢
  split
  · exact this
  · rfl

theorem Agree.newArr {R : Loc → Prop} {s s' : GSt} (h : Agree R s s') (bs : List Byte) : Agree R (newArr bs s) (newArr bs s') := by
  refine ⟨h.size.newArr bs, ?_⟩
  intro l hl
  have e := h.same l hl
  have ha := h.size.arrs
  cases l <;> try exact e
  case cell a q =>
    simp only [read, World.cell, World.arr, Conc.newArr, withW, List.getD_eq_getElem?_getD, List.getElem?_append, ha] at e ⊢
    split
    · exact e
    · rfl

theorem Agree.newMap {R : Loc → Prop} {s s' : GSt} (h : Agree R s s') : Agree R (newMap s) (newMap s') := by
  refine ⟨⟨h.size.arrs, h.size.arr, by simp [Conc.newMap, withW, h.size.maps], h.size.slots, h.size.next⟩, ?_⟩
  intro l hl
  have e := h.same l hl
  have ha := h.size.maps
  cases l <;> try exact e
  case map id =>
    simp only [read, Conc.newMap, withW, List.getD_eq_getElem?_getD, List.getElem?_append, ha] at e ⊢
    split
    · exact e
    · rfl

theorem Agree.newStruct {R : Loc → Prop} {s s' : GSt} (h : Agree R s s') (m : HMsg) : Agree R (newStruct m s) (newStruct m s') := by
  have hn := h.size.next
  refine ⟨⟨h.size.arrs, h.size.arr, h.size.maps, ?_, by simp [Conc.newStruct, hn]⟩, ?_⟩
  · intro i
    simp only [Conc.newStruct, Heap.put, hn]
    split
    · rfl
    · exact h.size.slots i
  · intro l hl
    have e := h.same l hl
    cases l <;> (try exact e) <;> (simp only [read, Conc.newStruct, Heap.put, hn] at e ⊢; split <;> first | rfl | exact e)

/-! ## Goroutines that keep to their own memory -/

/-- A program runs alone for a while. -/
inductive Alone {α : Type} : Prog α × GSt → Prog α × GSt → Prop
  | refl (x) : Alone x x
  | load {x l k s} : Alone x (.load l k, s) → Alone x (k (read l s), s)
  | store {x w k s} : Alone x (.store w k, s) → Alone x (k, w.apply s)
  | newArr {x bs k s} : Alone x (.newArr bs k, s) → Alone x (k s.h.w.arrs.length, newArr bs s)
  | newMap {x k s} : Alone x (.newMap k, s) → Alone x (k s.h.w.maps.length, newMap s)
  | newStruct {x m k s} : Alone x (.newStruct m k, s) → Alone x (k s.next, newStruct m s)

theorem Alone.run' {α : Type} {x y : Prog α × GSt} (h : Alone x y) : x.1.run x.2 = y.1.run y.2 := by
  induction h with
  | refl => rfl
  | load _ ih => exact ih
  | store _ ih => exact ih
  | newArr _ ih => exact ih
  | newMap _ ih => exact ih
  | newStruct _ ih => exact ih

theorem Alone.run {α : Type} {p p' : Prog α} {s s' : GSt} (h : Alone (p, s) (p', s')) : p.run s = p'.run s' := h.run'

section
variable {α : Type} {b : Base} {p : Nat → Prog α} {s0 : GSt} {R W : Nat → Loc → Prop} {Q : Nat → α → GSt → Prop}

/-- Old locations that goroutine `t` may write are not among those that another goroutine may read or write. -/
def Separate (b : Base) (R W : Nat → Loc → Prop) : Prop := ∀ t u l, t ≠ u → l.Old b → W t l → ¬ R u l ∧ ¬ W u l

/-- In any order of the accesses, every goroutine does what it does alone. -/
theorem interleave (hsep : Separate b R W) (hsafe : ∀ t, (p t).Safe (R t) (W t) (Q t) s0) {ts : List Nat} {c : Pool α} (h : Moves b (start p s0) ts c) :
    ∀ t, ∃ s, Alone (p t, s0) ((c t).1, s) ∧ (c t).1.Safe (R t) (W t) (Q t) s ∧ Agree (R t) s (c t).2 ∧
      ts.count t + (c t).1.size s = (p t).size s0 := by
  induction h with
  | refl => exact fun t => ⟨s0, .refl _, hsafe t, .refl _, Nat.zero_add _⟩
  | @step ts c' c'' t _ hm ih =>
    intro u
    obtain ⟨s, h1, h2, h3, h4⟩ := ih u
    obtain ⟨st, t1, t2, t3, _⟩ := ih t
    by_cases e : u = t
    · subst e
      cases hm with
      | @load l k s' hc =>
        rw [hc] at h1 h2 h3 h4
        simp only [Prog.size] at h4
        simp only [Pool.set, if_pos]
        refine ⟨s, ?_, ?_, h3, ?_⟩
        · rw [h3.same l h2.1]; exact .load h1
        · rw [h3.same l h2.1]; exact h2.2
        · rw [h3.same l h2.1, List.count_cons_self]; omega
      | @store w k s' hc =>
        rw [hc] at h1 h2 h3 h4
        simp only [Prog.size] at h4
        simp only [if_pos]
        exact ⟨_, .store h1, h2.2, h3.write w, by rw [List.count_cons_self]; omega⟩
      | @newArr bs k s' hc =>
        rw [hc] at h1 h2 h3 h4
        simp only [Prog.size] at h4
        simp only [Pool.set, if_pos, h3.size.arrs]
        exact ⟨_, .newArr h1, h2, h3.newArr bs, by rw [List.count_cons_self]; omega⟩
      | @newMap k s' hc =>
        rw [hc] at h1 h2 h3 h4
        simp only [Prog.size] at h4
        simp only [Pool.set, if_pos, h3.size.maps]
        exact ⟨_, .newMap h1, h2, h3.newMap, by rw [List.count_cons_self]; omega⟩
      | @newStruct m k s' hc =>
        rw [hc] at h1 h2 h3 h4
        simp only [Prog.size] at h4
        simp only [Pool.set, if_pos]
        rw [h3.size.next]
        exact ⟨_, .newStruct h1, h2, h3.newStruct m, by rw [List.count_cons_self]; omega⟩
    · cases hm with
      | load hc => simp only [Pool.set, if_neg e]; exact ⟨s, h1, h2, h3, by rw [List.count_cons_of_ne (Ne.symm e)]; exact h4⟩
      | newArr hc => simp only [Pool.set, if_neg e]; exact ⟨s, h1, h2, h3, by rw [List.count_cons_of_ne (Ne.symm e)]; exact h4⟩
      | newMap hc => simp only [Pool.set, if_neg e]; exact ⟨s, h1, h2, h3, by rw [List.count_cons_of_ne (Ne.symm e)]; exact h4⟩
      | newStruct hc => simp only [Pool.set, if_neg e]; exact ⟨s, h1, h2, h3, by rw [List.count_cons_of_ne (Ne.symm e)]; exact h4⟩
      | @store w k s' hc =>
        simp only [if_neg e]
        by_cases ho : w.loc.Old b
        · rw [if_pos ho]
          rw [hc] at t2
          exact ⟨s, h1, h2, h3.foreign ((hsep t u _ (Ne.symm e) ho t2.1).1), by rw [List.count_cons_of_ne (Ne.symm e)]; exact h4⟩
        · rw [if_neg ho]; exact ⟨s, h1, h2, h3, by rw [List.count_cons_of_ne (Ne.symm e)]; exact h4⟩

/-- And there is no data race. -/
theorem raceless (hsep : Separate b R W) (hwr : ∀ t l, W t l → R t l) (hsafe : ∀ t, (p t).Safe (R t) (W t) (Q t) s0) {ts : List Nat} {c : Pool α} (h : Moves b (start p s0) ts c) : Raceless b c := by
  intro t u l x y hne ht hu ho
  obtain ⟨s, _, h2, _⟩ := interleave hsep hsafe h t
  obtain ⟨s', _, h2', _⟩ := interleave hsep hsafe h u
  have key : ∀ {q : Prog α} {v : Nat} {s : GSt} {z : Bool}, Next q l z → q.Safe (R v) (W v) (Q v) s → R v l ∧ (z = true → W v l) := by
    intro q v s z hn hs
    cases hn with
    | load => exact ⟨hs.1, nofun⟩
    | store => exact ⟨hwr _ _ hs.1, fun _ => hs.1⟩
  obtain ⟨k1, k2⟩ := key ht h2
  obtain ⟨k3, k4⟩ := key hu h2'
  constructor
  · cases x with
    | false => rfl
    | true => exact absurd k3 (hsep t u l hne ho (k2 rfl)).1
  · cases y with
    | false => rfl
    | true => exact absurd k1 (hsep u t l (Ne.symm hne) ho (k4 rfl)).1

end

/-! ## All goroutines see the same memory -/

/-- Two views of the same memory. -/
structure OneMemory (b : Base) (s s' : GSt) : Prop where
  arr : ∀ a, a < b.arrs → s'.h.w.arr a = s.h.w.arr a
  arrs : b.arrs ≤ s.h.w.arrs.length ∧ b.arrs ≤ s'.h.w.arrs.length
  map : ∀ id, id < b.maps → s'.h.w.maps.getD id [] = s.h.w.maps.getD id []
  maps : b.maps ≤ s.h.w.maps.length ∧ b.maps ≤ s'.h.w.maps.length
  ms : ∀ i, i < b.structs → s'.h.ms i = s.h.ms i
  next : b.structs ≤ s.next ∧ b.structs ≤ s'.next
  its : ∀ v, s'.its v = s.its v

theorem OneMemory.refl {b : Base} {s : GSt} (h1 : b.arrs ≤ s.h.w.arrs.length) (h2 : b.maps ≤ s.h.w.maps.length) (h3 : b.structs ≤ s.next) : OneMemory b s s :=
  ⟨fun _ _ => rfl, ⟨h1, h1⟩, fun _ _ => rfl, ⟨h2, h2⟩, fun _ _ => rfl, ⟨h3, h3⟩, fun _ => rfl⟩
theorem OneMemory.symm {b : Base} {s s' : GSt} (h : OneMemory b s s') : OneMemory b s' s :=
  ⟨fun a x => (h.arr a x).symm, ⟨h.arrs.2, h.arrs.1⟩, fun a x => (h.map a x).symm, ⟨h.maps.2, h.maps.1⟩, fun a x => (h.ms a x).symm, ⟨h.next.2, h.next.1⟩, fun v => (h.its v).symm⟩
theorem OneMemory.trans {b : Base} {s s' s'' : GSt} (h : OneMemory b s s') (h' : OneMemory b s' s'') : OneMemory b s s'' :=
  ⟨fun a x => (h'.arr a x).trans (h.arr a x), ⟨h.arrs.1, h'.arrs.2⟩, fun a x => (h'.map a x).trans (h.map a x), ⟨h.maps.1, h'.maps.2⟩,
    fun a x => (h'.ms a x).trans (h.ms a x), ⟨h.next.1, h'.next.2⟩, fun v => (h'.its v).trans (h.its v)⟩

/-- A write to the memory, seen in both views. -/
theorem OneMemory.write {b : Base} {s s' : GSt} (h : OneMemory b s s') (w : Write) (ho : w.loc.Old b) : OneMemory b (w.apply s) (w.apply s') := by
  have z := w.sameSize s
  have z' := w.sameSize s'
  refine ⟨?_, ⟨z.arrs ▸ h.arrs.1, z'.arrs ▸ h.arrs.2⟩, ?_, ⟨z.maps ▸ h.maps.1, z'.maps ▸ h.maps.2⟩, ?_, ⟨z.next ▸ h.next.1, z'.next ▸ h.next.2⟩, ?_⟩
  · intro a ha
    cases w <;> try exact h.arr a ha
    case cell a' q x =>
      simp only [Write.apply, withW, arr_write]
      rw [h.arr a ha, h.arr a' ho]
  · intro id hid
    cases w <;> try exact h.map id hid
    case map id' m =>
      have h1 := h.map id hid
      have := h.maps
      simp only [Write.apply, withW, List.getD_eq_getElem?_getD, List.getElem?_set] at h1 ⊢
      simp only [Write.loc, Loc.Old] at ho
      split
      · rw [if_pos (by omega), if_pos (by omega)]
      · exact h1
  · intro i hi
    cases w <;> try exact h.ms i hi
    all_goals
      simp only [Write.apply, Heap.put]
      simp only [Write.loc, Loc.Old] at ho
      rw [h.ms i hi, h.ms _ ho]
  · intro v
    cases w <;> try exact h.its v
    case iter u o => simp only [Write.apply]; rw [h.its v]

/-- A write to memory of its own, in one view. -/
theorem OneMemory.own {b : Base} {s : GSt} (w : Write) (ho : ¬ w.loc.Old b) (h1 : b.arrs ≤ s.h.w.arrs.length) (h2 : b.maps ≤ s.h.w.maps.length) (h3 : b.structs ≤ s.next) :
    OneMemory b s (w.apply s) := by
  have z := w.sameSize s
  refine ⟨?_, ⟨h1, z.arrs ▸ h1⟩, ?_, ⟨h2, z.maps ▸ h2⟩, ?_, ⟨h3, z.next ▸ h3⟩, ?_⟩
  · intro a ha
    cases w <;> try rfl
    case cell a' q x =>
      simp only [Write.loc, Loc.Old] at ho
      simp only [Write.apply, withW, arr_write]
      rw [if_neg (by omega)]
  · intro id hid
    cases w <;> try rfl
    case map id' m =>
      simp only [Write.loc, Loc.Old] at ho
      simp only [Write.apply, withW, List.getD_eq_getElem?_getD, List.getElem?_set]
      rw [if_neg (by omega)]
  · intro i hi
    cases w <;> try rfl
    all_goals
      simp only [Write.loc, Loc.Old] at ho
      simp only [Write.apply, Heap.put]
      rw [if_neg (by omega)]
  · intro v
    cases w <;> try rfl
    case iter u o => exact absurd trivial ho

theorem OneMemory.newArr {b : Base} {s : GSt} (bs : List Byte) (h1 : b.arrs ≤ s.h.w.arrs.length) (h2 : b.maps ≤ s.h.w.maps.length) (h3 : b.structs ≤ s.next) :
    OneMemory b s (newArr bs s) := by
  refine ⟨?_, ⟨h1, ?_⟩, fun _ _ => rfl, ⟨h2, h2⟩, fun _ _ => rfl, ⟨h3, h3⟩, fun _ => rfl⟩
  · intro a ha
    simp only [Conc.newArr, withW, World.arr, List.getD_eq_getElem?_getD]
    rw [List.getElem?_append_left (by omega)]
  · simp only [Conc.newArr, withW, List.length_append]; omega

theorem OneMemory.newMap {b : Base} {s : GSt} (h1 : b.arrs ≤ s.h.w.arrs.length) (h2 : b.maps ≤ s.h.w.maps.length) (h3 : b.structs ≤ s.next) :
    OneMemory b s (newMap s) := by
  refine ⟨fun _ _ => rfl, ⟨h1, h1⟩, ?_, ⟨h2, ?_⟩, fun _ _ => rfl, ⟨h3, h3⟩, fun _ => rfl⟩
  · intro a ha
    simp only [Conc.newMap, withW, List.getD_eq_getElem?_getD]
    rw [List.getElem?_append_left (by omega)]
  · simp only [Conc.newMap, withW, List.length_append]; omega

theorem OneMemory.newStruct {b : Base} {s : GSt} (m : HMsg) (h1 : b.arrs ≤ s.h.w.arrs.length) (h2 : b.maps ≤ s.h.w.maps.length) (h3 : b.structs ≤ s.next) :
    OneMemory b s (newStruct m s) := by
  refine ⟨fun _ _ => rfl, ⟨h1, h1⟩, fun _ _ => rfl, ⟨h2, h2⟩, ?_, ⟨h3, ?_⟩, fun _ => rfl⟩
  · intro i hi
    simp only [Conc.newStruct, Heap.put]
    rw [if_neg (by omega)]
  · simp only [Conc.newStruct]; omega

/-- At every moment all goroutines see the same memory, besides what they allocated themselves. -/
theorem oneMemory {α : Type} {p : Nat → Prog α} {s0 : GSt} {ts : List Nat} {c : Pool α} (h : Moves (Base.of s0) (start p s0) ts c) : ∀ t u, OneMemory (Base.of s0) (c t).2 (c u).2 := by
  induction h with
  | refl => exact fun t u => .refl (Nat.le_refl _) (Nat.le_refl _) (Nat.le_refl _)
  | @step ts c' c'' t _ hm ih =>
    have one : ∀ x : GSt, OneMemory (Base.of s0) (c' t).2 x → (∀ v, (c'' v).2 = if v = t then x else (c' v).2) → ∀ v u, OneMemory (Base.of s0) (c'' v).2 (c'' u).2 := by
      intro x hx hc v u
      rw [hc v, hc u]
      by_cases e1 : v = t <;> by_cases e2 : u = t <;> simp only [e1, e2, if_true, if_false]
      · exact .refl hx.arrs.2 hx.maps.2 hx.next.2
      · exact hx.symm.trans (ih t u)
      · exact (ih v t).trans hx
      · exact ih v u
    have g := ih t t
    cases hm with
    | @load l k s hc => exact one s (by rw [hc] at g ⊢; exact g) (fun v => by simp only [Pool.set]; split <;> rfl)
    | @newArr bs k s hc =>
      rw [hc] at one g
      exact one _ (.newArr bs g.arrs.1 g.maps.1 g.next.1) (fun v => by simp only [Pool.set]; split <;> rfl)
    | @newMap k s hc =>
      rw [hc] at one g
      exact one _ (.newMap g.arrs.1 g.maps.1 g.next.1) (fun v => by simp only [Pool.set]; split <;> rfl)
    | @newStruct m k s hc =>
      rw [hc] at one g
      exact one _ (.newStruct m g.arrs.1 g.maps.1 g.next.1) (fun v => by simp only [Pool.set]; split <;> rfl)
    | @store w k s hc =>
      by_cases ho : w.loc.Old (Base.of s0)
      · have : ∀ v, ((if v = t then (k, w.apply s) else if w.loc.Old (Base.of s0) then ((c' v).1, w.apply (c' v).2) else c' v) : Prog α × GSt).2 = w.apply (c' v).2 := by
          intro v
          by_cases e : v = t
          · rw [if_pos e, e, hc]
          · rw [if_neg e, if_pos ho]
        intro v u
        simp only [this]
        exact (ih v u).write w ho
      · rw [hc] at one g
        exact one _ (.own w ho g.arrs.1 g.maps.1 g.next.1) (fun v => by simp only [if_neg ho]; split <;> rfl)

end Zeropb.GoSrc.Conc
