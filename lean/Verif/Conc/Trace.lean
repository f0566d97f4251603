import Verif.Conc.Sim
/-!
# The accesses of a program, one after the other
-/

set_option linter.constructorNameAsVariable false

namespace Zeropb.GoSrc.Conc
open Zeropb.GoSrc.G

/-- What a program does to memory in one step. -/
inductive Event where
  | reads (l : Loc)
  | writes (l : Loc)
  | allocates
deriving DecidableEq

/-- Reading the number of entries of an array is no access: it is a constant of the type. -/
def Event.ofLoad : Loc → List Event
  | .slots _ => []
  | l => [.reads l]

/-- All accesses and allocations of a program that runs alone. -/
def Prog.trace {α : Type} : Prog α → GSt → List Event
  | .done _, _ => []
  | .stop _, _ => []
  | .load l k, s => Event.ofLoad l ++ trace (k (read l s)) s
  | .store w k, s => .writes w.loc :: trace k (w.apply s)
  | .newArr bs k, s => .allocates :: trace (k s.h.w.arrs.length) (Conc.newArr bs s)
  | .newMap k, s => .allocates :: trace (k s.h.w.maps.length) (Conc.newMap s)
  | .newStruct m k, s => .allocates :: trace (k s.next) (Conc.newStruct m s)

/-- The byte of a buffer that is read, if it is one. -/
def Event.byteRead : Event → Option (Nat × Nat)
  | .reads (.cell a q) => some (a, q)
  | _ => none

/-- The bytes of buffers that are read, in order: array and position. -/
def bytesRead (es : List Event) : List (Nat × Nat) := es.filterMap Event.byteRead

theorem bytesRead_append (xs ys : List Event) : bytesRead (xs ++ ys) = bytesRead xs ++ bytesRead ys := List.filterMap_append

variable {α β : Type}

theorem trace_bind {p : Prog α} {f : α → Prog β} {s s' : GSt} {a : α} (h : p.run s = .ok (a, s')) : (p >>= f).trace s = p.trace s ++ (f a).trace s' := by
  show (p.bind f).trace s = _
  induction p generalizing s with
  | done b => cases h; rfl
  | stop e => cases h
  | load l k ih => show Event.ofLoad l ++ _ = (Event.ofLoad l ++ _) ++ _; rw [ih _ h, List.append_assoc]
  | store w k ih => exact congrArg (_ :: ·) (ih h)
  | newArr bs k ih => exact congrArg (_ :: ·) (ih _ h)
  | newMap k ih => exact congrArg (_ :: ·) (ih _ h)
  | newStruct m k ih => exact congrArg (_ :: ·) (ih _ h)

theorem run_bind_ok {p : Prog α} {f : α → Prog β} {s s' : GSt} {b : β} (h : (p >>= f).run s = .ok (b, s')) :
    ∃ a t, p.run s = .ok (a, t) ∧ (f a).run t = .ok (b, s') ∧ (p >>= f).trace s = p.trace s ++ (f a).trace t := by
  rw [Prog.run_bind] at h
  obtain ⟨⟨a, t⟩, h1, h2⟩ := bindOk h
  exact ⟨a, t, h1, h2, trace_bind h1⟩

theorem trace_lift (x : M α) (s : GSt) : (lift x).trace s = [] := by cases x <;> rfl

/-- Consecutive bytes. -/
def cells (a q n : Nat) : List Event := (List.range' q n).map fun j => .reads (.cell a j)

theorem trace_readFrom (a q n : Nat) (s : GSt) : (readFrom a q n).trace s = cells a q n := by
  induction n generalizing q with
  | zero => rfl
  | succ n ih =>
    show .reads (.cell a q) :: Prog.trace (readFrom a (q + 1) n >>= fun rest => .done ((read (.cell a q) s : Option Byte).toList ++ rest)) s = _
    rw [trace_bind (ends_readFrom a (q + 1) n s), ih]
    show _ :: (_ ++ []) = _
    rw [List.append_nil]
    rfl

theorem trace_readSlice (t : HSlice) (s : GSt) : (readSlice t).trace s = cells t.arr t.off (min t.len t.cap) := trace_readFrom ..

theorem trace_readRun (a q n : Nat) (s : GSt) (hn : q + n ≤ (s.h.w.arr a).length) :
    (readRun a q n).trace s = cells a q (varintRun (((s.h.w.arr a).drop q).take n)).length := by
  induction n generalizing q with
  | zero => rfl
  | succ n ih =>
    have hq : q < (s.h.w.arr a).length := by omega
    have e : (read (.cell a q) s : Option Byte) = some (s.h.w.arr a)[q] := List.getElem?_eq_getElem hq
    show .reads (.cell a q) :: Prog.trace (afterByte (readRun a (q + 1) n) (read (.cell a q) s : Option Byte)) s = _
    rw [e, List.drop_eq_getElem_cons hq, List.take_succ_cons]
    simp only [varintRun, afterByte]
    by_cases hb : ((s.h.w.arr a)[q]).toNat < 0x80
    · rw [if_pos hb, if_pos hb]; rfl
    · rw [if_neg hb, if_neg hb]
      rw [trace_bind (ends_readRun a (q + 1) n s)]
      simp only [withH_self]
      rw [ih (q + 1) (by omega)]
      show _ :: (_ ++ []) = _
      rw [List.append_nil]
      rfl

/-! ## Programs without access to bytes -/

/-- Whatever it reads, the program makes at most `n` accesses, and none of a byte. -/
inductive Table : Nat → Prog α → Prop
  | done {n a} : Table n (.done a)
  | stop {n e} : Table n (.stop e)
  | size {n i k} : (∀ x, Table n (k x)) → Table n (.load (.slots i) k)
  | load {n l k} : (∀ a q, l ≠ .cell a q) → (∀ x, Table n (k x)) → Table (n + 1) (.load l k)
  | store {n w k} : (∀ a q, w.loc ≠ .cell a q) → Table n k → Table (n + 1) (.store w k)
  | newMap {n k} : (∀ x, Table n (k x)) → Table (n + 1) (.newMap k)

theorem Table.mono {n m : Nat} {p : Prog α} (h : Table n p) (hm : n ≤ m) : Table m p := by
  induction h generalizing m with
  | done => exact .done
  | stop => exact .stop
  | size _ ih => exact .size fun x => ih x hm
  | load hl _ ih => obtain ⟨m, rfl⟩ := Nat.exists_eq_add_of_lt (Nat.lt_of_succ_le hm); exact .load hl fun x => ih x (by omega)
  | store hw _ ih => obtain ⟨m, rfl⟩ := Nat.exists_eq_add_of_lt (Nat.lt_of_succ_le hm); exact .store hw (ih (by omega))
  | newMap _ ih => obtain ⟨m, rfl⟩ := Nat.exists_eq_add_of_lt (Nat.lt_of_succ_le hm); exact .newMap fun x => ih x (by omega)

theorem Table.bind {n m : Nat} {p : Prog α} {f : α → Prog β} (h : Table n p) (hf : ∀ a, Table m (f a)) : Table (n + m) (p >>= f) := by
  show Table _ (p.bind f)
  induction h with
  | done => exact (hf _).mono (by omega)
  | stop => exact .stop
  | size _ ih => exact .size ih
  | load hl _ ih => rw [Nat.add_right_comm]; exact .load hl ih
  | store hw _ ih => rw [Nat.add_right_comm]; exact .store hw ih
  | newMap _ ih => rw [Nat.add_right_comm]; exact .newMap ih

theorem Table.lift (x : M α) (n : Nat) : Table n (lift x) := by
  cases x with
  | ok a => exact .done
  | error e => exact .stop

theorem Table.length {n : Nat} {p : Prog α} (h : Table n p) (s : GSt) : (p.trace s).length ≤ n := by
  induction h generalizing s with
  | done => exact Nat.zero_le _
  | stop => exact Nat.zero_le _
  | size _ ih => exact ih _ _
  | @load n l k hl _ ih =>
    show (Event.ofLoad l ++ _).length ≤ _
    have := ih (read l s) s
    have : (Event.ofLoad l).length ≤ 1 := by unfold Event.ofLoad; split <;> simp
    rw [List.length_append]
    omega
  | store hw _ ih => exact Nat.succ_le_succ (ih _)
  | newMap _ ih => exact Nat.succ_le_succ (ih _ _)

theorem ofLoad_bytes {l : Loc} (h : ∀ a q, l ≠ .cell a q) : bytesRead (Event.ofLoad l) = [] := by
  cases l with
  | cell a q => exact absurd rfl (h a q)
  | _ => rfl

theorem Table.bytes {n : Nat} {p : Prog α} (h : Table n p) (s : GSt) : bytesRead (p.trace s) = [] := by
  induction h generalizing s with
  | done => rfl
  | stop => rfl
  | size _ ih => exact ih _ _
  | @load n l k hl _ ih =>
    show bytesRead (Event.ofLoad l ++ _) = []
    rw [bytesRead_append, ofLoad_bytes hl, ih]
    rfl
  | store hw _ ih => exact ih _
  | newMap _ ih => exact ih _ _

theorem Table.arrs {n : Nat} {p : Prog α} (h : Table n p) {s s' : GSt} {a : α} (hr : p.run s = .ok (a, s')) : s'.h.w.arrs = s.h.w.arrs := by
  induction h generalizing s with
  | done => cases hr; rfl
  | stop => cases hr
  | size _ ih => exact ih _ hr
  | load hl _ ih => exact ih _ hr
  | @store n w k hw _ ih =>
    refine (ih hr).trans ?_
    cases w with
    | cell a q b => exact absurd rfl (hw a q)
    | _ => rfl
  | newMap _ ih => exact (ih _ hr).trans rfl

end Zeropb.GoSrc.Conc
