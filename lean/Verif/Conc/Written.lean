import Verif.Conc.SetAccess
/-!
# The bytes a program writes
-/

set_option linter.constructorNameAsVariable false

namespace Zeropb.GoSrc.Conc
open Zeropb.GoSrc.G Zeropb.Wire

variable {α β : Type}

/-- The byte of a buffer that is written, if it is one. -/
def Event.byteWritten : Event → Option (Nat × Nat)
  | .writes (.cell a q) => some (a, q)
  | _ => none

/-- The bytes of buffers that are written, in order: array and position. -/
def bytesWritten (es : List Event) : List (Nat × Nat) := es.filterMap Event.byteWritten

theorem bytesWritten_append (xs ys : List Event) : bytesWritten (xs ++ ys) = bytesWritten xs ++ bytesWritten ys := List.filterMap_append

theorem bytesWritten_cells (a q n : Nat) : bytesWritten (cells a q n) = [] := by
  unfold bytesWritten cells
  rw [List.filterMap_map, List.filterMap_eq_nil_iff]
  intro _ _
  rfl

theorem mem_bytesWritten {es : List Event} {a q : Nat} : (a, q) ∈ bytesWritten es ↔ .writes (.cell a q) ∈ es := by
  unfold bytesWritten
  rw [List.mem_filterMap]
  constructor
  · rintro ⟨e, h1, h2⟩
    unfold Event.byteWritten at h2
    split at h2
    · injection h2 with h2; injection h2 with h3 h4; subst h3; subst h4; exact h1
    · cases h2
  · exact fun h => ⟨_, h, rfl⟩

/-! ## Programs with only certain accesses -/

/-- Whatever it reads, the program makes only accesses in `S`, and allocates no buffer and no struct. -/
def Only (S : Event → Prop) : Prog α → Prop
  | .done _ => True
  | .stop _ => True
  | .load l k => (∀ e ∈ Event.ofLoad l, S e) ∧ ∀ x, Only S (k x)
  | .store w k => S (.writes w.loc) ∧ Only S k
  | .newArr _ _ => False
  | .newMap k => S .allocates ∧ ∀ x, Only S (k x)
  | .newStruct _ _ => False

theorem Only.bind {S : Event → Prop} {p : Prog α} {f : α → Prog β} (h : Only S p) (hf : ∀ a, Only S (f a)) : Only S (p >>= f) := by
  show Only S (p.bind f)
  induction p with
  | done a => exact hf a
  | stop e => trivial
  | load l k ih => exact ⟨h.1, fun x => ih x (h.2 x)⟩
  | store w k ih => exact ⟨h.1, ih h.2⟩
  | newArr bs k ih => exact absurd h id
  | newMap k ih => exact ⟨h.1, fun x => ih x (h.2 x)⟩
  | newStruct m k ih => exact absurd h id

theorem Only.trace {S : Event → Prop} {p : Prog α} (h : Only S p) (s : GSt) : ∀ e ∈ p.trace s, S e := by
  induction p generalizing s with
  | done a => intro e he; cases he
  | stop e => intro e he; cases he
  | load l k ih =>
    intro e he
    rcases List.mem_append.1 he with he | he
    · exact h.1 e he
    · exact ih _ (h.2 _) _ e he
  | store w k ih =>
    intro e he
    rcases List.mem_cons.1 he with he | he
    · exact he ▸ h.1
    · exact ih h.2 _ e he
  | newArr bs k ih => exact absurd h id
  | newMap k ih =>
    intro e he
    rcases List.mem_cons.1 he with he | he
    · exact he ▸ h.1
    · exact ih _ (h.2 _) _ e he
  | newStruct m k ih => exact absurd h id

theorem Only.forP {S : Event → Prop} {f : Nat → Prog Unit} (h : ∀ k, Only S (f k)) (ks : List Nat) : Only S (forP f ks) := by
  induction ks with
  | nil => trivial
  | cons k ks ih => exact (h k).bind fun _ => ih

/-- An access to the offsets of a struct: no byte, no buffer. -/
def OfTable : Event → Prop
  | .reads (.cell _ _) | .reads (.buf _) | .writes (.cell _ _) | .writes (.buf _) => False
  | _ => True

theorem only_setP (i f : Nat) (x : U64) : Only OfTable (setP i f x) := by
  unfold setP
  split
  · refine ⟨by simp [Event.ofLoad, OfTable], fun v => ?_⟩
    rcases v with _ | v
    · trivial
    · have rest : Only OfTable (Prog.load (.slots i) fun (n : Nat) => if f < n then .store (.slot i f (x.setWidth 16)) (.done ([] : List Val)) else .stop (.fail .indexOutOfRange)) := by
        refine ⟨by simp [Event.ofLoad, OfTable], fun (n : Nat) => ?_⟩
        dsimp only
        split
        · exact ⟨trivial, trivial⟩
        · trivial
      dsimp only
      split
      · refine ⟨by simp [Event.ofLoad, OfTable], fun r => ?_⟩
        rcases r with _ | r
        · exact rest
        · exact ⟨by simp [Event.ofLoad, OfTable], fun m => ⟨trivial, rest⟩⟩
      · exact rest
  · refine ⟨by simp [Event.ofLoad, OfTable], fun (n : Nat) => ?_⟩
    dsimp only
    split
    · refine ⟨trivial, by simp [Event.ofLoad, OfTable], fun r => ?_⟩
      have rest : Only OfTable (Prog.load (.ref i) fun (r : Option Nat) => match r with
        | none => .stop .stuck
        | some id => .load (.map id) fun (m : GoMap) => .store (.map id (m.put f x)) (.done ([] : List Val))) := by
        refine ⟨by simp [Event.ofLoad, OfTable], fun r => ?_⟩
        rcases r with _ | r
        · trivial
        · exact ⟨by simp [Event.ofLoad, OfTable], fun m => ⟨trivial, trivial⟩⟩
      rcases r with _ | r
      · exact ⟨trivial, fun id => ⟨trivial, rest⟩⟩
      · exact rest
    · trivial

theorem only_adjustP (rt : Rt) (i : Nat) (fe rb : U64) : Only OfTable (adjustP rt i fe rb) := by
  unfold adjustP
  refine ⟨by simp [Event.ofLoad], fun n => (Only.forP (fun k => ?_) _).bind fun _ => ⟨by simp [Event.ofLoad, OfTable], fun r => ?_⟩⟩
  · unfold adjust1
    refine ⟨by simp [Event.ofLoad, OfTable], fun x => ?_⟩
    rcases x with _ | x
    · trivial
    · dsimp only
      split
      · refine ⟨by simp [Event.ofLoad], fun (n : Nat) => ?_⟩
        dsimp only
        split
        · exact ⟨trivial, trivial⟩
        · trivial
      · trivial
  · rcases r with _ | r
    · trivial
    · refine ⟨by simp [Event.ofLoad, OfTable], fun m => Only.forP (fun k => ?_) _⟩
      unfold adjust2
      refine ⟨by simp [Event.ofLoad, OfTable], fun m => ?_⟩
      dsimp only
      split
      · trivial
      · split
        · exact (only_setP _ _ _).bind fun _ => trivial
        · trivial

theorem only_find (i f : Nat) : Only OfTable (find i f) := by
  unfold find
  refine ⟨by simp [Event.ofLoad, OfTable], fun x => ?_⟩
  rcases x with _ | x
  · trivial
  · dsimp only
    split
    · refine ⟨by simp [Event.ofLoad, OfTable], fun r => ?_⟩
      rcases r with _ | r
      · trivial
      · exact ⟨by simp [Event.ofLoad, OfTable], fun m => trivial⟩
    · split <;> trivial

/-! ## What is written and what stays -/

/-- What is not written stays. -/
theorem keeps_trace {p : Prog α} {s s' : GSt} {a : α} (h : p.run s = .ok (a, s')) : Keeps (fun l => .writes l ∈ p.trace s) s s' := by
  induction p generalizing s with
  | done b => cases h; exact .refl _
  | stop e => cases h
  | load l k ih => exact (ih _ h).mono fun l' hl => List.mem_append_right _ hl
  | store w k ih => exact (keeps_write (X := fun l => Event.writes l ∈ Prog.trace (.store w k) s) (w := w) s (List.mem_cons_self ..)).trans ((ih h).mono fun l' hl => List.mem_cons_of_mem _ hl)
  | newArr bs k ih => exact (keeps_newArr bs s).trans ((ih _ h).mono fun l' hl => List.mem_cons_of_mem _ hl)
  | newMap k ih => exact (keeps_newMap s).trans ((ih _ h).mono fun l' hl => List.mem_cons_of_mem _ hl)
  | newStruct m k ih => exact (keeps_newStruct m s).trans ((ih _ h).mono fun l' hl => List.mem_cons_of_mem _ hl)

/-- Arrays do not shrink, and there are not fewer. -/
structure Grows (s s' : GSt) : Prop where
  arrs : s.h.w.arrs.length ≤ s'.h.w.arrs.length
  arr : ∀ a, (s.h.w.arr a).length ≤ (s'.h.w.arr a).length

theorem Grows.trans {s s' s'' : GSt} (h : Grows s s') (h' : Grows s' s'') : Grows s s'' := ⟨Nat.le_trans h.arrs h'.arrs, fun a => Nat.le_trans (h.arr a) (h'.arr a)⟩

theorem grows_run {p : Prog α} {s s' : GSt} {a : α} (h : p.run s = .ok (a, s')) : Grows s s' := by
  induction p generalizing s with
  | done b => cases h; exact ⟨Nat.le_refl _, fun _ => Nat.le_refl _⟩
  | stop e => cases h
  | load l k ih => exact ih _ h
  | store w k ih =>
    have := w.sameSize s
    exact Grows.trans ⟨Nat.le_of_eq this.arrs.symm, fun a => Nat.le_of_eq (this.arr a).symm⟩ (ih h)
  | newArr bs k ih =>
    refine Grows.trans ⟨by simp [Conc.newArr, withW], fun a => ?_⟩ (ih _ h)
    simp only [Conc.newArr, withW, World.arr, List.getD_eq_getElem?_getD]
    by_cases ha : a < s.h.w.arrs.length
    · rw [List.getElem?_append_left ha]; exact Nat.le_refl _
    · rw [List.getElem?_eq_none (by omega)]; exact Nat.zero_le _
  | newMap k ih =>
    have h : (k s.h.w.maps.length).run (Conc.newMap s) = _ := h
    exact Grows.trans (s' := Conc.newMap s) ⟨Nat.le_refl _, fun _ => Nat.le_refl _⟩ (ih _ h)
  | newStruct m k ih =>
    have h : (k s.next).run (Conc.newStruct m s) = _ := h
    exact Grows.trans (s' := Conc.newStruct m s) ⟨Nat.le_refl _, fun _ => Nat.le_refl _⟩ (ih _ h)

theorem Grows.wfsrc {s s' : GSt} (h : Grows s s') {x : Src} (hx : World.WFsrc s.h.w x) : World.WFsrc s'.h.w x := by
  cases x with
  | lit => trivial
  | mem t => exact ⟨hx.1, Nat.le_trans hx.2 (h.arr _)⟩

/-- A program that touches only offsets leaves the buffer and all bytes. -/
theorem table_keeps {p : Prog α} (hp : Only OfTable p) {s s' : GSt} {a : α} (h : p.run s = .ok (a, s')) {i : Nat} (hi : i < s.next) :
    (s'.h.ms i).buf = (s.h.ms i).buf ∧ s'.h.w.arrs = s.h.w.arrs ∧ bytesWritten (p.trace s) = [] ∧ bytesRead (p.trace s) = [] ∧ s.next ≤ s'.next := by
  have ht := hp.trace s
  have hk := keeps_trace h
  refine ⟨hk.same (.buf i) hi fun hw => ht _ hw, ?_, ?_, ?_, hk.next⟩
  · clear ht hk
    induction p generalizing s with
    | done b => cases h; rfl
    | stop e => cases h
    | load l k ih => exact ih _ (hp.2 _) h hi
    | store w k ih =>
      refine (ih hp.2 h ?_).trans ?_
      · rw [(w.sameSize s).next]; exact hi
      · cases w with
        | cell a q b => exact absurd hp.1 id
        | _ => rfl
    | newArr bs k ih => exact absurd hp id
    | newMap k ih =>
      have h : (k s.h.w.maps.length).run (Conc.newMap s) = _ := h
      have := ih _ (hp.2 _) h hi
      exact this
    | newStruct m k ih => exact absurd hp id
  · unfold bytesWritten
    rw [List.filterMap_eq_nil_iff]
    intro e he
    have := ht e he
    cases e with
    | allocates => rfl
    | reads l => rfl
    | writes l => cases l <;> first | rfl | exact absurd this id
  · unfold bytesRead
    rw [List.filterMap_eq_nil_iff]
    intro e he
    have := ht e he
    cases e with
    | allocates => rfl
    | writes l => rfl
    | reads l => cases l <;> first | rfl | exact absurd this id

/-! ## `append` and `copy` -/

/-- Consecutive bytes that are written. -/
def stored (a q n : Nat) : List Event := (List.range' q n).map fun j => .writes (.cell a j)

theorem bytesWritten_stored (a q n : Nat) : bytesWritten (stored a q n) = (List.range' q n).map fun j => (a, j) := by
  unfold bytesWritten stored
  rw [List.filterMap_map, ← List.filterMap_eq_map]
  rfl

theorem bytesRead_stored (a q n : Nat) : bytesRead (stored a q n) = [] := by
  unfold bytesRead stored
  rw [List.filterMap_map, List.filterMap_eq_nil_iff]
  intro _ _
  rfl

theorem does_writeTo (a q : Nat) (bs : List Byte) (s : GSt) : Does (writeTo a q bs) s () (withH s { s.h with w := s.h.w.write a q bs }) (stored a q bs.length) := by
  refine ⟨ends_writeTo a q bs s, ?_⟩
  induction bs generalizing q s with
  | nil => rfl
  | cons b bs ih => exact congrArg (_ :: ·) (ih (q + 1) _)

/-- The bytes of an argument in memory. -/
def srcBytes : Src → List (Nat × Nat)
  | .lit _ => []
  | .mem t => (List.range' t.off t.len).map fun j => (t.arr, j)

theorem does_readSrc {s : GSt} {x : Src} (hx : World.WFsrc s.h.w x) : ∃ es, Does (readSrc x) s (s.h.w.src x) s es ∧ bytesWritten es = [] ∧ (∀ l, .writes l ∉ es) ∧ .allocates ∉ es ∧
    bytesRead es = srcBytes x := by
  cases x with
  | lit bs => exact ⟨_, does_done _ _, rfl, by simp, by simp, rfl⟩
  | mem t =>
    refine ⟨_, readSlice_at hx, bytesWritten_cells .., ?_, ?_, ?_⟩
    · intro l hl; simp [cells] at hl
    · intro hl; simp [cells] at hl
    · unfold bytesRead cells
      rw [List.filterMap_map]
      show _ = (List.range' t.off t.len).map fun j => (t.arr, j)
      rw [← List.filterMap_eq_map]
      rfl

/-- What an `append` to the buffer of a struct leaves: the buffer is longer in place, or it is another one. -/
inductive Appended (b : HSlice) (n : Nat) (s : GSt) (rs ws : List (Nat × Nat)) (b' : HSlice) (x : Src) : Prop
  | here (h : b.len + n ≤ b.cap) (e : b' = ⟨b.arr, b.off, b.len + n, b.cap⟩) (hw : ws = (List.range' (b.off + b.len) n).map fun j => (b.arr, j)) (hr : rs = srcBytes x)
  | moved (h : b.cap < b.len + n) (e : b'.arr = s.h.w.arrs.length) (hw : ws = [])

theorem appended {rt : Rt} {i : Nat} {x : Src} {s s' : GSt} {u : Unit} (h : (appendP rt i x).run s = .ok (u, s')) (hx : World.WFsrc s.h.w x) :
    Appended (s.h.ms i).buf (strLen x) s (bytesRead ((appendP rt i x).trace s)) (bytesWritten ((appendP rt i x).trace s)) (s'.h.ms i).buf x ∧ s'.next = s.next := by
  obtain ⟨es, h1, h2, _, _, h5⟩ := does_readSrc hx
  have hl := src_length hx
  have h : (readSrc x >>= fun bs => append rt (s.h.ms i).buf bs >>= fun r => .store (.buf i r) (.done ())).run s = .ok (u, s') := h
  have ht : (appendP rt i x).trace s = .reads (.buf i) :: (readSrc x >>= fun bs => append rt (s.h.ms i).buf bs >>= fun r => .store (.buf i r) (.done ())).trace s := rfl
  rw [ht]
  rw [trace_bind h1.1, h1.2]
  rw [Prog.run_bind, h1.1] at h
  have h : (append rt (s.h.ms i).buf (s.h.w.src x) >>= fun r => Prog.store (.buf i r) (.done ())).run s = .ok (u, s') := h
  obtain ⟨r, t, g1, g2, g3⟩ := run_bind_ok h
  rw [g3]
  have g2 : Except.ok ((), (Write.buf i r).apply t) = (Except.ok (u, s') : M (Unit × GSt)) := g2
  injection g2 with g2
  injection g2 with g4 g5
  subst g5
  have eb : (((Write.buf i r).apply t).h.ms i).buf = r := by simp only [Write.apply, Heap.put, if_true]
  have en : ((Write.buf i r).apply t).next = t.next := rfl
  rw [eb, en]
  have hw : bytesWritten (Event.reads (.buf i) :: (es ++ ((append rt (s.h.ms i).buf (s.h.w.src x)).trace s ++ (Prog.store (.buf i r) (.done ())).trace t))) =
      bytesWritten ((append rt (s.h.ms i).buf (s.h.w.src x)).trace s) := by
    show bytesWritten (es ++ _) = _
    rw [bytesWritten_append, h2, bytesWritten_append]
    show [] ++ (_ ++ []) = _
    simp
  have hr : bytesRead (Event.reads (.buf i) :: (es ++ ((append rt (s.h.ms i).buf (s.h.w.src x)).trace s ++ (Prog.store (.buf i r) (.done ())).trace t))) =
      srcBytes x ++ bytesRead ((append rt (s.h.ms i).buf (s.h.w.src x)).trace s) := by
    show bytesRead (es ++ _) = _
    rw [bytesRead_append, h5, bytesRead_append]
    show _ ++ (_ ++ []) = _
    simp
  rw [hw, hr]
  unfold append at g1 ⊢
  rw [hl] at g1 ⊢
  split at g1
  · next hm =>
    rw [if_pos hm]
    split at g1
    · next hc =>
      rw [if_pos hc]
      have hd := (does_writeTo (s.h.ms i).buf.arr ((s.h.ms i).buf.off + (s.h.ms i).buf.len) (s.h.w.src x) s).then (f := fun _ =>
        .done (⟨(s.h.ms i).buf.arr, (s.h.ms i).buf.off, (s.h.ms i).buf.len + strLen x, (s.h.ms i).buf.cap⟩ : HSlice)) rfl
      have g1 := hd.1.symm.trans g1
      injection g1 with g1
      injection g1 with g6 g7
      refine ⟨.here hc g6.symm ?_ ?_, by rw [← g7]; rfl⟩
      · rw [show _ = _ from hd.2, bytesWritten_stored, hl]
      · rw [show _ = _ from hd.2, bytesRead_stored, List.append_nil]
    · next hc =>
      rw [if_neg hc]
      have hd := Does.bind (f := fun old => Prog.newArr (old ++ s.h.w.src x ++ rt.grow (s.h.ms i).buf.cap ((s.h.ms i).buf.len + strLen x)) fun a =>
          .done (⟨a, 0, (s.h.ms i).buf.len + strLen x, (s.h.ms i).buf.len + strLen x + (rt.grow (s.h.ms i).buf.cap ((s.h.ms i).buf.len + strLen x)).length⟩ : HSlice))
        ⟨ends_readSlice (s.h.ms i).buf s, trace_readSlice (s.h.ms i).buf s⟩ ⟨rfl, rfl⟩
      have g1 := hd.1.symm.trans g1
      injection g1 with g1
      injection g1 with g6 g7
      refine ⟨.moved (by omega) (by rw [← g6]; rfl) ?_, by rw [← g7]; rfl⟩
      rw [show _ = _ from hd.2]
      rw [bytesWritten_append, bytesWritten_cells]
      rfl
  · cases g1

/-- The bytes written before `N` lie in what `b` may be appended to. -/
def InSpare (N : Nat) (b : HSlice) (ws : List (Nat × Nat)) : Prop := ∀ a q, (a, q) ∈ ws → a < N → a = b.arr ∧ b.off + b.len ≤ q ∧ q < b.off + b.cap

theorem InSpare.append {N : Nat} {b : HSlice} {xs ys : List (Nat × Nat)} (h : InSpare N b xs) (h' : InSpare N b ys) : InSpare N b (xs ++ ys) := by
  intro a q hq
  rcases List.mem_append.1 hq with hq | hq
  · exact h a q hq
  · exact h' a q hq

/-- The buffer of struct `i` began as `b`, when there were `N` arrays. -/
structure From (N : Nat) (b : HSlice) (i : Nat) (s : GSt) : Prop where
  next : i < s.next
  arrs : N ≤ s.h.w.arrs.length
  buf : (∃ l, (s.h.ms i).buf = ⟨b.arr, b.off, l, b.cap⟩ ∧ b.len ≤ l) ∨ N ≤ (s.h.ms i).buf.arr

theorem From.appended {N : Nat} {b : HSlice} {i : Nat} {s s' : GSt} (hs : From N b i s) {rt : Rt} {x : Src} {u : Unit} (h : (appendP rt i x).run s = .ok (u, s'))
    (hx : World.WFsrc s.h.w x) : From N b i s' ∧ InSpare N b (bytesWritten ((appendP rt i x).trace s)) := by
  obtain ⟨ha, hn⟩ := Conc.appended h hx
  have hg := (grows_run h).arrs
  have := hs.arrs
  cases ha with
  | here hc e hw _ =>
    rw [hw]
    rcases hs.buf with ⟨l, e1, e2⟩ | e1
    · rw [e1] at e hc ⊢
      refine ⟨⟨by rw [hn]; exact hs.next, by omega, .inl ⟨_, e, by show b.len ≤ l + _; omega⟩⟩, ?_⟩
      intro a q hq _
      obtain ⟨j, hj, e⟩ := List.mem_map.1 hq
      injection e with ea eq
      subst ea
      subst eq
      rw [List.mem_range'_1] at hj
      dsimp only at hj hc
      exact ⟨rfl, by omega, by omega⟩
    · refine ⟨⟨by rw [hn]; exact hs.next, by omega, .inr (by rw [e]; exact e1)⟩, ?_⟩
      intro a q hq ha
      obtain ⟨j, hj, e⟩ := List.mem_map.1 hq
      injection e with ea eq
      omega
  | moved hc e hw =>
    refine ⟨⟨by rw [hn]; exact hs.next, by omega, .inr (by rw [e]; exact hs.arrs)⟩, ?_⟩
    rw [hw]
    intro a q hq
    cases hq

theorem From.table {N : Nat} {b : HSlice} {i : Nat} {s s' : GSt} (hs : From N b i s) {p : Prog α} (hp : Only OfTable p) {a : α} (h : p.run s = .ok (a, s')) : From N b i s' := by
  obtain ⟨h1, h2, _, _, h3⟩ := table_keeps hp h hs.next
  exact ⟨Nat.lt_of_lt_of_le hs.next h3, by rw [h2]; exact hs.arrs, by rw [h1]; exact hs.buf⟩

theorem range'_map_append (a q n m : Nat) : ((List.range' q n).map fun j => (a, j)) ++ ((List.range' (q + n) m).map fun j => (a, j)) = (List.range' q (n + m)).map fun j => (a, j) := by
  rw [← List.map_append, List.range'_append_1]

/-- The last part of `setSingle`: what it writes. -/
theorem tail_written {rt : Rt} {i f : Nat} {tag : List Byte} {x y : Src} {s s' : GSt} {u : List Val} (h : (tailP rt i f tag x y).run s = .ok (u, s')) (hi : i < s.next)
    (hx : World.WFsrc s.h.w x) (hy : World.WFsrc s.h.w y) :
    InSpare s.h.w.arrs.length (s.h.ms i).buf (bytesWritten ((tailP rt i f tag x y).trace s)) ∧
    ((s.h.ms i).buf.len + (tag.length + (strLen x + strLen y)) ≤ (s.h.ms i).buf.cap →
      (bytesWritten ((tailP rt i f tag x y).trace s) =
        (List.range' ((s.h.ms i).buf.off + (s.h.ms i).buf.len) (tag.length + (strLen x + strLen y))).map fun j => ((s.h.ms i).buf.arr, j)) ∧
      bytesRead ((tailP rt i f tag x y).trace s) = srcBytes x ++ srcBytes y ∧
      (s'.h.ms i).buf = ⟨(s.h.ms i).buf.arr, (s.h.ms i).buf.off, (s.h.ms i).buf.len + (tag.length + (strLen x + strLen y)), (s.h.ms i).buf.cap⟩) := by
  unfold tailP at h ⊢
  obtain ⟨_, s1, h1, h, t1⟩ := run_bind_ok h
  rw [t1]
  have g1 := grows_run h1
  have h : (setP i f (BitVec.ofNat 64 (s1.h.ms i).buf.len) >>= fun _ => appendP rt i x >>= fun _ => appendP rt i y >>= fun _ => .done []).run s1 = .ok (u, s') := h
  rw [show (Prog.load (.buf i) fun (b : HSlice) => setP i f (BitVec.ofNat 64 b.len) >>= fun _ => appendP rt i x >>= fun _ => appendP rt i y >>= fun _ => Prog.done ([] : List Val)).trace s1 =
    .reads (.buf i) :: (setP i f (BitVec.ofNat 64 (s1.h.ms i).buf.len) >>= fun _ => appendP rt i x >>= fun _ => appendP rt i y >>= fun _ => Prog.done ([] : List Val)).trace s1 from rfl]
  obtain ⟨_, s2, h2, h, t2⟩ := run_bind_ok h
  rw [t2]
  have g2 := grows_run h2
  obtain ⟨_, s3, h3, h, t3⟩ := run_bind_ok h
  rw [t3]
  have g3 := grows_run h3
  obtain ⟨_, s4, h4, h, t4⟩ := run_bind_ok h
  rw [t4]
  have h : Except.ok (([] : List Val), s4) = (Except.ok (u, s') : M (List Val × GSt)) := h
  injection h with h
  injection h with h6 h7
  subst h7
  have hx2 := (g1.trans g2).wfsrc hx
  have hy3 := ((g1.trans g2).trans g3).wfsrc hy
  have f0 : From s.h.w.arrs.length (s.h.ms i).buf i s := ⟨hi, Nat.le_refl _, .inl ⟨_, rfl, Nat.le_refl _⟩⟩
  obtain ⟨f1, w1⟩ := f0.appended h1 trivial
  have f2 := f1.table (only_setP _ _ _) h2
  obtain ⟨k1, k2, k3, k4, k5⟩ := table_keeps (only_setP _ _ _) h2 f1.next
  obtain ⟨f3, w3⟩ := f2.appended h3 hx2
  obtain ⟨f4, w4⟩ := f3.appended h4 hy3
  have hw : bytesWritten ((appendP rt i (.lit tag)).trace s ++ .reads (.buf i) :: ((setP i f (BitVec.ofNat 64 (s1.h.ms i).buf.len)).trace s1 ++ ((appendP rt i x).trace s2 ++
      ((appendP rt i y).trace s3 ++ (Prog.done ([] : List Val)).trace s4)))) = bytesWritten ((appendP rt i (.lit tag)).trace s) ++ (bytesWritten ((appendP rt i x).trace s2) ++
      bytesWritten ((appendP rt i y).trace s3)) := by
    rw [bytesWritten_append]
    show _ ++ bytesWritten (_ ++ (_ ++ (_ ++ []))) = _
    simp only [bytesWritten_append, k3, List.nil_append, List.append_nil]
  have hr : bytesRead ((appendP rt i (.lit tag)).trace s ++ .reads (.buf i) :: ((setP i f (BitVec.ofNat 64 (s1.h.ms i).buf.len)).trace s1 ++ ((appendP rt i x).trace s2 ++
      ((appendP rt i y).trace s3 ++ (Prog.done ([] : List Val)).trace s4)))) = bytesRead ((appendP rt i (.lit tag)).trace s) ++ (bytesRead ((appendP rt i x).trace s2) ++
      bytesRead ((appendP rt i y).trace s3)) := by
    rw [bytesRead_append]
    show _ ++ bytesRead (_ ++ (_ ++ (_ ++ []))) = _
    simp only [bytesRead_append, k4, List.nil_append, List.append_nil]
  rw [hw, hr]
  refine ⟨w1.append (w3.append w4), fun hc => ?_⟩
  obtain ⟨a1, _⟩ := Conc.appended h1 trivial
  obtain ⟨a3, _⟩ := Conc.appended h3 hx2
  obtain ⟨a4, _⟩ := Conc.appended h4 hy3
  have et : strLen (.lit tag) = tag.length := rfl
  rw [et] at a1
  cases a1 with
  | moved c => omega
  | here c e1 e2 y1 =>
    rw [k1, e1] at a3
    cases a3 with
    | moved c => dsimp only at c; omega
    | here c e3 e4 y3 =>
      rw [e3] at a4
      cases a4 with
      | moved c => dsimp only at c; omega
      | here c e5 e6 y5 =>
        rw [e2, e4, e6, e5, y1, y3, y5]
        dsimp only
        refine ⟨?_, rfl, ?_⟩
        · rw [← range'_map_append, ← range'_map_append]
          simp only [Nat.add_assoc]
        · simp only [Nat.add_assoc]

/-- `appendSingle`: what it writes. -/
theorem append_written {rt : Rt} {i f : Nat} {tag : List Byte} {x y : Src} {s s' : GSt} {u : List Val} (h : (appendSingleP rt i f tag x y).run s = .ok (u, s')) (hi : i < s.next)
    (hx : World.WFsrc s.h.w x) (hy : World.WFsrc s.h.w y) :
    InSpare s.h.w.arrs.length (s.h.ms i).buf (bytesWritten ((appendSingleP rt i f tag x y).trace s)) ∧
    ((s.h.ms i).buf.len + (tag.length + (strLen x + strLen y)) ≤ (s.h.ms i).buf.cap →
      (bytesWritten ((appendSingleP rt i f tag x y).trace s) =
        (List.range' ((s.h.ms i).buf.off + (s.h.ms i).buf.len) (tag.length + (strLen x + strLen y))).map fun j => ((s.h.ms i).buf.arr, j)) ∧
      bytesRead ((appendSingleP rt i f tag x y).trace s) = srcBytes x ++ srcBytes y ∧
      (s'.h.ms i).buf = ⟨(s.h.ms i).buf.arr, (s.h.ms i).buf.off, (s.h.ms i).buf.len + (tag.length + (strLen x + strLen y)), (s.h.ms i).buf.cap⟩) := by
  unfold appendSingleP at h ⊢
  obtain ⟨_, s1, h1, h, t1⟩ := run_bind_ok h
  rw [t1]
  have g1 := grows_run h1
  have h : (find i f >>= fun o => (if o.isSome then .done [] else setP i f (BitVec.ofNat 64 (s1.h.ms i).buf.len)) >>= fun _ => appendP rt i x >>= fun _ => appendP rt i y >>= fun _ => .done []).run s1 =
    .ok (u, s') := h
  rw [show (Prog.load (.buf i) fun (b : HSlice) => find i f >>= fun o => (if o.isSome then .done [] else setP i f (BitVec.ofNat 64 b.len)) >>= fun _ => appendP rt i x >>= fun _ =>
      appendP rt i y >>= fun _ => Prog.done ([] : List Val)).trace s1 =
    .reads (.buf i) :: (find i f >>= fun o => (if o.isSome then .done [] else setP i f (BitVec.ofNat 64 (s1.h.ms i).buf.len)) >>= fun _ => appendP rt i x >>= fun _ => appendP rt i y >>= fun _ =>
      Prog.done ([] : List Val)).trace s1 from rfl]
  obtain ⟨o, s0, h0, h, t0⟩ := run_bind_ok h
  rw [t0]
  have g0 := grows_run h0
  obtain ⟨_, s2, h2, h, t2⟩ := run_bind_ok h
  rw [t2]
  have g2 := grows_run h2
  obtain ⟨_, s3, h3, h, t3⟩ := run_bind_ok h
  rw [t3]
  have g3 := grows_run h3
  obtain ⟨_, s4, h4, h, t4⟩ := run_bind_ok h
  rw [t4]
  have h : Except.ok (([] : List Val), s4) = (Except.ok (u, s') : M (List Val × GSt)) := h
  injection h with h
  injection h with h6 h7
  subst h7
  have hx2 := ((g1.trans g0).trans g2).wfsrc hx
  have hy3 := (((g1.trans g0).trans g2).trans g3).wfsrc hy
  have hp : Only OfTable (if o.isSome then .done [] else setP i f (BitVec.ofNat 64 (s1.h.ms i).buf.len)) := by
    split
    · trivial
    · exact only_setP _ _ _
  have f0 : From s.h.w.arrs.length (s.h.ms i).buf i s := ⟨hi, Nat.le_refl _, .inl ⟨_, rfl, Nat.le_refl _⟩⟩
  obtain ⟨f1, w1⟩ := f0.appended h1 trivial
  have f1' := f1.table (only_find _ _) h0
  have f2 := f1'.table hp h2
  obtain ⟨j1, j2, j3, j4, j5⟩ := table_keeps (only_find _ _) h0 f1.next
  obtain ⟨k1, k2, k3, k4, k5⟩ := table_keeps hp h2 f1'.next
  obtain ⟨f3, w3⟩ := f2.appended h3 hx2
  obtain ⟨f4, w4⟩ := f3.appended h4 hy3
  have hw : bytesWritten ((appendP rt i (.lit tag)).trace s ++ .reads (.buf i) :: ((find i f).trace s1 ++
      ((if o.isSome then .done [] else setP i f (BitVec.ofNat 64 (s1.h.ms i).buf.len)).trace s0 ++ ((appendP rt i x).trace s2 ++
      ((appendP rt i y).trace s3 ++ (Prog.done ([] : List Val)).trace s4))))) = bytesWritten ((appendP rt i (.lit tag)).trace s) ++ (bytesWritten ((appendP rt i x).trace s2) ++
      bytesWritten ((appendP rt i y).trace s3)) := by
    rw [bytesWritten_append]
    show _ ++ bytesWritten (_ ++ (_ ++ (_ ++ (_ ++ [])))) = _
    simp only [bytesWritten_append, j3, k3, List.nil_append, List.append_nil]
  have hr : bytesRead ((appendP rt i (.lit tag)).trace s ++ .reads (.buf i) :: ((find i f).trace s1 ++
      ((if o.isSome then .done [] else setP i f (BitVec.ofNat 64 (s1.h.ms i).buf.len)).trace s0 ++ ((appendP rt i x).trace s2 ++
      ((appendP rt i y).trace s3 ++ (Prog.done ([] : List Val)).trace s4))))) = bytesRead ((appendP rt i (.lit tag)).trace s) ++ (bytesRead ((appendP rt i x).trace s2) ++
      bytesRead ((appendP rt i y).trace s3)) := by
    rw [bytesRead_append]
    show _ ++ bytesRead (_ ++ (_ ++ (_ ++ (_ ++ [])))) = _
    simp only [bytesRead_append, j4, k4, List.nil_append, List.append_nil]
  rw [hw, hr]
  refine ⟨w1.append (w3.append w4), fun hc => ?_⟩
  obtain ⟨a1, _⟩ := Conc.appended h1 trivial
  obtain ⟨a3, _⟩ := Conc.appended h3 hx2
  obtain ⟨a4, _⟩ := Conc.appended h4 hy3
  have et : strLen (.lit tag) = tag.length := rfl
  rw [et] at a1
  cases a1 with
  | moved c => omega
  | here c e1 e2 y1 =>
    rw [k1, j1, e1] at a3
    cases a3 with
    | moved c => dsimp only at c; omega
    | here c e3 e4 y3 =>
      rw [e3] at a4
      cases a4 with
      | moved c => dsimp only at c; omega
      | here c e5 e6 y5 =>
        rw [e2, e4, e6, e5, y1, y3, y5]
        dsimp only
        refine ⟨?_, rfl, ?_⟩
        · rw [← range'_map_append, ← range'_map_append]
          simp only [Nat.add_assoc]
        · simp only [Nat.add_assoc]

/-! ## The old value -/

/-- Nothing is written or allocated. -/
def OnlyReads (es : List Event) : Prop := ∀ e ∈ es, ∃ l, e = .reads l

theorem OnlyReads.written {es : List Event} (h : OnlyReads es) : bytesWritten es = [] := by
  unfold bytesWritten
  rw [List.filterMap_eq_nil_iff]
  intro e he
  obtain ⟨l, rfl⟩ := h e he
  rfl

theorem onlyReads_cells (a q n : Nat) : OnlyReads (cells a q n) := by
  intro e he
  obtain ⟨j, _, rfl⟩ := List.mem_map.1 he
  exact ⟨_, rfl⟩

theorem OnlyReads.append {xs ys : List Event} (h : OnlyReads xs) (h' : OnlyReads ys) : OnlyReads (xs ++ ys) := by
  intro e he
  rcases List.mem_append.1 he with he | he
  · exact h e he
  · exact h' e he

theorem OnlyReads.cons {l : Loc} {ys : List Event} (h' : OnlyReads ys) : OnlyReads (.reads l :: ys) := by
  intro e he
  rcases List.mem_cons.1 he with he | he
  · exact ⟨_, he⟩
  · exact h' e he

section
variable {s : GSt} {i f : Nat} {A pay B : List Byte}

/-- The length of the old value is found without looking at more than its length. -/
theorem oldLen_at (hw : s.h.w.WFs (s.h.ms i).buf) (hl : Located (s.h.w.slice (s.h.ms i).buf) (s.h.w.offs (s.h.ms i)) f A pay B) {v : Wire.Val} (hp : IsPayload v pay) :
    ∃ es, Does (oldLenP i v.wireType (BitVec.ofNat 64 A.length)) s (pay.length : Int) s es ∧ OnlyReads es ∧
      bytesRead es = (List.range' ((s.h.ms i).buf.off + A.length) (markLen v pay)).map fun j => ((s.h.ms i).buf.arr, j) := by
  have hll := hl.lens
  have e0 : (BitVec.ofNat 64 A.length).toNat = A.length := ofNat64_toNat (by unfold maxLen at hll; omega)
  obtain ⟨t, h1, h2, h3, h4⟩ := drop_at hw hl.data
  cases v with
  | varint u =>
    have hr := readVarint_at h3 h4 hp
    have hu : (uvarint pay).2 = (pay.length : Int) := by have := uvarint_of_isVarint hp []; rw [List.append_nil] at this; rw [this]
    refine ⟨_, does_buf (es := cells t.arr t.off pay.length) ?_, OnlyReads.cons (onlyReads_cells _ _ _), ?_⟩
    · rw [e0, lift_bind_of (a := t) (by rw [h1]; rfl)]
      exact Does.then (a := pay) hr (by rw [hu])
    · show bytesRead (cells ..) = _
      unfold bytesRead cells
      rw [List.filterMap_map, ← List.filterMap_eq_map, h2.arr, h2.off]
      rfl
  | fixed32 u =>
    have hn : pay.length = 4 := by rw [show pay = _ from hp, leBytes_length]
    refine ⟨[], ?_, (fun e he => by cases he), rfl⟩
    rw [hn]
    exact does_done _ _
  | fixed64 u =>
    have hn : pay.length = 8 := by rw [show pay = _ from hp, leBytes_length]
    refine ⟨[], ?_, (fun e he => by cases he), rfl⟩
    rw [hn]
    exact does_done _ _
  | bytes bs =>
    obtain ⟨lb, hv, rfl⟩ := hp
    have hlen : lb.length + bs.length < maxLen := by simp only [List.length_append] at hll; omega
    have hr := readVarint_at (rest := bs ++ B) h3 (by rw [h4, List.append_assoc]) hv
    have hu : uvarint lb = (BitVec.ofNat 64 bs.length, (lb.length : Int)) := by have := uvarint_of_isVarint hv []; rwa [List.append_nil] at this
    refine ⟨_, does_buf (es := cells t.arr t.off lb.length) ?_, OnlyReads.cons (onlyReads_cells _ _ _), ?_⟩
    · rw [e0, lift_bind_of (a := t) (by rw [h1]; rfl)]
      refine Does.then (a := lb) hr ?_
      rw [hu]
      dsimp only
      rw [u64ToInt_nat (by omega), Zeropb.addInt_nat (by omega), List.length_append, Nat.add_comm]
    · show bytesRead (cells ..) = _
      unfold bytesRead cells
      rw [List.filterMap_map, ← List.filterMap_eq_map, h2.arr, h2.off]
      show _ = List.filterMap _ (List.range' _ ((lb ++ bs).length - bs.length))
      rw [List.length_append, Nat.add_sub_cancel]
      rfl

/-- Only bytes are written, and nothing is allocated. -/
def OnlyBytes (es : List Event) : Prop := (∀ l, .writes l ∈ es → ∃ a q, l = .cell a q) ∧ .allocates ∉ es

theorem OnlyReads.bytes {es : List Event} (h : OnlyReads es) : OnlyBytes es := by
  refine ⟨fun l hl => ?_, fun hl => ?_⟩
  · obtain ⟨_, e⟩ := h _ hl
    cases e
  · obtain ⟨_, e⟩ := h _ hl
    cases e

theorem OnlyBytes.append {xs ys : List Event} (h : OnlyBytes xs) (h' : OnlyBytes ys) : OnlyBytes (xs ++ ys) := by
  refine ⟨fun l hl => ?_, fun hl => ?_⟩
  · rcases List.mem_append.1 hl with hl | hl
    · exact h.1 l hl
    · exact h'.1 l hl
  · rcases List.mem_append.1 hl with hl | hl
    · exact h.2 hl
    · exact h'.2 hl

theorem onlyBytes_stored (a q n : Nat) : OnlyBytes (stored a q n) := by
  refine ⟨fun l hl => ?_, fun hl => ?_⟩
  · obtain ⟨j, _, e⟩ := List.mem_map.1 hl
    injection e with e
    exact ⟨_, _, e.symm⟩
  · obtain ⟨j, _, e⟩ := List.mem_map.1 hl
    cases e

theorem dropFrom_le {b : HSlice} {n : Nat} (h : n ≤ b.len) : b.dropFrom (n : Int) = .ok ⟨b.arr, b.off + n, b.len - n, b.cap - n⟩ := by
  unfold HSlice.dropFrom
  rw [if_pos (by omega)]
  rfl

theorem copy_at {x : Src} {n : Nat} (hn : n + strLen x ≤ (s.h.ms i).buf.len) (hb : (s.h.ms i).buf.len < maxLen) (hx : World.WFsrc s.h.w x) :
    ∃ es, Does (copyP i (BitVec.ofNat 64 n) x) s (strLen x) (withH s { s.h with w := s.h.w.write (s.h.ms i).buf.arr ((s.h.ms i).buf.off + n) (s.h.w.src x) }) es ∧ OnlyBytes es ∧
      bytesRead es = srcBytes x ∧ bytesWritten es = (List.range' ((s.h.ms i).buf.off + n) (strLen x)).map fun j => ((s.h.ms i).buf.arr, j) := by
  obtain ⟨es, h1, h2, h3, h4, h5⟩ := does_readSrc hx
  have hl := src_length hx
  have e0 : (BitVec.ofNat 64 n).toNat = n := ofNat64_toNat (by unfold maxLen at hb; omega)
  refine ⟨_, does_buf (es := es ++ stored (s.h.ms i).buf.arr ((s.h.ms i).buf.off + n) (strLen x)) ?_, ?_, ?_, ?_⟩
  · rw [e0, lift_bind_of (a := _) (by rw [dropFrom_le (by omega)]; rfl)]
    refine h1.bind ?_
    have ht : (s.h.w.src x).take ((s.h.ms i).buf.len - n) = s.h.w.src x := List.take_of_length_le (by omega)
    dsimp only
    rw [ht, hl]
    have := does_writeTo (s.h.ms i).buf.arr ((s.h.ms i).buf.off + n) (s.h.w.src x) s
    rw [hl] at this
    exact this.then (by rw [Nat.min_eq_left (by omega)])
  · have : OnlyReads [Event.reads (.buf i)] := OnlyReads.cons (fun e he => by cases he)
    exact this.bytes.append (OnlyBytes.append ⟨fun l hl => absurd hl (h3 l), h4⟩ (onlyBytes_stored _ _ _))
  · show bytesRead (es ++ _) = _
    rw [bytesRead_append, h5, bytesRead_stored, List.append_nil]
  · show bytesWritten (es ++ _) = _
    rw [bytesWritten_append, h2, bytesWritten_stored, List.nil_append]

theorem onlyReads_finding (s : GSt) (i f : Nat) : OnlyReads (finding s i f) := by
  unfold finding
  refine OnlyReads.cons ?_
  split
  · refine OnlyReads.cons ?_
    split
    · intro e he; cases he
    · exact OnlyReads.cons (fun e he => by cases he)
  · intro e he; cases he

theorem bytesRead_finding (s : GSt) (i f : Nat) : bytesRead (finding s i f) = [] := by
  unfold finding
  split
  · split <;> rfl
  · rfl

/-- A value is replaced by one of the same length. -/
theorem set_same {v : Wire.Val} (hw : s.h.w.WFs (s.h.ms i).buf) (hl : Located (s.h.w.slice (s.h.ms i).buf) (s.h.w.offs (s.h.ms i)) f A pay B) (hp : IsPayload v pay) {x y : Src}
    (hx : World.WFsrc s.h.w x) (hy : World.WFsrc s.h.w y) (hn : pay.length = strLen x + strLen y) (rt : Rt) (tag : List Byte) :
    ∃ s' es, Does (setSingleP rt i f v.wireType tag x y) s [] s' es ∧ OnlyBytes es ∧
      bytesRead es = ((List.range' ((s.h.ms i).buf.off + A.length) (markLen v pay)).map fun j => ((s.h.ms i).buf.arr, j)) ++ (srcBytes x ++ srcBytes y) ∧
      bytesWritten es = (List.range' ((s.h.ms i).buf.off + A.length) pay.length).map fun j => ((s.h.ms i).buf.arr, j) := by
  have hll := hl.lens
  have hlen : (s.h.ms i).buf.len = A.length + (pay.length + B.length) := by
    rw [← World.slice_len hw, hl.data, List.length_append, List.length_append]
  obtain ⟨es1, o1, o2, o3⟩ := oldLen_at hw hl hp
  obtain ⟨es2, c1, c2, c3, c4⟩ := copy_at (s := s) (i := i) (x := x) (n := A.length) (by omega) (by omega) hx
  have hg := grows_run c1.1
  obtain ⟨es3, d1, d2, d3, d4⟩ := copy_at (s := withH s { s.h with w := s.h.w.write (s.h.ms i).buf.arr ((s.h.ms i).buf.off + A.length) (s.h.w.src x) }) (i := i) (x := y)
    (n := A.length + strLen x) (by show _ ≤ (s.h.ms i).buf.len; omega) (by show (s.h.ms i).buf.len < _; omega) (hg.wfsrc hy)
  generalize hs' : withH (withH s { s.h with w := s.h.w.write (s.h.ms i).buf.arr ((s.h.ms i).buf.off + A.length) (s.h.w.src x) }) _ = s' at d1
  refine ⟨s', finding s i f ++ (es1 ++ (es2 ++ es3)), ?_, ?_, ?_, ?_⟩
  · unfold setSingleP
    refine Does.bind (a := some (BitVec.ofNat 64 A.length)) (find_at hl.get) (Does.bind o1 ?_)
    rw [if_pos (by rw [Zeropb.addInt_nat (by omega), hn])]
    refine Does.bind c1 ?_
    rw [← BitVec.ofNat_add]
    exact d1.then rfl
  · exact (onlyReads_finding s i f).bytes.append (o2.bytes.append (c2.append d2))
  · rw [bytesRead_append, bytesRead_finding, bytesRead_append, o3, bytesRead_append, c3, d3]; rfl
  · rw [bytesWritten_append, (onlyReads_finding s i f).written, bytesWritten_append, o2.written, bytesWritten_append, c4, d4]
    show [] ++ ([] ++ (_ ++ List.map (fun j => ((s.h.ms i).buf.arr, j)) (List.range' ((s.h.ms i).buf.off + (A.length + strLen x)) (strLen y)))) = _
    rw [List.nil_append, List.nil_append, ← Nat.add_assoc, range'_map_append, hn]

/-- The program becomes `q`, in state `t`, after the accesses `es`. -/
def Goes (p : Prog α) (s : GSt) (q : Prog α) (t : GSt) (es : List Event) : Prop := p.run s = q.run t ∧ p.trace s = es ++ q.trace t

theorem Goes.trans {p q r : Prog α} {s t v : GSt} {es fs : List Event} (h : Goes p s q t es) (h' : Goes q t r v fs) : Goes p s r v (es ++ fs) :=
  ⟨h.1.trans h'.1, by rw [h.2, h'.2, List.append_assoc]⟩

theorem Goes.buf {i : Nat} {k : HSlice → Prog α} (s : GSt) : Goes (.load (.buf i) k) s (k (s.h.ms i).buf) s [.reads (.buf i)] := ⟨rfl, rfl⟩

theorem goes_bind {p : Prog α} {f : α → Prog β} {s t : GSt} {a : α} {es : List Event} (h : Does p s a t es) : Goes (p >>= f) s (f a) t es :=
  ⟨by rw [Prog.run_bind, h.1]; rfl, by rw [trace_bind h.1, h.2]⟩

/-- The old value is removed: the bytes behind it move. -/
theorem remove_written {rt : Rt} {s s' : GSt} {u : Unit} {i fb fe : Nat} (hi : i < s.next) (hw : s.h.w.WFs (s.h.ms i).buf) (hb : (s.h.ms i).buf.len < maxLen) (h1 : fb ≤ fe) (h2 : fe ≤ (s.h.ms i).buf.len)
    (h : (removeP rt i (BitVec.ofNat 64 fb) (BitVec.ofNat 64 fe)).run s = .ok (u, s')) :
    (bytesWritten ((removeP rt i (BitVec.ofNat 64 fb) (BitVec.ofNat 64 fe)).trace s) = (List.range' ((s.h.ms i).buf.off + fb) ((s.h.ms i).buf.len - fe)).map fun j => ((s.h.ms i).buf.arr, j)) ∧
      (bytesRead ((removeP rt i (BitVec.ofNat 64 fb) (BitVec.ofNat 64 fe)).trace s) = (List.range' ((s.h.ms i).buf.off + fe) ((s.h.ms i).buf.len - fe)).map fun j => ((s.h.ms i).buf.arr, j)) ∧
      (s'.h.ms i).buf = ⟨(s.h.ms i).buf.arr, (s.h.ms i).buf.off, (s.h.ms i).buf.len - (fe - fb), (s.h.ms i).buf.cap⟩ ∧ s'.h.w.arrs.length = s.h.w.arrs.length ∧ i < s'.next := by
  generalize hB : (s.h.ms i).buf = b at *
  have hm : maxLen < 2 ^ 64 := by decide
  have e1 : (BitVec.ofNat 64 fb).toNat = fb := ofNat64_toNat (by omega)
  have e2 : (BitVec.ofNat 64 fe).toNat = fe := ofNat64_toNat (by omega)
  have e3 : BitVec.ofNat 64 fe - BitVec.ofNat 64 fb = BitVec.ofNat 64 (fe - fb) := by
    apply BitVec.eq_of_toNat_eq
    rw [BitVec.toNat_sub, e1, e2, ofNat64_toNat (by omega)]
    omega
  have e4 : (BitVec.ofNat 64 b.len - BitVec.ofNat 64 (fe - fb)).toNat = b.len - (fe - fb) := by
    rw [BitVec.toNat_sub, ofNat64_toNat (by omega), ofNat64_toNat (by omega)]
    omega
  have hu : s.h.w.WFs ⟨b.arr, b.off + fe, b.len - fe, b.cap - fe⟩ := HSlice.dropFrom_wf hw (dropFrom_le h2)
  have er : b.range 0 ((b.len - (fe - fb) : Nat) : Int) = .ok ⟨b.arr, b.off, b.len - (fe - fb), b.cap⟩ := by
    have := hw.1
    unfold HSlice.range
    rw [if_pos (by omega)]
    simp
  have hr := readSlice_at hu
  have hl : (s.h.w.slice ⟨b.arr, b.off + fe, b.len - fe, b.cap - fe⟩).data.length = b.len - fe := World.slice_len hu
  generalize hD : (s.h.w.slice ⟨b.arr, b.off + fe, b.len - fe, b.cap - fe⟩).data = D at hr hl
  have hwr := does_writeTo b.arr (b.off + fb) D s
  have ht : D.take (b.len - fb) = D := List.take_of_length_le (by omega)
  have eb : ((withH s { s.h with w := s.h.w.write b.arr (b.off + fb) D }).h.ms i).buf = b := hB
  obtain ⟨es, k1, k0, k2, k3⟩ : ∃ es, bytesWritten es = ((List.range' (b.off + fb) (b.len - fe)).map fun j => (b.arr, j)) ∧
      bytesRead es = ((List.range' (b.off + fe) (b.len - fe)).map fun j => (b.arr, j)) ∧
      Goes (removeP rt i (BitVec.ofNat 64 fb) (BitVec.ofNat 64 fe)) s (adjustP rt i (BitVec.ofNat 64 fe) (BitVec.ofNat 64 (fe - fb)))
        ((Write.buf i ⟨b.arr, b.off, b.len - (fe - fb), b.cap⟩).apply (withH s { s.h with w := s.h.w.write b.arr (b.off + fb) D })) es := by
    refine ⟨[.reads (.buf i)] ++ ([.reads (.buf i)] ++ (cells b.arr (b.off + fe) (b.len - fe) ++ (stored b.arr (b.off + fb) D.length ++ ([.reads (.buf i)] ++ ([.reads (.buf i)] ++
      [.writes (.buf i)]))))), ?_, ?_, ?_⟩
    · simp only [bytesWritten_append, bytesWritten_cells, bytesWritten_stored, hl]
      show [] ++ ([] ++ ([] ++ (_ ++ ([] ++ ([] ++ []))))) = _
      simp
    · simp only [bytesRead_append, bytesRead_cells, bytesRead_stored]
      show [] ++ ([] ++ (_ ++ ([] ++ ([] ++ ([] ++ []))))) = _
      simp
    · unfold removeP
      refine Goes.trans (Goes.buf s) ?_
      rw [hB, e1, lift_bind_of (a := _) (by rw [dropFrom_le (by omega)]; rfl)]
      refine Goes.trans (Goes.buf s) ?_
      rw [hB, e2, lift_bind_of (a := _) (by rw [dropFrom_le (by omega)]; rfl)]
      refine Goes.trans (goes_bind hr) ?_
      dsimp only
      rw [ht]
      refine Goes.trans (goes_bind hwr) ?_
      refine Goes.trans (Goes.buf _) ?_
      refine Goes.trans (Goes.buf _) ?_
      rw [eb, e3, e4, lift_bind_of (a := _) (by rw [er]; rfl)]
      exact ⟨rfl, rfl⟩
  rw [k2] at h
  rw [k3, bytesWritten_append, bytesRead_append, k1, k0]
  obtain ⟨j1, j2, j3, j4, j5⟩ := table_keeps (only_adjustP rt i _ _) h (i := i) hi
  rw [j3, j4, j1, List.append_nil, List.append_nil, j2]
  refine ⟨rfl, rfl, by simp only [Write.apply, Heap.put, if_true], ?_, Nat.lt_of_lt_of_le hi j5⟩
  show (s.h.w.arrs.set _ _).length = _
  rw [List.length_set]

/-- The bytes written before `N` lie in the part of `b` from position `lo` on, or behind it. -/
def FromOn (N : Nat) (b : HSlice) (lo : Nat) (ws : List (Nat × Nat)) : Prop := ∀ a q, (a, q) ∈ ws → a < N → a = b.arr ∧ b.off + lo ≤ q ∧ q < b.off + b.cap

/-- A value is replaced by one of another length: it is removed and appended. -/
theorem set_moved {v : Wire.Val} {s' : GSt} {u : List Val} (hi : i < s.next) (hw : s.h.w.WFs (s.h.ms i).buf) (hl : Located (s.h.w.slice (s.h.ms i).buf) (s.h.w.offs (s.h.ms i)) f A pay B)
    (hp : IsPayload v pay) {x y : Src} (hx : World.WFsrc s.h.w x) (hy : World.WFsrc s.h.w y) (hm : strLen x + strLen y < maxLen) (hn : pay.length ≠ strLen x + strLen y) {rt : Rt} {tag : List Byte}
    (ht : tag.length ≤ A.length) (h : (setSingleP rt i f v.wireType tag x y).run s = .ok (u, s')) :
    FromOn s.h.w.arrs.length (s.h.ms i).buf (A.length - tag.length) (bytesWritten ((setSingleP rt i f v.wireType tag x y).trace s)) ∧
    (A.length + B.length + (strLen x + strLen y) ≤ (s.h.ms i).buf.cap →
      bytesWritten ((setSingleP rt i f v.wireType tag x y).trace s) =
        ((List.range' ((s.h.ms i).buf.off + (A.length - tag.length)) (B.length + (tag.length + (strLen x + strLen y)))).map fun j => ((s.h.ms i).buf.arr, j)) ∧
      bytesRead ((setSingleP rt i f v.wireType tag x y).trace s) = ((List.range' ((s.h.ms i).buf.off + A.length) (markLen v pay)).map fun j => ((s.h.ms i).buf.arr, j)) ++
        (((List.range' ((s.h.ms i).buf.off + (A.length + pay.length)) B.length).map fun j => ((s.h.ms i).buf.arr, j)) ++ (srcBytes x ++ srcBytes y)) ∧
      (s'.h.ms i).buf = ⟨(s.h.ms i).buf.arr, (s.h.ms i).buf.off, A.length + B.length + (strLen x + strLen y), (s.h.ms i).buf.cap⟩) := by
  have hll := hl.lens
  have hlen : (s.h.ms i).buf.len = A.length + (pay.length + B.length) := by
    rw [← World.slice_len hw, hl.data, List.length_append, List.length_append]
  have hcap := hw.1
  obtain ⟨es1, o1, o2, o3⟩ := oldLen_at hw hl hp
  have hmx : maxLen < 2 ^ 63 + 1 := by decide
  have ebeg : BitVec.ofNat 64 A.length - BitVec.ofNat 64 tag.length = BitVec.ofNat 64 (A.length - tag.length) := by
    apply BitVec.eq_of_toNat_eq
    rw [BitVec.toNat_sub, ofNat64_toNat (by omega), ofNat64_toNat (by omega), ofNat64_toNat (by omega)]
    omega
  have eend : BitVec.ofNat 64 A.length + intToU64 (pay.length : Int) = BitVec.ofNat 64 (A.length + pay.length) := by
    rw [BitVec.ofNat_add]
    rfl
  have hg : Goes (setSingleP rt i f v.wireType tag x y) s
      (removeP rt i (BitVec.ofNat 64 (A.length - tag.length)) (BitVec.ofNat 64 (A.length + pay.length)) >>= fun _ => tailP rt i f tag x y) s (finding s i f ++ es1) := by
    unfold setSingleP
    refine Goes.trans (goes_bind (a := some (BitVec.ofNat 64 A.length)) (find_at hl.get)) ?_
    have := goes_bind (f := fun n => if n = addInt (strLen x) (strLen y) then copyP i (BitVec.ofNat 64 A.length) x >>= fun k => copyP i (BitVec.ofNat 64 A.length + BitVec.ofNat 64 k) y >>= fun _ =>
      Prog.done ([] : List Val) else removeP rt i (BitVec.ofNat 64 A.length - BitVec.ofNat 64 tag.length) (BitVec.ofNat 64 A.length + intToU64 n) >>= fun _ => tailP rt i f tag x y) o1
    simp only [ebeg] at this ⊢
    rw [if_neg (by rw [Zeropb.addInt_nat hm]; omega), eend] at this
    exact this
  rw [hg.1] at h
  rw [hg.2, bytesWritten_append, bytesWritten_append, (onlyReads_finding s i f).written, o2.written, List.nil_append, List.nil_append, bytesRead_append, bytesRead_append, bytesRead_finding, o3, List.nil_append]
  obtain ⟨_, s1, h1, h2, t1⟩ := run_bind_ok h
  rw [t1, bytesWritten_append, bytesRead_append]
  obtain ⟨r1, r0, r2, r3, r4⟩ := remove_written hi hw (by omega) (by omega) (by omega) h1
  have gr := grows_run h1
  obtain ⟨w1, w2⟩ := tail_written h2 r4 (gr.wfsrc hx) (gr.wfsrc hy)
  rw [r1, r0]
  rw [r3, r2] at w1
  rw [r2] at w2
  refine ⟨?_, fun hc => ?_⟩
  · intro a q hq ha
    rcases List.mem_append.1 hq with hq | hq
    · obtain ⟨j, hj, e⟩ := List.mem_map.1 hq
      injection e with ea eq
      subst ea
      subst eq
      rw [List.mem_range'_1] at hj
      exact ⟨rfl, by omega, by omega⟩
    · obtain ⟨e1, e2, e3⟩ := w1 a q hq ha
      dsimp only at e1 e2 e3
      exact ⟨e1, by omega, e3⟩
  · obtain ⟨e1, e0, e2⟩ := w2 (by dsimp only; omega)
    rw [e1, e0, e2]
    have k1 : (s.h.ms i).buf.len - (A.length + pay.length) = B.length := by omega
    have k2 : (s.h.ms i).buf.len - (A.length + pay.length - (A.length - tag.length)) = A.length - tag.length + B.length := by omega
    simp only [k1, k2]
    refine ⟨?_, trivial, ?_⟩
    · rw [← Nat.add_assoc (s.h.ms i).buf.off, range'_map_append]
    · have : A.length - tag.length + B.length + (tag.length + (strLen x + strLen y)) = A.length + B.length + (strLen x + strLen y) := by omega
      rw [this]

end

end Zeropb.GoSrc.Conc
