import Verif.Mem.Read
import Verif.Props.Bytes
set_option linter.unusedSimpArgs false
set_option linter.unusedVariables false
/-!
# Shared memory (C31 – C34, C48, C50)

Statements about the heap model `Verif/Mem/Model.lean`: slices are references into arrays.
-/

namespace Zeropb
open Wire

/-! ## A program with several messages -/

/-- A program state: the heap and some generated structs. Message `i` has the type `S i`. -/
structure Sys where
  w : World
  ms : List HMsg

/-- One call on one of the messages. -/
inductive SysOp where
  /-- `ms[i].SetF(x)`; a string or bytes argument is in memory of its own -/
  | set (i : Nat) (rt : Rt) (f : Nat) (k : Kind) (x : k.Ty)
  /-- `ms[i].AppendToF(x)`, `x` in memory of its own -/
  | append (i : Nat) (rt : Rt) (f : Nat) (x : List Byte)
  /-- `ms[i].SetF(ms[j])` for a message field -/
  | setMsg (i : Nat) (rt : Rt) (f j : Nat)
  /-- `ms[i].AppendToF(ms[j])` -/
  | appendMsg (i : Nat) (rt : Rt) (f j : Nat)
  /-- `ms[i].Reset(b)` with a new buffer `b`, length 0 and capacity `spare.length` -/
  | reset (i : Nat) (spare : List Byte)
  /-- `ms[i].Reset(ms[i].Encode()[:0])` -/
  | resetOwn (i : Nat)
  /-- `ms[i].Decode(b)` with a new buffer `b`; `rs` are the records it encodes -/
  | decode (i : Nat) (b : Slice) (rs : List Record)

/-- The messages of the call are different ones. -/
def SysOp.Distinct : SysOp → Prop
  | .setMsg i _ _ j | .appendMsg i _ _ j => i ≠ j
  | _ => True

/-- The message the call may change. -/
def SysOp.target : SysOp → Nat
  | .set i .. | .append i .. | .setMsg i .. | .appendMsg i .. | .reset i .. | .resetOwn i | .decode i .. => i

/-- Every memory cell that existed in `s` and is not within the capacity of the buffer of message `i`
is the same in `s'`. -/
def Untouched (i : Nat) (s s' : Sys) : Prop :=
  ∀ a p, a < s.w.arrs.length → (∀ m, s.ms[i]? = some m → ¬ m.buf.owns a p) → s'.w.cell a p = s.w.cell a p

/-- What a call on message `i` may do to memory: it writes no existing byte outside the capacity of
the buffer of message `i`, it changes no other struct, and if it gives message `i` another buffer,
that one consists of old bytes of message `i` and of new memory. -/
structure Touches (i : Nat) (s s' : Sys) : Prop where
  cells : Untouched i s s'
  grow : s.w.arrs.length ≤ s'.w.arrs.length
  size : ∀ a, a < s.w.arrs.length → (s'.w.arr a).length = (s.w.arr a).length
  others : ∀ j, j ≠ i → s'.ms[j]? = s.ms[j]?
  owned : ∀ m', s'.ms[i]? = some m' → ∃ m, s.ms[i]? = some m ∧
    (∀ a p, m'.buf.owns a p → m.buf.owns a p ∨ s.w.arrs.length ≤ a) ∧
    (m'.m = m.m ∨ ∃ id, m'.m = some id ∧ s.w.maps.length ≤ id)
  mgrow : s.w.maps.length ≤ s'.w.maps.length
  /-- of the overflow maps it changes only that of message `i` -/
  maps : ∀ id, id < s.w.maps.length → (∀ m, s.ms[i]? = some m → m.m ≠ some id) →
    s'.w.maps.getD id [] = s.w.maps.getD id []

theorem Touches.refl (i : Nat) (s : Sys) : Touches i s s :=
  ⟨fun _ _ _ _ => rfl, Nat.le_refl _, fun _ _ => rfl, fun _ _ => rfl, fun m h => ⟨m, h, fun _ _ h => Or.inl h, Or.inl rfl⟩,
    Nat.le_refl _, fun _ _ _ => rfl⟩

/-- Store the outcome of an operation on message `i`. -/
def Sys.put (i : Nat) (r : HMsg × World) (s : Sys) : Sys := ⟨r.2, s.ms.set i r.1⟩

/-- Allocate an array holding `b` up to its capacity. -/
def World.newSlice (w : World) (b : Slice) : HSlice × World :=
  (⟨w.arrs.length, 0, b.data.length, b.data.length + b.spare.length⟩, (w.alloc (b.data ++ b.spare)).2)

/-- Run a call on the heap. A call on a message that does not exist does nothing. -/
noncomputable def SysOp.run (S : Nat → Schema) (op : SysOp) (s : Sys) : Res Sys :=
  match op with
  | .set i rt f k x => match s.ms[i]? with
    | none => .ok s
    | some m => do return s.put i (← m.setField rt s.w k f x)
  | .append i rt f x => match s.ms[i]? with
    | none => .ok s
    | some m => do return s.put i (← m.appendBytes rt s.w f (.lit x))
  | .setMsg i rt f j => match s.ms[i]?, s.ms[j]? with
    | some m, some x => do return s.put i (← m.setBytes rt s.w f (.mem x.buf))
    | _, _ => .ok s
  | .appendMsg i rt f j => match s.ms[i]?, s.ms[j]? with
    | some m, some x => do return s.put i (← m.appendBytes rt s.w f (.mem x.buf))
    | _, _ => .ok s
  | .reset i spare => match s.ms[i]? with
    | none => .ok s
    | some m =>
      let b := s.w.newSlice ⟨[], spare⟩
      do return s.put i (← m.reset b.2 b.1)
  | .resetOwn i => match s.ms[i]? with
    | none => .ok s
    | some m => do
      let b ← m.buf.range 0 0
      return s.put i (← m.reset s.w b)
  | .decode i buf _ => match s.ms[i]? with
    | none => .ok s
    | some m =>
      let b := s.w.newSlice buf
      do
        let r ← m.decode (S i).rep b.2 b.1
        return s.put i (r.1, r.2.1)

noncomputable def Sys.runAll (S : Nat → Schema) : List SysOp → Sys → Res Sys
  | [], s => .ok s
  | op :: ops, s => do
    let s' ← op.run S s
    Sys.runAll S ops s'

/-! ### The same program without shared memory

Messages are values; a call on message `i` changes entry `i` and nothing else. -/

/-- Which message the call changes, and how. -/
def SysOp.toOp (vs : List Msg) : SysOp → Option (Nat × Op)
  | .set i rt f k x => some (i, .set rt f k x)
  | .append i rt f x => some (i, .append rt f x)
  | .setMsg i rt f j => vs[j]?.map fun v => (i, .set rt f .bytes v.encode.data)
  | .appendMsg i rt f j => vs[j]?.map fun v => (i, .append rt f v.encode.data)
  | .reset i spare => some (i, .reset ⟨[], spare⟩)
  | .resetOwn i => vs[i]?.map fun v => (i, .reset ⟨[], v.buf.data ++ v.buf.spare⟩)
  | .decode i b rs => some (i, .decode b rs)

noncomputable def SysOp.runV (S : Nat → Schema) (op : SysOp) (vs : List Msg) : Res (List Msg) :=
  match op.toOp vs with
  | none => .ok vs
  | some (i, o) => match vs[i]? with
    | none => .ok vs
    | some v => do
      let v' ← o.run (S i) v
      return vs.set i v'

noncomputable def runAllV (S : Nat → Schema) : List SysOp → List Msg → Res (List Msg)
  | [], vs => .ok vs
  | op :: ops, vs => do
    let vs' ← op.runV S vs
    runAllV S ops vs'

/-- The messages of a program state, as values. -/
def Sys.values (s : Sys) : List Msg := s.ms.map s.w.msg

/-- Different messages use different memory. -/
structure Sys.Separate (s : Sys) : Prop where
  wf : ∀ m ∈ s.ms, s.w.WF m
  bufs : ∀ (i j : Nat) (mi mj : HMsg), i ≠ j → s.ms[i]? = some mi → s.ms[j]? = some mj → ∀ a p, mi.buf.owns a p → ¬ mj.buf.owns a p
  maps : ∀ (i j : Nat) (mi mj : HMsg), i ≠ j → s.ms[i]? = some mi → s.ms[j]? = some mj → ∀ id, mi.m = some id → mj.m ≠ some id

/-- An operation that changes only what message `i` owns keeps the others and their separation. -/
theorem Sys.Separate.step {s : Sys} (h : s.Separate) {i : Nat} {m m' : HMsg} {w' : World} (hi : s.ms[i]? = some m)
    (hf : Frame s.w w' m m') (hw : w'.WF m') :
    (s.put i (m', w')).Separate ∧ (s.put i (m', w')).values = s.values.set i (w'.msg m') := by
  have hil : i < s.ms.length := by
    rw [List.getElem?_eq_some_iff] at hi; exact hi.1
  have hm : m ∈ s.ms := List.mem_of_getElem? hi
  have wfo : ∀ x, s.w.WF x → w'.WF x := fun x hx => ⟨hf.bytes.wf hx.1, fun id e => Nat.lt_of_lt_of_le (hx.2 id e) hf.mgrow⟩
  have look : ∀ j, (s.put i (m', w')).ms[j]? = if i = j then some m' else s.ms[j]? := by
    intro j
    simp only [Sys.put]
    rw [List.getElem?_set]
    by_cases e : i = j
    · subst e; rw [if_pos rfl, if_pos rfl, if_pos hil]
    · rw [if_neg e, if_neg e]
  have sepb : ∀ j mj, i ≠ j → s.ms[j]? = some mj → ∀ a p, m'.buf.owns a p → ¬ mj.buf.owns a p := by
    intro j mj hij hj a p h1 h2
    rcases hf.bytes.owned a p h1 with h3 | h3
    · exact h.bufs i j m mj hij hi hj a p h3 h2
    · have := (h.wf mj (List.mem_of_getElem? hj)).1.cell_lt h2
      omega
  have sepm : ∀ j mj, i ≠ j → s.ms[j]? = some mj → ∀ id, m'.m = some id → mj.m ≠ some id := by
    intro j mj hij hj id h1 h2
    have hid := (h.wf mj (List.mem_of_getElem? hj)).2 id h2
    rcases hf.mown with h3 | ⟨id', h3, h4⟩
    · exact h.maps i j m mj hij hi hj id (h3 ▸ h1) h2
    · rw [h3] at h1
      simp only [Option.some.injEq] at h1
      omega
  constructor
  · constructor
    · intro x hx
      simp only [Sys.put] at hx
      rcases List.mem_or_eq_of_mem_set hx with hx | rfl
      · exact wfo x (h.wf x hx)
      · exact hw
    · intro a b ma mb hab ha hb
      rw [look] at ha hb
      by_cases e1 : i = a
      · rw [if_pos e1] at ha
        simp only [Option.some.injEq] at ha
        subst ha
        rw [if_neg (by omega)] at hb
        exact sepb b mb (by omega) hb
      · rw [if_neg e1] at ha
        by_cases e2 : i = b
        · rw [if_pos e2] at hb
          simp only [Option.some.injEq] at hb
          subst hb
          intro q p h1 h2
          exact sepb a ma e1 ha q p h2 h1
        · rw [if_neg e2] at hb
          exact h.bufs a b ma mb hab ha hb
    · intro a b ma mb hab ha hb
      rw [look] at ha hb
      by_cases e1 : i = a
      · rw [if_pos e1] at ha
        simp only [Option.some.injEq] at ha
        subst ha
        rw [if_neg (by omega)] at hb
        exact sepm b mb (by omega) hb
      · rw [if_neg e1] at ha
        by_cases e2 : i = b
        · rw [if_pos e2] at hb
          simp only [Option.some.injEq] at hb
          subst hb
          intro id h1 h2
          exact sepm a ma e1 ha id h2 h1
        · rw [if_neg e2] at hb
          exact h.maps a b ma mb hab ha hb
  · apply List.ext_getElem?
    intro j
    show ((s.put i (m', w')).ms.map w'.msg)[j]? = _
    rw [List.getElem?_map, look, List.getElem?_set]
    simp only [Sys.values, List.length_map, List.getElem?_map]
    by_cases e : i = j
    · rw [if_pos e, if_pos e, if_pos hil]; rfl
    · rw [if_neg e, if_neg e]
      cases hj : s.ms[j]? with
      | none => rfl
      | some mj =>
        simp only [Option.map_some, Option.some.injEq]
        have hwj := h.wf mj (List.mem_of_getElem? hj)
        unfold World.msg
        rw [hf.bytes.slice_eq hwj.1 (h.bufs i j m mj e hi hj)]
        congr 1
        unfold World.offs
        cases hmm : mj.m with
        | none => rfl
        | some id =>
          simp only [Option.map_some, Offsets.mk.injEq, true_and, Option.some.injEq]
          exact hf.maps id (hwj.2 id hmm) (fun e2 => h.maps i j m mj e hi hj id e2 hmm)

theorem World.alloc_arr (w : World) (bs : List Byte) (i : Nat) :
    (w.alloc bs).2.arr i = if i = w.arrs.length then bs else w.arr i := by
  simp only [World.alloc, World.arr, List.getD_eq_getElem?_getD]
  rw [List.getElem?_append]
  by_cases hi : i < w.arrs.length
  · rw [if_pos hi, if_neg (by omega)]
  · rw [if_neg hi]
    by_cases hj : i = w.arrs.length
    · rw [if_pos hj, hj]; simp
    · rw [if_neg hj, List.getElem?_eq_none (by simp; omega), List.getElem?_eq_none (by omega)]

theorem World.newSlice_spec (w : World) (b : Slice) (s : HSlice) :
    (w.newSlice b).2.slice (w.newSlice b).1 = b ∧ (w.newSlice b).2.WFs (w.newSlice b).1 ∧
    SFrame w (w.newSlice b).2 s (w.newSlice b).1 ∧ SFrame w (w.newSlice b).2 s s ∧ (w.newSlice b).2.maps = w.maps := by
  have harr : ∀ i, (w.newSlice b).2.arr i = if i = w.arrs.length then b.data ++ b.spare else w.arr i := w.alloc_arr _
  have h1 : (w.newSlice b).1 = ⟨w.arrs.length, 0, b.data.length, b.data.length + b.spare.length⟩ := rfl
  have gr : w.arrs.length ≤ (w.newSlice b).2.arrs.length := by simp [World.newSlice, World.alloc]
  have sz : ∀ i, i < w.arrs.length → ((w.newSlice b).2.arr i).length = (w.arr i).length := by
    intro i hi; rw [harr, if_neg (by omega)]
  have ce : ∀ i p, i < w.arrs.length → (w.newSlice b).2.cell i p = w.cell i p := by
    intro i p hi; unfold World.cell; rw [harr, if_neg (by omega)]
  refine ⟨?_, ?_, ⟨gr, sz, fun i p hi _ => ce i p hi, ?_⟩, ⟨gr, sz, fun i p hi _ => ce i p hi, fun _ _ h => Or.inl h⟩, rfl⟩
  · unfold World.slice World.full
    rw [h1]
    simp only [harr, if_true, List.drop_zero]
    rw [← List.length_append, List.take_length, List.take_left, List.drop_left]
  · rw [h1]
    refine ⟨by simp, ?_⟩
    rw [harr, if_pos rfl]; simp
  · intro i p ho
    right
    rw [h1] at ho
    obtain ⟨e, _⟩ := ho
    simp only at e
    omega

/-- One call: what the heap does is what the program without shared memory does. -/
theorem Sys.Separate.run {S : Nat → Schema} {s : Sys} (h : s.Separate) {op : SysOp} (hd : op.Distinct) :
    match op.runV S s.values with
    | .error e => op.run S s = .error e
    | .ok vs => ∃ s', op.run S s = .ok s' ∧ s'.values = vs ∧ s'.Separate ∧ Touches op.target s s' := by
  have look : ∀ i : Nat, s.values[i]? = s.ms[i]?.map s.w.msg := fun i => by simp [Sys.values]
  have unt : ∀ {i : Nat} {m m' : HMsg} {w' : World}, s.ms[i]? = some m → Frame s.w w' m m' →
      Touches i s (s.put i (m', w')) := by
    intro i m m' w' hi hf
    refine ⟨fun a p ha hn => hf.bytes.cells a p ha (hn m hi), hf.bytes.grow, hf.bytes.size, ?_, ?_, hf.mgrow,
      fun id hid hn => hf.maps id hid (hn m hi)⟩
    · intro j hj
      simp only [Sys.put]
      rw [List.getElem?_set_ne (Ne.symm hj)]
    · intro m1 h1
      have hil : i < s.ms.length := by
        rw [List.getElem?_eq_some_iff] at hi; exact hi.1
      simp only [Sys.put] at h1
      rw [List.getElem?_set_self hil] at h1
      simp only [Option.some.injEq] at h1
      subst h1
      exact ⟨m, hi, hf.bytes.owned, hf.mown⟩
  -- calls that refine a function of the value model on message `i`
  have main : ∀ {i : Nat} {m : HMsg} {rv : Res (Slice × Offsets)} {rh : Res (HMsg × World)}, s.ms[i]? = some m →
      Refines rv rh s.w m →
      match (do let p ← rv; return s.values.set i ⟨p.1, p.2⟩ : Res (List Msg)) with
      | .error e => (do return s.put i (← rh) : Res Sys) = .error e
      | .ok vs => ∃ s', (do return s.put i (← rh) : Res Sys) = .ok s' ∧ s'.values = vs ∧ s'.Separate ∧ Touches i s s' := by
    intro i m rv rh hi hr
    cases rv with
    | error e =>
      have : rh = .error e := hr
      rw [this]; rfl
    | ok p =>
      obtain ⟨b, o⟩ := p
      obtain ⟨m', w', e1, e2, e3, e4⟩ := hr
      rw [e1]
      obtain ⟨s1, s2⟩ := h.step hi e4 e3
      exact ⟨_, rfl, by rw [s2, e2], s1, unt hi e4⟩
  cases op with
  | set i rt f k x =>
    simp only [SysOp.runV, SysOp.toOp, SysOp.run]
    rw [look]
    cases hi : s.ms[i]? with
    | none => exact ⟨s, rfl, rfl, h, .refl _ _⟩
    | some m =>
      have := main hi (setField_refines rt (h.wf m (List.mem_of_getElem? hi)) k f x)
      simp only [Option.map_some, Op.run, Msg.set]
      cases hv : Msg.setField rt (s.w.msg m).buf (s.w.msg m).off k f x with
      | error e =>
        have hv' : Msg.setField rt (s.w.slice m.buf) (s.w.offs m) k f x = .error e := hv
        rw [hv'] at this; exact this
      | ok p =>
        have hv' : Msg.setField rt (s.w.slice m.buf) (s.w.offs m) k f x = .ok p := hv
        rw [hv'] at this; exact this
  | append i rt f x =>
    simp only [SysOp.runV, SysOp.toOp, SysOp.run]
    rw [look]
    cases hi : s.ms[i]? with
    | none => exact ⟨s, rfl, rfl, h, .refl _ _⟩
    | some m =>
      have := main hi (appendBytes_refines rt (h.wf m (List.mem_of_getElem? hi)) f (x := .lit x) trivial)
      simp only [Option.map_some, Op.run, Msg.appendRaw]
      cases hv : appendBytes rt (s.w.msg m).buf (s.w.msg m).off f x with
      | error e =>
        have hv' : appendBytes rt (s.w.slice m.buf) (s.w.offs m) f (s.w.src (.lit x)) = .error e := hv
        rw [hv'] at this; exact this
      | ok p =>
        have hv' : appendBytes rt (s.w.slice m.buf) (s.w.offs m) f (s.w.src (.lit x)) = .ok p := hv
        rw [hv'] at this; exact this
  | setMsg i rt f j =>
    simp only [SysOp.runV, SysOp.toOp, SysOp.run]
    rw [look]
    cases hj : s.ms[j]? with
    | none =>
      have : (match s.ms[i]?, (none : Option HMsg) with
        | some m, some x => (do return s.put i (← m.setBytes rt s.w f (.mem x.buf)) : Res Sys)
        | _, _ => .ok s) = .ok s := by cases s.ms[i]? <;> rfl
      exact ⟨s, this, rfl, h, .refl _ _⟩
    | some x =>
      simp only [Option.map_some]
      rw [look]
      cases hi : s.ms[i]? with
      | none => exact ⟨s, rfl, rfl, h, .refl _ _⟩
      | some m =>
        have hxw := h.wf x (List.mem_of_getElem? hj)
        have hap : Src.Apart s.w m.buf (.mem x.buf) := ⟨hxw.1, fun p hp1 hp2 ho =>
          h.bufs i j m x hd hi hj _ p ho ⟨rfl, hp1, by have := hxw.1.1; omega⟩⟩
        have := main hi (setBytes_refines rt (h.wf m (List.mem_of_getElem? hi)) f hap)
        simp only [Option.map_some, Op.run, Msg.set, Msg.setField]
        cases hv : setBytes rt (s.w.msg m).buf (s.w.msg m).off f (s.w.msg x).encode.data with
        | error e =>
          have hv' : setBytes rt (s.w.slice m.buf) (s.w.offs m) f (s.w.src (.mem x.buf)) = .error e := hv
          rw [hv'] at this; exact this
        | ok p =>
          have hv' : setBytes rt (s.w.slice m.buf) (s.w.offs m) f (s.w.src (.mem x.buf)) = .ok p := hv
          rw [hv'] at this; exact this
  | appendMsg i rt f j =>
    simp only [SysOp.runV, SysOp.toOp, SysOp.run]
    rw [look]
    cases hj : s.ms[j]? with
    | none =>
      have : (match s.ms[i]?, (none : Option HMsg) with
        | some m, some x => (do return s.put i (← m.appendBytes rt s.w f (.mem x.buf)) : Res Sys)
        | _, _ => .ok s) = .ok s := by cases s.ms[i]? <;> rfl
      exact ⟨s, this, rfl, h, .refl _ _⟩
    | some x =>
      simp only [Option.map_some]
      rw [look]
      cases hi : s.ms[i]? with
      | none => exact ⟨s, rfl, rfl, h, .refl _ _⟩
      | some m =>
        have hxw := h.wf x (List.mem_of_getElem? hj)
        have hap : Src.Apart s.w m.buf (.mem x.buf) := ⟨hxw.1, fun p hp1 hp2 ho =>
          h.bufs i j m x hd hi hj _ p ho ⟨rfl, hp1, by have := hxw.1.1; omega⟩⟩
        have := main hi (appendBytes_refines rt (h.wf m (List.mem_of_getElem? hi)) f hap)
        simp only [Option.map_some, Op.run, Msg.appendRaw]
        cases hv : appendBytes rt (s.w.msg m).buf (s.w.msg m).off f (s.w.msg x).encode.data with
        | error e =>
          have hv' : appendBytes rt (s.w.slice m.buf) (s.w.offs m) f (s.w.src (.mem x.buf)) = .error e := hv
          rw [hv'] at this; exact this
        | ok p =>
          have hv' : appendBytes rt (s.w.slice m.buf) (s.w.offs m) f (s.w.src (.mem x.buf)) = .ok p := hv
          rw [hv'] at this; exact this
  | reset i spare =>
    simp only [SysOp.runV, SysOp.toOp, SysOp.run]
    rw [look]
    cases hi : s.ms[i]? with
    | none => exact ⟨s, rfl, rfl, h, .refl _ _⟩
    | some m =>
      have hm := h.wf m (List.mem_of_getElem? hi)
      obtain ⟨n1, n2, n3, n4, n5⟩ := World.newSlice_spec s.w ⟨[], spare⟩ m.buf
      have hmw : (s.w.newSlice ⟨[], spare⟩).2.WF m := ⟨n4.wf hm.1, fun id e => by rw [n5]; exact hm.2 id e⟩
      have r := reset_refines hmw n2
      have e0 : (s.w.newSlice ⟨[], spare⟩).2.msg m = s.w.msg m := by
        unfold World.msg
        rw [World.offs_congr n5, World.slice_congr]
        intro a p ho; unfold World.cell World.newSlice; rw [World.alloc_arr, if_neg (by have := hm.1.cell_lt ho; omega)]
      rw [n1, e0] at r
      simp only [Option.map_some, Op.run]
      cases hv : (s.w.msg m).reset ⟨[], spare⟩ with
      | error e => rw [hv] at r; simp only at r; rw [r]; rfl
      | ok v =>
        rw [hv] at r
        obtain ⟨m', w', e1, e2, e3, e4, e5, e6⟩ := r
        rw [e1]
        have hf : Frame s.w w' m m' := by
          refine ⟨⟨?_, ?_, ?_, ?_⟩, ?_, ?_, ?_⟩
          · exact Nat.le_trans n4.grow e6.bytes.grow
          · exact (n4.trans e6.bytes).size
          · exact (n4.trans e6.bytes).cells
          · intro a p ho; rw [e4] at ho; exact n3.owned a p ho
          · rw [← n5]; exact e6.mgrow
          · intro id hid hne; rw [e6.maps id (by rw [n5]; exact hid) hne, n5]
          · have := e6.mown; rw [n5] at this; exact this
        obtain ⟨s1, s2⟩ := h.step hi hf e3
        exact ⟨_, rfl, by rw [s2, e2], s1, unt hi hf⟩
  | resetOwn i =>
    simp only [SysOp.runV, SysOp.toOp, SysOp.run]
    rw [look]
    cases hi : s.ms[i]? with
    | none => exact ⟨s, rfl, rfl, h, .refl _ _⟩
    | some m =>
      have hm := h.wf m (List.mem_of_getElem? hi)
      have hrg : m.buf.range 0 0 = .ok ⟨m.buf.arr, m.buf.off, 0, m.buf.cap⟩ := by
        unfold HSlice.range; rw [if_pos (by omega)]; simp
      have hsl : s.w.slice ⟨m.buf.arr, m.buf.off, 0, m.buf.cap⟩ = ⟨[], (s.w.msg m).buf.data ++ (s.w.msg m).buf.spare⟩ := by
        show (⟨_, _⟩ : Slice) = ⟨[], (s.w.slice m.buf).data ++ (s.w.slice m.buf).spare⟩
        rw [World.slice_append]
        simp [World.full]
      have r := reset_refines hm (HSlice.range_wf hm.1 hrg)
      rw [hsl] at r
      simp only [Option.map_some]
      rw [look, hi]
      simp only [Option.map_some, Op.run, hrg, bind, Except.bind]
      cases hv : (s.w.msg m).reset ⟨[], (s.w.msg m).buf.data ++ (s.w.msg m).buf.spare⟩ with
      | error e => rw [hv] at r; simp only at r; rw [r]
      | ok v =>
        rw [hv] at r
        obtain ⟨m', w', e1, e2, e3, e4, e5, e6⟩ := r
        rw [e1]
        have hf : Frame s.w w' m m' := by
          refine ⟨⟨e6.bytes.grow, e6.bytes.size, e6.bytes.cells, ?_⟩, e6.mgrow, e6.maps, e6.mown⟩
          intro a p ho; rw [e4] at ho; exact Or.inl ho
        obtain ⟨s1, s2⟩ := h.step hi hf e3
        exact ⟨_, rfl, by rw [s2, e2], s1, unt hi hf⟩
  | decode i b rs =>
    simp only [SysOp.runV, SysOp.toOp, SysOp.run]
    rw [look]
    cases hi : s.ms[i]? with
    | none => exact ⟨s, rfl, rfl, h, .refl _ _⟩
    | some m =>
      have hm := h.wf m (List.mem_of_getElem? hi)
      obtain ⟨n1, n2, n3, n4, n5⟩ := World.newSlice_spec s.w b m.buf
      have hmw : (s.w.newSlice b).2.WF m := ⟨n4.wf hm.1, fun id e => by rw [n5]; exact hm.2 id e⟩
      have r := decode_refines (S i).rep hmw n2
      have e0 : (s.w.newSlice b).2.msg m = s.w.msg m := by
        unfold World.msg
        rw [World.offs_congr n5, World.slice_congr]
        intro a p ho; unfold World.cell World.newSlice; rw [World.alloc_arr, if_neg (by have := hm.1.cell_lt ho; omega)]
      rw [n1, e0] at r
      simp only [Option.map_some, Op.run]
      cases hv : (s.w.msg m).decode (S i).rep b with
      | error e => rw [hv] at r; simp only at r; rw [r]; rfl
      | ok p =>
        obtain ⟨v, err⟩ := p
        rw [hv] at r
        obtain ⟨m', w', e1, e2, e3, e4, e5, e6⟩ := r
        rw [e1]
        have hf : Frame s.w w' m m' := by
          refine ⟨⟨?_, ?_, ?_, ?_⟩, ?_, ?_, ?_⟩
          · exact Nat.le_trans n4.grow e6.bytes.grow
          · exact (n4.trans e6.bytes).size
          · exact (n4.trans e6.bytes).cells
          · intro a p ho; rw [e4] at ho; exact n3.owned a p ho
          · rw [← n5]; exact e6.mgrow
          · intro id hid hne; rw [e6.maps id (by rw [n5]; exact hid) hne, n5]
          · have := e6.mown; rw [n5] at this; exact this
        obtain ⟨s1, s2⟩ := h.step hi hf e3
        exact ⟨_, rfl, by rw [s2, e2], s1, unt hi hf⟩

/-! ## C31 -/

/-- C31: whatever calls are made on any number of messages with separate memory, in whatever order,
the program does exactly what it would do if every message were a value of its own: same failure or
same messages at the end, which are again separate. -/
theorem C31_no_interference (S : Nat → Schema) (ops : List SysOp) (hd : ∀ op ∈ ops, op.Distinct) {s : Sys} (h : s.Separate) :
    match runAllV S ops s.values with
    | .error e => s.runAll S ops = .error e
    | .ok vs => ∃ s', s.runAll S ops = .ok s' ∧ s'.values = vs ∧ s'.Separate := by
  induction ops generalizing s with
  | nil => exact ⟨s, rfl, rfl, h⟩
  | cons op ops ih =>
    have h1 := h.run (S := S) (hd op (by simp))
    unfold runAllV Sys.runAll
    cases hv : op.runV S s.values with
    | error e =>
      rw [hv] at h1
      simp only at h1
      rw [h1]; rfl
    | ok vs =>
      rw [hv] at h1
      obtain ⟨s1, e1, e2, e3, _⟩ := h1
      rw [e1]
      simp only [bind, Except.bind]
      rw [← e2]
      exact ih (fun op ho => hd op (by simp [ho])) e3

/-- C31: in the program of values a call changes no message but its target. -/
theorem C31_values (S : Nat → Schema) {op : SysOp} {vs vs' : List Msg} (h : op.runV S vs = .ok vs') {j : Nat}
    (hj : j ≠ op.target) : vs'[j]? = vs[j]? := by
  have key : ∀ i o, op.toOp vs = some (i, o) → i = op.target := by
    intro i o e
    cases op <;> simp only [SysOp.toOp, Option.some.injEq, Prod.mk.injEq, Option.map_eq_some_iff] at e <;>
      first
      | exact e.1.symm
      | (obtain ⟨v, _, e, _⟩ := e; exact e.symm)
  unfold SysOp.runV at h
  split at h
  · simp only [Except.ok.injEq] at h; rw [h]
  · rename_i i o e
    split at h
    · simp only [Except.ok.injEq] at h; rw [h]
    · rename_i v hv
      cases hr : o.run (S i) v with
      | error e => rw [hr] at h; simp [bind, Except.bind] at h
      | ok v' =>
        rw [hr] at h
        simp only [bind, Except.bind, pure, Except.pure, Except.ok.injEq] at h
        subst h
        rw [List.getElem?_set_ne]
        rw [key i o e]; exact hj.symm

/-- C31: a call writes no byte outside the capacity of the buffer of its target, and changes no other
struct. -/
theorem C31_writes (S : Nat → Schema) {op : SysOp} (hd : op.Distinct) {s s' : Sys} (h : s.Separate)
    (hr : op.run S s = .ok s') : Touches op.target s s' := by
  have h1 := h.run (S := S) hd
  cases hv : op.runV S s.values with
  | error e =>
    rw [hv] at h1
    simp only at h1
    rw [h1] at hr; simp at hr
  | ok vs =>
    rw [hv] at h1
    obtain ⟨s1, e1, _, _, e4⟩ := h1
    rw [e1] at hr
    simp only [Except.ok.injEq] at hr
    subst hr
    exact e4

/-- Any number of zero structs. -/
def Sys.start (ns : List Nat) : Sys := ⟨⟨[], []⟩, ns.map HMsg.zero⟩

theorem Sys.start_separate (ns : List Nat) : (Sys.start ns).Separate := by
  have z : ∀ (i : Nat) m, (Sys.start ns).ms[i]? = some m → ∃ n, m = HMsg.zero n := by
    intro i m h
    simp only [Sys.start, List.getElem?_map, Option.map_eq_some_iff] at h
    obtain ⟨n, _, h⟩ := h
    exact ⟨n, h.symm⟩
  constructor
  · intro m hm
    simp only [Sys.start, List.mem_map] at hm
    obtain ⟨n, _, rfl⟩ := hm
    refine ⟨⟨Nat.le_refl _, ?_⟩, ?_⟩
    · simp [HMsg.zero, HSlice.nil]
    · intro id h; simp [HMsg.zero] at h
  · intro i j mi mj _ hi hj a p h1 _
    obtain ⟨n, rfl⟩ := z i mi hi
    obtain ⟨_, h2, h3⟩ := h1
    simp only [HMsg.zero, HSlice.nil] at h2 h3
    omega
  · intro i j mi mj _ hi hj id h1
    obtain ⟨n, rfl⟩ := z i mi hi
    simp [HMsg.zero] at h1

/-- The call is one that the generated code of its target offers. -/
def SysOp.Valid (S : Nat → Schema) : SysOp → Prop
  | .set i rt f k x => (Op.set rt f k x).Valid (S i)
  | .append i rt f x => (Op.append rt f x).Valid (S i)
  | .setMsg i _ f j => i ≠ j ∧ (S i).kind f = some .bytes ∧ (S i).rep f = false
  | .appendMsg i _ f j => i ≠ j ∧ (S i).kind f = some .bytes ∧ (S i).rep f = true
  | .reset .. | .resetOwn .. => True
  | .decode i b rs => (Op.decode b rs).Valid (S i)

theorem Op.run_reach {S : Schema} {op : Op} (hv : op.Valid S) {m m' : Msg} (h : Reach S m) (hr : op.run S m = .ok m') :
    Reach S m' := by
  have hl : m.off.a.length = S.n := by
    obtain ⟨rs, ⟨cs, h1, _⟩, _⟩ := h.holds
    exact h1.alen
  cases op with
  | set rt f k x => exact .set h hv.1 hv.2.1 hv.2.2 hr
  | append rt f x => exact .append h hv.1 hv.2.1 hv.2.2 hr
  | reset buf => exact .reset hl hr
  | decode buf rs =>
    obtain ⟨v1, v2, v3⟩ := hv
    obtain ⟨m1, e1, _⟩ := decode_holdsMin (m := m) hl v3 v1 (fun r hr => (v2 r hr).1)
    simp only [Op.run, e1, bind, Except.bind, pure, Except.pure, Except.ok.injEq] at hr
    subst hr
    exact .decode hl v3 v1 v2 e1

/-- C31: a whole history writes only bytes that were, at its start, in the capacity of the buffer of
one of the messages it made calls on, and only overflow maps of those messages. Arrays keep their size. -/
theorem C31_footprint (S : Nat → Schema) {ops : List SysOp} (hd : ∀ op ∈ ops, op.Distinct) {s s' : Sys} (h : s.Separate)
    (hr : s.runAll S ops = .ok s') :
    (∀ a p, a < s.w.arrs.length → (∀ op ∈ ops, ∀ m, s.ms[op.target]? = some m → ¬ m.buf.owns a p) →
      s'.w.cell a p = s.w.cell a p) ∧
    (∀ id, id < s.w.maps.length → (∀ op ∈ ops, ∀ m, s.ms[op.target]? = some m → m.m ≠ some id) →
      s'.w.maps.getD id [] = s.w.maps.getD id []) ∧
    (∀ a, a < s.w.arrs.length → (s'.w.arr a).length = (s.w.arr a).length) := by
  induction ops generalizing s with
  | nil =>
    simp only [Sys.runAll, Except.ok.injEq] at hr
    subst hr
    exact ⟨fun _ _ _ _ => rfl, fun _ _ _ => rfl, fun _ _ => rfl⟩
  | cons op ops ih =>
    unfold Sys.runAll at hr
    cases h1 : op.run S s with
    | error e => rw [h1] at hr; simp [bind, Except.bind] at hr
    | ok s1 =>
      rw [h1] at hr
      simp only [bind, Except.bind] at hr
      have hd1 := hd op (by simp)
      have t := C31_writes S hd1 h h1
      have hsep : s1.Separate := by
        have := h.run (S := S) hd1
        cases hv : op.runV S s.values with
        | error e => rw [hv] at this; simp only at this; rw [this] at h1; simp at h1
        | ok vs =>
          rw [hv] at this
          obtain ⟨s2, e1, _, e3, _⟩ := this
          rw [e1] at h1
          simp only [Except.ok.injEq] at h1
          subst h1; exact e3
      obtain ⟨i1, i2, i3⟩ := ih (fun op ho => hd op (by simp [ho])) hsep hr
      refine ⟨?_, ?_, fun a ha => by rw [i3 a (Nat.lt_of_lt_of_le ha t.grow), t.size a ha]⟩
      · intro a p ha hn
        rw [i1 a p (Nat.lt_of_lt_of_le ha t.grow), t.cells a p ha (hn op (by simp))]
        intro op2 ho m2 hm2 hown
        by_cases e : op2.target = op.target
        · rw [e] at hm2
          obtain ⟨m, hm, hsub, _⟩ := t.owned m2 hm2
          rcases hsub a p hown with h3 | h3
          · exact hn op (by simp) m hm h3
          · omega
        · rw [t.others _ e] at hm2
          exact hn op2 (by simp [ho]) m2 hm2 hown
      · intro id hid hn
        rw [i2 id (Nat.lt_of_lt_of_le hid t.mgrow), t.maps id hid (hn op (by simp))]
        intro op2 ho m2 hm2 hown
        by_cases e : op2.target = op.target
        · rw [e] at hm2
          obtain ⟨m, hm, _, hsub⟩ := t.owned m2 hm2
          rcases hsub with h3 | ⟨id', h3, h4⟩
          · exact hn op (by simp) m hm (h3 ▸ hown)
          · rw [h3] at hown
            simp only [Option.some.injEq] at hown
            omega
        · rw [t.others _ e] at hm2
          exact hn op2 (by simp [ho]) m2 hm2 hown

/-- C31: in every interleaving of valid calls, starting from zero structs, each message is always in
a state that it could have reached alone, so all the theorems about single messages apply to it. -/
theorem C31_reach (S : Nat → Schema) (n : Nat) (ops : List SysOp) (hv : ∀ op ∈ ops, op.Valid S) {s : Sys}
    (hr : (Sys.start ((List.range n).map fun i => (S i).n)).runAll S ops = .ok s) {i : Nat} {m : HMsg}
    (hi : s.ms[i]? = some m) : Reach (S i) (s.w.msg m) := by
  have hd : ∀ op ∈ ops, op.Distinct := by
    intro op ho
    have := hv op ho
    cases op <;> first | trivial | exact this.1
  have h := C31_no_interference S ops hd (Sys.start_separate ((List.range n).map fun i => (S i).n))
  cases hvs : runAllV S ops (Sys.start ((List.range n).map fun i => (S i).n)).values with
  | error e =>
    rw [hvs] at h
    simp only at h
    rw [h] at hr; simp at hr
  | ok vs =>
    rw [hvs] at h
    obtain ⟨s1, e1, e2, _⟩ := h
    rw [e1] at hr
    simp only [Except.ok.injEq] at hr
    subst hr
    have key : ∀ (ops : List SysOp) (vs vs' : List Msg), (∀ op ∈ ops, op.Valid S) →
        (∀ (i : Nat) v, vs[i]? = some v → Reach (S i) v) → runAllV S ops vs = .ok vs' →
        ∀ (i : Nat) v, vs'[i]? = some v → Reach (S i) v := by
      intro ops
      induction ops with
      | nil =>
        intro vs vs' _ h1 h2
        simp only [runAllV, Except.ok.injEq] at h2
        rw [← h2]; exact h1
      | cons op ops ih =>
        intro vs vs' hv h1 h2
        unfold runAllV at h2
        cases hstep : op.runV S vs with
        | error e => rw [hstep] at h2; simp [bind, Except.bind] at h2
        | ok vs1 =>
          rw [hstep] at h2
          refine ih vs1 vs' (fun op ho => hv op (by simp [ho])) ?_ h2
          intro i v hiv
          have hop := hv op (by simp)
          unfold SysOp.runV at hstep
          split at hstep
          · simp only [Except.ok.injEq] at hstep; rw [← hstep] at hiv; exact h1 i v hiv
          · rename_i t o e
            split at hstep
            · simp only [Except.ok.injEq] at hstep; rw [← hstep] at hiv; exact h1 i v hiv
            · rename_i v0 hv0
              cases hro : o.run (S t) v0 with
              | error e => rw [hro] at hstep; simp [bind, Except.bind] at hstep
              | ok v1 =>
                rw [hro] at hstep
                simp only [bind, Except.bind, pure, Except.pure, Except.ok.injEq] at hstep
                subst hstep
                rw [List.getElem?_set] at hiv
                split at hiv
                · rename_i e2
                  subst e2
                  split at hiv
                  · simp only [Option.some.injEq] at hiv
                    subst hiv
                    refine Op.run_reach ?_ (h1 t v0 hv0) hro
                    have small : ∀ (j : Nat) v, vs[j]? = some v → v.encode.data.length < maxLen := by
                      intro j v hj
                      obtain ⟨rs, ⟨cs, h1, _⟩, _⟩ := (h1 j v hj).holds
                      exact h1.len
                    cases op <;> simp only [SysOp.toOp, Option.some.injEq, Prod.mk.injEq, Option.map_eq_some_iff] at e
                    · obtain ⟨rfl, rfl⟩ := e; exact hop
                    · obtain ⟨rfl, rfl⟩ := e; exact hop
                    · obtain ⟨v, hj, rfl, rfl⟩ := e; exact ⟨hop.2.1, hop.2.2, small _ v hj⟩
                    · obtain ⟨v, hj, rfl, rfl⟩ := e; exact ⟨hop.2.1, hop.2.2, small _ v hj⟩
                    · obtain ⟨rfl, rfl⟩ := e; rfl
                    · obtain ⟨v, hj, rfl, rfl⟩ := e; rfl
                    · obtain ⟨rfl, rfl⟩ := e; exact hop
                  · simp at hiv
                · exact h1 i v hiv
    refine key ops _ vs hv ?_ hvs i _ ?_
    · intro j v hj
      simp only [Sys.values, Sys.start, List.getElem?_map, Option.map_eq_some_iff] at hj
      obtain ⟨x, ⟨y, ⟨z, hz, rfl⟩, rfl⟩, rfl⟩ := hj
      have : z = j := by
        rw [List.getElem?_eq_some_iff] at hz
        obtain ⟨h, h'⟩ := hz
        simpa using h'.symm
      subst this
      exact .zero
    · rw [← e2]
      simp [Sys.values, hi]

/-- Hypotheses met: an interleaving of calls on two messages, with a message stored in the other and
changed afterwards, started from zero structs; it runs, and the messages have the expected bytes. -/
example : let S : Nat → Schema := fun _ => testSchema
    let ops : List SysOp := [.set 0 Rt.exact 2 .int32 7#32, .set 1 Rt.exact 14 .string [0x68#8, 0x69#8], .setMsg 1 Rt.exact 17 0,
      .set 0 Rt.exact 2 .int32 300#32, .appendMsg 0 Rt.exact 34 1, .reset 1 [0#8, 0#8], .set 1 Rt.exact 1 .bool true]
    (∀ op ∈ ops, op.Valid S) ∧ (∀ op ∈ ops, op.Distinct) ∧
    ∃ s, (Sys.start [35, 35]).runAll S ops = .ok s ∧ s.values.map (fun v => v.encode.data) =
      [[0x10#8, 0xac#8, 0x02#8, 0x92#8, 0x02#8, 0x09#8, 0x72#8, 0x02#8, 0x68#8, 0x69#8, 0x8a#8, 0x01#8, 0x02#8, 0x10#8, 0x07#8],
       [0x08#8, 0x01#8]] := by
  refine ⟨?_, ?_, _, rfl, by decide +kernel⟩
  · intro op hop
    simp only [List.mem_cons, List.not_mem_nil, or_false] at hop
    rcases hop with rfl | rfl | rfl | rfl | rfl | rfl | rfl <;>
      first
      | trivial
      | exact ⟨rfl, rfl, by decide⟩
      | exact ⟨by decide, rfl, rfl⟩
  · intro op hop
    simp only [List.mem_cons, List.not_mem_nil, or_false] at hop
    rcases hop with rfl | rfl | rfl | rfl | rfl | rfl | rfl <;> simp [SysOp.Distinct]

end Zeropb
