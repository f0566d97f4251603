import Verif.GoSrc.Text
import Verif.GoSrc.Getters
import Verif.GoSrc.SetFields
import Verif.Props.Core
import Verif.Props.Alias
/-!
# C62: the committed Go source computes the model

The functions of offsets.go and zeropb.go are taken from their source text (`GoSrc/Text`, checked
against the syntax trees by `C62_text`), run by the interpreter of `GoSrc/Sem`, and shown to do what
the model does: same results, same memory, same panics, for all memories and arguments.
-/

set_option linter.constructorNameAsVariable false

namespace Zeropb.GoSrc
open Wire

/-- C62: the syntax trees that are interpreted are the files offsets.go and zeropb.go: printing them gives the tokens of
the text of the files (`offsetsText`, `zeropbText`: the lines of the files). -/
theorem C62_text : tokenize (unlines offsetsText) = (offsetsFile.map Top.toks).flatten ∧
    tokenize (unlines zeropbText) = (zeropbFile.map Top.toks).flatten := ⟨offsets_source, zeropb_source⟩

/-! ## Field types -/

/-- The function of zeropb.go that reads a field of a type (generate.go:74-96). -/
def getterOf : Kind → Id
  | .bool => .GetBool | .int32 => .GetInt32 | .int64 => .GetInt64 | .uint32 => .GetUint32 | .uint64 => .GetUint64
  | .sint32 => .GetZigZagInt32 | .sint64 => .GetZigZagInt64 | .fixed32 => .GetFixedUint32 | .fixed64 => .GetFixedUint64
  | .sfixed32 => .GetFixedInt32 | .sfixed64 => .GetFixedInt64 | .float => .GetFloat32 | .double => .GetFloat64
  | .string => .GetString | .bytes => .GetBytes

/-- The function of zeropb.go that sets a field of a type. -/
def setterOf : Kind → Id
  | .bool => .SetBool | .int32 => .SetInt32 | .int64 => .SetInt64 | .uint32 => .SetUint32 | .uint64 => .SetUint64
  | .sint32 => .SetZigZagInt32 | .sint64 => .SetZigZagInt64 | .fixed32 => .SetFixedUint32 | .fixed64 => .SetFixedUint64
  | .sfixed32 => .SetFixedInt32 | .sfixed64 => .SetFixedInt64 | .float => .SetFloat32 | .double => .SetFloat64
  | .string => .SetString | .bytes => .SetBytes

/-- A Go value of the type of the field. -/
def IsVal (w : World) : (k : Kind) → k.Ty → Val → Prop
  | .bool, x, v => v = .bool x
  | .int32, x, v | .sint32, x, v | .sfixed32, x, v => v = .i32 x
  | .int64, x, v | .sint64, x, v | .sfixed64, x, v => v = .i64 x
  | .uint32, x, v | .fixed32, x, v => v = .u32 x
  | .uint64, x, v | .fixed64, x, v => v = .u64 x
  | .float, x, v => v = .f32 x
  | .double, x, v => v = .f64 x
  | .string, x, v => ∃ s, v = .str s ∧ w.src s = x
  | .bytes, x, v => (v = .nil ∧ x = []) ∨ ∃ s, v = .bytes s ∧ w.src s = x

/-- The result of a function with one result agrees with the model. -/
def Returns {α : Type} (r : M (List Val × Heap)) (h : Heap) (q : Res α) (P : α → Val → Prop) : Prop :=
  match q with
  | .error e => r = .error (.fail e)
  | .ok x => ∃ v, r = .ok ([v], h) ∧ P x v

/-- The effect of a function without result on the message of struct `i` agrees with the model; other structs stay. -/
def Changes (r : M (List Val × Heap)) (h : Heap) (i : Nat) (q : Res Msg) : Prop :=
  match q with
  | .error e => r = .error (.fail e)
  | .ok m => ∃ h', r = .ok ([], h') ∧ h'.w.msg (h'.ms i) = m ∧ h'.w.WF (h'.ms i) ∧ (∀ j, j ≠ i → h'.ms j = h.ms j)

theorem returns_map {α : Type} {q : Res α} {f : α → Val} {h : Heap} {P : α → Val → Prop} (hp : ∀ x, P x (f x)) :
    Returns (lift q >>= fun x => .ok ([f x], h)) h q P := by
  cases q with
  | error e => rfl
  | ok x => exact ⟨_, rfl, hp x⟩

theorem changes_of_refines {rv : Res (Slice × Offsets)} {rh : Res (HMsg × World)} {h : Heap} {i : Nat} (hr : Refines rv rh h.w (h.ms i)) :
    Changes (lift rh >>= fun r => .ok (([] : List Val), h.upd i r)) h i (rv.map (fun r => ⟨r.1, r.2⟩)) := by
  unfold Refines at hr
  cases rv with
  | error e => simp only at hr; subst hr; rfl
  | ok r =>
    obtain ⟨b, o⟩ := r
    obtain ⟨m', w', h1, h2, h3, _⟩ := hr
    subst h1
    refine ⟨_, rfl, ?_, ?_, ?_⟩
    · simp only [upd_ms, upd_w]; exact h2
    · simp only [upd_ms, upd_w]; exact h3
    · intro j hj; simp [Heap.upd, hj]

/-- C62: every getter of zeropb.go, interpreted, returns what the model's getter returns, panics when it does, and does
not touch memory. -/
theorem C62_getters (rt : Rt) (d i f : Nat) (k : Kind) (h : Heap) (hb : h.w.WFs (h.ms i).buf) :
    Returns (goCall rt (d + 2) (getterOf k) [.bytes (.mem (h.ms i).buf), .offs i, .int f] h) h ((h.w.msg (h.ms i)).get k f)
      (IsVal h.w k) := by
  cases k <;> simp only [getterOf, Msg.get, World.msg]
  · rw [go_GetBool rt d i f _ h hb]; exact returns_map fun _ => rfl
  · rw [go_GetInt32 rt d i f _ h hb]; exact returns_map fun _ => rfl
  · rw [go_GetInt64 rt d i f _ h hb]; exact returns_map fun _ => rfl
  · rw [go_GetUint32 rt d i f _ h hb]; exact returns_map fun _ => rfl
  · rw [go_GetUint64 rt d i f _ h hb]; exact returns_map fun _ => rfl
  · rw [go_GetZigZagInt32 rt d i f _ h hb]; exact returns_map fun _ => rfl
  · rw [go_GetZigZagInt64 rt d i f _ h hb]; exact returns_map fun _ => rfl
  · rw [go_GetFixedUint32 rt d i f _ h hb]; exact returns_map fun _ => rfl
  · rw [go_GetFixedUint64 rt d i f _ h hb]; exact returns_map fun _ => rfl
  · rw [go_GetFixedInt32 rt d i f _ h hb]; exact returns_map fun _ => rfl
  · rw [go_GetFixedInt64 rt d i f _ h hb]; exact returns_map fun _ => rfl
  · rw [go_GetFloat32 rt d i f _ h hb]; exact returns_map fun _ => rfl
  · rw [go_GetFloat64 rt d i f _ h hb]; exact returns_map fun _ => rfl
  · rw [go_GetString rt d i f h hb]
    have e : getString (h.w.slice (h.ms i).buf) (h.w.offs (h.ms i)) f =
        (getBytes (h.w.slice (h.ms i).buf) (h.w.offs (h.ms i)) f).map (fun r => match r with | none => [] | some s => s.data) := by
      unfold getString getBytes
      cases (h.w.offs (h.ms i)).get f with
      | error e => rfl
      | ok r =>
        obtain ⟨off, _ | _⟩ := r
        · rfl
        · simp only [bind, Except.bind, Bool.not_true, Bool.false_eq_true, if_false]
          cases (h.w.slice (h.ms i).buf).dropFrom off.toNat with
          | error e => rfl
          | ok s =>
            simp only
            cases (h.w.slice (h.ms i).buf).range (off + intToU64 (uvarint s.data).2).toNat
                (off + intToU64 (uvarint s.data).2 + (uvarint s.data).1).toNat <;> rfl
    rw [e, getBytes_view hb]
    cases (h.ms i).getBytes h.w f with
    | error e => rfl
    | ok r =>
      cases r with
      | none => exact ⟨_, rfl, _, rfl, rfl⟩
      | some s => exact ⟨_, rfl, _, rfl, rfl⟩
  · rw [go_GetBytes rt d i f h hb, getBytes_view hb]
    cases (h.ms i).getBytes h.w f with
    | error e => rfl
    | ok r =>
      cases r with
      | none => exact ⟨_, rfl, Or.inl ⟨rfl, rfl⟩⟩
      | some s => exact ⟨_, rfl, Or.inr ⟨_, rfl, rfl⟩⟩

/-! ## Setters -/

/-- Memory that `v` refers to exists and is apart from the memory slice `b` may write. -/
def Val.Apart (w : World) (b : HSlice) (v : Val) : Prop := ∀ s, v = .str s ∨ v = .bytes s → s.Apart w b

theorem apart_wfsrc {w : World} {b : HSlice} {s : Src} (h : s.Apart w b) : World.WFsrc w s := by
  cases s with
  | lit => trivial
  | mem s => exact h.1

/-- The number of bytes of a value with a length. -/
def lenOf : (k : Kind) → k.Ty → Nat
  | .string, x | .bytes, x => List.length x
  | _, _ => 0

theorem set_eq_map (rt : Rt) (m : Msg) (k : Kind) (f : Nat) (x : k.Ty) :
    m.set rt k f x = (Msg.setField rt m.buf m.off k f x).map (fun r => ⟨r.1, r.2⟩) := by
  unfold Msg.set
  cases Msg.setField rt m.buf m.off k f x <;> rfl

/-- C62: every setter of zeropb.go, interpreted, changes the message exactly as the model's setter does (and panics when it
does); other messages and the structures of the caller keep their fields. A `string` or `[]byte` argument may be in memory, as
long as the buffer cannot overwrite it during the call. -/
theorem C62_setters (rt : Rt) (d i f : Nat) (k : Kind) (x : k.Ty) (v : Val) (h : Heap) (hw : h.w.WF (h.ms i))
    (hv : IsVal h.w k x v) (ha : v.Apart h.w (h.ms i).buf) (hl : lenOf k x + 10 < maxLen) :
    Changes (goCall rt (d + 3) (setterOf k) [.bufPtr i, .offs i, .int f, v] h) h i ((h.w.msg (h.ms i)).set rt k f x) := by
  rw [set_eq_map]
  have main := fun x => changes_of_refines (i := i) (h := h) (setField_refines rt hw k f x)
  have str : ∀ s : Src, s.Apart h.w (h.ms i).buf →
      Changes (lift ((h.ms i).setBytes rt h.w f s) >>= fun r => .ok (([] : List Val), h.upd i r)) h i
        ((setBytes rt (h.w.msg (h.ms i)).buf (h.w.msg (h.ms i)).off f (h.w.src s)).map (fun r => ⟨r.1, r.2⟩)) :=
    fun s ha => changes_of_refines (setBytes_refines rt hw f ha)
  cases k <;> simp only [setterOf, IsVal] at *
  · subst hv; rw [go_SetBool rt d i f _ h hw]; exact main _
  · subst hv; rw [go_SetInt32 rt d i f _ h hw]; exact main _
  · subst hv; rw [go_SetInt64 rt d i f _ h hw]; exact main _
  · subst hv; rw [go_SetUint32 rt d i f _ h hw]; exact main _
  · subst hv; rw [go_SetUint64 rt d i f _ h hw]; exact main _
  · subst hv; rw [go_SetZigZagInt32 rt d i f _ h hw]; exact main _
  · subst hv; rw [go_SetZigZagInt64 rt d i f _ h hw]; exact main _
  · subst hv; rw [go_SetFixedUint32 rt d i f _ h hw]; exact main _
  · subst hv; rw [go_SetFixedUint64 rt d i f _ h hw]; exact main _
  · subst hv; rw [go_SetFixedInt32 rt d i f _ h hw]; exact main _
  · subst hv; rw [go_SetFixedInt64 rt d i f _ h hw]; exact main _
  · subst hv; rw [go_SetFloat32 rt d i f _ h hw]; exact main _
  · subst hv; rw [go_SetFloat64 rt d i f _ h hw]; exact main _
  · obtain ⟨s, rfl, rfl⟩ := hv
    have hs := ha s (Or.inl rfl)
    have hl' : strLen s + 10 < maxLen := by rw [← src_length (apart_wfsrc hs)]; exact hl
    rw [go_SetString rt d i f s h (apart_wfsrc hs) hl' hw]
    exact str s hs
  · rcases hv with ⟨rfl, rfl⟩ | ⟨s, rfl, rfl⟩
    · rw [go_SetBytes rt d i f Arg.nil h trivial (by decide) hw]
      exact str (.lit []) trivial
    · have hs := ha s (Or.inr rfl)
      have hl' : strLen s + 10 < maxLen := by rw [← src_length (apart_wfsrc hs)]; exact hl
      rw [go_SetBytes rt d i f (Arg.bytes s) h (apart_wfsrc hs) hl' hw]
      exact str s hs

theorem appendRaw_eq_map (rt : Rt) (m : Msg) (f : Nat) (x : List Byte) :
    m.appendRaw rt f x = (appendBytes rt m.buf m.off f x).map (fun r => ⟨r.1, r.2⟩) := by
  unfold Msg.appendRaw
  cases appendBytes rt m.buf m.off f x <;> rfl

/-- C62: `AppendBytes` of zeropb.go, interpreted, changes the message exactly as the model does. -/
theorem C62_append (rt : Rt) (d i f : Nat) (x : List Byte) (v : Val) (h : Heap) (hw : h.w.WF (h.ms i))
    (hv : IsVal h.w .bytes x v) (ha : v.Apart h.w (h.ms i).buf) (hl : x.length + 10 < maxLen) :
    Changes (goCall rt (d + 3) .AppendBytes [.bufPtr i, .offs i, .int f, v] h) h i ((h.w.msg (h.ms i)).appendRaw rt f x) := by
  rw [appendRaw_eq_map]
  have str : ∀ s : Src, s.Apart h.w (h.ms i).buf →
      Changes (lift ((h.ms i).appendBytes rt h.w f s) >>= fun r => .ok (([] : List Val), h.upd i r)) h i
        ((appendBytes rt (h.w.msg (h.ms i)).buf (h.w.msg (h.ms i)).off f (h.w.src s)).map (fun r => ⟨r.1, r.2⟩)) :=
    fun s ha => changes_of_refines (appendBytes_refines rt hw f ha)
  simp only [IsVal] at hv
  rcases hv with ⟨rfl, rfl⟩ | ⟨s, rfl, rfl⟩
  · rw [go_AppendBytes rt d i f Arg.nil h trivial (by decide) hw]
    exact str (.lit []) trivial
  · have hs := ha s (Or.inr rfl)
    have hl' : strLen s + 10 < maxLen := by rw [← src_length (apart_wfsrc hs)]; exact hl
    rw [go_AppendBytes rt d i f (Arg.bytes s) h (apart_wfsrc hs) hl' hw]
    exact str s hs

/-- Set, then get, at the level of the source: running the source of the setter and then of the getter gives the value back
(C01 for the interpreted source). -/
theorem C62_set_get (rt : Rt) (d i : Nat) {S : Schema} {f : Nat} {k : Kind} (x : k.Ty) (v : Val) (h : Heap) (hw : h.w.WF (h.ms i))
    (hr : Reach S (h.w.msg (h.ms i))) (hk : S.kind f = some k) (hf : S.rep f = false) (hv : IsVal h.w k x v)
    (ha : v.Apart h.w (h.ms i).buf) (hl : (h.w.msg (h.ms i)).encode.len + 20 + k.size x < maxLen) :
    ∃ h' u, goCall rt (d + 3) (setterOf k) [.bufPtr i, .offs i, .int f, v] h = .ok ([], h') ∧
      goCall rt (d + 2) (getterOf k) [.bytes (.mem (h'.ms i).buf), .offs i, .int f] h' = .ok ([u], h') ∧ IsVal h'.w k x u ∧
      Reach S (h'.w.msg (h'.ms i)) ∧ h'.w.WF (h'.ms i) := by
  obtain ⟨m', e1, e2, e3⟩ := C01_set_get_ok hr rt hk hf x hl
  have hl' : lenOf k x + 10 < maxLen := by
    have : lenOf k x ≤ k.size x := by cases k <;> simp [lenOf, Kind.size]
    omega
  have hs := C62_setters rt d i f k x v h hw hv ha hl'
  rw [e1] at hs
  obtain ⟨h', a1, a2, a3, _⟩ := hs
  have hg := C62_getters rt d i f k h' a3.1
  rw [a2, e3] at hg
  obtain ⟨u, b1, b2⟩ := hg
  exact ⟨h', u, a1, b1, b2, by rw [a2]; exact e2, a3⟩

/-! ## `Decode` and iteration -/

/-- C62: `Decode` of zeropb.go, interpreted, builds the index of the model and returns its error; no byte and no other struct
changes. -/
theorem C62_decode (rt : Rt) (d i : Nat) (b : HSlice) (rep : Nat → Bool) (h : Heap) (hw : h.w.WF (h.ms i)) (hb : h.w.WFs b) :
    match (h.w.msg (h.ms i)).decode rep (h.w.slice b) with
    | .error e => goCall rt (d + 2) .Decode [.bytes (.mem b), .offs i, .reps rep] h = .error (.fail e)
    | .ok (m, err) => ∃ h', goCall rt (d + 2) .Decode [.bytes (.mem b), .offs i, .reps rep] h = .ok ([errVal err], h') ∧
        h'.w.offs (h'.ms i) = m.off ∧ (h'.ms i).buf = (h.ms i).buf ∧ h'.w.arrs = h.w.arrs ∧ h'.w.WF (h'.ms i) ∧
        ∀ j, j ≠ i → h'.ms j = h.ms j := by
  have key := decode_refines rep hw hb
  rw [go_Decode rt d i b rep h hb hw.2]
  revert key
  unfold HMsg.decode
  cases e : (h.w.msg (h.ms i)).decode rep (h.w.slice b) with
  | error e' =>
    simp only
    cases e2 : decode (h.w.slice b) (h.w.offs (h.ms i)) rep with
    | error e'' => simp only [bind, Except.bind, Except.error.injEq]; rintro rfl; rfl
    | ok r => intro hc; cases hc
  | ok r =>
    obtain ⟨m, err⟩ := r
    simp only
    cases e2 : decode (h.w.slice b) (h.w.offs (h.ms i)) rep with
    | error e'' => rintro ⟨_, _, hc, _⟩; cases hc
    | ok r =>
      obtain ⟨o, er⟩ := r
      simp only [bind, Except.bind, pure, Except.pure]
      rintro ⟨m', w', hc, h2, h3, h4, h5, _⟩
      simp only [Except.ok.injEq, Prod.mk.injEq] at hc
      obtain ⟨rfl, rfl, rfl⟩ := hc
      have hbuf : (h.w.storeOffs (h.ms i) o).1.buf = (h.ms i).buf := by unfold World.storeOffs; split <;> rfl
      refine ⟨_, rfl, ?_, ?_, h5, ?_, ?_⟩
      · rw [← h2]; simp only [upd_ms, upd_w]; rfl
      · simp only [upd_ms]; exact hbuf
      · simp only [upd_ms, upd_w]
        refine ⟨?_, h3.2⟩
        rw [hbuf]
        exact ⟨hw.1.1, by unfold World.arr; rw [h5]; exact hw.1.2⟩
      · intro j hj; simp [Heap.upd, hj]

/-- A possibly nil `[]byte`, and its bytes. -/
def IsSlice (w : World) (x : Option Slice) (v : Val) : Prop :=
  (x = none ∧ v = .nil) ∨ ∃ s, v = .bytes (.mem s) ∧ w.WFs s ∧ x = some (w.slice s)

/-- C62: `GetRepeatedNonPacked` of zeropb.go, interpreted, gives the iterator of the model. -/
theorem C62_messages (rt : Rt) (d i f : Nat) (h : Heap) (hb : h.w.WFs (h.ms i).buf) :
    Returns (goCall rt (d + 2) .GetRepeatedNonPacked [.bytes (.mem (h.ms i).buf), .offs i, .int f] h) h
      ((h.w.msg (h.ms i)).messages f) (IsSlice h.w) := by
  rw [go_GetRepeatedNonPacked]
  show Returns _ _ (getRepeatedNonPacked (h.w.slice (h.ms i).buf) (h.w.offs (h.ms i)) f) _
  rw [messages_view hb]
  cases e : (h.ms i).messages h.w f with
  | error e => rfl
  | ok r =>
    cases r with
    | none => exact ⟨_, rfl, Or.inl ⟨rfl, rfl⟩⟩
    | some s => exact ⟨_, rfl, Or.inr ⟨s, rfl, (messages_tail hb e).2, rfl⟩⟩

/-- C62: `FindNextField` of zeropb.go, interpreted, gives the rest of the iterator and the element of the model. -/
theorem C62_next (rt : Rt) (d f : Nat) (b : Option HSlice) (h : Heap) (hb : ∀ s, b = some s → h.w.WFs s) :
    match findNextField (b.map h.w.slice) f with
    | .error e => goCall rt (d + 2) .FindNextField [optBytes b, .int f] h = .error (.fail e)
    | .ok (next, msg) => ∃ u v, goCall rt (d + 2) .FindNextField [optBytes b, .int f] h = .ok ([u, v], h) ∧
        IsSlice h.w next u ∧ IsSlice h.w msg v := by
  rw [go_FindNextField rt d b f h hb, findNextField_view hb]
  cases e : hFindNextField h.w b f with
  | error e => rfl
  | ok r =>
    obtain ⟨n, m⟩ := r
    have hwf : (∀ s, n = some s → h.w.WFs s) ∧ (∀ s, m = some s → h.w.WFs s) := by
      cases b with
      | none =>
        simp only [hFindNextField, Except.ok.injEq, Prod.mk.injEq] at e
        obtain ⟨rfl, rfl⟩ := e
        exact ⟨fun _ h => (by cases h), fun _ h => (by cases h)⟩
      | some b =>
        obtain ⟨t1, t2⟩ := hFindNextField_tail (hb b rfl) e
        exact ⟨fun s hs => (t1 s hs).2, fun s hs => (t2 s hs).2⟩
    obtain ⟨w1, w2⟩ := hwf
    refine ⟨_, _, rfl, ?_, ?_⟩
    · cases n with
      | none => exact Or.inl ⟨rfl, rfl⟩
      | some s => exact Or.inr ⟨s, rfl, w1 s rfl, rfl⟩
    · cases m with
      | none => exact Or.inl ⟨rfl, rfl⟩
      | some s => exact Or.inr ⟨s, rfl, w2 s rfl, rfl⟩

/-! ## The index -/

/-- C62: the methods of `Offsets` (offsets.go), interpreted, are those of the model. -/
theorem C62_offsets (rt : Rt) (d i f : Nat) (x : U64) (h : Heap) (hw : h.w.WF (h.ms i)) :
    (goCall rt (d + 1) .Get [.offs i, .int f] h = match (h.w.offs (h.ms i)).get f with
      | .error e => .error (.fail e)
      | .ok (y, ok) => .ok ([.u64 y, .bool ok], h)) ∧
    (match (h.w.offs (h.ms i)).set f x with
      | .error e => goCall rt (d + 1) .Set [.offs i, .int f, .u64 x] h = .error (.fail e)
      | .ok o => ∃ h', goCall rt (d + 1) .Set [.offs i, .int f, .u64 x] h = .ok ([], h') ∧ h'.w.msg (h'.ms i) = ⟨(h.w.msg (h.ms i)).buf, o⟩ ∧
          h'.w.WF (h'.ms i)) ∧
    ∃ h', goCall rt (d + 1) .Clear [.offs i] h = .ok ([], h') ∧ h'.w.msg (h'.ms i) = ⟨(h.w.msg (h.ms i)).buf, (h.w.offs (h.ms i)).clear⟩ ∧
          h'.w.WF (h'.ms i) := by
  have store : ∀ o : Offsets, ((h.ms i).m ≠ none → o.m ≠ none) →
      ((h.upd i (h.w.storeOffs (h.ms i) o)).w.msg ((h.upd i (h.w.storeOffs (h.ms i) o)).ms i) = ⟨(h.w.msg (h.ms i)).buf, o⟩ ∧
       (h.upd i (h.w.storeOffs (h.ms i) o)).w.WF ((h.upd i (h.w.storeOffs (h.ms i) o)).ms i)) := by
    intro o ho
    obtain ⟨b1, b2, b3, b4, b5⟩ := World.storeOffs_spec hw ho
    simp only [upd_ms, upd_w]
    refine ⟨?_, ?_, b4⟩
    · show (⟨_, _⟩ : Msg) = ⟨h.w.slice (h.ms i).buf, o⟩
      rw [World.slice_arrs b3, b2]
      congr 1
    · rw [b2]
      exact ⟨hw.1.1, by unfold World.arr; rw [b3]; exact hw.1.2⟩
  refine ⟨?_, ?_, ?_⟩
  · rw [go_Get]
    cases (h.w.offs (h.ms i)).get f <;> rfl
  · rw [go_Set rt d i f x h hw.2]
    cases e : (h.w.offs (h.ms i)).set f x with
    | error e => rfl
    | ok o =>
      refine ⟨_, rfl, store o ?_⟩
      intro hm
      exact Offsets.set_map e (fun h2 => hm (World.offs_map.1 h2))
  · rw [go_Clear rt d i h hw.2]
    exact ⟨_, rfl, store _ (fun hm => Offsets.clear_map (fun h2 => hm (World.offs_map.1 h2)))⟩

/-! ## Hypotheses met -/

/-- A heap with the message of `aliasWorld` in every struct, and a string in memory of its own. -/
def demoHeap : Heap := ⟨⟨aliasWorld.arrs ++ [[0x68#8, 0x69#8]], []⟩, fun _ => aliasMsg⟩

theorem demoHeap_wf (i : Nat) : demoHeap.w.WF (demoHeap.ms i) := by
  show demoHeap.w.WF aliasMsg
  refine ⟨⟨by decide, by decide⟩, ?_⟩
  intro id h; cases h

theorem demoHeap_reach (i : Nat) : Reach testSchema (demoHeap.w.msg (demoHeap.ms i)) := aliasMsg_reach

/-- `C62_set_get` for the string in memory, field 14 of `TestMessage`. -/
example (rt : Rt) : ∃ h' u, goCall rt 3 .SetString [.bufPtr 0, .offs 0, .int 14, .str (.mem ⟨1, 0, 2, 2⟩)] demoHeap = .ok ([], h') ∧
    goCall rt 2 .GetString [.bytes (.mem (h'.ms 0).buf), .offs 0, .int 14] h' = .ok ([u], h') ∧
    ∃ s, u = .str s ∧ h'.w.src s = [0x68#8, 0x69#8] := by
  obtain ⟨h', u, a, b, c, _⟩ := C62_set_get rt 0 0 (S := testSchema) (f := 14) (k := .string) [0x68#8, 0x69#8]
    (.str (.mem ⟨1, 0, 2, 2⟩)) demoHeap (demoHeap_wf 0) (demoHeap_reach 0) rfl rfl ⟨_, rfl, by decide⟩ (by
      intro s hs
      rcases hs with hs | hs
      · simp only [Val.str.injEq] at hs
        subst hs
        refine ⟨⟨by decide, by decide⟩, ?_⟩
        rintro p _ _ ⟨h1, _⟩
        exact absurd h1 (by decide)
      · cases hs) (by decide)
  exact ⟨h', u, a, b, c⟩

/-- The result of the getter is not a panic. -/
example : (demoHeap.w.msg (demoHeap.ms 0)).get .bytes 15 = .ok [0x61#8, 0x62#8, 0x63#8, 0x64#8] ∧
    (demoHeap.w.msg (demoHeap.ms 0)).get .bool 1 = .ok true := by decide +kernel

/-- Decoding an encoded message with the source of `Decode` succeeds. -/
example (rt : Rt) : ∃ h', goCall rt 2 .Decode [.bytes (.mem ⟨0, 0, 8, 8⟩), .offs 0, .reps testSchema.rep] demoHeap = .ok ([.nil], h') := by
  obtain ⟨m, e, _⟩ := C05_encode_decode (demoHeap_reach 0) (m0 := demoHeap.w.msg (demoHeap.ms 0)) (by decide)
    (buf := demoHeap.w.slice ⟨0, 0, 8, 8⟩) rfl
  have := C62_decode rt 0 0 ⟨0, 0, 8, 8⟩ testSchema.rep demoHeap (demoHeap_wf 0) ⟨by decide, by decide⟩
  have hb : (demoHeap.w.msg (demoHeap.ms 0)).decode testSchema.rep (demoHeap.w.slice ⟨0, 0, 8, 8⟩) = .ok (m, none) := e
  rw [hb] at this
  obtain ⟨h', e', _⟩ := this
  exact ⟨h', e'⟩

end Zeropb.GoSrc
