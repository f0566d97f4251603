import Verif.Mem.Alloc
import Verif.Props.Copy
set_option linter.unusedSimpArgs false
set_option linter.unusedVariables false
/-!
# Allocation (C53, C35)

The heap of `Verif/Mem/Model.lean` is a list of byte arrays and a list of overflow maps. Go allocates exactly when
one of these lists gets longer.
-/

namespace Zeropb

/-- One call that changes a message. `x` may be any memory, also that of the message itself. -/
inductive HCall where
  /-- a setter of a scalar field; a string or bytes argument is in memory of its own -/
  | set (rt : Rt) (f : Nat) (k : Kind) (x : k.Ty)
  /-- the setter of a string, bytes or message field -/
  | setBytes (rt : Rt) (f : Nat) (x : Src)
  /-- `AppendTo` -/
  | append (rt : Rt) (f : Nat) (x : Src)
  /-- `Reset(b)` -/
  | reset (b : HSlice)
  /-- `Decode(b)` -/
  | decode (rep : Nat → Bool) (b : HSlice)

/-- Run the call. -/
noncomputable def HCall.run : HCall → World → HMsg → Res (HMsg × World)
  | .set rt f k x, w, m => m.setField rt w k f x
  | .setBytes rt f x, w, m => m.setBytes rt w f x
  | .append rt f x, w, m => m.appendBytes rt w f x
  | .reset b, w, m => m.reset w b
  | .decode rep b, w, m => do
    let r ← m.decode rep w b
    return (r.1, r.2.1)

/-- The storage the call has: the buffer given to `Reset` or `Decode`, otherwise the current one. -/
def HCall.storage (m : HMsg) : HCall → HSlice
  | .reset b | .decode _ b => b
  | _ => m.buf

/-- A history of calls, from heap `w` and struct `m` to `w'` and `m'`, in which the message never gets longer than
65535 bytes nor longer than the capacity of its storage. -/
inductive Fits : World → HMsg → List HCall → World → HMsg → Prop where
  | nil {w m} : Fits w m [] w m
  | call {w m c w1 m1 cs w2 m2} : w.WFs (c.storage m) → c.run w m = .ok (m1, w1) → m1.buf.len ≤ 65535 →
      m1.buf.len ≤ (c.storage m).cap → Fits w1 m1 cs w2 m2 → Fits w m (c :: cs) w2 m2

/-- What one call allocates. -/
theorem HCall.run_grown {c : HCall} {w w' : World} {m m' : HMsg} (hw : w.WFs (c.storage m)) (h : c.run w m = .ok (m', w')) :
    Grown w w' (c.storage m) m'.buf ∧ (m'.buf.len ≤ 65535 ∨ m.m ≠ none → MapsStay w w' m m') := by
  cases c with
  | set rt f k x => exact setField_grown rt h
  | setBytes rt f x => exact setBytes_grown rt h
  | append rt f x => exact appendBytes_grown rt h
  | reset b =>
    obtain ⟨h1, h2, h3⟩ := reset_grown h
    rw [h2]
    exact ⟨Grown.of_arrs h1 _, fun _ => h3⟩
  | decode rep b =>
    simp only [HCall.run, bind, Except.bind] at h
    split at h
    · simp at h
    next r e =>
    obtain ⟨m1, w1, err⟩ := r
    simp only [pure, Except.pure, Except.ok.injEq, Prod.mk.injEq] at h
    obtain ⟨rfl, rfl⟩ := h
    obtain ⟨h1, h2, h3⟩ := decode_grown hw e
    rw [h2]
    exact ⟨Grown.of_arrs h1 _, h3⟩

/-- C53: a call allocates an array exactly when the message does not fit into its storage. Otherwise the message
stays where its storage is. -/
theorem C53_array {c : HCall} {w w' : World} {m m' : HMsg} (hw : w.WFs (c.storage m)) (h : c.run w m = .ok (m', w')) :
    (m'.buf.len ≤ (c.storage m).cap ↔ w'.arrs.length = w.arrs.length) ∧
    (m'.buf.len ≤ (c.storage m).cap → m'.buf.arr = (c.storage m).arr ∧ m'.buf.off = (c.storage m).off ∧
      m'.buf.cap = (c.storage m).cap) := by
  rcases (HCall.run_grown hw h).1 with ⟨h1, h2, h3, h4, h5⟩ | ⟨h1, h2⟩
  · exact ⟨⟨fun _ => h1, fun _ => h5 hw.1⟩, fun _ => ⟨h2, h3, h4⟩⟩
  · exact ⟨⟨fun h => by omega, fun h => by omega⟩, fun h => by omega⟩

/-- C53: no call allocates an overflow map when it leaves a message of at most 65535 bytes. -/
theorem C53_map {c : HCall} {w w' : World} {m m' : HMsg} (hw : w.WFs (c.storage m)) (h : c.run w m = .ok (m', w'))
    (hl : m'.buf.len ≤ 65535) : w'.maps.length = w.maps.length ∧ (m'.m = none ↔ m.m = none) :=
  (HCall.run_grown hw h).2 (Or.inl hl)

/-- C53, the README's goal: a history in which the message never exceeds 65535 bytes or the capacity of its storage
allocates nothing, and the struct never has an overflow map. -/
theorem C53_zero_allocation {w w' : World} {m m' : HMsg} {cs : List HCall} (hm : m.m = none) (h : Fits w m cs w' m') :
    w'.arrs.length = w.arrs.length ∧ w'.maps.length = w.maps.length ∧ m'.m = none := by
  induction h with
  | nil => exact ⟨rfl, rfl, hm⟩
  | call hw hr hl hc _ ih =>
    obtain ⟨a1, a2⟩ := C53_map hw hr hl
    obtain ⟨b1, b2, b3⟩ := ih (a2.2 hm)
    exact ⟨b1.trans ((C53_array hw hr).1.1 hc), b2.trans a1, b3⟩

/-- C53: a message accessor allocates nothing when the embedded message has at most 65535 bytes or the receiving
struct has an overflow map already. -/
theorem C53_sub_message {repX : Nat → Bool} {w w' : World} {m x x' : HMsg} {f : Nat} {ok : Bool} {err : Option DecErr}
    (hw : w.WFs m.buf) (h : m.subMessage repX w f x = .ok (x', w', ok, err)) (hl : x'.buf.len ≤ 65535 ∨ x.m ≠ none) :
    w'.arrs = w.arrs ∧ w'.maps.length = w.maps.length ∧ (x'.m = none ↔ x.m = none) := by
  unfold HMsg.subMessage at h
  simp only [bind, Except.bind] at h
  cases hb : m.getBytes w f with
  | error e => rw [hb] at h; simp at h
  | ok r =>
    rw [hb] at h
    cases r with
    | none =>
      simp only [pure, Except.pure, Except.ok.injEq, Prod.mk.injEq] at h
      obtain ⟨rfl, rfl, _⟩ := h
      exact ⟨rfl, rfl, Iff.rfl⟩
    | some b =>
      simp only at h
      split at h
      · simp at h
      next p e =>
      obtain ⟨x1, w1, err1⟩ := p
      simp only [pure, Except.pure, Except.ok.injEq, Prod.mk.injEq] at h
      obtain ⟨rfl, rfl, _⟩ := h
      have hwb : w.WFs b := by
        have := getBytes_view hw f
        rw [hb] at this
        unfold HMsg.getBytes at hb
        simp only [bind, Except.bind] at hb
        split at hb
        · simp at hb
        split at hb
        · simp [pure, Except.pure] at hb
        split at hb
        · simp at hb
        split at hb
        · simp at hb
        next d e6 =>
        simp only [pure, Except.pure, Except.ok.injEq, Option.some.injEq] at hb
        subst hb
        exact HSlice.range_wf hw e6
      obtain ⟨a1, a2, a3⟩ := decode_grown hwb e
      rw [a2] at hl
      exact ⟨a1, a3 hl⟩

/-- C53: the same for the `Next` of an iterator. -/
theorem C53_next {repX : Nat → Bool} {w w' : World} {it it' : Option HSlice} {x x' : HMsg} {f : Nat} {ok : Bool}
    {err : Option DecErr} (hw : ∀ b, it = some b → w.WFs b) (h : hNext repX w it f x = .ok (it', x', w', ok, err))
    (hl : x'.buf.len ≤ 65535 ∨ x.m ≠ none) :
    w'.arrs = w.arrs ∧ w'.maps.length = w.maps.length ∧ (x'.m = none ↔ x.m = none) := by
  unfold hNext at h
  simp only [bind, Except.bind] at h
  cases hb : hFindNextField w it f with
  | error e => rw [hb] at h; simp at h
  | ok r =>
    obtain ⟨it1, r⟩ := r
    rw [hb] at h
    cases r with
    | none =>
      simp only [pure, Except.pure, Except.ok.injEq, Prod.mk.injEq] at h
      obtain ⟨_, rfl, rfl, _⟩ := h
      exact ⟨rfl, rfl, Iff.rfl⟩
    | some b =>
      simp only at h
      split at h
      · simp at h
      next p e =>
      obtain ⟨x1, w1, err1⟩ := p
      simp only [pure, Except.pure, Except.ok.injEq, Prod.mk.injEq] at h
      obtain ⟨_, rfl, rfl, _⟩ := h
      have hwb : w.WFs b := by
        cases it with
        | none => simp [hFindNextField] at hb
        | some t =>
          unfold hFindNextField at hb
          simp only [bind, Except.bind] at hb
          split at hb
          · simp at hb
          next msg e2 =>
          split at hb
          · simp at hb
          next nx e3 =>
          simp only [pure, Except.pure, Except.ok.injEq, Prod.mk.injEq, Option.some.injEq] at hb
          obtain ⟨_, rfl⟩ := hb
          exact HSlice.range_wf (hw t rfl) e2
      obtain ⟨a1, a2, a3⟩ := decode_grown hwb e
      rw [a2] at hl
      exact ⟨a1, a3 hl⟩

/-- C53: the bound is the right one. Setting a bool field that was not set, in a struct without an overflow map,
allocates the map exactly when the message gets longer than 65535 bytes. -/
theorem C53_sharp {w w' : World} {m m' : HMsg} {rt : Rt} {f : Nat} {x : Bool} {o : U64} (hm : m.m = none)
    (hab : (w.offs m).get f = .ok (o, false)) (h : m.setField rt w .bool f x = .ok (m', w')) :
    (m'.buf.len ≤ 65535 → w'.maps.length = w.maps.length ∧ m'.m = none) ∧
    (65535 < m'.buf.len → w'.maps.length = w.maps.length + 1 ∧ m'.m = some w.maps.length) := by
  refine ⟨fun hl => ?_, fun hl => ?_⟩
  · obtain ⟨h1, h2⟩ := (setField_grown rt h).2 (Or.inl hl)
    exact ⟨h1, h2.2 hm⟩
  · simp only [HMsg.setField, HMsg.setSingle, HMsg.appendField, bind, Except.bind] at h
    split at h
    · simp at h
    next tag e1 =>
    split at h
    · simp at h
    next p e0 =>
    rw [hab] at e0
    simp only [Except.ok.injEq] at e0
    subst e0
    simp only [Bool.false_eq_true, if_false] at h
    split at h
    · simp at h
    next p e2 =>
    obtain ⟨t1, w1⟩ := p
    obtain ⟨a1, a2, a3⟩ := World.append_grown rt e2
    simp only at h
    split at h
    · simp at h
    next o1 e3 =>
    obtain ⟨b1, b2, b3, b4⟩ := finish_grown rt (o := o1) (w1 := w1) (m := m) (t1 := t1) (valLen := []) (x := .lit _) h
    have hlen := b4 _ rfl
    have ho : o1.m ≠ none := C19_sharp (by
      have : t1.len < maxLen := by
        unfold World.append at e2
        split at e2
        · split at e2 <;> (simp only [Except.ok.injEq, Prod.mk.injEq] at e2; obtain ⟨rfl, rfl⟩ := e2; simpa)
        · simp at e2
      unfold maxLen at this
      rw [BitVec.toNat_ofNat, Nat.mod_eq_of_lt (by omega)]
      simp at hlen
      omega) e3
    obtain ⟨mp, hmp⟩ := Option.ne_none_iff_exists'.1 ho
    have hst : w1.storeOffs m o1 = ({ m with a := o1.a, m := some w1.maps.length }, { w1 with maps := w1.maps ++ [mp] }) := by
      unfold World.storeOffs; rw [hm, hmp]
    rw [hst] at h
    split at h
    · simp at h
    next p e4 =>
    split at h
    · simp at h
    next p2 e5 =>
    simp only [pure, Except.pure, Except.ok.injEq, Prod.mk.injEq] at h
    obtain ⟨rfl, rfl⟩ := h
    obtain ⟨_, _, c3⟩ := World.append_grown rt e4
    obtain ⟨_, _, d3⟩ := World.append_grown rt e5
    rw [d3, c3]
    simp [a3]

/-! ## C35: the storage given to `Reset` -/

/-- C35: after `Reset(b)`, however many setters and `AppendTo` calls follow, the message is built inside `b` as long as
it fits into the capacity of `b`: it starts where `b` starts and keeps the capacity of `b`, and no array is allocated. -/
theorem C35_storage {w w0 w' : World} {m m0 m' : HMsg} {b : HSlice} {cs : List HCall} (hb : w.WFs b)
    (hr : m.reset w b = .ok (m0, w0)) (hcs : ∀ c ∈ cs, ∀ x, c.storage x = x.buf) (h : Fits w0 m0 cs w' m') :
    m'.buf.arr = b.arr ∧ m'.buf.off = b.off ∧ m'.buf.cap = b.cap ∧ m'.buf.len ≤ b.cap ∧ w'.arrs.length = w.arrs.length := by
  obtain ⟨a1, a2, a3⟩ := reset_grown hr
  have key : ∀ {w0 w' : World} {m0 m' : HMsg}, Fits w0 m0 cs w' m' → m0.buf.len ≤ m0.buf.cap → m'.buf.arr = m0.buf.arr ∧
      m'.buf.off = m0.buf.off ∧ m'.buf.cap = m0.buf.cap ∧ m'.buf.len ≤ m0.buf.cap ∧ w'.arrs.length = w0.arrs.length := by
    clear h hr a2 a1 a3
    intro w0 w' m0 m' h
    induction h with
    | nil => intro hl; exact ⟨rfl, rfl, rfl, hl, rfl⟩
    | call hw hr hl hc _ ih =>
      intro _
      obtain ⟨b1, b2⟩ := C53_array hw hr
      obtain ⟨b3, b4, b5⟩ := b2 hc
      have b6 := b1.1 hc
      have e := hcs _ List.mem_cons_self
      rw [e] at b3 b4 b5 hc
      obtain ⟨i1, i2, i3, i4, i5⟩ := ih (fun c hc => hcs c (by simp [hc])) (by rw [b5]; exact hc)
      exact ⟨i1.trans b3, i2.trans b4, i3.trans b5, by rw [← b5]; exact i4, i5.trans b6⟩
  obtain ⟨k1, k2, k3, k4, k5⟩ := key h (by rw [a2]; exact hb.1)
  rw [a2] at k1 k2 k3 k4
  exact ⟨k1, k2, k3, k4, by rw [k5, a1]⟩

/-! ## Hypotheses met -/

/-- A 12-byte array and a struct that was never used. -/
def allocWorld : World := ⟨[List.replicate 12 0xee#8], []⟩

private def slots (xs : List (Nat × U16)) : List U16 := xs.foldl (fun a x => a.set x.1 x.2) (List.replicate 35 0#16)

/-- `Reset` with capacity 10, a bool, a string, the string again in another length, an embedded message that is the
first two bytes of the message itself: a history as in `C53_zero_allocation` and `C35_storage`. The result fills its
storage exactly. -/
example : ∃ w m, Fits allocWorld (HMsg.zero 35) [.reset ⟨0, 1, 0, 10⟩, .set Rt.exact 1 .bool true,
      .setBytes Rt.exact 14 (.lit [0x61#8, 0x62#8, 0x63#8]), .set Rt.exact 14 .string [0x61#8],
      .append Rt.exact 34 (.mem ⟨0, 1, 2, 10⟩)] w m ∧
    (w.msg m).encode.data = [0x08#8, 0x01#8, 0x72#8, 0x01#8, 0x61#8, 0x92#8, 0x02#8, 0x02#8, 0x08#8, 0x01#8] ∧
    w.arrs.length = 1 := by
  refine ⟨⟨[[0xee#8, 0x08#8, 0x01#8, 0x72#8, 0x01#8, 0x61#8, 0x92#8, 0x02#8, 0x02#8, 0x08#8, 0x01#8, 0xee#8]], []⟩,
    ⟨⟨0, 1, 10, 10⟩, slots [(1, 1#16), (14, 3#16), (34, 7#16)], none⟩, ?_, by decide +kernel, rfl⟩
  refine .call (w1 := allocWorld) (m1 := ⟨⟨0, 1, 0, 10⟩, slots [], none⟩) ⟨by decide, by decide⟩ ?_ (by decide) (by decide) ?_
  · simp only [HCall.run]; decide +kernel
  refine .call (w1 := ⟨[[0xee#8, 0x08#8, 0x01#8, 0xee#8, 0xee#8, 0xee#8, 0xee#8, 0xee#8, 0xee#8, 0xee#8, 0xee#8, 0xee#8]], []⟩)
    (m1 := ⟨⟨0, 1, 2, 10⟩, slots [(1, 1#16)], none⟩) ⟨by decide, by decide⟩ ?_ (by decide) (by decide) ?_
  · simp only [HCall.run]; decide +kernel
  refine .call (w1 := ⟨[[0xee#8, 0x08#8, 0x01#8, 0x72#8, 0x03#8, 0x61#8, 0x62#8, 0x63#8, 0xee#8, 0xee#8, 0xee#8, 0xee#8]], []⟩)
    (m1 := ⟨⟨0, 1, 7, 10⟩, slots [(1, 1#16), (14, 3#16)], none⟩) ⟨by decide, by decide⟩ ?_ (by decide) (by decide) ?_
  · simp only [HCall.run]; decide +kernel
  refine .call (w1 := ⟨[[0xee#8, 0x08#8, 0x01#8, 0x72#8, 0x01#8, 0x61#8, 0x62#8, 0x63#8, 0xee#8, 0xee#8, 0xee#8, 0xee#8]], []⟩)
    (m1 := ⟨⟨0, 1, 5, 10⟩, slots [(1, 1#16), (14, 3#16)], none⟩) ⟨by decide, by decide⟩ ?_ (by decide) (by decide) ?_
  · simp only [HCall.run]; decide +kernel
  refine .call ⟨by decide, by decide⟩ ?_ (by decide) (by decide) .nil
  simp only [HCall.run]; decide +kernel

/-- The next setter does not fit any more and allocates (`C53_array`, the other side). -/
example : ∃ w' m', HCall.run (.set Rt.exact 2 .int32 5#32)
      ⟨[[0xee#8, 0x08#8, 0x01#8, 0x72#8, 0x01#8, 0x61#8, 0x92#8, 0x02#8, 0x02#8, 0x08#8, 0x01#8, 0xee#8]], []⟩
      ⟨⟨0, 1, 10, 10⟩, slots [(1, 1#16), (14, 3#16), (34, 7#16)], none⟩ = .ok (m', w') ∧ w'.arrs.length = 3 ∧
      m'.buf.len = 12 :=
  ⟨⟨[[0xee#8, 0x08#8, 0x01#8, 0x72#8, 0x01#8, 0x61#8, 0x92#8, 0x02#8, 0x02#8, 0x08#8, 0x01#8, 0xee#8],
     [0x08#8, 0x01#8, 0x72#8, 0x01#8, 0x61#8, 0x92#8, 0x02#8, 0x02#8, 0x08#8, 0x01#8, 0x10#8],
     [0x08#8, 0x01#8, 0x72#8, 0x01#8, 0x61#8, 0x92#8, 0x02#8, 0x02#8, 0x08#8, 0x01#8, 0x10#8, 0x05#8]], []⟩,
   ⟨⟨2, 0, 12, 12⟩, slots [(1, 1#16), (14, 3#16), (34, 7#16), (2, 11#16)], none⟩,
   by simp only [HCall.run]; decide +kernel, rfl, rfl⟩

/-- `C53_sub_message`: reading the embedded message 17 of the parent of `Verif/Props/Alias.lean`. -/
example : parentWorld.WFs parentMsg.buf ∧ childMsg.buf.len ≤ 65535 ∧
    parentMsg.subMessage testSchema.rep parentWorld 17 (HMsg.zero 35) = .ok (childMsg, parentWorld, true, none) :=
  ⟨parentMsg_wf.1, by decide, childMsg_extract⟩

/-- `C53_next`: an iterator at its only element. -/
example : let w : World := ⟨[[0x92#8, 0x02#8, 0x02#8, 0x08#8, 0x01#8]], []⟩
    w.WFs ⟨0, 2, 3, 3⟩ ∧ hNext testSchema.rep w (some ⟨0, 2, 3, 3⟩) 34 (HMsg.zero 35) =
      .ok (none, ⟨⟨0, 3, 2, 2⟩, slots [(1, 1#16)], none⟩, w, true, none) := by
  intro w
  refine ⟨⟨by decide, by decide⟩, ?_⟩
  have h1 : hFindNextField w (some ⟨0, 2, 3, 3⟩) 34 = .ok (none, some ⟨0, 3, 2, 2⟩) := by
    unfold hFindNextField
    have : iterate (hFindStep w ⟨0, 2, 3, 3⟩ 34) 3 = .ok none := iterate_of_run (n := 1) (by decide +kernel)
    simp only [bind, Except.bind]
    have e : uvarint (w.slice ⟨0, 2, 3, 3⟩).data = (2#64, 1) := by decide +kernel
    rw [e]
    have e2 : addInt 1 (u64ToInt 2#64) = 3 := by decide +kernel
    simp only [e2]
    rw [this]
    rfl
  unfold hNext
  rw [h1]
  have h2 : (HMsg.zero 35).decode testSchema.rep w ⟨0, 3, 2, 2⟩ = .ok (⟨⟨0, 3, 2, 2⟩, slots [(1, 1#16)], none⟩, w, none) := by
    unfold HMsg.decode
    have h3 : Zeropb.decode (w.slice ⟨0, 3, 2, 2⟩) (w.offs (HMsg.zero 35)) testSchema.rep =
        .ok (⟨slots [(1, 1#16)], none⟩, none) := by
      unfold Zeropb.decode
      exact iterate_of_run (n := 2) (by decide +kernel)
    rw [h3]; rfl
  simp only [bind, Except.bind, h2, pure, Except.pure]

/-- `C53_sharp`: the hypotheses hold for a zero struct. -/
example : ((⟨[], []⟩ : World).offs (HMsg.zero 35)).get 1 = .ok (0#64, false) := by decide +kernel

end Zeropb
