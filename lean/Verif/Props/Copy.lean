import Verif.Props.Alias
set_option linter.unusedSimpArgs false
set_option linter.unusedVariables false
/-!
# Copies of structs (C48) and lifetime of returned strings and slices (C50)
-/

namespace Zeropb
open Wire

/-- C37: a readable message looks the same whatever lies behind its bytes. -/
theorem C37_same_fields {S : Schema} {m : Msg} (h : Readable S m) (spare : List Byte) :
    SameFields S m ⟨⟨m.buf.data, spare⟩, m.off⟩ := by
  obtain ⟨rs, h1, h2⟩ := h.holds
  have h1' : Holds S ⟨⟨m.buf.data, spare⟩, m.off⟩ rs := by
    obtain ⟨cs, ⟨a1, a2, a3, a4, a5, a6, a7⟩, b⟩ := h1
    exact ⟨cs, ⟨a1, a2, a3, a4, a5, a6, a7⟩, b⟩
  exact (h1.agrees h2).same (h1'.agrees h2)

/-! ## C48: what is guaranteed for copies -/

/-- The frame of a call that replaces the buffer of `c` by `b`, seen from another struct. -/
theorem copy_moves {w w' : World} {m c' : HMsg} {b : HSlice} (hm : w.WF m) (hno : m.m = none)
    (hwf : w'.WF c') (hbuf : c'.buf = b) (harr : w'.arrs = w.arrs) (hf : Frame w w' m { c' with buf := m.buf })
    (hdis : ∀ a p, m.buf.owns a p → ¬ b.owns a p) :
    w'.msg m = w.msg m ∧ (⟨w', [m, c']⟩ : Sys).Separate := by
  have hm' : w'.WF m := by
    refine ⟨?_, fun id e => by rw [hno] at e; simp at e⟩
    have := hm.1
    unfold World.WFs World.arr at this ⊢
    rw [harr]; exact this
  refine ⟨?_, ?_, ?_, ?_⟩
  · unfold World.msg
    rw [World.slice_arrs harr]
    unfold World.offs
    rw [hno]; rfl
  · intro x hx
    simp only [List.mem_cons, List.not_mem_nil, or_false] at hx
    rcases hx with rfl | rfl
    · exact hm'
    · exact hwf
  · intro i j mi mj hij hi hj a p h1 h2
    match i, j, hij with
    | 0, 1, _ =>
      simp only [List.getElem?_cons_zero, List.getElem?_cons_succ, Option.some.injEq] at hi hj
      subst hi; subst hj
      exact hdis a p h1 (hbuf ▸ h2)
    | 1, 0, _ =>
      simp only [List.getElem?_cons_zero, List.getElem?_cons_succ, Option.some.injEq] at hi hj
      subst hi; subst hj
      exact hdis a p h2 (hbuf ▸ h1)
    | 0, 0, h => exact absurd rfl h
    | 1, 1, h => exact absurd rfl h
    | n + 2, _, _ => simp at hi
    | _, n + 2, _ => simp at hj
  · intro i j mi mj hij hi hj id h1 h2
    match i, j, hij with
    | 0, 1, _ =>
      simp only [List.getElem?_cons_zero, List.getElem?_cons_succ, Option.some.injEq] at hi hj
      subst hi
      rw [hno] at h1; simp at h1
    | 1, 0, _ =>
      simp only [List.getElem?_cons_zero, List.getElem?_cons_succ, Option.some.injEq] at hi hj
      subst hj
      rw [hno] at h2; simp at h2
    | 0, 0, h => exact absurd rfl h
    | 1, 1, h => exact absurd rfl h
    | n + 2, _, _ => simp at hi
    | _, n + 2, _ => simp at hj

/-- C48, what is guaranteed: if the message has no overflow map, `c := m; c.Reset(b)` with other memory
leaves the original as it was, and from then on the two structs are independent for any history
(`C31_no_interference` applies to the state `[m, c']`). -/
theorem C48_reset_independent {w w' : World} {m c' : HMsg} {b : HSlice} (hm : w.WF m) (hno : m.m = none) (hb : w.WFs b)
    (hdis : ∀ a p, m.buf.owns a p → ¬ b.owns a p) (hr : m.reset w b = .ok (c', w')) :
    w'.msg m = w.msg m ∧ (⟨w', [m, c']⟩ : Sys).Separate := by
  have r := reset_refines hm hb
  cases hv : (w.msg m).reset (w.slice b) with
  | error e => rw [hv] at r; simp only at r; rw [r] at hr; simp at hr
  | ok v =>
    rw [hv] at r
    obtain ⟨m1, w1, e1, e2, e3, e4, e5, e6⟩ := r
    rw [e1] at hr
    simp only [Except.ok.injEq, Prod.mk.injEq] at hr
    obtain ⟨rfl, rfl⟩ := hr
    exact copy_moves hm hno e3 e4 e5 e6 hdis

/-- C48, what is guaranteed: the same for `c := m; c.Decode(b)`. -/
theorem C48_decode_independent {w w' : World} {m c' : HMsg} {b : HSlice} {rep : Nat → Bool} {err : Option DecErr}
    (hm : w.WF m) (hno : m.m = none) (hb : w.WFs b)
    (hdis : ∀ a p, m.buf.owns a p → ¬ b.owns a p) (hr : m.decode rep w b = .ok (c', w', err)) :
    w'.msg m = w.msg m ∧ (⟨w', [m, c']⟩ : Sys).Separate := by
  have r := decode_refines rep hm hb
  cases hv : (w.msg m).decode rep (w.slice b) with
  | error e => rw [hv] at r; simp only at r; rw [r] at hr; simp at hr
  | ok p =>
    obtain ⟨v, err1⟩ := p
    rw [hv] at r
    obtain ⟨m1, w1, e1, e2, e3, e4, e5, e6⟩ := r
    rw [e1] at hr
    simp only [Except.ok.injEq, Prod.mk.injEq] at hr
    obtain ⟨rfl, rfl, rfl⟩ := hr
    exact copy_moves hm hno e3 e4 e5 e6 hdis

/-- The original after a call on a copy that only appends. -/
theorem copy_appends {S : Schema} {w w' : World} {m c' : HMsg} (hm : w.WF m) (hno : m.m = none)
    (h : Readable S (w.msg m)) (ha : Appends w w' m.buf c'.buf) :
    (w'.msg m).encode.data = (w.msg m).encode.data ∧ SameFields S (w.msg m) (w'.msg m) := by
  have hd : (w'.slice m.buf).data = (w.slice m.buf).data := by
    refine ha.behind.data_eq hm.1 ?_
    intro p h1 h2 ho
    have := (HSlice.behind_owns ho).2
    omega
  refine ⟨hd, ?_⟩
  have he : w'.msg m = ⟨⟨(w.msg m).buf.data, (w'.slice m.buf).spare⟩, (w.msg m).off⟩ := by
    have ho : w'.offs m = w.offs m := by unfold World.offs; rw [hno]; rfl
    show (⟨w'.slice m.buf, w'.offs m⟩ : Msg) = ⟨⟨(w.slice m.buf).data, (w'.slice m.buf).spare⟩, w.offs m⟩
    rw [ho, ← hd]
  rw [he]
  exact C37_same_fields h _

/-- C48, what is guaranteed: if the message has no overflow map, setting a field that it does not have on
a copy does not show in the original: same bytes, same fields. (It writes into the spare capacity behind
them, so the original must not be appended to afterwards.) -/
theorem C48_set_absent {S : Schema} {w w' : World} {m c' : HMsg} (hm : w.WF m) (hno : m.m = none)
    (h : Readable S (w.msg m)) {rt : Rt} {f : Nat} {k : Kind} {x : k.Ty} {o : U64}
    (hab : (w.offs m).get f = .ok (o, false)) (hs : m.setField rt w k f x = .ok (c', w')) :
    (w'.msg m).encode.data = (w.msg m).encode.data ∧ SameFields S (w.msg m) (w'.msg m) :=
  copy_appends hm hno h (setField_absent rt hm.1 hab hs)

/-- C48, what is guaranteed: the same for `AppendTo` on a copy. -/
theorem C48_append {S : Schema} {w w' : World} {m c' : HMsg} (hm : w.WF m) (hno : m.m = none)
    (h : Readable S (w.msg m)) {rt : Rt} {f : Nat} {x : Src} (hs : m.appendBytes rt w f x = .ok (c', w')) :
    (w'.msg m).encode.data = (w.msg m).encode.data ∧ SameFields S (w.msg m) (w'.msg m) :=
  copy_appends hm hno h (appendBytes_appends rt hm.1 hs)

/-- C48, what is guaranteed: if in addition the message has no spare capacity, the call gives the copy
memory of its own and the two are independent from then on. -/
theorem C48_exact_capacity {w w' : World} {m c' : HMsg} (hm : w.WF m) (hno : m.m = none)
    (hcap : m.buf.cap ≤ m.buf.len) {rt : Rt} {f : Nat} {k : Kind} {x : k.Ty} {o : U64}
    (hab : (w.offs m).get f = .ok (o, false)) (hs : m.setField rt w k f x = .ok (c', w')) :
    w'.msg m = w.msg m ∧ (⟨w', [m, c']⟩ : Sys).Separate :=
  C33_exact_capacity hm hm (fun id e => by rw [hno] at e; simp at e) hcap ⟨o, hab⟩ hs

/-- With spare capacity they are not: appending to both, the second overwrites what the first wrote. -/
theorem C48_false_append : ∃ (w w1 w2 : World) (m c m' : HMsg), w.WF m ∧ Reach testSchema (w.msg m) ∧
    m.setField Rt.exact w .bool 1 true = .ok (c, w1) ∧ (w1.msg c).get .bool 1 = .ok true ∧
    m.setField Rt.exact w1 .int32 2 0#32 = .ok (m', w2) ∧ (w2.msg c).get .bool 1 = .ok false :=
  ⟨⟨[[0#8, 0#8]], []⟩, ⟨[[0x08#8, 0x01#8]], []⟩, ⟨[[0x10#8, 0x00#8]], []⟩, ⟨⟨0, 0, 0, 2⟩, List.replicate 35 0#16, none⟩,
    ⟨⟨0, 0, 2, 2⟩, (List.replicate 35 0#16).set 1 1#16, none⟩, ⟨⟨0, 0, 2, 2⟩, (List.replicate 35 0#16).set 2 1#16, none⟩,
    ⟨⟨by decide, by decide⟩, by simp⟩, .reset (m0 := Msg.zero 35) (buf := ⟨[], [0#8, 0#8]⟩) rfl (by decide +kernel), by decide +kernel, by decide +kernel, by decide +kernel,
    by decide +kernel⟩

/-- Hypotheses of the C48 guarantees met: the two-field message, reset to a new array, and appended to. -/
example : let w : World := ⟨aliasWorld.arrs ++ [[0#8, 0#8]], []⟩
    w.WF aliasMsg ∧ aliasMsg.m = none ∧ w.WFs ⟨1, 0, 0, 2⟩ ∧ (∀ a p, aliasMsg.buf.owns a p → ¬ (⟨1, 0, 0, 2⟩ : HSlice).owns a p) ∧
    (∃ c' w', aliasMsg.reset w ⟨1, 0, 0, 2⟩ = .ok (c', w')) ∧
    Readable testSchema (w.msg aliasMsg) ∧ (w.offs aliasMsg).get 3 = .ok (0#64, false) ∧ aliasMsg.buf.cap ≤ aliasMsg.buf.len ∧
    (aliasMsg.setField Rt.exact w .int64 3 5#64).toOption ≠ none := by
  refine ⟨⟨⟨by decide, by decide⟩, by simp [aliasMsg]⟩, rfl, ⟨by decide, by decide⟩, ?_, ⟨_, _, rfl⟩, .reach aliasMsg_reach,
    by decide +kernel, by decide, by decide +kernel⟩
  rintro a p ⟨h1, _⟩ ⟨h2, _⟩
  simp [aliasMsg] at h1 h2
  omega

/-! ## C50: strings and slices returned by getters -/

/-- C50, refutation of the unrestricted claim: a Go string is immutable, yet the string (or slice) a getter returned changes when the
field is set to a value of the same length. -/
theorem C50_false : aliasWorld.WF aliasMsg ∧ Reach testSchema (aliasWorld.msg aliasMsg) ∧
    ∃ v : HSlice, aliasMsg.getBytes aliasWorld 15 = .ok (some v) ∧
      (aliasWorld.slice v).data = [0x61#8, 0x62#8, 0x63#8, 0x64#8] ∧
    ∃ m' w', aliasMsg.setField Rt.exact aliasWorld .bytes 15 [0x77#8, 0x78#8, 0x79#8, 0x7a#8] = .ok (m', w') ∧
      (w'.slice v).data = [0x77#8, 0x78#8, 0x79#8, 0x7a#8] :=
  ⟨aliasMsg_wf, aliasMsg_reach, ⟨0, 2, 4, 6⟩, by decide +kernel, by decide +kernel, aliasMsg,
    ⟨[[0x7a#8, 0x04#8, 0x77#8, 0x78#8, 0x79#8, 0x7a#8, 0x08#8, 0x01#8]], []⟩, by decide +kernel, by decide +kernel⟩

/-- C50, refutation of the unrestricted claim: it also changes when another field, in front of it, gets a value of another length. -/
theorem C50_false_other : let w : World := ⟨[[0x08#8, 0x01#8, 0x7a#8, 0x02#8, 0x61#8, 0x62#8]], []⟩
    let m : HMsg := ⟨⟨0, 0, 6, 6⟩, ((List.replicate 35 0#16).set 1 1#16).set 15 3#16, none⟩
    Reach testSchema (w.msg m) ∧ m.getBytes w 15 = .ok (some ⟨0, 4, 2, 2⟩) ∧ (w.slice ⟨0, 4, 2, 2⟩).data = [0x61#8, 0x62#8] ∧
    ∃ m' w', m.setField Rt.exact w .uint32 1 300#32 = .ok (m', w') ∧ (w'.slice ⟨0, 4, 2, 2⟩).data = [0x08#8, 0x62#8] := by
  refine ⟨?_, by decide +kernel, by decide +kernel, ⟨⟨1, 0, 7, 7⟩, ((List.replicate 35 0#16).set 1 5#16).set 15 1#16, none⟩,
    ⟨[[0x7a#8, 0x02#8, 0x61#8, 0x62#8, 0x08#8, 0x62#8], [0x7a#8, 0x02#8, 0x61#8, 0x62#8, 0x08#8, 0xac#8, 0x02#8]], []⟩, by decide +kernel, by decide +kernel⟩
  have h : (do let m ← (Msg.zero 35).set Rt.exact .bool 1 true
               m.set Rt.exact .bytes 15 [0x61#8, 0x62#8]) = .ok
      ((⟨[[0x08#8, 0x01#8, 0x7a#8, 0x02#8, 0x61#8, 0x62#8]], []⟩ : World).msg
        ⟨⟨0, 0, 6, 6⟩, ((List.replicate 35 0#16).set 1 1#16).set 15 3#16, none⟩) := by decide +kernel
  obtain ⟨m1, h1, h⟩ := Reach.of_bind (S := testSchema) h
  exact .set (.set .zero rfl rfl (by decide) h1) rfl rfl (by decide) h

/-- A view is unchanged by a call that only appends. -/
theorem view_appends {w w' : World} {m m' : HMsg} {v : HSlice} (hv : w.WFs v) (hi : m.buf.Inside v)
    (ha : Appends w w' m.buf m'.buf) : (w'.slice v).data = (w.slice v).data := by
  refine ha.behind.data_eq hv ?_
  intro p h1 h2 ho
  have := (HSlice.behind_owns ho).2
  have := hi.2.2
  omega

/-- C50, what is guaranteed: setting a field the message does not have yet leaves every string and slice
inside the message as it was (`C34_view`: those returned by the getters are inside). -/
theorem C50_set_absent {w w' : World} {m m' : HMsg} {v : HSlice} (hm : w.WF m) (hv : w.WFs v) (hi : m.buf.Inside v) {rt : Rt} {f : Nat} {k : Kind}
    {x : k.Ty} {o : U64} (hab : (w.offs m).get f = .ok (o, false)) (hs : m.setField rt w k f x = .ok (m', w')) :
    (w'.slice v).data = (w.slice v).data :=
  view_appends hv hi (setField_absent rt hm.1 hab hs)

/-- C50, what is guaranteed: the same for `SetMessage`, `SetBytes`, `SetString` with an argument in memory,
even one inside the same message. -/
theorem C50_setBytes_absent {w w' : World} {m m' : HMsg} {v : HSlice} (hm : w.WF m) (hv : w.WFs v) (hi : m.buf.Inside v) {rt : Rt} {f : Nat} {x : Src}
    {o : U64} (hab : (w.offs m).get f = .ok (o, false)) (hs : m.setBytes rt w f x = .ok (m', w')) :
    (w'.slice v).data = (w.slice v).data :=
  view_appends hv hi (setBytes_absent rt hm.1 hab hs)

/-- C50, what is guaranteed: the same for `AppendTo`. -/
theorem C50_append {w w' : World} {m m' : HMsg} {v : HSlice} (hm : w.WF m) (hv : w.WFs v) (hi : m.buf.Inside v) {rt : Rt} {f : Nat} {x : Src}
    (hs : m.appendBytes rt w f x = .ok (m', w')) : (w'.slice v).data = (w.slice v).data :=
  view_appends hv hi (appendBytes_appends rt hm.1 hs)

/-- C50, what is guaranteed: no history of calls on messages in other memory changes a string or slice,
nor one inside message `i` as long as no call is made on message `i`. -/
theorem C50_others (S : Nat → Schema) {ops : List SysOp} (hd : ∀ op ∈ ops, op.Distinct) {s s' : Sys} (h : s.Separate)
    (hr : s.runAll S ops = .ok s') {i : Nat} {m : HMsg} (hm : s.ms[i]? = some m) (hno : ∀ op ∈ ops, op.target ≠ i)
    {v : HSlice} (hv : s.w.WFs v) (hi : m.buf.Inside v) : (s'.w.slice v).data = (s.w.slice v).data := by
  obtain ⟨fc, _, fs⟩ := C31_footprint S hd h hr
  have e : ∀ u : World, (u.slice v).data = ((u.full ⟨v.arr, v.off, v.len, v.len⟩)) := by
    intro u
    simp only [World.slice, World.full, List.take_take]
    have := hv.1
    congr 1; omega
  rw [e, e]
  apply World.full_congr
  rintro a p ⟨h1, h2, h3⟩
  simp only at h1 h2 h3
  subst h1
  have hmw := h.wf m (List.mem_of_getElem? hm)
  have hown : m.buf.owns v.arr p := by
    obtain ⟨i1, i2, i3⟩ := hi
    have := hmw.1.1
    exact ⟨i1.symm, by omega, by omega⟩
  refine fc _ p (hmw.1.cell_lt hown) ?_
  intro op ho m2 h2m
  exact h.bufs i op.target m m2 (fun e => hno op ho e.symm) hm h2m _ _ hown

/-- A record at some position of a message that is not the one being overwritten stays in place. -/
theorem in_place_other {pre1 post1 pre2 post2 : List Chunk} {c1 c2 new : Chunk} (h : pre1 ++ c1 :: post1 = pre2 ++ c2 :: post2)
    (hne : c1.num ≠ c2.num) (hlen : new.bytes.length = c2.bytes.length) :
    ∃ A B, flat (pre2 ++ new :: post2) = A ++ c1.bytes ++ B ∧ A.length = (flat pre1).length := by
  rcases List.append_eq_append_iff.1 h with ⟨mid, e1, e2⟩ | ⟨mid, e1, e2⟩
  · cases mid with
    | nil =>
      simp only [List.nil_append, List.cons.injEq] at e2
      exact absurd (by rw [e2.1]) hne
    | cons d mid =>
      simp only [List.cons_append, List.cons.injEq] at e2
      obtain ⟨rfl, rfl⟩ := e2
      subst e1
      exact ⟨flat pre1, flat (mid ++ new :: post2), by simp [flat_append, flat_cons], rfl⟩
  · cases mid with
    | nil =>
      simp only [List.nil_append, List.cons.injEq] at e2
      exact absurd (by rw [e2.1]) hne
    | cons d mid =>
      simp only [List.cons_append, List.cons.injEq] at e2
      obtain ⟨rfl, rfl⟩ := e2
      subst e1
      refine ⟨flat (pre2 ++ new :: mid), flat post1, by simp [flat_append, flat_cons], ?_⟩
      simp only [flat_append, flat_cons, List.length_append, hlen]

/-- The bytes of a view, from those of the slice it is inside of. -/
theorem slice_inside {s v : HSlice} (hs : s.len ≤ s.cap) (hv : v.len ≤ v.cap) (hi : s.Inside v) (w : World) :
    (w.slice v).data = (((w.slice s).data).drop (v.off - s.off)).take v.len := by
  obtain ⟨h1, h2, h3⟩ := hi
  unfold World.slice World.full
  rw [h1]
  apply List.ext_getElem?
  intro p
  simp only [List.getElem?_take, List.getElem?_drop]
  by_cases hp : p < v.len
  · rw [if_pos hp, if_pos (by omega), if_pos hp, if_pos (by omega), if_pos (by omega)]
    congr 1; omega
  · rw [if_neg hp, if_neg hp]

theorem HMsg.setField_eq (k : Kind) (f : Nat) (x : k.Ty) (hx : k.size x < 2 ^ 64) :
    ∃ valLen val, (∀ rt w (m : HMsg), m.setField rt w k f x = m.setSingle rt w f k.wt valLen (.lit val)) ∧
      IsMinPayload (encodeVal k x) (valLen ++ val) := by
  cases k with
  | bool => exact ⟨[], _, fun _ _ _ => rfl, by cases x <;> exact ⟨⟨[], _, rfl, by simp, by decide, by decide, by decide, by decide⟩, Or.inl rfl⟩⟩
  | int32 =>
    obtain ⟨bs, h1, h2⟩ := putUvarint64 (BitVec.signExtend 64 x)
    exact ⟨[], bs, fun _ _ _ => by simp only [HMsg.setField, h1]; rfl, h2⟩
  | int64 | uint64 =>
    obtain ⟨bs, h1, h2⟩ := putUvarint64 x
    exact ⟨[], bs, fun _ _ _ => by simp only [HMsg.setField, h1]; rfl, h2⟩
  | uint32 =>
    change U32 at x
    have hx := x.isLt
    obtain ⟨bs, h1, h2, _⟩ := putUvarint32 (x.setWidth 64) (by simp; omega)
    refine ⟨[], bs, fun _ _ _ => by simp only [HMsg.setField, h1]; rfl, ?_⟩
    simp only [List.nil_append, encodeVal, IsMinPayload]
    have : (BitVec.setWidth 64 x).toNat = (BitVec.ofNat 64 x.toNat).toNat := by simp
    rw [← this]; exact h2
  | sint32 =>
    change U32 at x
    have hz := zigzag_lt 32 (by decide) x
    obtain ⟨bs, h1, h2, _⟩ := putUvarint32 (zigzagBits (x.signExtend 64)) (by
      rw [zigzagBits_sign, BitVec.toNat_ofNat, Nat.mod_eq_of_lt (by omega)]; exact hz)
    refine ⟨[], bs, fun _ _ _ => by simp only [HMsg.setField, putVarint_eq, h1]; rfl, ?_⟩
    rw [zigzagBits_sign] at h2; exact h2
  | sint64 =>
    obtain ⟨bs, h1, h2⟩ := putUvarint64 (zigzagBits x)
    refine ⟨[], bs, fun _ _ _ => by simp only [HMsg.setField, putVarint_eq, h1]; rfl, ?_⟩
    rw [zigzagBits_eq] at h2; exact h2
  | fixed32 | sfixed32 | float => exact ⟨[], _, fun _ _ _ => rfl, lePutUint32_eq x⟩
  | fixed64 | sfixed64 | double => exact ⟨[], _, fun _ _ _ => rfl, lePutUint64_eq x⟩
  | string | bytes =>
    obtain ⟨bs, h1, h2⟩ := putUvarint64 (BitVec.ofNat 64 (List.length x))
    refine ⟨bs, x, fun _ _ _ => by simp only [HMsg.setField, h1]; rfl, bs, ?_, rfl⟩
    have hx' : List.length x < 2 ^ 64 := hx
    rw [BitVec.toNat_ofNat, Nat.mod_eq_of_lt hx'] at h2
    exact h2

/-- A setter whose value has the old length returns the same struct. -/
theorem setSingle_in_place (rt : Rt) {w w' : World} {m m' : HMsg} {f typ : Nat} {valLen : List Byte} {x : Src} {o : U64}
    (hg : (w.offs m).get f = .ok (o, true)) (ho : oldLenOf (w.slice m.buf) o typ = .ok ((valLen.length + (w.src x).length : Nat) : Int))
    (h : m.setSingle rt w f typ valLen x = .ok (m', w')) : m' = m := by
  unfold HMsg.setSingle at h
  cases ht : putUvarint maxVarintLen64 (tagOf f typ) with
  | error e => rw [ht] at h; simp [bind, Except.bind] at h
  | ok tag =>
    rw [ht] at h
    simp only [hg, ho, bind, Except.bind, if_true, pure, Except.pure] at h
    split at h
    · simp at h
    · split at h
      · simp at h
      · simp only [Except.ok.injEq, Prod.mk.injEq] at h
        exact h.1.symm

/-- C50, what is guaranteed: a setter of another field that does not change the length of the message
leaves the string or slice that the getter of field `f` returned as it was. -/
theorem C50_same_length {S : Schema} {w w' : World} {m m' : HMsg} (hm : w.WF m) (h : Reach S (w.msg m)) {f g : Nat}
    (hkf : S.kind f = some .bytes) (hrf : S.rep f = false) {v : HSlice} (hg : m.getBytes w f = .ok (some v))
    {rt : Rt} {k : Kind} {x : k.Ty} (hk : S.kind g = some k) (hr : S.rep g = false) (hx : k.size x < maxLen) (hne : g ≠ f)
    (hs : m.setField rt w k g x = .ok (m', w')) (hlen : m'.buf.len = m.buf.len) :
    (w'.slice v).data = (w.slice v).data := by
  obtain ⟨rs, ⟨cs, h1, h2, rfl⟩, hw⟩ := h.holds
  have hgl := S.kind_lt g (by rw [hk]; simp)
  have hfl := S.kind_lt f (by rw [hkf]; simp)
  -- where the view is
  have hview := getBytes_view hm.1 f
  rw [hg] at hview
  have hholds : Holds S (w.msg m) (Zeropb.records cs) := ⟨cs, h1, rfl⟩
  have haf : ∃ c ∈ cs, c.num = f := by
    refine Classical.byContradiction fun haf => ?_
    have hl : lastVal f (Zeropb.records cs) = none := by
      rw [lastVal_records, lastChunk_none (fun c hc he => haf ⟨c, hc, he⟩)]; rfl
    have := hholds.getBytes_none hfl hl
    have hview' : getBytes (w.msg m).buf (w.msg m).off f = .ok (some (w.slice v)) := hview
    rw [this] at hview'; simp at hview'
  obtain ⟨pre1, c1, post1, hcs1, hc1, hp1⟩ := exists_last haf
  have hwt1 : c1.val.wireType = Kind.bytes.wt := hw.last hkf (by rw [lastVal_records, hcs1, lastChunk_eq hc1 hp1]; rfl)
  obtain ⟨b, hb⟩ : ∃ b, c1.val = .bytes b := by
    cases hv : c1.val with
    | bytes b => exact ⟨b, rfl⟩
    | _ => rw [hv] at hwt1; simp [Val.wireType, Kind.wt, wireBytes] at hwt1
  have hcw := (h1.wf c1 (by rw [hcs1]; simp)).pay
  rw [hb] at hcw
  have hloc := h1.located_last hcs1 hrf hc1 hp1
  have hgb := getBytes_located hloc hcw
  obtain ⟨lb, _, hpay⟩ := hcw
  have hd1 : (w.slice m.buf).data = (flat pre1 ++ c1.tag ++ lb) ++ b ++ flat post1 := by
    show (w.msg m).buf.data = _
    rw [hloc.data, hpay]; simp
  have hvs : w.slice v = ⟨b, flat post1 ++ (w.slice m.buf).spare⟩ := by
    have hview' : getBytes (w.msg m).buf (w.msg m).off f = .ok (some (w.slice v)) := hview
    rw [hgb] at hview'
    simp only [Except.ok.injEq, Option.some.injEq] at hview'
    exact hview'.symm
  obtain ⟨i, j, hij⟩ := getBytes_owns hg
  have hvw := HSlice.range_wf hm.1 hij
  obtain ⟨p1, p2, p3⟩ := view_position hm.1 hvw (HSlice.range_tail hij) hd1 hvs
  -- what the setter does
  obtain ⟨new, n1, n2, n3, n4, n5, n6⟩ := set_chunks rt h1 hgl hr k x hx (fun c hc =>
    ⟨hw.last hk (by rw [lastVal_records, hc]; rfl), h2 c (List.mem_filter.1 (List.mem_of_getLast? hc)).1⟩)
  have r := setField_refines rt hm k g x
  have hset : ∃ u, (w.msg m).set rt k g x = .ok u ∧ w'.msg m' = u ∧ w'.WF m' := by
    cases hv : Msg.setField rt (w.slice m.buf) (w.offs m) k g x with
    | error e =>
      rw [hv] at r
      have : m.setField rt w k g x = .error e := r
      rw [this] at hs; simp at hs
    | ok p =>
      obtain ⟨b', o'⟩ := p
      rw [hv] at r
      obtain ⟨m1, w1, e1, e2, e3, e4⟩ := r
      rw [e1] at hs
      simp only [Except.ok.injEq, Prod.mk.injEq] at hs
      obtain ⟨rfl, rfl⟩ := hs
      refine ⟨⟨b', o'⟩, ?_, e2, e3⟩
      unfold Msg.set
      rw [show Msg.setField rt (w.msg m).buf (w.msg m).off k g x = .ok (b', o') from hv]; rfl
  obtain ⟨u, hu1, hu2, hu3⟩ := hset
  have hlt : (flat (setChunks new cs)).length < maxLen := by
    rcases Nat.lt_or_ge (flat (setChunks new cs)).length maxLen with hlt | hge
    · exact hlt
    · rw [n6 hge] at hu1; simp at hu1
  obtain ⟨m2, a1, a2, a3, _, a5⟩ := n5 hlt
  rw [a1] at hu1
  simp only [Except.ok.injEq] at hu1
  subst hu1
  have hdata : (w'.slice m'.buf).data = flat (setChunks new cs) := by
    rw [← a2, ← hu2]; rfl
  have hL : (flat (setChunks new cs)).length = (flat cs).length := by
    rw [← hdata, World.slice_len hu3.1, hlen, ← World.slice_len hm.1, ← h1.data]; rfl
  have hag : ∃ c ∈ cs, c.num = g := by
    refine Classical.byContradiction fun hag => ?_
    have : setChunks new cs = cs ++ [new] := by
      unfold setChunks
      rw [splitLast_none (fun c hc he => hag ⟨c, hc, by rw [he, n1]⟩)]
    rw [this] at hL
    have hp : 0 < new.tag.length := n3.1.length_pos
    simp only [flat_append, flat_cons, flat_nil, List.length_append, Chunk.bytes_length, List.length_nil] at hL
    omega
  obtain ⟨pre2, c2, post2, hcs2, hc2, hp2⟩ := exists_last hag
  have hlast2 : lastChunk g cs = some c2 := by rw [hcs2]; exact lastChunk_eq hc2 hp2
  have hwt2 : c2.val.wireType = k.wt := hw.last hk (by rw [lastVal_records, hlast2]; rfl)
  have hmin2 := h2 c2 (by rw [hcs2]; simp)
  have htag : c2.tag = new.tag := by
    have a := hmin2
    have b := n3
    unfold Chunk.MinTag Chunk.tagNum at a b
    rw [n1, n2, wireType_encodeVal] at b
    rw [hc2, hwt2] at a
    exact a.unique b
  have hpl : c2.pay.length = new.pay.length := by
    refine Classical.byContradiction fun hpl => ?_
    have : setChunks new cs = pre2 ++ post2 ++ [new] := by
      unfold setChunks
      rw [hcs2, n1, splitLast_some hc2 hp2]
      simp only [if_neg hpl]
    rw [this, hcs2] at hL
    simp only [flat_append, flat_cons, flat_nil, List.length_append, Chunk.bytes_length, List.length_nil, htag] at hL
    omega
  have hsc : setChunks new cs = pre2 ++ new :: post2 := by
    unfold setChunks
    rw [hcs2, n1, splitLast_some hc2 hp2]
    simp only [if_pos hpl]
  -- the struct is the same
  obtain ⟨valLen, val, q1, q2⟩ := HMsg.setField_eq k g x (by unfold maxLen at hx; omega)
  have hnp : valLen ++ val = new.pay := q2.unique n4
  have hloc2 := h1.located_last hcs2 hr hc2 hp2
  have hold := oldLenOf_located hloc2 (h1.wf c2 (by rw [hcs2]; simp)).pay
  rw [q1] at hs
  have hmm : m' = m := by
    refine setSingle_in_place rt (x := .lit val) hloc2.get ?_ hs
    rw [← hwt2]
    show oldLenOf (w.msg m).buf _ _ = _
    rw [hold, hpl, ← hnp, List.length_append]; rfl
  subst hmm
  -- the view
  obtain ⟨A, B, d1, d2⟩ := in_place_other (hcs1.symm.trans hcs2) (by rw [hc1, hc2]; exact Ne.symm hne)
    (by simp only [Chunk.bytes_length, htag, hpl] : new.bytes.length = c2.bytes.length)
  have hd' : (w'.slice m'.buf).data = (A ++ c1.tag ++ lb) ++ b ++ B := by
    rw [hdata, hsc, d1, Chunk.bytes, hpay]; simp
  have hfull : (w'.slice v).data = (((w'.slice m'.buf).data).drop (v.off - m'.buf.off)).take v.len :=
    slice_inside hm.1.1 hvw.1 p1 w'
  rw [hfull, hd', hvs, p2, p3]
  have : m'.buf.off + (flat pre1 ++ c1.tag ++ lb).length - m'.buf.off = (A ++ c1.tag ++ lb).length := by
    simp only [List.length_append, d2]; omega
  rw [this, List.append_assoc (A ++ c1.tag ++ lb) b B, List.drop_left, List.take_left]

/-- Hypotheses of the C50 guarantees met: the bytes getter of the two-field message, then a setter of
the other field with the same length, a setter of an absent field, and calls on another message. -/
example : aliasWorld.WF aliasMsg ∧ Reach testSchema (aliasWorld.msg aliasMsg) ∧
    aliasMsg.getBytes aliasWorld 15 = .ok (some ⟨0, 2, 4, 6⟩) ∧ aliasWorld.WFs ⟨0, 2, 4, 6⟩ ∧ aliasMsg.buf.Inside ⟨0, 2, 4, 6⟩ ∧
    (∃ w', aliasMsg.setField Rt.exact aliasWorld .bool 1 false = .ok (aliasMsg, w')) ∧
    (aliasWorld.offs aliasMsg).get 3 = .ok (0#64, false) ∧
    (aliasMsg.setField Rt.exact aliasWorld .int64 3 5#64).toOption ≠ none :=
  ⟨aliasMsg_wf, aliasMsg_reach, by decide +kernel, ⟨by decide, by decide⟩, ⟨by decide, by decide, by decide⟩,
    ⟨⟨[[0x7a#8, 0x04#8, 0x61#8, 0x62#8, 0x63#8, 0x64#8, 0x08#8, 0x00#8]], []⟩, by decide +kernel⟩, by decide +kernel, by decide +kernel⟩

example : (⟨aliasWorld, [aliasMsg, HMsg.zero 35]⟩ : Sys).Separate ∧
    (SysOp.set 1 Rt.exact 3 .int64 5#64).target ≠ 0 ∧ (SysOp.set 1 Rt.exact 3 .int64 5#64).Distinct ∧
    ((⟨aliasWorld, [aliasMsg, HMsg.zero 35]⟩ : Sys).runAll (fun _ => testSchema) [.set 1 Rt.exact 3 .int64 5#64]).toOption.isSome = true := by
  refine ⟨⟨?_, ?_, ?_⟩, by decide, trivial, by decide +kernel⟩
  · intro x hx
    simp only [List.mem_cons, List.not_mem_nil, or_false] at hx
    rcases hx with rfl | rfl
    · exact aliasMsg_wf
    · exact ⟨⟨by decide, by decide⟩, by simp [HMsg.zero]⟩
  · intro i j mi mj hij hi hj a p h1 h2
    have hz : ∀ a p, ¬ (HMsg.zero 35).buf.owns a p := by
      rintro a p ⟨_, h2, h3⟩
      simp [HMsg.zero, HSlice.nil] at h2 h3
    match i, j, hij with
    | 0, 1, _ =>
      simp only [List.getElem?_cons_zero, List.getElem?_cons_succ, Option.some.injEq] at hi hj
      subst hj; exact hz _ _ h2
    | 1, 0, _ =>
      simp only [List.getElem?_cons_zero, List.getElem?_cons_succ, Option.some.injEq] at hi hj
      subst hi; exact hz _ _ h1
    | 0, 0, h => exact absurd rfl h
    | 1, 1, h => exact absurd rfl h
    | n + 2, _, _ => simp at hi
    | _, n + 2, _ => simp at hj
  · intro i j mi mj hij hi hj id h1
    match i with
    | 0 =>
      simp only [List.getElem?_cons_zero, Option.some.injEq] at hi
      subst hi; simp [aliasMsg] at h1
    | 1 =>
      simp only [List.getElem?_cons_zero, List.getElem?_cons_succ, Option.some.injEq] at hi
      subst hi; simp [HMsg.zero] at h1
    | n + 2 => simp at hi

end Zeropb
