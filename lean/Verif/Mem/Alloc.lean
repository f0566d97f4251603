import Verif.Mem.Grow
import Verif.Props.Index
set_option linter.unusedSimpArgs false
set_option linter.unusedVariables false
/-!
# Allocation: which heap operations make new arrays or maps
-/

namespace Zeropb

/-- Either nothing was allocated and the slice is still at the same place with the same capacity, or an array was
allocated and the new length exceeds the old capacity. -/
def Grown (w w' : World) (s s' : HSlice) : Prop :=
  (w'.arrs.length = w.arrs.length ∧ s'.arr = s.arr ∧ s'.off = s.off ∧ s'.cap = s.cap ∧ (s.len ≤ s.cap → s'.len ≤ s.cap)) ∨
  (w.arrs.length < w'.arrs.length ∧ s.cap < s'.len)

theorem Grown.trans {w1 w2 w3 : World} {s1 s2 s3 : HSlice} (h : Grown w1 w2 s1 s2) (h' : Grown w2 w3 s2 s3) (hl : s2.len ≤ s3.len) :
    Grown w1 w3 s1 s3 := by
  rcases h with ⟨a1, a2, a3, a4, a5⟩ | ⟨a1, a2⟩
  · rcases h' with ⟨b1, b2, b3, b4, b5⟩ | ⟨b1, b2⟩
    · left; exact ⟨b1.trans a1, b2.trans a2, b3.trans a3, b4.trans a4, fun h => by rw [← a4]; exact b5 (by rw [a4]; exact a5 h)⟩
    · right; exact ⟨by omega, by omega⟩
  · right
    rcases h' with ⟨b1, b2, b3, b4, b5⟩ | ⟨b1, b2⟩
    · exact ⟨by omega, by omega⟩
    · exact ⟨by omega, by omega⟩

theorem Grown.of_arrs {w w' : World} (h : w'.arrs = w.arrs) (s : HSlice) : Grown w w' s s := Or.inl ⟨by rw [h], rfl, rfl, rfl, id⟩

theorem World.append_grown (rt : Rt) {w w' : World} {s s' : HSlice} {xs : List Byte} (h : w.append rt s xs = .ok (s', w')) :
    Grown w w' s s' ∧ s'.len = s.len + xs.length ∧ w'.maps = w.maps := by
  unfold World.append at h
  split at h
  · split at h
    · simp only [Except.ok.injEq, Prod.mk.injEq] at h
      obtain ⟨rfl, rfl⟩ := h
      exact ⟨Or.inl ⟨by simp [World.write], rfl, rfl, rfl, fun _ => by assumption⟩, rfl, rfl⟩
    · simp only [Except.ok.injEq, Prod.mk.injEq] at h
      obtain ⟨rfl, rfl⟩ := h
      refine ⟨Or.inr ⟨by simp [World.alloc], ?_⟩, rfl, rfl⟩
      simp only; omega
  · simp at h

/-- No overflow map was allocated. -/
def MapsStay (w w' : World) (m m' : HMsg) : Prop := w'.maps.length = w.maps.length ∧ (m'.m = none ↔ m.m = none)

theorem World.storeOffs_maps {w : World} {m : HMsg} {o : Offsets} (h : o.m = none ↔ m.m = none) :
    MapsStay w (w.storeOffs m o).2 m (w.storeOffs m o).1 := by
  cases m with
  | mk buf a mm => cases o with
    | mk oa om => cases mm <;> cases om <;> simp_all [World.storeOffs, MapsStay]

theorem Offsets.set_stays {o o' : Offsets} {f : Nat} {off : U64} (h : o.set f off = .ok o') (hs : off.toNat ≤ 65534 ∨ o.m ≠ none) :
    o'.m = none ↔ o.m = none := by
  by_cases hm : o.m = none
  · refine iff_of_true (Offsets.set_nil ?_ hm h) hm
    rcases hs with hs | hs
    · exact hs
    · exact absurd hm hs
  · exact iff_of_false (Offsets.set_map h hm) hm

/-- zeropb.go:385-388 and 399-404: the second half of an append. -/
theorem finish_grown (rt : Rt) {w1 w' : World} {m m' : HMsg} {t1 : HSlice} {o : Offsets} {valLen : List Byte} {x : Src}
    (h : (do
        let (b, w) ← (w1.storeOffs m o).2.append rt t1 valLen
        let (b, w) ← w.append rt b (w.src x)
        return ({ (w1.storeOffs m o).1 with buf := b }, w) : Res (HMsg × World)) = .ok (m', w')) :
    Grown w1 w' t1 m'.buf ∧ t1.len + valLen.length ≤ m'.buf.len ∧
      ((o.m = none ↔ m.m = none) → MapsStay w1 w' m m') ∧
      (∀ bs, x = .lit bs → m'.buf.len = t1.len + valLen.length + bs.length) := by
  simp only [bind, Except.bind] at h
  obtain ⟨s1, s2⟩ := World.storeOffs_arrs w1 m o
  have hst := World.storeOffs_maps (w := w1) (m := m) (o := o)
  generalize w1.storeOffs m o = r at *
  cases hb : r.2.append rt t1 valLen with
  | error e => rw [hb] at h; simp at h
  | ok p =>
    obtain ⟨t2, w2⟩ := p
    rw [hb] at h
    simp only at h
    obtain ⟨a1, a2, a3⟩ := World.append_grown rt hb
    cases hc : w2.append rt t2 (w2.src x) with
    | error e => rw [hc] at h; simp at h
    | ok p =>
      obtain ⟨t3, w3⟩ := p
      rw [hc] at h
      simp only [pure, Except.pure, Except.ok.injEq, Prod.mk.injEq] at h
      obtain ⟨rfl, rfl⟩ := h
      obtain ⟨b1, b2, b3⟩ := World.append_grown rt hc
      have hx : t1.len + valLen.length ≤ t3.len := by omega
      have hy : t2.len ≤ t3.len := by omega
      refine ⟨((Grown.of_arrs s1 t1).trans a1 (by omega)).trans b1 hy, hx, ?_, ?_⟩
      · intro ho
        obtain ⟨c1, c2⟩ := hst ho
        exact ⟨by rw [b3, a3, c1], c2⟩
      · rintro bs rfl
        simp only [World.src] at b2
        simp only; omega

/-- zeropb.go:383-388. -/
theorem appendField_grown (rt : Rt) {w w' : World} {m m' : HMsg} {f : Nat} {tag valLen : List Byte} {x : Src}
    (h : m.appendField rt w f tag valLen x = .ok (m', w')) (hv : valLen ≠ [] ∨ ∃ bs, x = .lit bs ∧ bs ≠ []) :
    Grown w w' m.buf m'.buf ∧ m.buf.len ≤ m'.buf.len ∧ (m'.buf.len ≤ 65535 ∨ m.m ≠ none → MapsStay w w' m m') := by
  unfold HMsg.appendField at h
  simp only [bind, Except.bind] at h
  cases ha : w.append rt m.buf tag with
  | error e => rw [ha] at h; simp at h
  | ok p =>
    obtain ⟨t1, w1⟩ := p
    rw [ha] at h
    simp only at h
    obtain ⟨a1, a2, a3⟩ := World.append_grown rt ha
    cases ho : (w1.offs m).set f (BitVec.ofNat 64 t1.len) with
    | error e => rw [ho] at h; simp at h
    | ok o =>
      rw [ho] at h
      simp only at h
      obtain ⟨b1, b2, b3, b4⟩ := finish_grown rt h
      refine ⟨a1.trans b1 (by omega), by omega, ?_⟩
      intro hs
      have hlt : t1.len < m'.buf.len := by
        rcases hv with hv | ⟨bs, hx, hb⟩
        · have := List.length_pos_iff.2 hv; omega
        · have := b4 bs hx
          have := List.length_pos_iff.2 hb; omega
      have := b3 (by
        rw [Offsets.set_stays ho, World.offs_map]
        rcases hs with hs | hs
        · left
          rw [BitVec.toNat_ofNat, Nat.mod_eq_of_lt (by omega)]
          omega
        · right; rw [ne_eq, World.offs_map]; exact hs)
      exact ⟨by rw [this.1, a3], this.2⟩

/-- zeropb.go:358-381. -/
theorem removeField_grown (rt : Rt) {w w' : World} {m m' : HMsg} {off : U64} {tl : Nat} {ol : Int}
    (h : m.removeField rt w off tl ol = .ok (m', w')) : Grown w w' m.buf m'.buf ∧ MapsStay w w' m m' := by
  unfold HMsg.removeField at h
  simp only [bind, Except.bind] at h
  split at h
  · simp at h
  next dst e1 =>
  split at h
  · simp at h
  next src e2 =>
  split at h
  · simp at h
  next b e3 =>
  split at h
  · simp at h
  next o e4 =>
  simp only [pure, Except.pure, Except.ok.injEq, Prod.mk.injEq] at h
  obtain ⟨rfl, rfl⟩ := h
  have hb : b.arr = m.buf.arr ∧ b.off = m.buf.off ∧ b.cap = m.buf.cap ∧ (m.buf.len ≤ m.buf.cap → b.len ≤ m.buf.cap) := by
    unfold HSlice.range at e3
    split at e3
    · simp only [Except.ok.injEq] at e3
      subst e3
      exact ⟨rfl, by simp, by simp, fun _ => by simp only; omega⟩
    · simp at e3
  obtain ⟨s1, s2⟩ := World.storeOffs_arrs (w.copy dst (w.slice src).data) m o
  constructor
  · left
    refine ⟨?_, hb⟩
    rw [s1]; simp [World.copy, World.write]
  · have ho : o.m = none ↔ m.m = none := by
      by_cases hm : m.m = none
      · have hk : (((w.copy dst (w.slice src).data).offs m).m.getD []).keys = [] := by
          simp [World.offs, hm, GoMap.keys]
        rw [hk] at e4
        have hp : rt.perm [] = [] := List.Perm.eq_nil (rt.perm_ok [])
        rw [hp] at e4
        simp only [adjustMap, Except.ok.injEq] at e4
        subst e4
        simp [World.offs, hm]
      · refine iff_of_false (adjustMap_map e4 ?_) hm
        simp only
        rw [ne_eq, World.offs_map]; exact hm
    have := World.storeOffs_maps (w := w.copy dst (w.slice src).data) ho
    exact this

/-- zeropb.go:326-389. -/
theorem setSingle_grown (rt : Rt) {w w' : World} {m m' : HMsg} {f typ : Nat} {valLen : List Byte} {x : Src}
    (h : m.setSingle rt w f typ valLen x = .ok (m', w')) (hv : valLen ≠ [] ∨ ∃ bs, x = .lit bs ∧ bs ≠ []) :
    Grown w w' m.buf m'.buf ∧ (m'.buf.len ≤ 65535 ∨ m.m ≠ none → MapsStay w w' m m') := by
  unfold HMsg.setSingle at h
  simp only [bind, Except.bind] at h
  split at h
  · simp at h
  next tag e1 =>
  split at h
  · simp at h
  next r e2 =>
  split at h
  · split at h
    · simp at h
    next ol e3 =>
    split at h
    · split at h
      · simp at h
      split at h
      · simp at h
      simp only [pure, Except.pure, Except.ok.injEq, Prod.mk.injEq] at h
      obtain ⟨rfl, rfl⟩ := h
      exact ⟨Or.inl ⟨by simp [World.copy, World.write], rfl, rfl, rfl, id⟩, fun _ => ⟨by simp [World.copy, World.write], Iff.rfl⟩⟩
    · split at h
      · simp at h
      next p e4 =>
      obtain ⟨m1, w1⟩ := p
      obtain ⟨a1, a2⟩ := removeField_grown rt e4
      obtain ⟨b1, b2, b3⟩ := appendField_grown rt h hv
      refine ⟨a1.trans b1 b2, fun hs => ?_⟩
      have := b3 (hs.imp id (fun h2 h3 => h2 (a2.2.1 h3)))
      exact ⟨this.1.trans a2.1, this.2.trans a2.2⟩
  · obtain ⟨b1, b2, b3⟩ := appendField_grown rt h hv
    exact ⟨b1, b3⟩

/-- zeropb.go:391-405. -/
theorem appendSingle_grown (rt : Rt) {w w' : World} {m m' : HMsg} {f typ : Nat} {valLen : List Byte} {x : Src}
    (h : m.appendSingle rt w f typ valLen x = .ok (m', w')) (hv : valLen ≠ []) :
    Grown w w' m.buf m'.buf ∧ (m'.buf.len ≤ 65535 ∨ m.m ≠ none → MapsStay w w' m m') := by
  unfold HMsg.appendSingle at h
  simp only [bind, Except.bind] at h
  split at h
  · simp at h
  next tag e1 =>
  split at h
  · simp at h
  next p e2 =>
  obtain ⟨t1, w1⟩ := p
  obtain ⟨a1, a2, a3⟩ := World.append_grown rt e2
  simp only at h
  split at h
  · simp at h
  next q e3 =>
  have hpos := List.length_pos_iff.2 hv
  obtain ⟨_, ok⟩ := q
  cases ok with
  | false =>
    simp only [Bool.not_false, if_true] at h
    cases e4 : (w1.offs m).set f (BitVec.ofNat 64 t1.len) with
    | error e => rw [e4] at h; simp at h
    | ok o =>
      rw [e4] at h
      simp only at h
      obtain ⟨b1, b2, b3, _⟩ := finish_grown rt h
      refine ⟨a1.trans b1 (by omega), fun hs => ?_⟩
      have := b3 (by
        rw [Offsets.set_stays e4, World.offs_map]
        rcases hs with hs | hs
        · left
          rw [BitVec.toNat_ofNat, Nat.mod_eq_of_lt (by omega)]
          omega
        · right; rw [ne_eq, World.offs_map]; exact hs)
      exact ⟨by rw [this.1, a3], this.2⟩
  | true =>
    simp only [Bool.not_true, Bool.false_eq_true, if_false, pure, Except.pure] at h
    obtain ⟨b1, b2, b3, _⟩ := finish_grown rt h
    refine ⟨a1.trans b1 (by omega), fun hs => ?_⟩
    have := b3 World.offs_map
    exact ⟨by rw [this.1, a3], this.2⟩

theorem setBytes_grown (rt : Rt) {w w' : World} {m m' : HMsg} {f : Nat} {x : Src} (h : m.setBytes rt w f x = .ok (m', w')) :
    Grown w w' m.buf m'.buf ∧ (m'.buf.len ≤ 65535 ∨ m.m ≠ none → MapsStay w w' m m') := by
  unfold HMsg.setBytes at h
  simp only [bind, Except.bind] at h
  split at h
  · simp at h
  next vl e => exact setSingle_grown rt h (Or.inl (putUvarint_ne_nil e))

theorem appendBytes_grown (rt : Rt) {w w' : World} {m m' : HMsg} {f : Nat} {x : Src} (h : m.appendBytes rt w f x = .ok (m', w')) :
    Grown w w' m.buf m'.buf ∧ (m'.buf.len ≤ 65535 ∨ m.m ≠ none → MapsStay w w' m m') := by
  unfold HMsg.appendBytes at h
  simp only [bind, Except.bind] at h
  split at h
  · simp at h
  next vl e => exact appendSingle_grown rt h (putUvarint_ne_nil e)

theorem setField_grown (rt : Rt) {w w' : World} {m m' : HMsg} {k : Kind} {f : Nat} {x : k.Ty}
    (h : m.setField rt w k f x = .ok (m', w')) :
    Grown w w' m.buf m'.buf ∧ (m'.buf.len ≤ 65535 ∨ m.m ≠ none → MapsStay w w' m m') := by
  cases k <;> simp only [HMsg.setField, bind, Except.bind, putVarint] at h <;>
    first
    | exact setSingle_grown rt h (Or.inr ⟨_, rfl, by simp [lePutUint32, lePutUint64]⟩)
    | (split at h
       · simp at h
       next vl e =>
       first
       | exact setSingle_grown rt h (Or.inr ⟨_, rfl, putUvarint_ne_nil e⟩)
       | exact setSingle_grown rt h (Or.inl (putUvarint_ne_nil e)))

/-- test.zeropb.go:44-50. -/
theorem reset_grown {w w' : World} {m m' : HMsg} {b : HSlice} (h : m.reset w b = .ok (m', w')) :
    w'.arrs = w.arrs ∧ m'.buf = b ∧ MapsStay w w' m m' := by
  unfold HMsg.reset at h
  split at h
  · simp at h
  · simp only [Except.ok.injEq, Prod.mk.injEq] at h
    obtain ⟨rfl, rfl⟩ := h
    refine ⟨(World.storeOffs_arrs w m _).1, rfl, ?_⟩
    have ho : (w.offs m).clear.m = none ↔ m.m = none := by simp [Offsets.clear, World.offs]
    exact World.storeOffs_maps ho

/-- test.zeropb.go:39-42. -/
theorem decode_grown {rep : Nat → Bool} {w w' : World} {m m' : HMsg} {b : HSlice} {err : Option DecErr} (hw : w.WFs b)
    (h : m.decode rep w b = .ok (m', w', err)) :
    w'.arrs = w.arrs ∧ m'.buf = b ∧ (b.len ≤ 65535 ∨ m.m ≠ none → MapsStay w w' m m') := by
  unfold HMsg.decode at h
  simp only [bind, Except.bind] at h
  split at h
  · simp at h
  next r e =>
  simp only [pure, Except.pure, Except.ok.injEq, Prod.mk.injEq] at h
  obtain ⟨rfl, rfl, _⟩ := h
  refine ⟨(World.storeOffs_arrs w m _).1, rfl, fun hs => ?_⟩
  have ho : r.1.m = none ↔ m.m = none := by
    by_cases hm : m.m = none
    · refine iff_of_true ?_ hm
      have hl : b.len ≤ 65535 := by
        rcases hs with hs | hs
        · exact hs
        · exact absurd hm hs
      have hl2 : (w.slice b).data.length ≤ 65535 := by rw [World.slice_len hw]; exact hl
      refine decode_induction (rep := rep) (m0 := ⟨w.slice b, w.offs m⟩) (m := ⟨w.slice b, r.1⟩) (buf := w.slice b) (err := r.2)
        (fun o => o.m = none) (Offsets.clear_m _ (World.offs_map.2 hm)) ?_ ?_
      · intro o o' f i ho i1 i2 hr
        have hsmall : (intToU64 i).toNat ≤ 65534 := by
          obtain ⟨k, rfl⟩ := Int.eq_ofNat_of_zero_le i1
          rw [intToU64_nat, ofNat64_toNat (by omega)]; omega
        unfold recordOffset at hr
        split at hr
        · cases hg : o.get f with
          | error e => rw [hg] at hr; simp [bind, Except.bind] at hr
          | ok r =>
            obtain ⟨x, ok⟩ := r
            rw [hg] at hr
            simp only [bind, Except.bind] at hr
            split at hr
            · exact Offsets.set_nil hsmall ho hr
            · simp only [pure, Except.pure, Except.ok.injEq] at hr; subst hr; exact ho
        · exact Offsets.set_nil hsmall ho hr
      · unfold Msg.decode; rw [e]; rfl
    · refine iff_of_false (decode_map e ?_) hm
      rw [ne_eq, World.offs_map]; exact hm
  exact World.storeOffs_maps ho

end Zeropb
