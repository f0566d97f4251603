import Verif.Mem.Alloc
import Verif.Mem.Refine
set_option linter.unusedSimpArgs false
set_option linter.unusedVariables false
/-!
# When a call allocates an overflow map

Used by C70. A call on a struct without an overflow map either leaves it without one, or allocates exactly one map,
and then some field of the message is beyond the range of the array.
-/

namespace Zeropb

/-- Some field is recorded at an offset which does not fit into the array. -/
def Offsets.Far (o : Offsets) : Prop := ∃ f n, o.view f = some n ∧ 65534 < n

theorem Offsets.not_far {o : Offsets} (hm : o.m = none) : ¬ o.Far := by
  rintro ⟨f, n, h, hn⟩
  unfold Offsets.view at h
  split at h
  · simp at h
  next v hv =>
  split at h
  · simp [Offsets.mfind, hm] at h
  · split at h
    · simp at h
    · simp only [Option.some.injEq] at h
      have : v ≠ 65535#16 := by assumption
      have hlt := v.isLt
      have : v.toNat ≠ 65535 := fun hh => this (BitVec.eq_of_toNat_eq (by simpa using hh))
      omega

theorem Offsets.set_far {o o' : Offsets} {f : Nat} {off : U64} (h : o.set f off = .ok o') (hm : o.m = none) (hm' : o'.m ≠ none) :
    o'.Far := by
  unfold Offsets.set at h
  split at h
  · simp only [bind, Except.bind] at h
    split at h
    · simp at h
    · simp only [pure, Except.pure, Except.ok.injEq] at h
      subst h
      simp [hm] at hm'
  next hs =>
    rw [Offsets.small_iff] at hs
    simp only [bind, Except.bind] at h
    split at h
    · simp at h
    next v e =>
    simp only [pure, Except.pure, Except.ok.injEq] at h
    subst h
    have hf : f < o.a.length := by
      unfold Offsets.slot at e
      split at e
      next v e' => exact (List.getElem?_eq_some_iff.1 e').1
      · simp at e
    refine ⟨f, off.toNat, ?_, by omega⟩
    simp [Offsets.view, Offsets.mfind, hm, hf, GoMap.put, GoMap.find]

/-- The effect of a call on the overflow map, for a struct which has none. -/
def MapOne (w w' : World) (m m' : HMsg) : Prop :=
  m.m = none → (m'.m = none ∧ w'.maps.length = w.maps.length) ∨
    (m'.m ≠ none ∧ w'.maps.length = w.maps.length + 1 ∧ (w'.offs m').Far)

theorem finish_one (rt : Rt) {w1 w' : World} {m m' : HMsg} {t1 : HSlice} {o : Offsets} {valLen : List Byte} {x : Src}
    (h : (do
        let (b, w) ← (w1.storeOffs m o).2.append rt t1 valLen
        let (b, w) ← w.append rt b (w.src x)
        return ({ (w1.storeOffs m o).1 with buf := b }, w) : Res (HMsg × World)) = .ok (m', w'))
    (ho : o.m ≠ none → o.Far) : MapOne w1 w' m m' := by
  intro hm
  simp only [bind, Except.bind] at h
  split at h
  · simp at h
  next p hb =>
  obtain ⟨t2, w2⟩ := p
  simp only at h
  split at h
  · simp at h
  next p hc =>
  obtain ⟨t3, w3⟩ := p
  simp only [pure, Except.pure, Except.ok.injEq, Prod.mk.injEq] at h
  obtain ⟨rfl, rfl⟩ := h
  obtain ⟨_, _, a3⟩ := World.append_grown rt hb
  obtain ⟨_, _, b3⟩ := World.append_grown rt hc
  have hmaps := b3.trans a3
  cases hom : o.m with
  | none =>
    left
    constructor
    · simp [World.storeOffs, hm, hom]
    · rw [hmaps]; simp [World.storeOffs, hm, hom]
  | some mp =>
    right
    refine ⟨by simp [World.storeOffs, hm, hom], by rw [hmaps]; simp [World.storeOffs, hm, hom], ?_⟩
    have : w3.offs { (w1.storeOffs m o).1 with buf := t3 } = o := by
      rw [World.offs_congr hmaps]
      cases o with
      | mk oa om =>
        simp only at hom
        subst hom
        simp [World.offs, World.storeOffs, hm]
    rw [this]
    exact ho (by simp [hom])

theorem appendField_one (rt : Rt) {w w' : World} {m m' : HMsg} {f : Nat} {tag valLen : List Byte} {x : Src}
    (h : m.appendField rt w f tag valLen x = .ok (m', w')) : MapOne w w' m m' := by
  intro hm
  unfold HMsg.appendField at h
  simp only [bind, Except.bind] at h
  split at h
  · simp at h
  next p ha =>
  obtain ⟨t1, w1⟩ := p
  obtain ⟨_, _, a3⟩ := World.append_grown rt ha
  simp only at h
  split at h
  · simp at h
  next o e =>
  have hn : (w1.offs m).m = none := World.offs_map.2 hm
  have := finish_one rt h (fun h => Offsets.set_far e hn h) hm
  rwa [a3] at this

theorem setSingle_one (rt : Rt) {w w' : World} {m m' : HMsg} {f typ : Nat} {valLen : List Byte} {x : Src}
    (h : m.setSingle rt w f typ valLen x = .ok (m', w')) : MapOne w w' m m' := by
  intro hm
  unfold HMsg.setSingle at h
  simp only [bind, Except.bind] at h
  split at h
  · simp at h
  next tag e1 =>
  split at h
  · simp at h
  next r e2 =>
  split at h
  · split at h
    · simp at h
    next ol e3 =>
    split at h
    · split at h
      · simp at h
      split at h
      · simp at h
      simp only [pure, Except.pure, Except.ok.injEq, Prod.mk.injEq] at h
      obtain ⟨rfl, rfl⟩ := h
      exact Or.inl ⟨hm, by simp [World.copy, World.write]⟩
    · split at h
      · simp at h
      next p e4 =>
      obtain ⟨m1, w1⟩ := p
      obtain ⟨_, a2⟩ := removeField_grown rt e4
      have := appendField_one rt h (a2.2.2 hm)
      rwa [a2.1] at this
  · exact appendField_one rt h hm

theorem appendSingle_one (rt : Rt) {w w' : World} {m m' : HMsg} {f typ : Nat} {valLen : List Byte} {x : Src}
    (h : m.appendSingle rt w f typ valLen x = .ok (m', w')) : MapOne w w' m m' := by
  intro hm
  unfold HMsg.appendSingle at h
  simp only [bind, Except.bind] at h
  split at h
  · simp at h
  next tag e1 =>
  split at h
  · simp at h
  next p e2 =>
  obtain ⟨t1, w1⟩ := p
  obtain ⟨_, _, a3⟩ := World.append_grown rt e2
  simp only at h
  split at h
  · simp at h
  next q e3 =>
  obtain ⟨_, ok⟩ := q
  have hn : (w1.offs m).m = none := World.offs_map.2 hm
  cases ok with
  | false =>
    simp only [Bool.not_false, if_true] at h
    cases e4 : (w1.offs m).set f (BitVec.ofNat 64 t1.len) with
    | error e => rw [e4] at h; simp at h
    | ok o =>
      rw [e4] at h
      simp only at h
      have := finish_one rt h (fun h => Offsets.set_far e4 hn h) hm
      rwa [a3] at this
  | true =>
    simp only [Bool.not_true, Bool.false_eq_true, if_false, pure, Except.pure] at h
    have := finish_one rt h (fun h => absurd hn h) hm
    rwa [a3] at this

theorem setBytes_one (rt : Rt) {w w' : World} {m m' : HMsg} {f : Nat} {x : Src} (h : m.setBytes rt w f x = .ok (m', w')) :
    MapOne w w' m m' := by
  unfold HMsg.setBytes at h
  simp only [bind, Except.bind] at h
  split at h
  · simp at h
  next vl e => exact setSingle_one rt h

theorem appendBytes_one (rt : Rt) {w w' : World} {m m' : HMsg} {f : Nat} {x : Src} (h : m.appendBytes rt w f x = .ok (m', w')) :
    MapOne w w' m m' := by
  unfold HMsg.appendBytes at h
  simp only [bind, Except.bind] at h
  split at h
  · simp at h
  next vl e => exact appendSingle_one rt h

theorem setField_one (rt : Rt) {w w' : World} {m m' : HMsg} {k : Kind} {f : Nat} {x : k.Ty}
    (h : m.setField rt w k f x = .ok (m', w')) : MapOne w w' m m' := by
  cases k <;> simp only [HMsg.setField, bind, Except.bind, putVarint] at h <;>
    first
    | exact setSingle_one rt h
    | (split at h
       · simp at h
       next vl e => exact setSingle_one rt h)

end Zeropb
