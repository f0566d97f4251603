import Verif.Mem.Read
set_option linter.unusedSimpArgs false
set_option linter.unusedVariables false
/-!
# What appending writes

`append` writes behind the length of its slice only. So setting an absent field and `AppendTo` never
change a byte that is already part of the message, even when the argument shares memory with it.
-/

namespace Zeropb

/-- The part of a slice between its length and its capacity. -/
def HSlice.behind (s : HSlice) : HSlice := ⟨s.arr, s.off + s.len, 0, s.cap - s.len⟩

theorem HSlice.behind_owns {s : HSlice} {i p : Nat} (h : s.behind.owns i p) : s.owns i p ∧ s.off + s.len ≤ p := by
  obtain ⟨h1, h2, h3⟩ := h
  simp only [HSlice.behind] at h1 h2 h3
  exact ⟨⟨h1, by omega, by omega⟩, h2⟩

theorem HSlice.behind_full {s : HSlice} (h : s.cap ≤ s.len) (i p : Nat) : ¬ s.behind.owns i p := by
  rintro ⟨_, h2, h3⟩
  simp only [HSlice.behind] at h2 h3
  omega

theorem SFrame.alloc (w : World) (s : HSlice) (bs : List Byte) {t : HSlice} (ht : ∀ i p, t.owns i p → i = w.arrs.length) :
    SFrame w (w.alloc bs).2 s t := by
  have hlt : ∀ i, i < w.arrs.length → (w.alloc bs).2.arr i = w.arr i := by
    intro i hi
    simp only [World.alloc, World.arr, List.getD_eq_getElem?_getD]
    rw [List.getElem?_append_left hi]
  refine ⟨by simp [World.alloc], fun i hi => by rw [hlt i hi], fun i p hi _ => ?_, fun i p ho => Or.inr ?_⟩
  · unfold World.cell; rw [hlt i hi]
  · rw [ht i p ho]; exact Nat.le_refl _

/-- `append` and the bytes behind the length. -/
theorem World.append_behind (rt : Rt) {w w' : World} {s s' : HSlice} (hw : w.WFs s) {xs : List Byte}
    (h : w.append rt s xs = .ok (s', w')) :
    SFrame w w' s.behind s'.behind ∧ SFrame w w' s s' ∧ w'.WFs s' ∧ w'.maps = w.maps ∧
    (s.cap ≤ s.len → xs ≠ [] → s'.arr = w.arrs.length ∧ w'.arrs.length = w.arrs.length + 1) := by
  have hspec := World.append_spec rt hw xs
  cases hg : goAppend rt (w.slice s) xs with
  | error e => rw [hg] at hspec; simp only at hspec; rw [hspec] at h; simp at h
  | ok b =>
    rw [hg] at hspec
    obtain ⟨s1, w1, e1, _, e3, e4, e5, _⟩ := hspec
    rw [e1] at h
    simp only [Except.ok.injEq, Prod.mk.injEq] at h
    obtain ⟨rfl, rfl⟩ := h
    refine ⟨?_, e4, e3, e5, ?_⟩
    · unfold World.append at e1
      split at e1
      · split at e1
        · rename_i h1 h2
          simp only [Except.ok.injEq, Prod.mk.injEq] at e1
          obtain ⟨rfl, rfl⟩ := e1
          have hl := hw.1
          have hb : w.WFs s.behind := by
            refine ⟨Nat.zero_le _, ?_⟩
            have := hw.2
            simp only [HSlice.behind]; omega
          have := SFrame.write (k := 0) (bs := xs) hb (by simp only [HSlice.behind]; omega)
          simp only [HSlice.behind, Nat.add_zero] at this
          refine ⟨this.grow, this.size, this.cells, ?_⟩
          rintro i p ⟨o1, o2, o3⟩
          simp only [HSlice.behind] at o1 o2 o3
          left
          refine ⟨o1, ?_, ?_⟩ <;> simp only [HSlice.behind] <;> omega
        · simp only [Except.ok.injEq, Prod.mk.injEq] at e1
          obtain ⟨rfl, rfl⟩ := e1
          apply SFrame.alloc
          rintro i p ⟨o1, _, _⟩
          exact o1.symm
      · simp at e1
    · intro hc hx
      unfold World.append at e1
      have : 0 < xs.length := List.length_pos_iff.2 hx
      split at e1
      · rw [if_neg (by omega)] at e1
        simp only [Except.ok.injEq, Prod.mk.injEq] at e1
        obtain ⟨rfl, rfl⟩ := e1
        exact ⟨rfl, by simp [World.alloc]⟩
      · simp at e1

theorem World.storeOffs_arrs (w : World) (m : HMsg) (o : Offsets) :
    (w.storeOffs m o).2.arrs = w.arrs ∧ (w.storeOffs m o).1.buf = m.buf := by
  cases m with
  | mk buf a mm => cases o with
    | mk oa om => cases mm <;> cases om <;> exact ⟨rfl, rfl⟩

theorem SFrame.of_arrs {w w' : World} (h : w'.arrs = w.arrs) (s : HSlice) : SFrame w w' s s := by
  refine ⟨by rw [h]; exact Nat.le_refl _, ?_, ?_, fun _ _ h => Or.inl h⟩
  · intro i _; unfold World.arr; rw [h]
  · intro i p _ _; unfold World.cell World.arr; rw [h]

/-- What an operation that only appends does to the bytes. -/
structure Appends (w w' : World) (s s' : HSlice) : Prop where
  behind : SFrame w w' s.behind s'.behind
  frame : SFrame w w' s s'
  /-- without spare capacity, the slice moves to a new array -/
  fresh : s.cap ≤ s.len → w.arrs.length ≤ s'.arr

theorem append_tail (rt : Rt) {w w1 : World} {s t1 : HSlice} (h1 : SFrame w w1 s.behind t1.behind) (h2 : SFrame w w1 s t1)
    (h3 : w1.WFs t1) (h4 : s.cap ≤ s.len → w.arrs.length ≤ t1.arr) {xs : List Byte} {s' : HSlice} {w' : World}
    (h : w1.append rt t1 xs = .ok (s', w')) : SFrame w w' s.behind s'.behind ∧ SFrame w w' s s' ∧ w'.WFs s' ∧
      (s.cap ≤ s.len → w.arrs.length ≤ s'.arr) := by
  obtain ⟨a1, a2, a3, a4, _⟩ := World.append_behind rt h3 h
  refine ⟨h1.trans a1, h2.trans a2, a3, fun hc => ?_⟩
  unfold World.append at h
  split at h
  · split at h
    · simp only [Except.ok.injEq, Prod.mk.injEq] at h
      obtain ⟨rfl, rfl⟩ := h
      exact h4 hc
    · simp only [Except.ok.injEq, Prod.mk.injEq] at h
      obtain ⟨rfl, rfl⟩ := h
      exact h2.grow
  · simp at h

theorem finish_appends (rt : Rt) {w w1 w' : World} {m m' : HMsg} {t1 : HSlice} {o : Offsets} {valLen : List Byte} {x : Src}
    (a1 : SFrame w w1 m.buf.behind t1.behind) (a2 : SFrame w w1 m.buf t1) (a3 : w1.WFs t1)
    (a5 : m.buf.cap ≤ m.buf.len → w.arrs.length ≤ t1.arr)
    (h : (do
        let (b, w) ← (w1.storeOffs m o).2.append rt t1 valLen
        let (b, w) ← w.append rt b (w.src x)
        return ({ (w1.storeOffs m o).1 with buf := b }, w) : Res (HMsg × World)) = .ok (m', w')) :
    Appends w w' m.buf m'.buf := by
  simp only [bind, Except.bind] at h
  obtain ⟨s1, s2⟩ := World.storeOffs_arrs w1 m o
  generalize w1.storeOffs m o = r at *
  have g := SFrame.of_arrs (w := w1) (w' := r.2) s1
  cases hb : r.2.append rt t1 valLen with
  | error e => rw [hb] at h; simp at h
  | ok p =>
    obtain ⟨t2, w2⟩ := p
    rw [hb] at h
    simp only at h
    obtain ⟨b1, b2, b3, b4⟩ := append_tail rt (a1.trans (g _)) (a2.trans (g _)) ((g t1).wf a3) a5 hb
    cases hc : w2.append rt t2 (w2.src x) with
    | error e => rw [hc] at h; simp at h
    | ok p =>
      obtain ⟨t3, w3⟩ := p
      rw [hc] at h
      simp only [pure, Except.pure, Except.ok.injEq, Prod.mk.injEq] at h
      obtain ⟨rfl, rfl⟩ := h
      obtain ⟨c1, c2, c3, c4⟩ := append_tail rt b1 b2 b3 b4 hc
      exact ⟨c1, c2, c4⟩

theorem appendField_appends (rt : Rt) {w w' : World} {m m' : HMsg} (hw : w.WFs m.buf) {f : Nat} {tag valLen : List Byte} {x : Src}
    (ht : tag ≠ []) (h : m.appendField rt w f tag valLen x = .ok (m', w')) : Appends w w' m.buf m'.buf := by
  unfold HMsg.appendField at h
  simp only [bind, Except.bind] at h
  cases ha : w.append rt m.buf tag with
  | error e => rw [ha] at h; simp at h
  | ok p =>
    obtain ⟨t1, w1⟩ := p
    rw [ha] at h
    simp only at h
    obtain ⟨a1, a2, a3, a4, a5⟩ := World.append_behind rt hw ha
    cases ho : (w1.offs m).set f (BitVec.ofNat 64 t1.len) with
    | error e => rw [ho] at h; simp at h
    | ok o =>
      rw [ho] at h
      simp only at h
      exact finish_appends rt a1 a2 a3 (fun hc => by rw [(a5 hc ht).1]; exact Nat.le_refl _) h

theorem putUvarint_ne_nil {n : Nat} {v : U64} {bs : List Byte} (h : putUvarint n v = .ok bs) : bs ≠ [] := by
  cases n with
  | zero => simp [putUvarint] at h
  | succ n =>
    unfold putUvarint at h
    split at h
    · cases hr : putUvarint n (v >>> 7) with
      | error e => rw [hr] at h; simp [bind, Except.bind] at h
      | ok r =>
        rw [hr] at h
        simp only [bind, Except.bind, pure, Except.pure, Except.ok.injEq] at h
        subst h; simp
    · simp only [pure, Except.pure, Except.ok.injEq] at h
      subst h; simp

/-- Setting an absent field only appends. -/
theorem setSingle_absent (rt : Rt) {w w' : World} {m m' : HMsg} (hw : w.WFs m.buf) {f typ : Nat} {valLen : List Byte} {x : Src}
    {o : U64} (ha : (w.offs m).get f = .ok (o, false)) (h : m.setSingle rt w f typ valLen x = .ok (m', w')) :
    Appends w w' m.buf m'.buf := by
  unfold HMsg.setSingle at h
  simp only [bind, Except.bind] at h
  cases ht : putUvarint maxVarintLen64 (tagOf f typ) with
  | error e => rw [ht] at h; simp at h
  | ok tag =>
    rw [ht, ha] at h
    simp only [Bool.false_eq_true, if_false] at h
    exact appendField_appends rt hw (putUvarint_ne_nil ht) h

/-- `AppendTo` only appends. -/
theorem appendSingle_appends (rt : Rt) {w w' : World} {m m' : HMsg} (hw : w.WFs m.buf) {f typ : Nat} {valLen : List Byte} {x : Src}
    (h : m.appendSingle rt w f typ valLen x = .ok (m', w')) : Appends w w' m.buf m'.buf := by
  unfold HMsg.appendSingle at h
  simp only [bind, Except.bind] at h
  cases ht : putUvarint maxVarintLen64 (tagOf f typ) with
  | error e => rw [ht] at h; simp at h
  | ok tag =>
  rw [ht] at h
  simp only at h
  cases ha : w.append rt m.buf tag with
  | error e => rw [ha] at h; simp at h
  | ok p =>
    obtain ⟨t1, w1⟩ := p
    rw [ha] at h
    simp only at h
    obtain ⟨a1, a2, a3, a4, a5⟩ := World.append_behind rt hw ha
    cases hg : (w1.offs m).get f with
    | error e => rw [hg] at h; simp at h
    | ok q =>
      obtain ⟨_, ok⟩ := q
      rw [hg] at h
      simp only at h
      have ht' : m.buf.cap ≤ m.buf.len → w.arrs.length ≤ t1.arr :=
        fun hc => by rw [(a5 hc (putUvarint_ne_nil ht)).1]; exact Nat.le_refl _
      cases ok with
      | false =>
        simp only [Bool.not_false, if_true] at h
        cases ho : (w1.offs m).set f (BitVec.ofNat 64 t1.len) with
        | error e => rw [ho] at h; simp at h
        | ok o => rw [ho] at h; exact finish_appends rt a1 a2 a3 ht' h
      | true =>
        simp only [Bool.not_true, Bool.false_eq_true, if_false] at h
        exact finish_appends rt a1 a2 a3 ht' h

theorem setBytes_absent (rt : Rt) {w w' : World} {m m' : HMsg} (hw : w.WFs m.buf) {f : Nat} {x : Src}
    {o : U64} (ha : (w.offs m).get f = .ok (o, false)) (h : m.setBytes rt w f x = .ok (m', w')) :
    Appends w w' m.buf m'.buf := by
  unfold HMsg.setBytes at h
  simp only [bind, Except.bind] at h
  split at h
  · simp at h
  · exact setSingle_absent rt hw ha h

theorem appendBytes_appends (rt : Rt) {w w' : World} {m m' : HMsg} (hw : w.WFs m.buf) {f : Nat} {x : Src}
    (h : m.appendBytes rt w f x = .ok (m', w')) : Appends w w' m.buf m'.buf := by
  unfold HMsg.appendBytes at h
  simp only [bind, Except.bind] at h
  split at h
  · simp at h
  · exact appendSingle_appends rt hw h

theorem setField_absent (rt : Rt) {w w' : World} {m m' : HMsg} (hw : w.WFs m.buf) {k : Kind} {f : Nat} {x : k.Ty}
    {o : U64} (ha : (w.offs m).get f = .ok (o, false)) (h : m.setField rt w k f x = .ok (m', w')) :
    Appends w w' m.buf m'.buf := by
  cases k <;> simp only [HMsg.setField, bind, Except.bind] at h <;>
    first
    | exact setSingle_absent rt hw ha h
    | (split at h
       · simp at h
       · exact setSingle_absent rt hw ha h)

end Zeropb
