import Verif.Mem.Heap
set_option linter.unusedSimpArgs false
set_option linter.unusedVariables false
/-!
# The heap model refines the value model

Each operation on a struct of the heap does to the value of the struct what the value model says, and
touches nothing but the struct's own buffer and map, provided the argument does not share memory with
the buffer.
-/

namespace Zeropb

/-- Frame of an operation that turns struct `m` into `m'`: bytes as in `SFrame`; of the maps only
that of `m` changed, and `m'` refers to the same map or to a new one. -/
structure Frame (w w' : World) (m m' : HMsg) : Prop where
  bytes : SFrame w w' m.buf m'.buf
  mgrow : w.maps.length ≤ w'.maps.length
  maps : ∀ id, id < w.maps.length → m.m ≠ some id → w'.maps.getD id [] = w.maps.getD id []
  mown : m'.m = m.m ∨ ∃ id, m'.m = some id ∧ w.maps.length ≤ id

theorem Frame.refl (w : World) (m : HMsg) : Frame w w m m :=
  ⟨.refl _ _, Nat.le_refl _, fun _ _ _ => rfl, Or.inl rfl⟩

theorem Frame.trans {w1 w2 w3 : World} {m1 m2 m3 : HMsg} (h : Frame w1 w2 m1 m2) (h' : Frame w2 w3 m2 m3) :
    Frame w1 w3 m1 m3 where
  bytes := h.bytes.trans h'.bytes
  mgrow := Nat.le_trans h.mgrow h'.mgrow
  maps id hid hne := by
    rw [h'.maps id (Nat.lt_of_lt_of_le hid h.mgrow), h.maps id hid hne]
    rcases h.mown with e | ⟨j, e, hj⟩
    · rw [e]; exact hne
    · rw [e]; simp only [ne_eq, Option.some.injEq]; omega
  mown := by
    rcases h'.mown with e | ⟨j, e, hj⟩
    · rcases h.mown with e1 | ⟨j, e1, hj⟩
      · exact Or.inl (e.trans e1)
      · exact Or.inr ⟨j, e.trans e1, hj⟩
    · exact Or.inr ⟨j, e, Nat.le_trans h.mgrow hj⟩

/-- The argument's memory exists and is not part of the slice. -/
def Src.Apart (w : World) (s : HSlice) : Src → Prop
  | .lit _ => True
  | .mem t => w.WFs t ∧ ∀ p, t.off ≤ p → p < t.off + t.len → ¬ s.owns t.arr p

theorem Src.Apart.frame {w w' : World} {s s' : HSlice} {x : Src} (h : x.Apart w s) (hf : SFrame w w' s s') :
    x.Apart w' s' ∧ w'.src x = w.src x := by
  cases x with
  | lit bs => exact ⟨trivial, rfl⟩
  | mem t =>
    obtain ⟨h1, h2⟩ := h
    refine ⟨⟨hf.wf h1, ?_⟩, hf.data_eq h1 h2⟩
    intro p hp1 hp2 ho
    have hl := h1.cell_lt (i := t.arr) (p := p) ⟨rfl, hp1, by have := h1.1; omega⟩
    rcases hf.owned _ p ho with h3 | h3
    · exact h2 p hp1 hp2 h3
    · omega

/-! ## Offsets -/

theorem Offsets.set_map {o o' : Offsets} {f : Nat} {off : U64} (h : o.set f off = .ok o') (hm : o.m ≠ none) : o'.m ≠ none := by
  unfold Offsets.set at h
  split at h
  · cases hs : o.slot f with
    | error e => rw [hs] at h; simp [bind, Except.bind] at h
    | ok v =>
      rw [hs] at h
      simp only [bind, Except.bind, pure, Except.pure, Except.ok.injEq] at h
      subst h
      simp only
      split
      · cases ho : o.m with
        | none => exact absurd ho hm
        | some mp => simp
      · exact hm
  · cases hs : o.slot f with
    | error e => rw [hs] at h; simp [bind, Except.bind] at h
    | ok v =>
      rw [hs] at h
      simp only [bind, Except.bind, pure, Except.pure, Except.ok.injEq] at h
      subst h
      simp

theorem adjustMap_map {fe r : U64} {ks : List Nat} {o o' : Offsets} (h : adjustMap fe r ks o = .ok o') (hm : o.m ≠ none) :
    o'.m ≠ none := by
  induction ks generalizing o with
  | nil => simp only [adjustMap, Except.ok.injEq] at h; subst h; exact hm
  | cons k ks ih =>
    simp only [adjustMap] at h
    split at h
    · exact ih h hm
    · split at h
      · rename_i off _ _
        cases hs : o.set k (off - r) with
        | error e => rw [hs] at h; simp [bind, Except.bind] at h
        | ok o1 =>
          rw [hs] at h
          exact ih h (Offsets.set_map hs hm)
      · exact ih h hm

theorem Offsets.clear_map {o : Offsets} (hm : o.m ≠ none) : o.clear.m ≠ none := by
  cases ho : o.m with
  | none => exact absurd ho hm
  | some mp => simp [Offsets.clear, ho]

theorem World.offs_map {w : World} {m : HMsg} : (w.offs m).m = none ↔ m.m = none := by
  simp [World.offs]

theorem World.storeOffs_spec {w : World} {m : HMsg} {o : Offsets} (hw : w.WF m) (ho : m.m ≠ none → o.m ≠ none) :
    (w.storeOffs m o).2.offs (w.storeOffs m o).1 = o ∧ (w.storeOffs m o).1.buf = m.buf ∧
    (w.storeOffs m o).2.arrs = w.arrs ∧ (∀ id, (w.storeOffs m o).1.m = some id → id < (w.storeOffs m o).2.maps.length) ∧
    Frame w (w.storeOffs m o).2 m (w.storeOffs m o).1 := by
  obtain ⟨hb, hm⟩ := hw
  have sf : ∀ w' : World, w'.arrs = w.arrs → SFrame w w' m.buf m.buf := by
    intro w' e
    refine ⟨by rw [e]; exact Nat.le_refl _, ?_, ?_, fun _ _ h => Or.inl h⟩
    · intro i _; unfold World.arr; rw [e]
    · intro i p _ _; unfold World.cell World.arr; rw [e]
  cases o with
  | mk a om =>
  cases m with
  | mk buf ma mm =>
  cases mm with
  | none =>
    cases om with
    | none =>
      refine ⟨rfl, rfl, rfl, by simp [World.storeOffs], ?_⟩
      exact ⟨sf _ rfl, Nat.le_refl _, fun _ _ _ => rfl, Or.inl rfl⟩
    | some mp =>
      refine ⟨?_, rfl, rfl, ?_, ?_⟩
      · simp [World.storeOffs, World.offs]
      · intro id h
        simp only [World.storeOffs, Option.some.injEq] at h ⊢
        simp; omega
      · refine ⟨sf _ rfl, by simp [World.storeOffs], ?_, Or.inr ⟨w.maps.length, rfl, Nat.le_refl _⟩⟩
        intro id hid _
        simp only [World.storeOffs, List.getD_eq_getElem?_getD]
        rw [List.getElem?_append_left hid]
  | some id =>
    cases om with
    | none => exact absurd rfl (ho (by simp))
    | some mp =>
      have hid := hm id rfl
      refine ⟨?_, rfl, rfl, ?_, ?_⟩
      · simp only [World.storeOffs, World.offs, Option.map_some, List.getD_eq_getElem?_getD, Offsets.mk.injEq, true_and]
        rw [List.getElem?_set_self hid]; rfl
      · intro j h
        simp only [World.storeOffs, Option.some.injEq] at h ⊢
        simp; omega
      · refine ⟨sf _ rfl, by simp [World.storeOffs], ?_, Or.inl rfl⟩
        intro j hj hne
        simp only [ne_eq, Option.some.injEq] at hne
        simp only [World.storeOffs, List.getD_eq_getElem?_getD]
        rw [List.getElem?_set_ne hne]

theorem World.storeOffs_buf (w : World) (m : HMsg) (o : Offsets) (t : HSlice) :
    w.storeOffs { m with buf := t } o = ({ (w.storeOffs m o).1 with buf := t }, (w.storeOffs m o).2) := by
  cases m with
  | mk buf a mm =>
    cases o with
    | mk oa om => cases mm <;> cases om <;> rfl

theorem World.offs_congr {w w' : World} (h : w'.maps = w.maps) (m : HMsg) : w'.offs m = w.offs m := by
  unfold World.offs; rw [h]

theorem World.slice_arrs {w w' : World} (h : w'.arrs = w.arrs) (s : HSlice) : w'.slice s = w.slice s := by
  unfold World.slice World.full World.arr; rw [h]

/-- Refinement of one operation. -/
def Refines (rv : Res (Slice × Offsets)) (rh : Res (HMsg × World)) (w : World) (m : HMsg) : Prop :=
  match rv with
  | .error e => rh = .error e
  | .ok (b, o) => ∃ m' w', rh = .ok (m', w') ∧ w'.msg m' = ⟨b, o⟩ ∧ w'.WF m' ∧ Frame w w' m m'

/-- The end of `setSingle` and `appendSingle`: store the offsets, append length and value. -/
theorem finish_refines (rt : Rt) {w w1 : World} {m : HMsg} {t1 : HSlice} {o : Offsets} (valLen : List Byte) {x : Src}
    (hw : w.WF m) (a3 : w1.WFs t1) (a4 : SFrame w w1 m.buf t1) (a5 : w1.maps = w.maps)
    (hom : m.m ≠ none → o.m ≠ none) (hx : x.Apart w m.buf) :
    Refines (do
        let b ← goAppend rt (w1.slice t1) valLen
        let b ← goAppend rt b (w.src x)
        return (b, o))
      (do
        let (b, w) ← (w1.storeOffs m o).2.append rt t1 valLen
        let (b, w) ← w.append rt b (w.src x)
        return ({ (w1.storeOffs m o).1 with buf := b }, w)) w m := by
  simp only [bind, Except.bind]
  have hwf1 : w1.WF { m with buf := t1 } := ⟨a3, fun id h => by rw [a5]; exact hw.2 id h⟩
  obtain ⟨b1', b2, b3, b4, b5⟩ := World.storeOffs_spec (o := o) hwf1 hom
  have hso := World.storeOffs_buf w1 m o t1
  rw [hso] at b1' b2 b3 b4 b5
  simp only at b1' b2 b3 b4 b5
  generalize hr : w1.storeOffs m o = r at *
  have wft : r.2.WFs t1 := b5.bytes.wf a3
  have s2 := World.append_spec rt wft valLen
  rw [World.slice_arrs b3] at s2
  cases hb : goAppend rt (w1.slice t1) valLen with
  | error e =>
    rw [hb] at s2
    simp only at s2
    rw [s2]; rfl
  | ok b2v =>
    rw [hb] at s2
    obtain ⟨t2, w2, c1, c2, c3, c4, c5, c6⟩ := s2
    rw [c1]
    simp only
    have f12 : SFrame w w2 m.buf t2 := (a4.trans b5.bytes).trans c4
    obtain ⟨hx2, hxe⟩ := hx.frame f12
    rw [hxe, ← c2]
    have s3 := World.append_spec rt c3 (w.src x)
    cases hc : goAppend rt (w2.slice t2) (w.src x) with
    | error e =>
      rw [hc] at s3
      simp only at s3
      rw [s3]; rfl
    | ok b3v =>
      rw [hc] at s3
      obtain ⟨t3, w3, d1, d2, d3, d4, d5, d6⟩ := s3
      rw [d1]
      have hmaps : w3.maps = r.2.maps := d5.trans c5
      refine ⟨_, _, rfl, ?_, ?_, ?_⟩
      · show (⟨w3.slice t3, w3.offs { r.1 with buf := t3 }⟩ : Msg) = ⟨b3v, o⟩
        rw [d2]
        congr 1
        rw [← b1']
        unfold World.offs
        rw [hmaps]
      · exact ⟨d3, fun id h => by rw [hmaps]; exact b4 id h⟩
      · refine ⟨f12.trans d4, ?_, ?_, ?_⟩
        · rw [hmaps, ← a5]; exact b5.mgrow
        · intro id hid hne
          rw [hmaps, b5.maps id (by rw [a5]; exact hid) hne, a5]
        · have := b5.mown
          rw [a5] at this
          exact this

theorem appendField_refines (rt : Rt) {w : World} {m : HMsg} (hw : w.WF m) (f : Nat) (tag valLen : List Byte) {x : Src}
    (hx : x.Apart w m.buf) :
    Refines (appendField rt (w.slice m.buf) (w.offs m) f tag valLen (w.src x)) (m.appendField rt w f tag valLen x) w m := by
  unfold appendField HMsg.appendField
  have s1 := World.append_spec rt hw.1 tag
  cases ha : goAppend rt (w.slice m.buf) tag with
  | error e =>
    rw [ha] at s1
    simp only at s1
    rw [s1]; rfl
  | ok b1 =>
    rw [ha] at s1
    obtain ⟨t1, w1, a1, a2, a3, a4, a5, a6⟩ := s1
    rw [a1]
    simp only [bind, Except.bind]
    rw [World.offs_congr a5, ← a2, World.slice_len a3]
    cases ho : (w.offs m).set f (BitVec.ofNat 64 t1.len) with
    | error e => rfl
    | ok o =>
      simp only
      have hom : m.m ≠ none → o.m ≠ none := fun h => Offsets.set_map ho (fun h2 => h (World.offs_map.1 h2))
      exact finish_refines rt valLen hw a3 a4 a5 hom hx

theorem removeField_refines (rt : Rt) {w : World} {m : HMsg} (hw : w.WF m) (off : U64) (tl : Nat) (ol : Int) :
    Refines (removeField rt (w.slice m.buf) (w.offs m) off tl ol) (m.removeField rt w off tl ol) w m := by
  unfold removeField HMsg.removeField
  simp only
  generalize off - BitVec.ofNat 64 tl = fb
  generalize off + intToU64 ol = fe
  rw [World.slice_dropFrom hw.1, World.slice_dropFrom hw.1]
  cases hd : m.buf.dropFrom (fb.toNat : Int) with
  | error e => rfl
  | ok d =>
    simp only [bind, Except.bind, Except.map]
    cases hs : m.buf.dropFrom (fe.toNat : Int) with
    | error e => rfl
    | ok src =>
      simp only
      obtain ⟨c1, c2, c3⟩ := World.copy_spec hw.1 hd (w.slice src).data
      have hwc := c2.wf hw.1
      have hlen : (overwriteAt (w.slice m.buf).data fb.toNat (w.slice src).data).length = m.buf.len := by
        rw [← World.slice_len hwc, c1]
      rw [hlen, ← c1, World.slice_range hwc]
      cases hr : m.buf.range 0 ((BitVec.ofNat 64 m.buf.len - (fe - fb)).toNat : Int) with
      | error e => rfl
      | ok b =>
        simp only [Except.map]
        rw [World.offs_congr c3]
        cases ha : adjustMap fe (fe - fb) (rt.perm (((w.offs m).m.getD []).keys)) ⟨adjustArray (w.offs m).a fe (fe - fb), (w.offs m).m⟩ with
        | error e => rfl
        | ok o =>
          have hom : m.m ≠ none → o.m ≠ none := fun h => adjustMap_map ha (fun h2 => h (World.offs_map.1 h2))
          have hwfm : (w.copy d (w.slice src).data).WF m := ⟨hwc, fun id h => by rw [c3]; exact hw.2 id h⟩
          obtain ⟨b1, b2, b3, b4, b5⟩ := World.storeOffs_spec hwfm hom
          simp only [pure, Except.pure]
          generalize (w.copy d (w.slice src).data).storeOffs m o = r at *
          refine ⟨_, _, rfl, ?_, ?_, ?_⟩
          · show (⟨r.2.slice b, r.2.offs { r.1 with buf := b }⟩ : Msg) = ⟨_, o⟩
            rw [World.slice_arrs b3]
            congr 1
          · exact ⟨HSlice.range_wf (b5.bytes.wf hwc) hr, b4⟩
          · refine ⟨⟨(c2.trans b5.bytes).grow, (c2.trans b5.bytes).size, (c2.trans b5.bytes).cells, ?_⟩, ?_, ?_, ?_⟩
            · intro i p ho; exact Or.inl (HSlice.range_owns hr ho)
            · rw [← c3]; exact b5.mgrow
            · intro id hid hne; rw [b5.maps id (by rw [c3]; exact hid) hne, c3]
            · have := b5.mown; rw [c3] at this; exact this

theorem setSingle_refines (rt : Rt) {w : World} {m : HMsg} (hw : w.WF m) (f typ : Nat) (valLen : List Byte) {x : Src}
    (hx : x.Apart w m.buf) :
    Refines (setSingle rt (w.slice m.buf) (w.offs m) f typ valLen (w.src x)) (m.setSingle rt w f typ valLen x) w m := by
  unfold setSingle HMsg.setSingle
  cases ht : putUvarint maxVarintLen64 (tagOf f typ) with
  | error e => rfl
  | ok tag =>
    simp only [bind, Except.bind]
    cases hg : (w.offs m).get f with
    | error e => rfl
    | ok p =>
      obtain ⟨off, ok⟩ := p
      simp only
      cases ok with
      | false => exact appendField_refines rt hw f tag valLen hx
      | true =>
        simp only [if_true]
        cases hol : oldLenOf (w.slice m.buf) off typ with
        | error e => rfl
        | ok ol =>
          simp only
          by_cases he : ol = ((valLen.length + (w.src x).length : Nat) : Int)
          · rw [if_pos he, if_pos he, World.slice_dropFrom hw.1]
            cases hd : m.buf.dropFrom (off.toNat : Int) with
            | error e => rfl
            | ok d1 =>
              simp only [Except.map]
              obtain ⟨c1, c2, c3⟩ := World.copy_spec hw.1 hd valLen
              have hwc := c2.wf hw.1
              have hwd := HSlice.dropFrom_wf hw.1 hd
              rw [World.slice_len hwd, ← c1, World.slice_dropFrom hwc]
              cases hd2 : m.buf.dropFrom ((off + BitVec.ofNat 64 (min valLen.length d1.len)).toNat : Int) with
              | error e => rfl
              | ok d2 =>
                simp only [Except.map, pure, Except.pure]
                obtain ⟨hx2, hxe⟩ := hx.frame c2
                rw [hxe]
                obtain ⟨e1, e2, e3⟩ := World.copy_spec hwc hd2 (w.src x)
                refine ⟨_, _, rfl, ?_, ?_, ?_⟩
                · show (⟨_, _⟩ : Msg) = _
                  rw [e1, World.offs_congr e3, World.offs_congr c3, c1]
                · exact ⟨e2.wf hwc, fun id h => by rw [e3, c3]; exact hw.2 id h⟩
                · exact ⟨c2.trans e2, by rw [e3, c3]; exact Nat.le_refl _, fun id _ _ => by rw [e3, c3], Or.inl rfl⟩
          · rw [if_neg he, if_neg he]
            have h1 := removeField_refines rt hw off tag.length ol
            cases hr : removeField rt (w.slice m.buf) (w.offs m) off tag.length ol with
            | error e =>
              rw [hr] at h1
              have h1' : m.removeField rt w off tag.length ol = .error e := h1
              rw [h1']; rfl
            | ok p =>
              rw [hr] at h1
              obtain ⟨b, o⟩ := p
              obtain ⟨m1, w1, a1, a2, a3, a4⟩ := h1
              rw [a1]
              simp only
              obtain ⟨hx2, hxe⟩ := hx.frame a4.bytes
              have h2 := appendField_refines rt a3 f tag valLen hx2
              have e1 : w1.slice m1.buf = b := congrArg Msg.buf a2
              have e2 : w1.offs m1 = o := congrArg Msg.off a2
              rw [e1, e2, hxe] at h2
              cases hap : appendField rt b o f tag valLen (w.src x) with
              | error e => rw [hap] at h2; exact h2
              | ok q =>
                rw [hap] at h2
                obtain ⟨m2, w2, b1, b2, b3, b4⟩ := h2
                exact ⟨m2, w2, b1, b2, b3, a4.trans b4⟩

theorem appendSingle_refines (rt : Rt) {w : World} {m : HMsg} (hw : w.WF m) (f typ : Nat) (valLen : List Byte) {x : Src}
    (hx : x.Apart w m.buf) :
    Refines (appendSingle rt (w.slice m.buf) (w.offs m) f typ valLen (w.src x)) (m.appendSingle rt w f typ valLen x) w m := by
  unfold appendSingle HMsg.appendSingle
  cases ht : putUvarint maxVarintLen64 (tagOf f typ) with
  | error e => rfl
  | ok tag =>
  simp only [bind, Except.bind]
  have s1 := World.append_spec rt hw.1 tag
  cases ha : goAppend rt (w.slice m.buf) tag with
  | error e =>
    rw [ha] at s1
    simp only at s1
    rw [s1]; rfl
  | ok b1 =>
    rw [ha] at s1
    obtain ⟨t1, w1, a1, a2, a3, a4, a5, a6⟩ := s1
    rw [a1]
    simp only
    rw [World.offs_congr a5, ← a2, World.slice_len a3]
    cases hg : (w.offs m).get f with
    | error e => rfl
    | ok p =>
    obtain ⟨off, ok⟩ := p
    simp only
    have h3 : m.m ≠ none → (w.offs m).m ≠ none := fun h h2 => h (World.offs_map.1 h2)
    cases ok with
    | true =>
      exact finish_refines rt valLen hw a3 a4 a5 h3 hx
    | false =>
      simp only [Bool.not_false, if_true]
      cases ho : (w.offs m).set f (BitVec.ofNat 64 t1.len) with
      | error e => rfl
      | ok o => exact finish_refines rt valLen hw a3 a4 a5 (fun h => Offsets.set_map ho (h3 h)) hx

theorem bind_refines {α : Type} {r : Res α} {gv : α → Res (Slice × Offsets)} {gh : α → Res (HMsg × World)} {w : World} {m : HMsg}
    (h : ∀ a, Refines (gv a) (gh a) w m) : Refines (r >>= gv) (r >>= gh) w m := by
  cases r with
  | error e => rfl
  | ok a => exact h a

theorem setField_refines (rt : Rt) {w : World} {m : HMsg} (hw : w.WF m) (k : Kind) (f : Nat) (x : k.Ty) :
    Refines (Msg.setField rt (w.slice m.buf) (w.offs m) k f x) (m.setField rt w k f x) w m := by
  have h : ∀ typ vl bs, Refines (setSingle rt (w.slice m.buf) (w.offs m) f typ vl bs) (m.setSingle rt w f typ vl (.lit bs)) w m :=
    fun typ vl bs => setSingle_refines rt hw f typ vl (x := .lit bs) trivial
  cases k with
  | bool => exact h _ _ _
  | fixed32 => exact h _ _ _
  | fixed64 => exact h _ _ _
  | sfixed32 => exact h _ _ _
  | sfixed64 => exact h _ _ _
  | float => exact h _ _ _
  | double => exact h _ _ _
  | int32 => exact bind_refines fun a => h _ _ _
  | int64 => exact bind_refines fun a => h _ _ _
  | uint32 => exact bind_refines fun a => h _ _ _
  | uint64 => exact bind_refines fun a => h _ _ _
  | sint32 => exact bind_refines fun a => h _ _ _
  | sint64 => exact bind_refines fun a => h _ _ _
  | string => exact bind_refines fun a => h _ _ _
  | bytes => exact bind_refines fun a => h _ _ _

theorem setBytes_refines (rt : Rt) {w : World} {m : HMsg} (hw : w.WF m) (f : Nat) {x : Src} (hx : x.Apart w m.buf) :
    Refines (setBytes rt (w.slice m.buf) (w.offs m) f (w.src x)) (m.setBytes rt w f x) w m :=
  bind_refines fun _ => setSingle_refines rt hw f _ _ hx

theorem appendBytes_refines (rt : Rt) {w : World} {m : HMsg} (hw : w.WF m) (f : Nat) {x : Src} (hx : x.Apart w m.buf) :
    Refines (appendBytes rt (w.slice m.buf) (w.offs m) f (w.src x)) (m.appendBytes rt w f x) w m :=
  bind_refines fun _ => appendSingle_refines rt hw f _ _ hx

end Zeropb
