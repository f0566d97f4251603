import Verif.Mem.Model
set_option linter.unusedSimpArgs false
set_option linter.unusedVariables false
/-!
# Facts about the heap: cells, frames, refinement of `copy` and `append`
-/

namespace Zeropb

/-- The cells a slice can reach. -/
def HSlice.owns (s : HSlice) (i p : Nat) : Prop := s.arr = i ∧ s.off ≤ p ∧ p < s.off + s.cap

/-- The slice lies inside an array of the heap. -/
def World.WFs (w : World) (s : HSlice) : Prop := s.len ≤ s.cap ∧ s.off + s.cap ≤ (w.arr s.arr).length

/-- The references of the struct are valid. -/
def World.WF (w : World) (m : HMsg) : Prop := w.WFs m.buf ∧ ∀ id, m.m = some id → id < w.maps.length

/-- Going from heap `w` to `w'`, only cells owned by `s` changed among those that existed, and `s'`
reaches only cells of `s` or of new arrays. -/
structure SFrame (w w' : World) (s s' : HSlice) : Prop where
  grow : w.arrs.length ≤ w'.arrs.length
  size : ∀ i, i < w.arrs.length → (w'.arr i).length = (w.arr i).length
  cells : ∀ i p, i < w.arrs.length → ¬ s.owns i p → w'.cell i p = w.cell i p
  owned : ∀ i p, s'.owns i p → s.owns i p ∨ w.arrs.length ≤ i

theorem overwriteAt_getElem? {dst : List Byte} {pos : Nat} {src : List Byte} (h : pos + src.length ≤ dst.length) (p : Nat) :
    (overwriteAt dst pos src)[p]? = if pos ≤ p ∧ p < pos + src.length then src[p - pos]? else dst[p]? := by
  unfold overwriteAt
  have e : min src.length (dst.length - pos) = src.length := by omega
  simp only [e, List.take_length, List.append_assoc]
  rw [List.getElem?_append, List.length_take]
  have e2 : min pos dst.length = pos := by omega
  rw [e2]
  by_cases h1 : p < pos
  · rw [if_pos h1, if_neg (by omega), List.getElem?_take_of_lt h1]
  · rw [if_neg h1, List.getElem?_append]
    by_cases h2 : p - pos < src.length
    · rw [if_pos h2, if_pos (by omega)]
    · rw [if_neg h2, if_neg (by omega), List.getElem?_drop]
      congr 1; omega

theorem overwriteAt_length (dst : List Byte) (pos : Nat) (src : List Byte) (h : pos ≤ dst.length) :
    (overwriteAt dst pos src).length = dst.length := by
  unfold overwriteAt
  simp only [List.length_append, List.length_take, List.length_drop]
  omega

namespace World

theorem arr_write (w : World) (i pos : Nat) (bs : List Byte) (h : pos + bs.length ≤ (w.arr i).length) (j : Nat) :
    (w.write i pos bs).arr j = if j = i then overwriteAt (w.arr i) pos bs else w.arr j := by
  simp only [write, arr, List.getD_eq_getElem?_getD]
  rw [List.getElem?_set]
  by_cases hj : j = i
  · subst hj
    simp only [if_true]
    by_cases hl : j < w.arrs.length
    · rw [if_pos hl]; rfl
    · rw [if_neg hl]
      have : w.arrs[j]? = none := List.getElem?_eq_none (by omega)
      simp only [this, Option.getD_none]
      simp [overwriteAt]
  · rw [if_neg (fun e => hj e.symm), if_neg hj]

theorem cell_write (w : World) (i pos : Nat) (bs : List Byte) (h : pos + bs.length ≤ (w.arr i).length) (j p : Nat) :
    (w.write i pos bs).cell j p = if j = i ∧ pos ≤ p ∧ p < pos + bs.length then bs[p - pos]? else w.cell j p := by
  unfold cell
  rw [arr_write w i pos bs h]
  by_cases hj : j = i
  · subst hj
    rw [if_pos rfl, overwriteAt_getElem? h]
    simp
  · rw [if_neg hj, if_neg (by simp [hj])]

theorem full_getElem? (w : World) (s : HSlice) (p : Nat) :
    (w.full s)[p]? = if p < s.cap then w.cell s.arr (s.off + p) else none := by
  unfold full cell
  by_cases h : p < s.cap
  · rw [if_pos h, List.getElem?_take_of_lt h, List.getElem?_drop]
  · rw [if_neg h, List.getElem?_eq_none]
    simp only [List.length_take, List.length_drop]; omega

theorem full_congr {w w' : World} {s : HSlice} (h : ∀ i p, s.owns i p → w'.cell i p = w.cell i p) :
    w'.full s = w.full s := by
  apply List.ext_getElem?
  intro p
  rw [full_getElem?, full_getElem?]
  by_cases hp : p < s.cap
  · rw [if_pos hp, if_pos hp]; exact h _ _ ⟨rfl, by omega, by omega⟩
  · rw [if_neg hp, if_neg hp]

theorem slice_congr {w w' : World} {s : HSlice} (h : ∀ i p, s.owns i p → w'.cell i p = w.cell i p) :
    w'.slice s = w.slice s := by
  unfold slice; rw [full_congr h]

theorem full_length {w : World} {s : HSlice} (h : w.WFs s) : (w.full s).length = s.cap := by
  have := h.2
  simp only [full, List.length_take, List.length_drop]; omega

theorem slice_len {w : World} {s : HSlice} (h : w.WFs s) : (w.slice s).data.length = s.len := by
  have := h.1
  simp only [slice, List.length_take, full_length h]; omega

theorem slice_spare {w : World} {s : HSlice} (h : w.WFs s) : (w.slice s).spare.length = s.cap - s.len := by
  simp only [slice, List.length_drop, full_length h]

theorem slice_append {w : World} {s : HSlice} : (w.slice s).data ++ (w.slice s).spare = w.full s := by
  simp [slice]

theorem WFs.cell_lt {w : World} {s : HSlice} (h : w.WFs s) {i p : Nat} (ho : s.owns i p) : i < w.arrs.length := by
  obtain ⟨rfl, h1, h2⟩ := ho
  rcases Nat.lt_or_ge s.arr w.arrs.length with hl | hl
  · exact hl
  · exfalso
    have : w.arr s.arr = [] := by
      unfold arr; rw [List.getD_eq_getElem?_getD, List.getElem?_eq_none hl]; rfl
    have h3 := h.2
    rw [this] at h3
    simp at h3
    omega

end World

/-! ## Slicing -/

theorem HSlice.dropFrom_owns {s t : HSlice} {i : Int} (h : s.dropFrom i = .ok t) (hl : s.len ≤ s.cap) {a p : Nat}
    (ho : t.owns a p) : s.owns a p := by
  unfold HSlice.dropFrom at h
  split at h
  · simp only [Except.ok.injEq] at h
    subst h
    obtain ⟨h1, h2, h3⟩ := ho
    simp only at h1 h2 h3
    refine ⟨h1, ?_, ?_⟩ <;> omega
  · simp at h

theorem HSlice.range_owns {s t : HSlice} {i j : Int} (h : s.range i j = .ok t) {a p : Nat}
    (ho : t.owns a p) : s.owns a p := by
  unfold HSlice.range at h
  split at h
  · simp only [Except.ok.injEq] at h
    subst h
    obtain ⟨h1, h2, h3⟩ := ho
    simp only at h1 h2 h3
    refine ⟨h1, ?_, ?_⟩ <;> omega
  · simp at h

theorem HSlice.dropFrom_wf {w : World} {s t : HSlice} {i : Int} (hw : w.WFs s) (h : s.dropFrom i = .ok t) : w.WFs t := by
  obtain ⟨a, b⟩ := hw
  unfold HSlice.dropFrom at h
  split at h
  · simp only [Except.ok.injEq] at h
    subst h
    constructor <;> simp only <;> omega
  · simp at h

theorem HSlice.range_wf {w : World} {s t : HSlice} {i j : Int} (hw : w.WFs s) (h : s.range i j = .ok t) : w.WFs t := by
  obtain ⟨a, b⟩ := hw
  unfold HSlice.range at h
  split at h
  · simp only [Except.ok.injEq] at h
    subst h
    constructor <;> simp only <;> omega
  · simp at h

/-- Slicing a reference and slicing a value agree. -/
theorem World.slice_dropFrom {w : World} {s : HSlice} (hw : w.WFs s) (i : Int) :
    (w.slice s).dropFrom i = (s.dropFrom i).map w.slice := by
  unfold Slice.dropFrom HSlice.dropFrom
  rw [w.slice_len hw]
  by_cases h : 0 ≤ i ∧ i ≤ s.len
  · rw [if_pos h, if_pos h]
    simp only [Except.map, Except.ok.injEq, World.slice, World.full, Slice.mk.injEq]
    obtain ⟨n, rfl⟩ : ∃ n : Nat, i = n := ⟨i.toNat, by omega⟩
    have h2 : n ≤ s.len := by omega
    have h3 := hw.1
    simp only [Int.toNat_natCast]
    constructor
    · rw [List.drop_take, List.take_take, List.drop_take, List.drop_drop, List.take_take]
    · rw [← List.drop_drop, List.drop_take, List.drop_take, List.drop_drop, List.drop_drop, List.drop_drop]
      congr 1
      · omega
      · congr 1; omega
  · rw [if_neg h, if_neg h]; rfl

theorem World.slice_range {w : World} {s : HSlice} (hw : w.WFs s) (i j : Int) :
    (w.slice s).range i j = (s.range i j).map w.slice := by
  unfold Slice.range HSlice.range
  have e : ((w.slice s).data.length + (w.slice s).spare.length : Int) = s.cap := by
    rw [w.slice_len hw, w.slice_spare hw]
    have := hw.1
    omega
  rw [e]
  by_cases h : 0 ≤ i ∧ i ≤ j ∧ j ≤ s.cap
  · rw [if_pos h, if_pos h]
    simp only [Except.map, Except.ok.injEq, World.slice_append]
    obtain ⟨n, rfl⟩ : ∃ n : Nat, i = n := ⟨i.toNat, by omega⟩
    obtain ⟨k, rfl⟩ : ∃ k : Nat, j = k := ⟨j.toNat, by omega⟩
    have h1 : n ≤ k := by omega
    have h2 : k ≤ s.cap := by omega
    simp only [Int.toNat_natCast, World.slice, World.full, Slice.mk.injEq]
    constructor
    · rw [List.drop_take, List.take_take, List.take_take, List.drop_drop]
    · rw [List.drop_take, List.drop_take, List.drop_drop, List.drop_drop]
      congr 1
      · omega
      · congr 1; omega
  · rw [if_neg h, if_neg h]; rfl

/-! ## Frames -/

theorem SFrame.refl (w : World) (s : HSlice) : SFrame w w s s :=
  ⟨Nat.le_refl _, fun _ _ => rfl, fun _ _ _ _ => rfl, fun _ _ h => Or.inl h⟩

theorem SFrame.trans {w1 w2 w3 : World} {s1 s2 s3 : HSlice} (h : SFrame w1 w2 s1 s2) (h' : SFrame w2 w3 s2 s3) :
    SFrame w1 w3 s1 s3 where
  grow := Nat.le_trans h.grow h'.grow
  size i hi := by rw [h'.size i (Nat.lt_of_lt_of_le hi h.grow), h.size i hi]
  cells i p hi ho := by
    rw [h'.cells i p (Nat.lt_of_lt_of_le hi h.grow), h.cells i p hi ho]
    intro h2
    rcases h.owned i p h2 with h3 | h3
    · exact ho h3
    · omega
  owned i p h3 := by
    rcases h'.owned i p h3 with h2 | h2
    · exact h.owned i p h2
    · right; have := h.grow; omega

theorem SFrame.wf {w w' : World} {s s' t : HSlice} (h : SFrame w w' s s') (ht : w.WFs t) : w'.WFs t := by
  refine ⟨ht.1, ?_⟩
  rcases Nat.lt_or_ge t.arr w.arrs.length with hl | hl
  · rw [h.size _ hl]; exact ht.2
  · have : w.arr t.arr = [] := by
      unfold World.arr; rw [List.getD_eq_getElem?_getD, List.getElem?_eq_none hl]; rfl
    have h2 := ht.2
    rw [this] at h2
    simp at h2
    omega

/-- A slice sharing no cell with the changed one keeps its value. -/
theorem SFrame.slice_eq {w w' : World} {s s' t : HSlice} (h : SFrame w w' s s') (ht : w.WFs t)
    (hd : ∀ i p, s.owns i p → ¬ t.owns i p) : w'.slice t = w.slice t :=
  World.slice_congr fun i p ho => h.cells i p (ht.cell_lt ho) (fun hs => hd i p hs ho)

/-- Only the readable part of `t` needs to be untouched for its bytes to stay the same. -/
theorem SFrame.data_eq {w w' : World} {s s' t : HSlice} (h : SFrame w w' s s') (ht : w.WFs t)
    (hd : ∀ p, t.off ≤ p → p < t.off + t.len → ¬ s.owns t.arr p) : (w'.slice t).data = (w.slice t).data := by
  have e : ∀ v : World, (v.slice t).data = ((v.full ⟨t.arr, t.off, t.len, t.len⟩)) := by
    intro v
    simp only [World.slice, World.full, List.take_take]
    have := ht.1
    congr 1; omega
  rw [e, e]
  apply World.full_congr
  rintro i p ⟨h1, h2, h3⟩
  simp only at h1 h2 h3
  subst h1
  exact h.cells _ p (ht.cell_lt (i := t.arr) (p := p) ⟨rfl, h2, by have := ht.1; omega⟩) (hd p h2 h3)

/-! ## Writing -/

theorem SFrame.write {w : World} {s : HSlice} {k : Nat} {bs : List Byte} (hw : w.WFs s) (h : k + bs.length ≤ s.cap) :
    SFrame w (w.write s.arr (s.off + k) bs) s s where
  grow := by simp [World.write]
  size i hi := by
    have := hw.2
    rw [World.arr_write _ _ _ _ (by omega)]
    split
    · next e => subst e; exact overwriteAt_length _ _ _ (by omega)
    · rfl
  cells i p hi ho := by
    have := hw.2
    rw [World.cell_write _ _ _ _ (by omega), if_neg]
    rintro ⟨h1, h2, h3⟩
    exact ho ⟨h1.symm, by omega, by omega⟩
  owned i p h := Or.inl h

theorem World.write_full {w : World} {s : HSlice} {k : Nat} {bs : List Byte} (hw : w.WFs s) (h : k + bs.length ≤ s.cap) :
    (w.write s.arr (s.off + k) bs).full s = overwriteAt (w.full s) k bs := by
  have h2 := hw.2
  apply List.ext_getElem?
  intro p
  rw [full_getElem?, World.cell_write _ _ _ _ (by omega), overwriteAt_getElem? (by rw [full_length hw]; omega), full_getElem?]
  by_cases hp : p < s.cap
  · rw [if_pos hp, if_pos hp]
    by_cases hk : k ≤ p ∧ p < k + bs.length
    · rw [if_pos (by omega), if_pos hk]; congr 1; omega
    · rw [if_neg (by omega), if_neg hk]
  · rw [if_neg hp, if_neg hp, if_neg (by omega)]

/-- `copy(s[i:], src)`. -/
theorem World.copy_spec {w : World} {s d : HSlice} {i : Nat} (hw : w.WFs s) (hd : s.dropFrom i = .ok d) (src : List Byte) :
    (w.copy d src).slice s = ⟨overwriteAt (w.slice s).data i src, (w.slice s).spare⟩ ∧ SFrame w (w.copy d src) s s ∧
    (w.copy d src).maps = w.maps := by
  unfold HSlice.dropFrom at hd
  split at hd
  · rename_i hi
    simp only [Except.ok.injEq, Int.toNat_natCast] at hd
    subst hd
    have h1 := hw.1
    have hlen : i + (src.take (s.len - i)).length ≤ s.cap := by rw [List.length_take]; omega
    have e : w.copy ⟨s.arr, s.off + i, s.len - i, s.cap - i⟩ src = w.write s.arr (s.off + i) (src.take (s.len - i)) := rfl
    rw [e]
    refine ⟨?_, SFrame.write hw hlen, rfl⟩
    unfold World.slice
    rw [World.write_full hw hlen]
    have fl := full_length hw
    simp only [Slice.mk.injEq]
    have hdl : ((w.full s).take s.len).length = s.len := by rw [List.length_take, fl]; omega
    have hov : overwriteAt ((w.full s).take s.len) i src = overwriteAt ((w.full s).take s.len) i (src.take (s.len - i)) := by
      unfold overwriteAt
      rw [hdl]
      simp only [List.length_take, List.take_take]
      have : min (min (s.len - i) src.length) (s.len - i) = min src.length (s.len - i) := by omega
      rw [this]
      congr 2
      congr 1; omega
    constructor
    · rw [hov]
      apply List.ext_getElem?
      intro p
      rw [overwriteAt_getElem? (by rw [hdl, List.length_take]; omega)]
      by_cases hp : p < s.len
      · rw [List.getElem?_take_of_lt hp, overwriteAt_getElem? (by rw [fl]; omega), List.getElem?_take_of_lt hp]
      · rw [List.getElem?_eq_none (by rw [List.length_take, overwriteAt_length _ _ _ (by omega)]; omega)]
        rw [if_neg (by rw [List.length_take]; omega), List.getElem?_eq_none (by omega)]
    · apply List.ext_getElem?
      intro p
      rw [List.getElem?_drop, List.getElem?_drop, overwriteAt_getElem? (by rw [fl]; omega)]
      rw [if_neg (by rw [List.length_take]; omega)]
  · simp at hd

/-- `append`. -/
theorem World.append_spec (rt : Rt) {w : World} {s : HSlice} (hw : w.WFs s) (xs : List Byte) :
    match goAppend rt (w.slice s) xs with
    | .error e => w.append rt s xs = .error e
    | .ok b => ∃ s' w', w.append rt s xs = .ok (s', w') ∧ w'.slice s' = b ∧ w'.WFs s' ∧ SFrame w w' s s' ∧
        w'.maps = w.maps ∧ s'.len = s.len + xs.length := by
  have fl := full_length hw
  have h1 := hw.1
  have h2 := hw.2
  unfold goAppend World.append
  rw [w.slice_len hw, w.slice_spare hw]
  by_cases hm : s.len + xs.length < maxLen
  · rw [if_pos hm, if_pos hm]
    by_cases hc : xs.length ≤ s.cap - s.len
    · rw [if_pos hc, if_pos (by omega)]
      have hwr : s.len + xs.length ≤ s.cap := by omega
      refine ⟨_, _, rfl, ?_, ?_, ?_, rfl, rfl⟩
      · have hf := World.write_full (bs := xs) hw hwr
        have hf' : (w.write s.arr (s.off + s.len) xs).full ⟨s.arr, s.off, s.len + xs.length, s.cap⟩ = overwriteAt (w.full s) s.len xs := hf
        unfold World.slice
        rw [hf']
        simp only [Slice.mk.injEq]
        have hdl : ((w.full s).take s.len).length = s.len := by rw [List.length_take, fl]; omega
        constructor
        · apply List.ext_getElem?
          intro p
          rw [List.getElem?_append, hdl]
          by_cases hp : p < s.len + xs.length
          · rw [List.getElem?_take_of_lt hp, overwriteAt_getElem? (by rw [fl]; omega)]
            by_cases hp2 : p < s.len
            · rw [if_neg (by omega), if_pos hp2, List.getElem?_take_of_lt hp2]
            · rw [if_pos (by omega), if_neg hp2]
          · rw [List.getElem?_eq_none (by rw [List.length_take]; omega), if_neg (by omega), List.getElem?_eq_none (by omega)]
        · apply List.ext_getElem?
          intro p
          rw [List.getElem?_drop, List.getElem?_drop, List.getElem?_drop, overwriteAt_getElem? (by rw [fl]; omega), if_neg (by omega)]
          congr 1; omega
      · exact (SFrame.write hw hwr).wf (t := ⟨s.arr, s.off, s.len + xs.length, s.cap⟩) ⟨hwr, h2⟩
      · have f := SFrame.write (bs := xs) hw hwr
        exact ⟨f.grow, f.size, f.cells, fun i p h => Or.inl h⟩
    · rw [if_neg hc, if_neg (by omega)]
      have hcap : (w.slice s).cap = s.cap := by
        unfold Slice.cap; rw [w.slice_len hw, w.slice_spare hw]; omega
      simp only [hcap]
      have harr : ∀ bs i, (w.alloc bs).2.arr i = if i = w.arrs.length then bs else w.arr i := by
        intro bs i
        simp only [World.alloc, World.arr, List.getD_eq_getElem?_getD]
        rw [List.getElem?_append]
        by_cases hi : i < w.arrs.length
        · rw [if_pos hi, if_neg (by omega)]
        · rw [if_neg hi]
          by_cases hj : i = w.arrs.length
          · rw [if_pos hj, hj]; simp
          · rw [if_neg hj, List.getElem?_eq_none (by simp; omega), List.getElem?_eq_none (by omega)]
      refine ⟨_, _, rfl, ?_, ?_, ?_, rfl, rfl⟩
      · unfold World.slice World.full
        rw [harr]
        simp only [World.alloc, if_true, List.drop_zero]
        have hl : ((w.slice s).data ++ xs).length = s.len + xs.length := by rw [List.length_append, w.slice_len hw]
        have hl2 : ((w.slice s).data ++ xs ++ rt.grow s.cap (s.len + xs.length)).length =
            s.len + xs.length + (rt.grow s.cap (s.len + xs.length)).length := by rw [List.length_append, hl]
        have hD : (w.slice s).data = List.take s.len (List.take s.cap (List.drop s.off (w.arr s.arr))) := rfl
        rw [← hD]
        rw [← hl2, List.take_length, ← hl, List.take_left, List.drop_left]
      · refine ⟨by simp only; omega, ?_⟩
        rw [harr]
        simp only [World.alloc, if_true, Nat.zero_add, List.length_append, w.slice_len hw]
        omega
      · refine ⟨by simp [World.alloc], ?_, ?_, ?_⟩
        · intro i hi; rw [harr, if_neg (by omega)]
        · intro i p hi _
          unfold World.cell; rw [harr, if_neg (by omega)]
        · rintro i p ⟨h1, _⟩
          right; simp only [World.alloc] at h1; omega
  · rw [if_neg hm, if_neg hm]

end Zeropb
