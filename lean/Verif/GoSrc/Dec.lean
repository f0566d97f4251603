import Verif.GoSrc.Scan
/-!
# The interpreted source of `Decode` computes the model
-/

set_option linter.constructorNameAsVariable false
set_option linter.unusedSimpArgs false
set_option linter.unusedSectionVars false

namespace Zeropb.GoSrc

attribute [local congr] bind_head

theorem storeOffs_storeOffs {w : World} {m : HMsg} {o o' : Offsets} (h : m.m ≠ none → o.m ≠ none) (h' : o.m ≠ none → o'.m ≠ none) :
    (w.storeOffs m o).2.storeOffs (w.storeOffs m o).1 o' = w.storeOffs m o' := by
  cases m with
  | mk buf a mm =>
  cases o with
  | mk oa om =>
  cases o' with
  | mk oa' om' =>
  cases mm with
  | none =>
    cases om with
    | none => cases om' <;> rfl
    | some mp =>
      cases om' with
      | none => exact absurd rfl (h' (by simp))
      | some mp' => simp [World.storeOffs]
  | some id =>
    cases om with
    | none => exact absurd rfl (h (by simp))
    | some mp =>
      cases om' with
      | none => exact absurd rfl (h' (by simp))
      | some mp' => simp [World.storeOffs]

theorem storeOffs_self (w : World) (m : HMsg) : w.storeOffs m (w.offs m) = (m, w) := by
  cases m with
  | mk buf a mm =>
    cases mm with
    | none => rfl
    | some id => simp only [World.storeOffs, World.offs, Option.map_some, getD_set_self]

/-- The heap with the offsets of struct `i` replaced. -/
def Heap.withOffs (h : Heap) (i : Nat) (o : Offsets) : Heap := h.upd i (h.w.storeOffs (h.ms i) o)

theorem set_isSome {o o' : Offsets} {f : Nat} {x : U64} (h : o.set f x = .ok o') : o.m ≠ none → o'.m ≠ none := by
  unfold Offsets.set at h
  simp only [bind, Except.bind] at h
  split at h
  · cases hs : o.slot f with
    | error e => rw [hs] at h; cases h
    | ok v =>
      rw [hs] at h
      simp only [pure, Except.pure, Except.ok.injEq] at h
      subst h
      intro hm
      split
      · simpa using hm
      · exact hm
  · cases hs : o.slot f with
    | error e => rw [hs] at h; cases h
    | ok v =>
      rw [hs] at h
      simp only [pure, Except.pure, Except.ok.injEq] at h
      subst h
      simp

section
variable {h : Heap} {i : Nat} {o : Offsets} (hw : ∀ id, (h.ms i).m = some id → id < h.w.maps.length) (ho : (h.ms i).m ≠ none → o.m ≠ none)
include hw ho

theorem withOffs_offs : (h.withOffs i o).w.offs ((h.withOffs i o).ms i) = o := by
  have := World.storeOffs_spec (w := h.w) (m := { h.ms i with buf := ⟨h.w.arrs.length, 0, 0, 0⟩ }) (o := o)
    ⟨⟨Nat.le_refl _, by simp⟩, hw⟩ ho
  have e := World.storeOffs_buf h.w (h.ms i) o ⟨h.w.arrs.length, 0, 0, 0⟩
  rw [e] at this
  simp only [Heap.withOffs, upd_ms, upd_w]
  exact this.1

theorem withOffs_wf : ∀ id, ((h.withOffs i o).ms i).m = some id → id < (h.withOffs i o).w.maps.length := by
  have := World.storeOffs_spec (w := h.w) (m := { h.ms i with buf := ⟨h.w.arrs.length, 0, 0, 0⟩ }) (o := o)
    ⟨⟨Nat.le_refl _, by simp⟩, hw⟩ ho
  have e := World.storeOffs_buf h.w (h.ms i) o ⟨h.w.arrs.length, 0, 0, 0⟩
  rw [e] at this
  simp only [Heap.withOffs, upd_ms, upd_w]
  exact this.2.2.2.1

theorem withOffs_withOffs {o' : Offsets} (h' : o.m ≠ none → o'.m ≠ none) : (h.withOffs i o).withOffs i o' = h.withOffs i o' := by
  simp only [Heap.withOffs, upd_ms, upd_w, upd_upd, storeOffs_storeOffs ho h']

/-- `Get`, the offsets given. -/
theorem go_Get' (rt : Rt) (d f : Nat) : goCall rt (d + 1) .Get [.offs i, .int f] (h.withOffs i o) =
    (lift (o.get f) >>= fun r => .ok ([.u64 r.1, .bool r.2], h.withOffs i o)) := by
  rw [go_Get, withOffs_offs hw ho]

/-- `Set`, the offsets given. -/
theorem go_Set' (rt : Rt) (d f : Nat) (x : U64) : goCall rt (d + 1) .Set [.offs i, .int f, .u64 x] (h.withOffs i o) =
    (lift (o.set f x) >>= fun o' => .ok ([], h.withOffs i o')) := by
  rw [go_Set rt d i f x _ (withOffs_wf hw ho), withOffs_offs hw ho]
  cases e : o.set f x with
  | error e => rfl
  | ok o' =>
    simp only [lift, bind, Except.bind]
    rw [show (h.withOffs i o).upd i ((h.withOffs i o).w.storeOffs ((h.withOffs i o).ms i) o') = (h.withOffs i o).withOffs i o' from rfl,
      withOffs_withOffs hw ho (set_isSome e)]
end

theorem withOffs_arrs (h : Heap) (i : Nat) (o : Offsets) : (h.withOffs i o).w.arrs = h.w.arrs := by
  simp only [Heap.withOffs, upd_w]
  unfold World.storeOffs
  split <;> rfl

theorem withOffs_slice (h : Heap) (i : Nat) (o : Offsets) (s : HSlice) : (h.withOffs i o).w.slice s = h.w.slice s :=
  World.slice_arrs (withOffs_arrs h i o) s

/-- The error `Decode` returns. -/
def errVal : Option DecErr → Val
  | none => .nil
  | some .unexpectedEOF => .eof

/-- The variables of `Decode` in its loop. -/
def decEnv (b : HSlice) (i : Nat) (rep : Nat → Bool) (idx : Int) : List (Id × Val) :=
  [(.idx, .int idx), (.buf, .bytes (.mem b)), (.offsets, .offs i), (.repeatedFields, .reps rep)]

/-- How the loop of `Decode` ends. -/
def DecR (h : Heap) (i : Nat) (r : Offsets × Option DecErr) (o : Out × St) : Prop :=
  o.1 = .ret [errVal r.2] ∧ o.2.h = h.withOffs i r.1

theorem clear_isSome (o : Offsets) : o.m ≠ none → o.clear.m ≠ none := by
  cases o with
  | mk a m => cases m <;> simp [Offsets.clear]

theorem decode_loop (rt : Rt) (d : Nat) (b : HSlice) (i : Nat) (rep : Nat → Bool) (h : Heap) (hb : h.w.WFs b)
    (hw : ∀ id, (h.ms i).m = some id → id < h.w.maps.length) (x : Int × Offsets) (hx : (h.ms i).m ≠ none → x.2.m ≠ none) :
    Rel (DecR h i) (iterate (decodeStep (h.w.slice b) rep) x)
      (loopWhile (fun s => .ok (.bool true, s)) (exec rt (goCall rt (d + 1)) srcDecode_loop1) ⟨h.withOffs i x.2, decEnv b i rep x.1⟩) := by
  refine loop_sim (fun x => (h.ms i).m ≠ none → x.2.m ≠ none) (fun x => ⟨h.withOffs i x.2, decEnv b i rep x.1⟩) _ _ ?_ x hx
  clear hx x
  rintro ⟨idx, o⟩ ho
  have ho : (h.ms i).m ≠ none → o.m ≠ none := ho
  have hg := fun f => go_Get' hw ho rt d f
  have hs := fun f x => go_Set' hw ho rt d f x
  simp only [decodeStep, loopStep, World.slice_len hb]
  by_cases h1 : idx = (b.len : Int)
  · rw [if_pos h1]
    gosimp [srcDecode_loop1, decEnv, eq_true h1]
    exact ⟨_, rfl, rfl, rfl⟩
  rw [if_neg h1]
  by_cases h2 : idx > (b.len : Int)
  · rw [if_pos h2]
    gosimp [srcDecode_loop1, decEnv, h1, eq_true h2]
    exact ⟨_, rfl, rfl, rfl⟩
  rw [if_neg h2, World.slice_dropFrom hb]
  rcases e1 : b.dropFrom idx with e | s
  · gosimp [srcDecode_loop1, decEnv, h1, h2, e1]
    rfl
  obtain ⟨tag, size, hu⟩ : ∃ tag size, uvarint (h.w.slice s).data = (tag, size) := ⟨_, _, rfl⟩
  simp only [Except.map, bind, Except.bind, hu]
  by_cases h3 : size = 0
  · rw [if_pos h3]
    gosimp [srcDecode_loop1, decEnv, h1, h2, e1, withOffs_slice, hu, eq_true h3]
    exact ⟨_, rfl, rfl, rfl⟩
  rw [if_neg h3]
  obtain ⟨idx2, hi⟩ : ∃ j, addInt idx size = j := ⟨_, rfl⟩
  rw [hi]
  by_cases h4 : idx2 ≥ (b.len : Int)
  · rw [if_pos h4]
    gosimp [srcDecode_loop1, decEnv, h1, h2, e1, withOffs_slice, hu, h3, hi, eq_true h4]
    exact ⟨_, rfl, rfl, rfl⟩
  rw [if_neg h4]
  obtain ⟨fid, hfid⟩ : ∃ n, tagField tag = n := ⟨_, rfl⟩
  have hid : u64ToInt (tag >>> 3) = (fid : Int) := by rw [u64ToInt_shr, hfid]
  rw [hfid, World.slice_dropFrom hb]
  cases hr : rep fid with
  | false =>
    rcases e2 : o.set fid (intToU64 idx2) with e | o'
    · gosimp [srcDecode_loop1, decEnv, h1, h2, e1, withOffs_slice, hu, h3, hi, h4, hid, hr, hs, e2]
      simp only [recordOffset, hr, e2]
      rfl
    have hrec : recordOffset rep o fid idx2 = .ok o' := by simp only [recordOffset, hr, e2]; rfl
    simp only [hrec]
    rcases e3 : b.dropFrom idx2 with e | t
    · gosimp [srcDecode_loop1, decEnv, h1, h2, e1, withOffs_slice, hu, h3, hi, h4, hid, hr, hs, e2, go_fieldDataSize, e3]
      rfl
    rcases e4 : fieldDataSize (tagType tag) (h.w.slice t).data with e | n
    · have e4' : fieldDataSize (tag &&& 7#64).toNat (h.w.slice t).data = _ := e4
      simp only [Except.map, e4]
      gosimp [srcDecode_loop1, decEnv, h1, h2, e1, withOffs_slice, hu, h3, hi, h4, hid, hr, hs, e2, go_fieldDataSize, e3, e4']
      rfl
    have e4' : fieldDataSize (tag &&& 7#64).toNat (h.w.slice t).data = _ := e4
    simp only [Except.map, e4]
    by_cases h5 : n = 0
    · rw [if_pos h5]
      gosimp [srcDecode_loop1, decEnv, h1, h2, e1, withOffs_slice, hu, h3, hi, h4, hid, hr, hs, e2, go_fieldDataSize, e3, e4', eq_true h5]
      exact ⟨_, rfl, rfl, rfl⟩
    · obtain ⟨idx3, hi3⟩ : ∃ j, addInt idx2 n = j := ⟨_, rfl⟩
      rw [if_neg h5, hi3]
      gosimp [srcDecode_loop1, decEnv, h1, h2, e1, withOffs_slice, hu, h3, hi, h4, hid, hr, hs, e2, go_fieldDataSize, e3, e4', h5, hi3]
      exact ⟨rfl, fun hm => set_isSome e2 (ho hm)⟩
  | true =>
    rcases e0 : o.get fid with e | ⟨off, _ | _⟩
    · gosimp [srcDecode_loop1, decEnv, h1, h2, e1, withOffs_slice, hu, h3, hi, h4, hid, hr, hg, e0]
      simp only [recordOffset, hr, e0]
      rfl
    · rcases e2 : o.set fid (intToU64 idx2) with e | o'
      · gosimp [srcDecode_loop1, decEnv, h1, h2, e1, withOffs_slice, hu, h3, hi, h4, hid, hr, hg, e0, hs, e2]
        simp only [recordOffset, hr, e0, e2]
        rfl
      have hrec : recordOffset rep o fid idx2 = .ok o' := by simp only [recordOffset, hr, e0, e2]; rfl
      simp only [hrec]
      rcases e3 : b.dropFrom idx2 with e | t
      · gosimp [srcDecode_loop1, decEnv, h1, h2, e1, withOffs_slice, hu, h3, hi, h4, hid, hr, hg, e0, hs, e2, go_fieldDataSize, e3]
        rfl
      rcases e4 : fieldDataSize (tagType tag) (h.w.slice t).data with e | n
      · have e4' : fieldDataSize (tag &&& 7#64).toNat (h.w.slice t).data = _ := e4
        simp only [Except.map, e4]
        gosimp [srcDecode_loop1, decEnv, h1, h2, e1, withOffs_slice, hu, h3, hi, h4, hid, hr, hg, e0, hs, e2, go_fieldDataSize, e3, e4']
        rfl
      have e4' : fieldDataSize (tag &&& 7#64).toNat (h.w.slice t).data = _ := e4
      simp only [Except.map, e4]
      by_cases h5 : n = 0
      · rw [if_pos h5]
        gosimp [srcDecode_loop1, decEnv, h1, h2, e1, withOffs_slice, hu, h3, hi, h4, hid, hr, hg, e0, hs, e2, go_fieldDataSize, e3, e4', eq_true h5]
        exact ⟨_, rfl, rfl, rfl⟩
      · obtain ⟨idx3, hi3⟩ : ∃ j, addInt idx2 n = j := ⟨_, rfl⟩
        rw [if_neg h5, hi3]
        gosimp [srcDecode_loop1, decEnv, h1, h2, e1, withOffs_slice, hu, h3, hi, h4, hid, hr, hg, e0, hs, e2, go_fieldDataSize, e3, e4', h5, hi3]
        exact ⟨rfl, fun hm => set_isSome e2 (ho hm)⟩
    · have hrec : recordOffset rep o fid idx2 = .ok o := by simp only [recordOffset, hr, e0]; rfl
      simp only [hrec]
      rcases e3 : b.dropFrom idx2 with e | t
      · gosimp [srcDecode_loop1, decEnv, h1, h2, e1, withOffs_slice, hu, h3, hi, h4, hid, hr, hg, e0, go_fieldDataSize, e3]
        rfl
      rcases e4 : fieldDataSize (tagType tag) (h.w.slice t).data with e | n
      · have e4' : fieldDataSize (tag &&& 7#64).toNat (h.w.slice t).data = _ := e4
        simp only [Except.map, e4]
        gosimp [srcDecode_loop1, decEnv, h1, h2, e1, withOffs_slice, hu, h3, hi, h4, hid, hr, hg, e0, go_fieldDataSize, e3, e4']
        rfl
      have e4' : fieldDataSize (tag &&& 7#64).toNat (h.w.slice t).data = _ := e4
      simp only [Except.map, e4]
      by_cases h5 : n = 0
      · rw [if_pos h5]
        gosimp [srcDecode_loop1, decEnv, h1, h2, e1, withOffs_slice, hu, h3, hi, h4, hid, hr, hg, e0, go_fieldDataSize, e3, e4', eq_true h5]
        exact ⟨_, rfl, rfl, rfl⟩
      · obtain ⟨idx3, hi3⟩ : ∃ j, addInt idx2 n = j := ⟨_, rfl⟩
        rw [if_neg h5, hi3]
        gosimp [srcDecode_loop1, decEnv, h1, h2, e1, withOffs_slice, hu, h3, hi, h4, hid, hr, hg, e0, go_fieldDataSize, e3, e4', h5, hi3]
        exact ⟨rfl, ho⟩

/-- zeropb.go:421-467. -/
theorem go_Decode (rt : Rt) (d i : Nat) (b : HSlice) (rep : Nat → Bool) (h : Heap) (hb : h.w.WFs b)
    (hw : ∀ id, (h.ms i).m = some id → id < h.w.maps.length) :
    goCall rt (d + 2) .Decode [.bytes (.mem b), .offs i, .reps rep] h =
    (lift (decode (h.w.slice b) (h.w.offs (h.ms i)) rep) >>= fun r =>
      .ok ([errVal r.2], h.upd i (h.w.storeOffs (h.ms i) r.1))) := by
  rw [goCall, show funcOf .Decode = some srcDecode from rfl]
  have hc := go_Clear rt d i h hw
  have hx : (h.ms i).m ≠ none → (h.w.offs (h.ms i)).clear.m ≠ none := by
    intro hm
    apply clear_isSome
    simpa [World.offs] using hm
  have key := decode_loop rt d b i rep h hb hw (0, (h.w.offs (h.ms i)).clear) hx
  simp only [Heap.withOffs, decEnv] at key
  simp only [decode]
  rcases e2 : iterate (decodeStep (h.w.slice b) rep) (0, (h.w.offs (h.ms i)).clear) with e | r
  · rw [e2] at key
    have key : loopWhile _ _ _ = _ := key
    gosimp [srcDecode, hc, key]
  · rw [e2] at key
    obtain ⟨⟨o, st⟩, ho, hr⟩ := key
    obtain ⟨h1, h2⟩ := hr
    simp only at h1 h2
    subst h1
    gosimp [srcDecode, hc, ho]
    rw [h2]
    obtain ⟨r1, r2⟩ := r
    cases r2 with
    | none => rfl
    | some v => cases v; rfl

end Zeropb.GoSrc
