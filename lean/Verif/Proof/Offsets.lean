import Verif.Model.Access
/-!
# Lemmas about `Offsets`: it represents a partial map from field ids to offsets
-/

set_option linter.unusedSimpArgs false

namespace Zeropb

namespace GoMap

theorem find_del (m : GoMap) (k k' : Nat) : (m.del k).find k' = if k' = k then none else m.find k' := by
  induction m with
  | nil => simp [del, find]
  | cons e m ih =>
    obtain ⟨k0, v⟩ := e
    simp only [del] at ih
    simp only [del, List.filter_cons]
    by_cases h : k0 = k
    · subst h
      simp only [ne_eq, not_true_eq_false, decide_false, Bool.false_eq_true, if_false, ih, find]
      split
      · rfl
      · rw [if_neg (fun h => by omega)]
    · simp only [ne_eq, h, not_false_eq_true, decide_true, if_true, find]
      by_cases h2 : k0 = k'
      · subst h2; simp [h]
      · simp only [h2, if_false, ih]

theorem find_put (m : GoMap) (k k' : Nat) (v : U64) :
    (m.put k v).find k' = if k' = k then some v else m.find k' := by
  simp only [put, find]
  by_cases h : k = k'
  · subst h; simp
  · rw [if_neg h, if_neg (Ne.symm h), find_del, if_neg (Ne.symm h)]

theorem find_isSome (m : GoMap) (k : Nat) : (m.find k).isSome ↔ k ∈ m.keys := by
  induction m with
  | nil => simp [find, keys]
  | cons e m ih =>
    obtain ⟨k0, v⟩ := e
    simp only [find, keys, List.map_cons, List.mem_cons]
    by_cases h : k0 = k
    · subst h; simp
    · simp only [h, if_false, ih, keys]
      constructor
      · exact Or.inr
      · rintro (rfl | h')
        · exact absurd rfl h
        · exact h'

theorem keys_del_nodup (m : GoMap) (k : Nat) (h : m.keys.Nodup) : (m.del k).keys.Nodup := by
  simp only [keys, del] at *
  exact List.Nodup.sublist (List.Sublist.map _ List.filter_sublist) h

theorem keys_put_nodup (m : GoMap) (k : Nat) (v : U64) (h : m.keys.Nodup) : (m.put k v).keys.Nodup := by
  have h1 := keys_del_nodup m k h
  have h2 : k ∉ (m.del k).keys := by
    rw [← find_isSome, find_del]; simp
  simp only [put, keys, List.map_cons, List.nodup_cons] at *
  exact ⟨h2, h1⟩

end GoMap

namespace Offsets

/-- `(*o.m)[f]` with presence. -/
def mfind (o : Offsets) (f : Nat) : Option U64 := o.m.bind (·.find f)

/-- The offset recorded for a field id, if any. -/
def view (o : Offsets) (f : Nat) : Option Nat :=
  match o.a[f]? with
  | none => none
  | some v => if v = offsetInMap then (o.mfind f).map BitVec.toNat
              else if v = offsetUnset then none else some v.toNat

/-- The documented invariant (offsets.go:21-24): a field id is in the map iff its array slot holds
the sentinel; moreover only large offsets are in the map, and keys are unique. -/
structure Inv (o : Offsets) : Prop where
  iff : ∀ f, (o.mfind f).isSome ↔ o.a[f]? = some offsetInMap
  large : ∀ f v, o.mfind f = some v → 65534 < v.toNat
  nodup : ((o.m.getD []).keys).Nodup

theorem Inv.none_of {o : Offsets} (h : o.Inv) {f : Nat} {v : U16} (ha : o.a[f]? = some v) (hv : v ≠ offsetInMap) :
    o.mfind f = none := by
  cases hm : o.mfind f with
  | none => rfl
  | some x =>
    have := (h.iff f).1 (by simp [hm])
    rw [ha] at this
    exact absurd (Option.some.inj this) hv

theorem mapRead_eq (o : Offsets) (f : Nat) : o.mapRead f = (o.mfind f).getD 0#64 := by
  unfold mapRead mfind
  cases o.m <;> rfl

/-- `Get` in terms of `view`. -/
theorem get_eq {o : Offsets} (h : o.Inv) {f : Nat} (hf : f < o.a.length) :
    o.get f = .ok (match o.view f with | none => (0#64, false) | some n => (BitVec.ofNat 64 n, true)) := by
  have ha : o.a[f]? = some o.a[f] := List.getElem?_eq_getElem hf
  generalize o.a[f] = v at ha
  simp only [get, slot, view, ha]
  by_cases hv : v = offsetInMap
  · subst hv
    simp only [ne_eq, not_true_eq_false, if_false, if_true, mapRead_eq]
    have := (h.iff f).2 ha
    obtain ⟨x, hx⟩ := Option.isSome_iff_exists.1 this
    simp [hx, bind, Except.bind, pure, Except.pure]
  · by_cases h0 : v = offsetUnset
    · subst h0; simp [offsetUnset, offsetInMap, bind, Except.bind, pure, Except.pure]
    · simp only [ne_eq, hv, not_false_eq_true, if_true, if_false, h0, bind, Except.bind, pure, Except.pure, decide_not, decide_false, Bool.not_false]
      congr 2
      apply BitVec.eq_of_toNat_eq
      have := v.isLt
      simp

theorem get_fail {o : Offsets} {f : Nat} (hf : o.a.length ≤ f) : o.get f = .error .indexOutOfRange := by
  simp [get, slot, List.getElem?_eq_none hf, bind, Except.bind]

theorem set_fail {o : Offsets} {f : Nat} (off : U64) (hf : o.a.length ≤ f) :
    o.set f off = .error .indexOutOfRange := by
  unfold set
  split <;> simp [slot, List.getElem?_eq_none hf, bind, Except.bind]

theorem small_iff (off : U64) : off ≤ offsetMaxInArray.setWidth 64 ↔ off.toNat ≤ 65534 := by
  rw [BitVec.le_def]; simp [offsetMaxInArray, offsetInMap]

theorem set_small {o : Offsets} (h : o.Inv) {f : Nat} {off : U64} (hf : f < o.a.length)
    (hoff : off.toNat ≤ 65534) :
    ∃ m', o.set f off = .ok ⟨o.a.set f (off.setWidth 16), m'⟩ ∧ (o.m = none → m' = none) ∧
      (∀ g, m'.bind (·.find g) = if g = f then none else o.mfind g) ∧
      ((m'.getD []).keys).Nodup := by
  have ha : o.a[f]? = some o.a[f] := List.getElem?_eq_getElem hf
  generalize o.a[f] = v at ha
  unfold set
  rw [if_pos ((small_iff off).2 hoff)]
  simp only [slot, ha, bind, Except.bind, pure, Except.pure]
  refine ⟨_, rfl, ?_, ?_, ?_⟩
  · intro hm; rw [hm]; split <;> rfl
  · intro g
    by_cases hv : v = offsetInMap
    · simp only [hv, if_true, mfind]
      cases hm : o.m with
      | none => simp
      | some m => simp [GoMap.find_del]
    · simp only [hv, if_false, mfind]
      by_cases hg : g = f
      · subst hg; simp only [if_true]; exact h.none_of ha hv
      · simp [hg]
  · have hn := h.nodup
    split
    · cases hm : o.m with
      | none => simp [GoMap.keys]
      | some m => rw [hm] at hn; exact GoMap.keys_del_nodup m f hn
    · exact hn

theorem set_large {o : Offsets} (h : o.Inv) {f : Nat} {off : U64} (hf : f < o.a.length)
    (hoff : 65534 < off.toNat) :
    ∃ m', o.set f off = .ok ⟨o.a.set f offsetInMap, m'⟩ ∧
      (∀ g, m'.bind (·.find g) = if g = f then some off else o.mfind g) ∧
      ((m'.getD []).keys).Nodup := by
  have ha : o.a[f]? = some o.a[f] := List.getElem?_eq_getElem hf
  unfold set
  rw [if_neg (by rw [small_iff]; omega)]
  simp only [slot, ha, bind, Except.bind, pure, Except.pure]
  refine ⟨_, rfl, ?_, ?_⟩
  · intro g
    simp only [Option.bind_some, GoMap.find_put, mfind]
    cases o.m <;> simp [GoMap.find]
  · exact GoMap.keys_put_nodup _ _ _ h.nodup

/-- `Set` updates the partial map at one point. -/
theorem set_spec {o : Offsets} (h : o.Inv) {f : Nat} {off : U64} (hf : f < o.a.length)
    (hpos : 0 < off.toNat) :
    ∃ o', o.set f off = .ok o' ∧ o'.Inv ∧ o'.a.length = o.a.length ∧
      (∀ g, o'.view g = if g = f then some off.toNat else o.view g) ∧
      (∀ g, g ≠ f → o'.mfind g = o.mfind g) ∧
      (off.toNat ≤ 65534 → o.m = none → o'.m = none) := by
  by_cases hsm : off.toNat ≤ 65534
  · obtain ⟨m', h1, h2, h3, h4⟩ := set_small h hf hsm
    have hne : off.setWidth 16 ≠ offsetInMap := by
      intro hc
      have := congrArg BitVec.toNat hc
      simp [offsetInMap] at this; omega
    have hne0 : off.setWidth 16 ≠ offsetUnset := by
      intro hc
      have := congrArg BitVec.toNat hc
      simp [offsetUnset] at this; omega
    refine ⟨_, h1, ⟨?_, ?_, h4⟩, by simp, ?_, ?_, fun _ hm => h2 hm⟩
    · intro g
      simp only [mfind, h3, List.getElem?_set]
      by_cases hg : g = f
      · subst hg; simp [hf, hne]
      · have hg' : ¬ f = g := fun h => hg h.symm
        simp only [hg, hg', if_false]; exact h.iff g
    · intro g v hv
      simp only [mfind, h3] at hv
      split at hv
      · simp at hv
      · exact h.large g v hv
    · intro g
      simp only [view, mfind, h3, List.getElem?_set]
      by_cases hg : g = f
      · subst hg
        simp only [if_true, hf, hne, hne0, if_false, Option.some.injEq]
        simp; omega
      · have hg' : ¬ f = g := fun h => hg h.symm
        simp only [hg, hg', if_false]
    · intro g hg; simp [mfind, h3, hg]
  · have hlg : 65534 < off.toNat := by omega
    obtain ⟨m', h1, h3, h4⟩ := set_large h hf hlg
    refine ⟨_, h1, ⟨?_, ?_, h4⟩, by simp, ?_, ?_, fun hc => absurd hc hsm⟩
    · intro g
      simp only [mfind, h3, List.getElem?_set]
      by_cases hg : g = f
      · subst hg; simp [hf]
      · have hg' : ¬ f = g := fun h => hg h.symm
        simp only [hg, hg', if_false]; exact h.iff g
    · intro g v hv
      simp only [mfind, h3] at hv
      split at hv
      · simp only [Option.some.injEq] at hv; subst hv; exact hlg
      · exact h.large g v hv
    · intro g
      simp only [view, mfind, h3, List.getElem?_set]
      by_cases hg : g = f
      · subst hg; simp [hf]
      · have hg' : ¬ f = g := fun h => hg h.symm
        simp only [hg, hg', if_false]
    · intro g hg; simp [mfind, h3, hg]

theorem clear_inv (o : Offsets) : o.clear.Inv := by
  have hm : ∀ f, o.clear.mfind f = none := by
    intro f; unfold mfind clear; cases o.m <;> simp [GoMap.find]
  refine ⟨?_, ?_, ?_⟩
  · intro f
    rw [hm f]
    simp only [clear, List.getElem?_map]
    cases o.a[f]? <;> simp [offsetUnset, offsetInMap]
  · intro f v h; rw [hm f] at h; simp at h
  · unfold clear; cases o.m <;> simp [GoMap.keys]

theorem clear_length (o : Offsets) : o.clear.a.length = o.a.length := by simp [clear]

theorem clear_view (o : Offsets) (f : Nat) : o.clear.view f = none := by
  have hm : o.clear.mfind f = none := by
    unfold mfind clear; cases o.m <;> simp [GoMap.find]
  unfold view
  rw [hm]
  simp only [clear, List.getElem?_map]
  cases o.a[f]? <;> simp [offsetUnset, offsetInMap]

theorem clear_m (o : Offsets) (h : o.m = none) : o.clear.m = none := by simp [clear, h]

theorem zero_inv (n : Nat) : (zero n).Inv := by
  have : (zero n).clear = zero n := by simp [clear, zero]
  rw [← this]; exact clear_inv _

theorem zero_view (n f : Nat) : (zero n).view f = none := by
  have : (zero n).clear = zero n := by simp [clear, zero]
  rw [← this]; exact clear_view _ _

theorem zero_length (n : Nat) : (zero n).a.length = n := by simp [zero]

theorem view_none_of_le {o : Offsets} {f : Nat} (h : o.a.length ≤ f) : o.view f = none := by
  simp [view, List.getElem?_eq_none h]

theorem view_lt {o : Offsets} {f n : Nat} (h : o.view f = some n) : f < o.a.length := by
  rcases Nat.lt_or_ge f o.a.length with h1 | h1
  · exact h1
  · rw [view_none_of_le h1] at h; simp at h

theorem view_pos {o : Offsets} (hi : o.Inv) {f n : Nat} (h : o.view f = some n) : 0 < n ∧ n < 2 ^ 64 := by
  have hf := view_lt h
  have ha : o.a[f]? = some o.a[f] := List.getElem?_eq_getElem hf
  generalize o.a[f] = v at ha
  simp only [view, ha] at h
  split at h
  · obtain ⟨x, hx, hx2⟩ := Option.map_eq_some_iff.1 h
    have := hi.large f x hx
    have := x.isLt
    omega
  · split at h
    · simp at h
    · simp only [Option.some.injEq] at h
      rename_i h1 h2
      have := v.isLt
      refine ⟨?_, by omega⟩
      rcases Nat.eq_zero_or_pos n with h3 | h3
      · subst h3
        exact absurd (BitVec.eq_of_toNat_eq (by simpa [offsetUnset] using h)) h2
      · exact h3

/-- An `Offsets` satisfying the invariant is determined by the partial map it represents. -/
theorem ext_view {o1 o2 : Offsets} (h1 : o1.Inv) (h2 : o2.Inv) (hl : o1.a.length = o2.a.length)
    (hv : ∀ f, o1.view f = o2.view f) : o1.a = o2.a ∧ ∀ f, o1.mfind f = o2.mfind f := by
  have key : ∀ (o : Offsets), o.Inv → ∀ f, (hf : f < o.a.length) →
      o.a[f] = (match o.view f with
        | none => 0#16
        | some n => if n ≤ 65534 then BitVec.ofNat 16 n else offsetInMap) ∧
      o.mfind f = (match o.view f with
        | none => none
        | some n => if n ≤ 65534 then none else some (BitVec.ofNat 64 n)) := by
    intro o hi f hf
    have ha : o.a[f]? = some o.a[f] := List.getElem?_eq_getElem hf
    generalize o.a[f] = v at ha
    simp only [view, ha]
    by_cases hvm : v = offsetInMap
    · subst hvm
      obtain ⟨x, hx⟩ := Option.isSome_iff_exists.1 ((hi.iff f).2 ha)
      have := hi.large f x hx
      have hnot : ¬ x.toNat ≤ 65534 := by omega
      simp [hx, hnot]
    · have hn := hi.none_of ha hvm
      by_cases h0 : v = offsetUnset
      · subst h0; simp [hvm, offsetUnset, hn]
      · have hle : v.toNat ≤ 65534 := by
          have := v.isLt
          rcases Nat.lt_or_ge 65534 v.toNat with h3 | h3
          · exact absurd (BitVec.eq_of_toNat_eq (by simp [offsetInMap]; omega)) hvm
          · exact h3
        simp [hvm, h0, hle, hn]
  constructor
  · apply List.ext_getElem hl
    intro f hf1 hf2
    rw [(key o1 h1 f hf1).1, (key o2 h2 f hf2).1, hv f]
  · intro f
    by_cases hf : f < o1.a.length
    · rw [(key o1 h1 f hf).2, (key o2 h2 f (by omega)).2, hv f]
    · have n1 : o1.mfind f = none := by
        apply Option.not_isSome_iff_eq_none.1
        rw [h1.iff f, List.getElem?_eq_none (by omega)]; simp
      have n2 : o2.mfind f = none := by
        apply Option.not_isSome_iff_eq_none.1
        rw [h2.iff f, List.getElem?_eq_none (by omega)]; simp
      rw [n1, n2]

/-! ## The adjustment of the offsets in `setSingle` -/

/-- What happens to one offset when `removed` bytes ending at `fe` are cut out. -/
def shift (fe removed n : Nat) : Nat := if fe < n then n - removed else n

theorem adjustArray_spec {o : Offsets} (h : o.Inv) (fe removed : U64) (hr : removed.toNat ≤ fe.toNat) :
    let o1 : Offsets := ⟨adjustArray o.a fe removed, o.m⟩
    o1.Inv ∧ (∀ g, o1.mfind g = o.mfind g) ∧
      ∀ g, o1.view g = if (o.mfind g).isSome then o.view g else (o.view g).map (shift fe.toNat removed.toNat) := by
  intro o1
  have hm : ∀ g, o1.mfind g = o.mfind g := fun _ => rfl
  have hslot : ∀ g : Nat, o1.a[g]? = (o.a[g]?).map (fun offset =>
    if offset ≠ 65535#16 ∧ offset.setWidth 64 > fe then offset - removed.setWidth 16 else offset) := by
    intro g; simp [o1, adjustArray]
  have hsub : ∀ v : U16, v.setWidth 64 > fe → (v - removed.setWidth 16).toNat = v.toNat - removed.toNat ∧
      removed.toNat < v.toNat := by
    intro v hv
    have hv' : fe.toNat < v.toNat := by
      have := BitVec.lt_def.1 hv
      have h3 := v.isLt
      simp at this
      omega
    have h3 := v.isLt
    refine ⟨?_, by omega⟩
    rw [BitVec.toNat_sub_of_le]
    · simp; omega
    · rw [BitVec.le_def]; simp; omega
  have hsent : ∀ v : U16, ((if v ≠ 65535#16 ∧ v.setWidth 64 > fe then v - removed.setWidth 16 else v) = offsetInMap) ↔
      v = offsetInMap := by
    intro v
    split
    · rename_i hc
      obtain ⟨h1, h2⟩ := hsub v hc.2
      constructor
      · intro he
        have := congrArg BitVec.toNat he
        rw [h1] at this
        simp only [offsetInMap, BitVec.toNat_ofNat] at this
        have hv := v.isLt
        exact BitVec.eq_of_toNat_eq (by simp [offsetInMap]; omega)
      · intro he; exact absurd he hc.1
    · exact Iff.rfl
  refine ⟨⟨?_, ?_, ?_⟩, hm, ?_⟩
  · intro g
    rw [hm, h.iff g, hslot]
    cases hg : o.a[g]? with
    | none => simp
    | some v => simp only [Option.map_some, Option.some.injEq]; rw [hsent]
  · intro g v; rw [hm]; exact h.large g v
  · exact h.nodup
  · intro g
    cases hg : o.a[g]? with
    | none => simp [view, hslot, hg]
    | some v =>
      by_cases hv : v = offsetInMap
      · subst hv
        have hs := (h.iff g).2 hg
        rw [if_pos hs]
        have := (hsent offsetInMap).2 rfl
        simp only [view, hslot, hg, Option.map_some, this, if_true]
        rw [hm g]
      · have hs : ¬ (o.mfind g).isSome := by rw [h.iff g, hg]; simpa using hv
        rw [if_neg hs]
        simp only [view, hslot, hg, Option.map_some, hsent, hv, if_false]
        by_cases hc : v ≠ 65535#16 ∧ v.setWidth 64 > fe
        · obtain ⟨h1, h2⟩ := hsub v hc.2
          have hv0 : v ≠ offsetUnset := by
            intro he; subst he; simp [offsetUnset] at h2
          have hv1 : v - removed.setWidth 16 ≠ offsetUnset := by
            intro he
            have := congrArg BitVec.toNat he
            rw [h1] at this
            simp [offsetUnset] at this; omega
          simp only [if_pos hc, hv0, hv1, if_false, Option.map_some, shift, h1]
          have := BitVec.lt_def.1 hc.2
          have h3 := v.isLt
          simp at this
          rw [if_pos (by omega)]
        · simp only [if_neg hc]
          by_cases hv0 : v = offsetUnset
          · simp [hv0]
          · simp only [hv0, if_false, Option.map_some, shift]
            rw [if_neg]
            intro hlt
            apply hc
            refine ⟨hv, ?_⟩
            have h3 := v.isLt
            rw [gt_iff_lt, BitVec.lt_def]; simp; omega

theorem adjustMap_spec (fe removed : U64) (hr : removed.toNat ≤ fe.toNat) (ks : List Nat) (hks : ks.Nodup)
    {o : Offsets} (h : o.Inv) :
    ∃ o', adjustMap fe removed ks o = .ok o' ∧ o'.Inv ∧ o'.a.length = o.a.length ∧
      (∀ g, o'.view g = if g ∈ ks ∧ (o.mfind g).isSome then (o.view g).map (shift fe.toNat removed.toNat) else o.view g) ∧
      (o.m = none → o'.m = none) := by
  induction ks generalizing o with
  | nil => exact ⟨o, rfl, h, rfl, by simp, id⟩
  | cons k ks ih =>
    rw [List.nodup_cons] at hks
    have hmf : o.m.bind (·.find k) = o.mfind k := rfl
    cases hk : o.mfind k with
    | none =>
      obtain ⟨o', h1, h2, h3, h4, h5⟩ := ih hks.2 h
      refine ⟨o', by simp only [adjustMap, hmf, hk]; exact h1, h2, h3, ?_, h5⟩
      intro g
      rw [h4 g]
      by_cases hg : g = k
      · subst hg; simp [hk]
      · simp [hg]
    | some off =>
      have ha : o.a[k]? = some offsetInMap := (h.iff k).1 (by simp [hk])
      have hkl : k < o.a.length := by
        rcases Nat.lt_or_ge k o.a.length with h1 | h1
        · exact h1
        · rw [List.getElem?_eq_none h1] at ha; simp at ha
      have hview : o.view k = some off.toNat := by simp [view, ha, hk]
      by_cases hc : off > fe
      · have hlt : fe.toNat < off.toNat := BitVec.lt_def.1 hc
        have hsub : (off - removed).toNat = off.toNat - removed.toNat :=
          BitVec.toNat_sub_of_le (by rw [BitVec.le_def]; omega)
        obtain ⟨o1, s1, s2, s3, s4, s5, s6⟩ := set_spec h hkl (off := off - removed) (by omega)
        obtain ⟨o', h1, h2, h3, h4, h5⟩ := ih hks.2 s2
        refine ⟨o', ?_, h2, by omega, ?_, ?_⟩
        · simp only [adjustMap, hmf, hk, if_pos hc, s1]; exact h1
        · intro g
          rw [h4 g]
          by_cases hg : g = k
          · subst hg
            simp only [hks.1, false_and, if_false, s4, if_true, List.mem_cons, true_or, hk,
              Option.isSome_some, and_self, hview, Option.map_some, shift, hlt, hsub]
          · rw [s4, s5 g hg]; simp [hg]
        · intro hm; rw [mfind, hm] at hk; simp at hk
      · have hlt : ¬ fe.toNat < off.toNat := fun hh => hc (BitVec.lt_def.2 hh)
        obtain ⟨o', h1, h2, h3, h4, h5⟩ := ih hks.2 h
        refine ⟨o', by simp only [adjustMap, hmf, hk, if_neg hc]; exact h1, h2, h3, ?_, h5⟩
        intro g
        rw [h4 g]
        by_cases hg : g = k
        · subst hg; simp [hks.1, hk, hview, shift, hlt]
        · simp [hg]

/-- The two passes over the offsets in `setSingle` shift every offset behind `fe`, in whichever
order the map is visited. -/
theorem adjust_spec (rt : Rt) {o : Offsets} (h : o.Inv) (fe removed : U64) (hr : removed.toNat ≤ fe.toNat) :
    ∃ o', adjustMap fe removed (rt.perm ((o.m.getD []).keys)) ⟨adjustArray o.a fe removed, o.m⟩ = .ok o' ∧
      o'.Inv ∧ o'.a.length = o.a.length ∧
      (∀ g, o'.view g = (o.view g).map (shift fe.toNat removed.toNat)) ∧
      (o.m = none → o'.m = none) := by
  obtain ⟨i1, i2, i3⟩ := adjustArray_spec h fe removed hr
  have hp := rt.perm_ok ((o.m.getD []).keys)
  obtain ⟨o', h1, h2, h3, h4, h5⟩ := adjustMap_spec fe removed hr _ (hp.nodup_iff.2 h.nodup) i1
  refine ⟨o', h1, h2, by rw [h3]; simp [adjustArray], ?_, h5⟩
  intro g
  rw [h4 g, i2 g, i3 g]
  by_cases hs : (o.mfind g).isSome
  · have hmem : g ∈ rt.perm ((o.m.getD []).keys) := by
      rw [hp.mem_iff, ← GoMap.find_isSome]
      unfold mfind at hs
      cases hm : o.m with
      | none => rw [hm] at hs; simp at hs
      | some m => rw [hm] at hs; simpa using hs
    rw [if_pos ⟨hmem, hs⟩, if_pos hs]
  · rw [if_neg (fun hc => hs hc.2), if_neg hs]

end Offsets
end Zeropb
