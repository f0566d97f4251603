import Verif.Proof.Get
/-!
# `setSingle` and `appendSingle` on the level of encoded records
-/

set_option linter.unusedSimpArgs false

namespace Zeropb
open Wire

/-! ## `int` arithmetic without overflow -/

theorem wrapInt_id {x : Int} (h1 : -9223372036854775808 ≤ x) (h2 : x < 9223372036854775808) : wrapInt x = x := by
  unfold wrapInt; omega

theorem addInt_nat {a b : Nat} (h : a + b < maxLen) : addInt (a : Int) (b : Int) = ((a + b : Nat) : Int) := by
  unfold addInt maxLen at *
  rw [wrapInt_id (by omega) (by omega)]; omega

theorem u64ToInt_nat {a : Nat} (h : a < maxLen) : u64ToInt (BitVec.ofNat 64 a) = (a : Int) := by
  unfold u64ToInt maxLen at *
  rw [ofNat64_toNat (by omega), wrapInt_id (by omega) (by omega)]

/-! ## Chunks -/

/-- Split at the last record of field `f`. -/
def splitLast (f : Nat) : List Chunk → Option (List Chunk × Chunk × List Chunk)
  | [] => none
  | c :: cs =>
    match splitLast f cs with
    | some (p, d, q) => some (c :: p, d, q)
    | none => if c.num = f then some ([], c, cs) else none

theorem splitLast_none {f : Nat} {cs : List Chunk} (h : ∀ c ∈ cs, c.num ≠ f) : splitLast f cs = none := by
  induction cs with
  | nil => rfl
  | cons c cs ih =>
    simp [splitLast, ih (fun d hd => h d (by simp [hd])), h c (by simp)]

theorem splitLast_some {f : Nat} {pre post : List Chunk} {c : Chunk} (hc : c.num = f) (hp : ∀ d ∈ post, d.num ≠ f) :
    splitLast f (pre ++ c :: post) = some (pre, c, post) := by
  induction pre with
  | nil => simp [splitLast, splitLast_none hp, hc]
  | cons d pre ih => simp [splitLast, ih]

/-- What a setter does to the sequence of records: replace the last occurrence of the field where
it is if the encoded value has the same length, otherwise remove it and append. -/
def setChunks (new : Chunk) (cs : List Chunk) : List Chunk :=
  match splitLast new.num cs with
  | none => cs ++ [new]
  | some (p, c, q) => if c.pay.length = new.pay.length then p ++ new :: q else p ++ q ++ [new]

theorem mem_setChunks {new d : Chunk} {cs : List Chunk} (h : d ∈ setChunks new cs) : d = new ∨ d ∈ cs := by
  by_cases ha : ∃ c ∈ cs, c.num = new.num
  · obtain ⟨pre, c, post, rfl, hc, hp⟩ := exists_last ha
    simp only [setChunks, splitLast_some hc hp] at h
    split at h <;> simp at h ⊢ <;> rcases h with h | h | h <;> simp [h]
  · have ha' : ∀ c ∈ cs, c.num ≠ new.num := fun c hc he => ha ⟨c, hc, he⟩
    simp only [setChunks, splitLast_none ha'] at h
    simp at h ⊢
    rcases h with h | h <;> simp [h]

/-- Records of other fields stay as they are, in order, byte for byte. -/
theorem setChunks_others (new : Chunk) (cs : List Chunk) :
    (setChunks new cs).filter (fun c => c.num ≠ new.num) = cs.filter (fun c => c.num ≠ new.num) := by
  by_cases ha : ∃ c ∈ cs, c.num = new.num
  · obtain ⟨pre, c, post, rfl, hc, hp⟩ := exists_last ha
    simp only [setChunks, splitLast_some hc hp]
    split <;> simp [List.filter_append, List.filter_cons, hc]
  · have ha' : ∀ c ∈ cs, c.num ≠ new.num := fun c hc he => ha ⟨c, hc, he⟩
    simp [setChunks, splitLast_none ha', List.filter_append]

theorem setChunks_filter_ne {new : Chunk} {f : Nat} (hf : f ≠ new.num) (cs : List Chunk) :
    (setChunks new cs).filter (fun c => c.num = f) = cs.filter (fun c => c.num = f) := by
  have key : ∀ l : List Chunk, l.filter (fun c => c.num = f) = (l.filter (fun c => c.num ≠ new.num)).filter (fun c => c.num = f) := by
    intro l
    rw [List.filter_filter]
    congr 1
    funext c
    by_cases h : c.num = f
    · simp [h, hf]
    · simp [h]
  rw [key, setChunks_others, ← key]

theorem lastChunk_setChunks (new : Chunk) (cs : List Chunk) : lastChunk new.num (setChunks new cs) = some new := by
  by_cases ha : ∃ c ∈ cs, c.num = new.num
  · obtain ⟨pre, c, post, rfl, hc, hp⟩ := exists_last ha
    simp only [setChunks, splitLast_some hc hp]
    split
    · exact lastChunk_eq rfl hp
    · exact lastChunk_eq rfl (by simp)
  · have ha' : ∀ c ∈ cs, c.num ≠ new.num := fun c hc he => ha ⟨c, hc, he⟩
    simp only [setChunks, splitLast_none ha']
    exact lastChunk_eq rfl (by simp)

theorem setChunks_filter_eq (new : Chunk) (cs : List Chunk) :
    (setChunks new cs).filter (fun c => c.num = new.num) = (cs.filter (fun c => c.num = new.num)).dropLast ++ [new] := by
  have hnil : ∀ l : List Chunk, (∀ c ∈ l, c.num ≠ new.num) → l.filter (fun c => c.num = new.num) = [] := by
    intro l hl; rw [List.filter_eq_nil_iff]; intro d hd; simpa using hl d hd
  by_cases ha : ∃ c ∈ cs, c.num = new.num
  · obtain ⟨pre, c, post, rfl, hc, hp⟩ := exists_last ha
    simp only [setChunks, splitLast_some hc hp]
    split <;> simp [List.filter_append, List.filter_cons, hc, hnil post hp]
  · have ha' : ∀ c ∈ cs, c.num ≠ new.num := fun c hc he => ha ⟨c, hc, he⟩
    simp [setChunks, splitLast_none ha', List.filter_append, hnil cs ha']

/-! ## Pieces of `setSingle` -/

theorem goAppend_ok (rt : Rt) {s : Slice} {xs : List Byte} (h : s.data.length + xs.length < maxLen) :
    ∃ sp, goAppend rt s xs = .ok ⟨s.data ++ xs, sp⟩ := by
  unfold goAppend
  rw [if_pos h]
  split
  · exact ⟨_, rfl⟩
  · exact ⟨_, rfl⟩

theorem goAppend_fail (rt : Rt) {s : Slice} {xs : List Byte} (h : maxLen ≤ s.data.length + xs.length) :
    goAppend rt s xs = .error .lenOutOfRange := by
  unfold goAppend
  rw [if_neg (by omega)]

theorem overwriteAt_append (A old B src : List Byte) (h : old.length = src.length) :
    overwriteAt (A ++ (old ++ B)) A.length src = A ++ (src ++ B) := by
  unfold overwriteAt
  have h1 : min src.length ((A ++ (old ++ B)).length - A.length) = src.length := by simp; omega
  simp only [h1]
  rw [List.take_left, List.take_length, ← h, ← List.length_append, ← List.append_assoc A old, List.drop_left]
  simp

theorem tagOf_toNat {f typ : Nat} (hf : f < 2 ^ 61) (ht : typ < 8) : (tagOf f typ).toNat = f * 8 + typ := by
  unfold tagOf
  rw [BitVec.toNat_or, BitVec.toNat_shiftLeft, Nat.shiftLeft_eq, ofNat64_toNat (by omega), ofNat64_toNat (by omega),
    Nat.mod_eq_of_lt (by omega), ← Nat.shiftLeft_eq, ← Nat.shiftLeft_add_eq_or_of_lt (by omega), Nat.shiftLeft_eq]

theorem oldLenOf_located {buf o f A pay B v} (h : Located buf o f A pay B) (hp : IsPayload v pay) :
    oldLenOf buf (BitVec.ofNat 64 A.length) v.wireType = .ok (pay.length : Int) := by
  have hl := h.lens
  cases v with
  | varint u =>
    simp only [oldLenOf, Val.wireType, wireVarint, if_true, h.drop, bind, Except.bind, pure, Except.pure]
    rw [uvarint_of_isVarint hp]
  | fixed64 u =>
    rw [show pay = _ from hp, leBytes_length]; rfl
  | fixed32 u =>
    rw [show pay = _ from hp, leBytes_length]; rfl
  | bytes bs =>
    obtain ⟨lb, h1, rfl⟩ := hp
    have e : oldLenOf buf (BitVec.ofNat 64 A.length) (Val.bytes bs).wireType = (do
      let s ← buf.dropFrom (BitVec.ofNat 64 A.length).toNat
      let (oldValLen, oldValLenLen) := uvarint s.data
      return addInt (u64ToInt oldValLen) oldValLenLen) := rfl
    rw [e, h.drop]
    simp only [bind, Except.bind, pure, Except.pure, List.append_assoc, uvarint_of_isVarint h1]
    simp only [List.length_append] at hl
    rw [u64ToInt_nat (by omega), addInt_nat (by omega)]
    simp; omega

/-- `appendField`: append tag and payload and record the offset, or fail if the message gets too
long. -/
theorem appendField_spec (rt : Rt) {buf : Slice} {o : Offsets} (hi : o.Inv) {f : Nat} (hf : f < o.a.length)
    (tag valLen val : List Byte) (htag : 0 < tag.length) :
    (buf.data.length + tag.length + (valLen ++ val).length < maxLen →
      ∃ sp o', appendField rt buf o f tag valLen val = .ok (⟨buf.data ++ (tag ++ (valLen ++ val)), sp⟩, o') ∧
        o'.Inv ∧ o'.a.length = o.a.length ∧
        (∀ g, o'.view g = if g = f then some (buf.data.length + tag.length) else o.view g) ∧
        (buf.data.length + tag.length ≤ 65534 → o.m = none → o'.m = none)) ∧
    (maxLen ≤ buf.data.length + tag.length + (valLen ++ val).length →
      appendField rt buf o f tag valLen val = .error .lenOutOfRange) := by
  simp only [List.length_append]
  by_cases h1 : buf.data.length + tag.length < maxLen
  · obtain ⟨sp1, e1⟩ := goAppend_ok rt h1
    have hn : (BitVec.ofNat 64 (buf.data.length + tag.length)).toNat = buf.data.length + tag.length :=
      ofNat64_toNat (by unfold maxLen at h1; omega)
    obtain ⟨o', s1, s2, s3, s4, _, s6⟩ := Offsets.set_spec hi hf (off := BitVec.ofNat 64 (buf.data.length + tag.length))
      (by rw [hn]; omega)
    rw [hn] at s4 s6
    have hset : o.set f (BitVec.ofNat 64 ((buf.data ++ tag).length)) = .ok o' := by simpa using s1
    by_cases h2 : buf.data.length + tag.length + valLen.length < maxLen
    · obtain ⟨sp2, e2⟩ := goAppend_ok rt (s := ⟨buf.data ++ tag, sp1⟩) (xs := valLen) (by simp; omega)
      constructor
      · intro h3
        obtain ⟨sp3, e3⟩ := goAppend_ok rt (s := ⟨buf.data ++ tag ++ valLen, sp2⟩) (xs := val) (by simp; omega)
        refine ⟨sp3, o', ?_, s2, s3, s4, s6⟩
        simp only [appendField, e1, bind, Except.bind, hset, e2, e3, pure, Except.pure]
        simp
      · intro h3
        have e3 := goAppend_fail rt (s := ⟨buf.data ++ tag ++ valLen, sp2⟩) (xs := val) (by simp; omega)
        simp only [appendField, e1, bind, Except.bind, hset, e2, e3, pure, Except.pure]
    · refine ⟨fun h3 => by omega, fun _ => ?_⟩
      have e2 := goAppend_fail rt (s := ⟨buf.data ++ tag, sp1⟩) (xs := valLen) (by simp; omega)
      simp only [appendField, e1, bind, Except.bind, hset, e2, pure, Except.pure]
  · refine ⟨fun h3 => by omega, fun _ => ?_⟩
    have e1 := goAppend_fail rt (s := buf) (xs := tag) (by omega)
    simp only [appendField, e1, bind, Except.bind]

/-- `removeField`: cut the record out and shift the offsets behind it. -/
theorem removeField_spec (rt : Rt) {buf : Slice} {o : Offsets} (hi : o.Inv) {P tag pay Q : List Byte}
    (hd : buf.data = P ++ (tag ++ pay) ++ Q) (hlen : buf.data.length < maxLen) :
    ∃ sp o', removeField rt buf o (BitVec.ofNat 64 (P ++ tag).length) tag.length (pay.length : Int) = .ok (⟨P ++ Q, sp⟩, o') ∧
      o'.Inv ∧ o'.a.length = o.a.length ∧
      (∀ g, o'.view g = (o.view g).map
        (Offsets.shift (P.length + (tag.length + pay.length)) (tag.length + pay.length))) ∧
      (o.m = none → o'.m = none) := by
  obtain ⟨d, spare⟩ := buf
  simp only at hd hlen
  subst hd
  simp only [List.length_append] at hlen
  have hlen' := hlen
  unfold maxLen at hlen'
  have hb : BitVec.ofNat 64 (P ++ tag).length - BitVec.ofNat 64 tag.length = BitVec.ofNat 64 P.length := by
    rw [List.length_append, BitVec.ofNat_add, BitVec.add_sub_cancel]
  have he : BitVec.ofNat 64 (P ++ tag).length + BitVec.ofNat 64 pay.length = BitVec.ofNat 64 (P ++ (tag ++ pay)).length := by
    rw [← BitVec.ofNat_add]; simp [Nat.add_assoc]
  have hr : BitVec.ofNat 64 (P ++ (tag ++ pay)).length - BitVec.ofNat 64 P.length = BitVec.ofNat 64 (tag.length + pay.length) := by
    rw [List.length_append, Nat.add_comm, BitVec.ofNat_add, BitVec.add_sub_cancel, List.length_append]
  have hrt : (BitVec.ofNat 64 (tag.length + pay.length)).toNat = tag.length + pay.length := ofNat64_toNat (by omega)
  have het : (BitVec.ofNat 64 (P ++ (tag ++ pay)).length).toNat = P.length + (tag.length + pay.length) := by
    rw [ofNat64_toNat (by simp; omega)]; simp
  obtain ⟨o', a1, a2, a3, a4, a5⟩ := Offsets.adjust_spec rt hi (BitVec.ofNat 64 (P ++ (tag ++ pay)).length)
    (BitVec.ofNat 64 (tag.length + pay.length)) (by rw [hrt, het]; omega)
  rw [hrt, het] at a4
  have d1 : (Slice.mk (P ++ (tag ++ pay) ++ Q) spare).dropFrom ((BitVec.ofNat 64 P.length).toNat : Int) =
      .ok ⟨(tag ++ pay) ++ Q, spare⟩ := by
    rw [ofNat64_toNat (by omega), List.append_assoc]; exact dropFrom_append _ _ _
  have d2 : (Slice.mk (P ++ (tag ++ pay) ++ Q) spare).dropFrom ((BitVec.ofNat 64 (P ++ (tag ++ pay)).length).toNat : Int) =
      .ok ⟨Q, spare⟩ := by
    rw [ofNat64_toNat (by simp; omega)]; exact dropFrom_append _ _ _
  -- the bytes after the copy
  obtain ⟨rest, hrest, hrl⟩ : ∃ rest, overwriteAt (P ++ (tag ++ pay) ++ Q) P.length Q = P ++ (Q ++ rest) ∧
      rest.length = tag.length + pay.length := by
    refine ⟨((tag ++ pay) ++ Q).drop Q.length, ?_, ?_⟩
    · rw [List.append_assoc]
      conv => lhs; rw [← List.take_append_drop Q.length ((tag ++ pay) ++ Q)]
      rw [overwriteAt_append]
      simp; omega
    · simp; omega
  have hl2 : (P ++ (Q ++ rest)).length = (P.length + Q.length) + (tag.length + pay.length) := by simp [hrl]; omega
  have hsub : (BitVec.ofNat 64 (P ++ (Q ++ rest)).length - BitVec.ofNat 64 (tag.length + pay.length)).toNat =
      (P ++ Q).length := by
    rw [hl2, BitVec.ofNat_add (P.length + Q.length), BitVec.add_sub_cancel, ofNat64_toNat (by omega), List.length_append]
  have hrange : (Slice.mk (P ++ (Q ++ rest)) spare).range 0 ((P ++ Q).length : Int) = .ok ⟨P ++ Q, rest ++ spare⟩ := by
    have := range_append [] (P ++ Q) rest spare
    simpa using this
  refine ⟨rest ++ spare, o', ?_, a2, a3, a4, a5⟩
  simp only [removeField, hb, he, intToU64_nat, hr, d1, d2, bind, Except.bind, pure, Except.pure]
  rw [ofNat64_toNat (n := P.length) (by omega), hrest]
  simp only [hsub, hrange, a1]

/-! ## `setSingle` -/

theorem isMinPayload_tag (f typ : Nat) (hf : f < 2 ^ 61) (ht : typ < 8) :
    ∃ tag, putUvarint maxVarintLen64 (tagOf f typ) = .ok tag ∧ IsMinVarint (f * 8 + typ) tag := by
  obtain ⟨tag, h1, h2⟩ := putUvarint64 (tagOf f typ)
  rw [tagOf_toNat hf ht] at h2
  exact ⟨tag, h1, h2⟩

theorem wireType_lt (v : Val) : v.wireType < 8 := by cases v <;> simp [Val.wireType]

theorem offs_inplace {f g : Nat} {pre post : List Chunk} {c d : Chunk} (hn : d.num = c.num) (ht : d.tag = c.tag)
    (hp : d.pay.length = c.pay.length) : offs g f (pre ++ d :: post) = offs g f (pre ++ c :: post) := by
  simp only [offs_append, offs, hn, ht, Chunk.bytes_length, hp]

variable {n : Nat} {rep : Nat → Bool} {buf : Slice} {o : Offsets} {cs : List Chunk}

/-- `setSingle` on a represented message: the buffer becomes the encoding of `setChunks`, unless the
result would be too long. -/
theorem setSingle_spec (rt : Rt) (h : Rep n rep buf o cs) (hn : n ≤ 2 ^ 61) {f : Nat} (hf : f < n) (hr : rep f = false)
    {v : Val} {valLen val : List Byte} (hp : IsPayload v (valLen ++ val))
    (hold : ∀ c, lastChunk f cs = some c → c.val.wireType = v.wireType ∧ c.MinTag) :
    ∃ tag, IsMinVarint (f * 8 + v.wireType) tag ∧
      let new : Chunk := ⟨f, v, tag, valLen ++ val⟩
      ((flat (setChunks new cs)).length < maxLen →
        ∃ sp o', setSingle rt buf o f v.wireType valLen val = .ok (⟨flat (setChunks new cs), sp⟩, o') ∧
          Rep n rep ⟨flat (setChunks new cs), sp⟩ o' (setChunks new cs) ∧
          ((flat (setChunks new cs)).length ≤ 65535 → o.m = none → o'.m = none) ∧
          (∀ c, lastChunk f cs = some c → c.pay.length = (valLen ++ val).length → sp = buf.spare ∧ o' = o)) ∧
      (maxLen ≤ (flat (setChunks new cs)).length →
        setSingle rt buf o f v.wireType valLen val = .error .lenOutOfRange) := by
  obtain ⟨tag, htag, hmin⟩ := isMinPayload_tag f v.wireType (by omega) (wireType_lt v)
  refine ⟨tag, hmin, ?_⟩
  intro new
  have hnum : new.num = f := rfl
  have hnew : new.WF := ⟨hmin.1, hp⟩
  have htp := hnew.tag_pos
  have hpp := hnew.pay_pos
  have hwf : ∀ c ∈ setChunks new cs, c.WF := by
    intro c hc
    rcases mem_setChunks hc with rfl | hc
    · exact hnew
    · exact h.wf c hc
  have hlt : ∀ c ∈ setChunks new cs, c.num < n := by
    intro c hc
    rcases mem_setChunks hc with rfl | hc
    · exact hf
    · exact h.lt c hc
  have hfa : f < o.a.length := by rw [h.alen]; exact hf
  by_cases ha : ∃ c ∈ cs, c.num = f
  · obtain ⟨pre, c, post, hcs, hc, hpost⟩ := exists_last ha
    obtain ⟨hwt, hmt⟩ := hold c (by rw [hcs]; exact lastChunk_eq hc hpost)
    have hcw := h.wf c (by rw [hcs]; simp)
    have htagc : c.tag = tag := by
      refine IsMinVarint.unique (v := f * 8 + v.wireType) ?_ hmin
      have := hmt
      unfold Chunk.MinTag Chunk.tagNum at this
      rw [hwt, hc] at this; exact this
    have hloc := h.located_last hcs hr hc hpost
    have hl := hloc.lens
    have hcp := hcw.pay_pos
    have hold2 : oldLenOf buf (BitVec.ofNat 64 (flat pre ++ c.tag).length) v.wireType = .ok (c.pay.length : Int) := by
      rw [← hwt]; exact oldLenOf_located hloc hcw.pay
    by_cases hsame : c.pay.length = (valLen ++ val).length
    · -- overwrite in place
      have hset : setChunks new cs = pre ++ new :: post := by
        unfold setChunks
        rw [hcs, hnum, splitLast_some hc hpost]
        simp only [show new.pay = valLen ++ val from rfl, hsame, if_true]
      have hlen : (flat (pre ++ new :: post)).length = buf.data.length := by
        rw [h.data, hcs]
        simp only [flat_append, flat_cons, List.length_append, Chunk.bytes_length]
        rw [show new.pay.length = c.pay.length from hsame.symm, show new.tag = c.tag from htagc.symm]
      rw [hset] at hwf hlt ⊢
      have hbl := h.len
      refine ⟨fun _ => ⟨buf.spare, o, ?_, ⟨rfl, hwf, hlt, by rw [hlen]; exact hbl, h.inv, h.alen, ?_⟩, fun _ hm => hm, fun _ _ _ => ⟨rfl, rfl⟩⟩,
        fun hc => by omega⟩
      · -- run the code
        obtain ⟨d, spare⟩ := buf
        have hd : d = _ := hloc.data
        simp only [setSingle, htag, hloc.get, bind, Except.bind, pure, Except.pure, if_true, hold2]
        rw [if_pos (by rw [hsame]; simp)]
        simp only [hloc.drop]
        obtain ⟨p1, p2, hp12, hpl⟩ : ∃ p1 p2, c.pay = p1 ++ p2 ∧ p1.length = valLen.length :=
          ⟨c.pay.take valLen.length, c.pay.drop valLen.length, (List.take_append_drop _ _).symm, by
            rw [List.length_take, hsame, List.length_append]; omega⟩
        have hp2l : p2.length = val.length := by
          rw [hp12] at hsame; simp at hsame; omega
        have hA : (flat pre ++ c.tag).length < 2 ^ 64 := by
          unfold maxLen at hl; omega
        have hmin1 : min valLen.length (c.pay ++ flat post).length = valLen.length := by
          rw [List.length_append, hsame, List.length_append]; omega
        have hw1 : overwriteAt d (BitVec.ofNat 64 (flat pre ++ c.tag).length).toNat valLen =
            (flat pre ++ c.tag ++ valLen) ++ (p2 ++ flat post) := by
          rw [ofNat64_toNat hA, hd, hp12, List.append_assoc p1, overwriteAt_append _ _ _ _ hpl]
          simp
        have hsum : BitVec.ofNat 64 (flat pre ++ c.tag).length + BitVec.ofNat 64 valLen.length =
            BitVec.ofNat 64 (flat pre ++ c.tag ++ valLen).length := by
          rw [← BitVec.ofNat_add, ← List.length_append]
        have hA2 : (flat pre ++ c.tag ++ valLen).length < 2 ^ 64 := by
          rw [hp12] at hl
          simp only [List.length_append] at hl ⊢
          unfold maxLen at hl; omega
        rw [hmin1, hw1, hsum, ofNat64_toNat hA2, dropFrom_append, overwriteAt_append _ _ _ _ hp2l]
        simp only [Except.ok.injEq, Prod.mk.injEq, and_true, Slice.mk.injEq]
        rw [htagc]
        simp [Chunk.bytes, new]
      · intro g
        rw [h.view g, hcs, offs_inplace (c := c) (d := new) (hc.symm ▸ rfl) htagc.symm hsame.symm]
    · -- remove and append
      have hset : setChunks new cs = (pre ++ post) ++ [new] := by
        unfold setChunks
        rw [hcs, hnum, splitLast_some hc hpost]
        simp only [show new.pay = valLen ++ val from rfl, hsame, if_false]
      have hdata : buf.data = flat pre ++ (c.tag ++ c.pay) ++ flat post := by
        rw [h.data, hcs]; simp [Chunk.bytes]
      obtain ⟨sp1, o1, r1, r2, r3, r4, r5⟩ := removeField_spec rt h.inv hdata h.len
      obtain ⟨ap1, ap2⟩ := appendField_spec rt (buf := ⟨flat pre ++ flat post, sp1⟩) r2 (f := f) (by rw [r3]; exact hfa)
        tag valLen val htp
      have hrun : setSingle rt buf o f v.wireType valLen val =
          appendField rt ⟨flat pre ++ flat post, sp1⟩ o1 f tag valLen val := by
        simp only [setSingle, htag, hloc.get, bind, Except.bind, pure, Except.pure, if_true, hold2]
        rw [if_neg (by intro he; apply hsame; rw [List.length_append]; omega)]
        rw [← htagc]
        simp only [r1]
      have hfl : flat (pre ++ post ++ [new]) = (flat pre ++ flat post) ++ (tag ++ (valLen ++ val)) := by
        simp [Chunk.bytes, new]
      rw [hset] at hwf hlt ⊢
      rw [hrun, hfl]
      constructor
      · intro hlen
        obtain ⟨sp, o', a1, a2, a3, a4, a5⟩ := ap1 (by simp only [List.length_append] at hlen ⊢; omega)
        refine ⟨sp, o', a1, ⟨hfl.symm, hwf, hlt, hlen, a2, by rw [a3, r3, h.alen], ?_⟩, ?_, fun c' hc' he => by
          rw [hcs, lastChunk_eq hc hpost] at hc'
          exact absurd (Option.some.inj hc' ▸ he) hsame⟩
        · intro g
          rw [a4 g]
          by_cases hg : g = f
          · subst hg
            rw [hr, if_pos rfl, pick_last (c := new) hnum (by simp)]
            simp [new]
          · rw [if_neg hg, r4 g, h.view g, hcs, ← pick_map]
            congr 1
            have hcn : ¬ c.num = g := fun he => hg (by rw [← he, hc])
            have hnn : ¬ new.num = g := fun he => hg he.symm
            simp only [offs_append, offs, hcn, hnn, if_false, List.nil_append, List.append_nil, List.map_append,
              Nat.zero_add]
            congr 1
            · -- in front of the removed record
              rw [List.map_congr_left (g := id), List.map_id]
              intro x hx
              have := offs_bounds (fun d hd => h.wf d (by rw [hcs]; simp [hd])) hx
              simp only [Offsets.shift, id]
              rw [if_neg (by omega)]
            · rw [offs_shift, List.map_map, List.map_congr_left (g := id), List.map_id]
              intro x hx
              have := offs_bounds (fun d hd => h.wf d (by rw [hcs]; simp [hd])) hx
              simp only [Offsets.shift, Function.comp, id, Chunk.bytes_length]
              rw [if_pos (by omega)]; omega
        · intro hsm hm
          refine a5 ?_ (r5 hm)
          simp only [List.length_append] at hsm ⊢
          have : 0 < valLen.length + val.length := by
            have := hpp; simp only [new, List.length_append] at this; exact this
          omega
      · intro hlen
        exact ap2 (by simp only [List.length_append] at hlen ⊢; omega)
  · -- the field does not occur
    have ha' : ∀ c ∈ cs, c.num ≠ f := fun c hc he => ha ⟨c, hc, he⟩
    have hset : setChunks new cs = cs ++ [new] := by
      unfold setChunks
      rw [hnum, splitLast_none ha']
    obtain ⟨ap1, ap2⟩ := appendField_spec rt (buf := buf) h.inv hfa tag valLen val htp
    have hrun : setSingle rt buf o f v.wireType valLen val = appendField rt buf o f tag valLen val := by
      simp only [setSingle, htag, h.get_none hf ha', bind, Except.bind, pure, Except.pure, Bool.false_eq_true, if_false]
    have hfl : flat (cs ++ [new]) = buf.data ++ (tag ++ (valLen ++ val)) := by
      rw [h.data]; simp [Chunk.bytes, new]
    rw [hset] at hwf hlt ⊢
    rw [hrun, hfl]
    constructor
    · intro hlen
      obtain ⟨sp, o', a1, a2, a3, a4, a5⟩ := ap1 (by simp only [List.length_append] at hlen ⊢; omega)
      refine ⟨sp, o', a1, ⟨hfl.symm, hwf, hlt, hlen, a2, by rw [a3, h.alen], ?_⟩, ?_, fun c' hc' _ => by
        rw [lastChunk_none ha'] at hc'; simp at hc'⟩
      · intro g
        rw [a4 g]
        by_cases hg : g = f
        · subst hg
          rw [hr, if_pos rfl, pick_last (c := new) hnum (by simp), ← h.data]
        · have hnn : ¬ new.num = g := fun he => hg he.symm
          rw [if_neg hg, h.view g]
          simp only [offs_append, offs, hnn, if_false, List.nil_append, List.append_nil]
      · intro hsm hm
        refine a5 ?_ hm
        simp only [List.length_append] at hsm ⊢
        have : 0 < valLen.length + val.length := by
          have := hpp; simp only [new, List.length_append] at this; exact this
        omega
    · intro hlen
      exact ap2 (by simp only [List.length_append] at hlen ⊢; omega)

/-- `appendSingle` on a represented message appends one record. -/
theorem appendSingle_spec (rt : Rt) (h : Rep n rep buf o cs) (hn : n ≤ 2 ^ 61) {f : Nat} (hf : f < n) (hr : rep f = true)
    {v : Val} {valLen val : List Byte} (hp : IsPayload v (valLen ++ val)) :
    ∃ tag, IsMinVarint (f * 8 + v.wireType) tag ∧
      let new : Chunk := ⟨f, v, tag, valLen ++ val⟩
      ((flat (cs ++ [new])).length < maxLen →
        ∃ sp o', appendSingle rt buf o f v.wireType valLen val = .ok (⟨flat (cs ++ [new]), sp⟩, o') ∧
          Rep n rep ⟨flat (cs ++ [new]), sp⟩ o' (cs ++ [new]) ∧
          ((flat (cs ++ [new])).length ≤ 65535 → o.m = none → o'.m = none)) ∧
      (maxLen ≤ (flat (cs ++ [new])).length →
        appendSingle rt buf o f v.wireType valLen val = .error .lenOutOfRange) := by
  obtain ⟨tag, htag, hmin⟩ := isMinPayload_tag f v.wireType (by omega) (wireType_lt v)
  refine ⟨tag, hmin, ?_⟩
  intro new
  have hnum : new.num = f := rfl
  have hnew : new.WF := ⟨hmin.1, hp⟩
  have htp := hnew.tag_pos
  have hpp := hnew.pay_pos
  have hfa : f < o.a.length := by rw [h.alen]; exact hf
  have hwf : ∀ c ∈ cs ++ [new], c.WF := by
    intro c hc
    simp at hc
    rcases hc with hc | rfl
    · exact h.wf c hc
    · exact hnew
  have hlt : ∀ c ∈ cs ++ [new], c.num < n := by
    intro c hc
    simp at hc
    rcases hc with hc | rfl
    · exact h.lt c hc
    · exact hf
  have hfl : flat (cs ++ [new]) = buf.data ++ (tag ++ (valLen ++ val)) := by
    rw [h.data]; simp [Chunk.bytes, new]
  have hpp' : 0 < valLen.length + val.length := by
    have := hpp; simp only [new, List.length_append] at this; exact this
  have hoffs : ∀ g, offs g 0 (cs ++ [new]) = offs g 0 cs ++ if g = f then [buf.data.length + tag.length] else [] := by
    intro g
    simp only [offs_append, offs, List.append_nil, Nat.zero_add, ← h.data]
    congr 1
    by_cases hg : g = f
    · subst hg; simp [new]
    · simp [hg, Ne.symm hg, new]
  by_cases ha : ∃ c ∈ cs, c.num = f
  · -- a later occurrence: the offset stays
    have hget : ∃ off, o.get f = .ok (off, true) := by
      obtain ⟨pre, c, post, hcs, hc, hpre⟩ := exists_first ha
      exact ⟨_, (h.located_first hcs hr hc hpre).get⟩
    obtain ⟨off, hget⟩ := hget
    have hview : ∀ g, o.view g = pick (rep g) (offs g 0 (cs ++ [new])) := by
      intro g
      rw [h.view g, hoffs]
      by_cases hg : g = f
      · subst hg
        have hne : offs g 0 cs ≠ [] := by
          intro he
          obtain ⟨c, hc, hcn⟩ := ha
          exact offs_eq_nil.1 he c hc hcn
        obtain ⟨x, l, hxl⟩ := List.exists_cons_of_ne_nil hne
        rw [hr, hxl]; simp [pick]
      · simp [hg]
    by_cases h1 : buf.data.length + tag.length < maxLen
    · obtain ⟨sp1, e1⟩ := goAppend_ok rt h1
      by_cases h2 : buf.data.length + tag.length + valLen.length < maxLen
      · obtain ⟨sp2, e2⟩ := goAppend_ok rt (s := ⟨buf.data ++ tag, sp1⟩) (xs := valLen) (by simp; omega)
        constructor
        · intro h3
          obtain ⟨sp3, e3⟩ := goAppend_ok rt (s := ⟨buf.data ++ tag ++ valLen, sp2⟩) (xs := val)
            (by rw [hfl] at h3; simp only [List.length_append] at h3 ⊢; omega)
          refine ⟨sp3, o, ?_, ⟨rfl, hwf, hlt, h3, h.inv, h.alen, hview⟩, fun _ hm => hm⟩
          simp only [appendSingle, htag, e1, hget, bind, Except.bind, e2, e3, pure, Except.pure, Bool.not_true,
            Bool.false_eq_true, if_false, hfl]
          simp
        · intro h3
          have e3 := goAppend_fail rt (s := ⟨buf.data ++ tag ++ valLen, sp2⟩) (xs := val)
            (by rw [hfl] at h3; simp only [List.length_append] at h3 ⊢; omega)
          simp only [appendSingle, htag, e1, hget, bind, Except.bind, e2, e3, pure, Except.pure, Bool.not_true,
            Bool.false_eq_true, if_false]
      · refine ⟨fun h3 => by rw [hfl] at h3; simp only [List.length_append] at h3; omega, fun _ => ?_⟩
        have e2 := goAppend_fail rt (s := ⟨buf.data ++ tag, sp1⟩) (xs := valLen) (by simp; omega)
        simp only [appendSingle, htag, e1, hget, bind, Except.bind, e2, pure, Except.pure, Bool.not_true,
            Bool.false_eq_true, if_false]
    · refine ⟨fun h3 => by rw [hfl] at h3; simp only [List.length_append] at h3; omega, fun _ => ?_⟩
      have e1 := goAppend_fail rt (s := buf) (xs := tag) (by omega)
      simp only [appendSingle, htag, e1, bind, Except.bind]
  · -- the first occurrence
    have ha' : ∀ c ∈ cs, c.num ≠ f := fun c hc he => ha ⟨c, hc, he⟩
    obtain ⟨ap1, ap2⟩ := appendField_spec rt (buf := buf) h.inv hfa tag valLen val htp
    have hrun : appendSingle rt buf o f v.wireType valLen val = appendField rt buf o f tag valLen val := by
      simp only [appendSingle, appendField, htag, h.get_none hf ha', bind, Except.bind, pure, Except.pure, Bool.not_false, if_true]
    rw [hrun, hfl]
    constructor
    · intro hlen
      obtain ⟨sp, o', a1, a2, a3, a4, a5⟩ := ap1 (by simp only [List.length_append] at hlen ⊢; omega)
      refine ⟨sp, o', a1, ⟨hfl.symm, hwf, hlt, hlen, a2, by rw [a3, h.alen], ?_⟩, ?_⟩
      · intro g
        rw [a4 g, hoffs g]
        by_cases hg : g = f
        · subst hg
          rw [hr, offs_eq_nil.2 ha']; simp [pick]
        · rw [if_neg hg, h.view g]; simp [hg]
      · intro hsm hm
        refine a5 ?_ hm
        simp only [List.length_append] at hsm ⊢
        omega
    · intro hlen
      exact ap2 (by simp only [List.length_append] at hlen ⊢; omega)

end Zeropb
