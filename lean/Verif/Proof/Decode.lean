import Verif.Proof.Set
/-!
# `Decode` and `FindNextField` on valid messages
-/

set_option linter.unusedSimpArgs false

namespace Zeropb
open Wire

theorem tagField_ofNat {t : Nat} (h : t < 2 ^ 64) : tagField (BitVec.ofNat 64 t) = t / 8 := by
  unfold tagField
  rw [BitVec.toNat_ushiftRight, ofNat64_toNat h, Nat.shiftRight_eq_div_pow]

theorem tagType_ofNat {t : Nat} (h : t < 2 ^ 64) : tagType (BitVec.ofNat 64 t) = t % 8 := by
  unfold tagType
  rw [BitVec.toNat_and, ofNat64_toNat h]
  have := Nat.and_two_pow_sub_one_eq_mod t 3
  simpa using this

/-- The tag of a well-formed record, as the decoder sees it. -/
theorem Chunk.WF.uvarint_tag {c : Chunk} (h : c.WF) (rest : List Byte) :
    ∃ t, uvarint (c.bytes ++ rest) = (t, (c.tag.length : Int)) ∧ tagField t = c.num ∧ tagType t = c.val.wireType := by
  have hlt := h.tag.lt
  have hw := wireType_lt c.val
  refine ⟨BitVec.ofNat 64 c.tagNum, ?_, ?_, ?_⟩
  · rw [Chunk.bytes, List.append_assoc, uvarint_of_isVarint h.tag]
  · rw [tagField_ofNat hlt]; unfold Chunk.tagNum; omega
  · rw [tagType_ofNat hlt]; unfold Chunk.tagNum; omega

/-- `fieldDataSize` finds the end of a payload. -/
theorem fieldDataSize_payload {v : Val} {pay rest : List Byte} (h : IsPayload v pay) (hlen : pay.length < maxLen) :
    fieldDataSize v.wireType (pay ++ rest) = .ok (pay.length : Int) := by
  cases v with
  | varint u => simp only [fieldDataSize, Val.wireType, wireVarint, if_true]; rw [uvarint_of_isVarint h]
  | fixed64 u => rw [show pay = _ from h, leBytes_length]; rfl
  | fixed32 u => rw [show pay = _ from h, leBytes_length]; rfl
  | bytes bs =>
    obtain ⟨lb, h1, rfl⟩ := h
    have e : fieldDataSize (Val.bytes bs).wireType (lb ++ bs ++ rest) =
      (if (uvarint (lb ++ bs ++ rest)).2 = 0 then .ok 0
       else .ok (addInt (uvarint (lb ++ bs ++ rest)).2 (u64ToInt (uvarint (lb ++ bs ++ rest)).1))) := rfl
    rw [e, List.append_assoc, uvarint_of_isVarint h1]
    simp only [List.length_append] at hlen
    have hp := h1.length_pos
    rw [if_neg (by omega), u64ToInt_nat (by omega), addInt_nat (by omega), List.length_append]

/-- What `Decode` records for one more record. -/
theorem record_offset {rep : Nat → Bool} {o : Offsets} (hi : o.Inv) {pre : List Chunk} {c : Chunk}
    (hview : ∀ g, o.view g = pick (rep g) (offs g 0 pre)) (hc : c.num < o.a.length) (hwf : c.WF)
    (hlen : (flat pre).length + c.tag.length < maxLen) :
    ∃ o', recordOffset rep o c.num (((flat pre).length + c.tag.length : Nat) : Int) = Except.ok o' ∧
      o'.Inv ∧ o'.a.length = o.a.length ∧ (∀ g, o'.view g = pick (rep g) (offs g 0 (pre ++ [c]))) ∧
      ((flat pre).length + c.tag.length ≤ 65534 → o.m = none → o'.m = none) := by
  have hn : (BitVec.ofNat 64 ((flat pre).length + c.tag.length)).toNat = (flat pre).length + c.tag.length :=
    ofNat64_toNat (by unfold maxLen at hlen; omega)
  have htp := hwf.tag_pos
  obtain ⟨o', s1, s2, s3, s4, _, s6⟩ := Offsets.set_spec hi hc (off := BitVec.ofNat 64 ((flat pre).length + c.tag.length))
    (by rw [hn]; omega)
  rw [hn] at s4 s6
  unfold recordOffset
  rw [intToU64_nat]
  have hoffs : ∀ g, offs g 0 (pre ++ [c]) = offs g 0 pre ++ if g = c.num then [(flat pre).length + c.tag.length] else [] := by
    intro g
    simp only [offs_append, offs, List.append_nil, Nat.zero_add]
    congr 1
    by_cases hg : g = c.num
    · subst hg; simp
    · simp [hg, Ne.symm hg]
  by_cases hr : rep c.num = true
  · rw [if_pos hr, Offsets.get_eq hi hc, hview, hr]
    cases hp : pick true (offs c.num 0 pre) with
    | none =>
      have hnil := pick_eq_none.1 hp
      refine ⟨o', by simpa [bind, Except.bind] using s1, s2, s3, ?_, s6⟩
      intro g
      rw [s4 g, hoffs g]
      by_cases hg : g = c.num
      · subst hg; rw [hnil, hr]; simp [pick]
      · rw [if_neg hg, if_neg hg, hview, List.append_nil]
    | some x =>
      refine ⟨o, by simp [bind, Except.bind, pure, Except.pure], hi, rfl, ?_, fun _ hm => hm⟩
      intro g
      rw [hoffs g]
      by_cases hg : g = c.num
      · subst hg
        rw [hview, hr, hp]
        cases hl : offs c.num 0 pre with
        | nil => rw [hl] at hp; simp [pick] at hp
        | cons y l => rw [hl] at hp; simpa [pick] using hp.symm
      · rw [if_neg hg, hview, List.append_nil]
  · rw [if_neg hr]
    refine ⟨o', s1, s2, s3, ?_, s6⟩
    intro g
    rw [s4 g, hoffs g]
    by_cases hg : g = c.num
    · subst hg
      have hr' : rep c.num = false := by simpa using hr
      rw [hr']; simp [pick]
    · rw [if_neg hg, if_neg hg, hview, List.append_nil]

/-- One iteration of the loop of `Decode` on a well-formed record. -/
theorem decodeStep_chunk {rep : Nat → Bool} {buf : Slice} {o : Offsets} (hi : o.Inv) {pre : List Chunk} {c : Chunk}
    {rest : List Byte} (hd : buf.data = flat pre ++ (c.bytes ++ rest)) (hlen : buf.data.length < maxLen)
    (hview : ∀ g, o.view g = pick (rep g) (offs g 0 pre)) (hc : c.num < o.a.length) (hwf : c.WF) :
    ∃ o', decodeStep buf rep (((flat pre).length : Nat), o) = .ok (.inl (((flat (pre ++ [c])).length : Nat), o')) ∧
      o'.Inv ∧ o'.a.length = o.a.length ∧ (∀ g, o'.view g = pick (rep g) (offs g 0 (pre ++ [c]))) ∧
      ((flat pre).length + c.tag.length ≤ 65534 → o.m = none → o'.m = none) := by
  have htp := hwf.tag_pos
  have hpp := hwf.pay_pos
  have hl : buf.data.length = (flat pre).length + c.tag.length + c.pay.length + rest.length := by
    rw [hd]; simp [Chunk.bytes]; omega
  obtain ⟨o', r1, r2, r3, r4, r5⟩ := record_offset hi hview hc hwf (by omega)
  refine ⟨o', ?_, r2, r3, r4, r5⟩
  obtain ⟨t, ht, hf, hty⟩ := hwf.uvarint_tag rest
  have d1 : buf.dropFrom ((flat pre).length : Int) = .ok ⟨c.bytes ++ rest, buf.spare⟩ := by
    obtain ⟨d, s⟩ := buf
    simp only at hd; subst hd; exact dropFrom_append _ _ _
  have d2 : buf.dropFrom (((flat pre).length + c.tag.length : Nat) : Int) = .ok ⟨c.pay ++ rest, buf.spare⟩ := by
    obtain ⟨d, s⟩ := buf
    simp only at hd; subst hd
    rw [← List.length_append, Chunk.bytes, List.append_assoc, ← List.append_assoc]; exact dropFrom_append _ _ _
  have hfd := fieldDataSize_payload (rest := rest) hwf.pay (by omega)
  have n1 : ¬ ((((flat pre).length : Nat) : Int) = (buf.data.length : Int)) := by omega
  have n2 : ¬ ((((flat pre).length : Nat) : Int) > (buf.data.length : Int)) := by omega
  have n3 : ¬ ((c.tag.length : Int) = 0) := by omega
  have n4 : ¬ ((((flat pre).length + c.tag.length : Nat) : Int) ≥ (buf.data.length : Int)) := by omega
  have n5 : ¬ ((c.pay.length : Int) = 0) := by omega
  have n6 : (flat pre).length + c.tag.length < maxLen := by omega
  have n7 : (flat pre).length + c.tag.length + c.pay.length < maxLen := by omega
  simp only [decodeStep]
  rw [if_neg n1, if_neg n2, d1]
  simp only [bind, Except.bind, ht]
  rw [if_neg n3, addInt_nat n6, hf, hty, if_neg n4]
  simp only [r1, d2, hfd]
  rw [if_neg n5, addInt_nat n7]
  have : (flat (pre ++ [c])).length = (flat pre).length + c.tag.length + c.pay.length := by
    simp [Chunk.bytes]; omega
  rw [this]
  rfl

/-- The loop of `Decode`, from the middle of a valid message. -/
theorem decode_loop {n : Nat} {rep : Nat → Bool} {buf : Slice} (hlen : buf.data.length < maxLen) (post : List Chunk) :
    ∀ (pre : List Chunk) (o : Offsets), buf.data = flat (pre ++ post) → (∀ c ∈ post, c.WF) →
      (∀ c ∈ post, c.num < n) → o.Inv → o.a.length = n → (∀ g, o.view g = pick (rep g) (offs g 0 pre)) →
      ∃ o', iterate (decodeStep buf rep) (((flat pre).length : Nat), o) = .ok (o', none) ∧ o'.Inv ∧
        o'.a.length = n ∧ (∀ g, o'.view g = pick (rep g) (offs g 0 (pre ++ post))) ∧
        (buf.data.length ≤ 65535 → o.m = none → o'.m = none) := by
  induction post with
  | nil =>
    intro pre o hd _ _ hi ha hv
    refine ⟨o, ?_, hi, ha, by simpa using hv, fun _ hm => hm⟩
    rw [iterate_eq]
    have : (((flat pre).length : Nat) : Int) = (buf.data.length : Int) := by rw [hd]; simp
    simp only [decodeStep, this, if_true]
    rfl
  | cons c post ih =>
    intro pre o hd hwf hlt hi ha hv
    have hd' : buf.data = flat pre ++ (c.bytes ++ flat post) := by rw [hd]; simp
    have hcw := hwf c (by simp)
    have hl : buf.data.length = (flat pre).length + c.tag.length + c.pay.length + (flat post).length := by
      rw [hd']; simp [Chunk.bytes]; omega
    have hpp := hcw.pay_pos
    obtain ⟨o1, s1, s2, s3, s4, s5⟩ := decodeStep_chunk hi hd' hlen hv (by rw [ha]; exact hlt c (by simp)) hcw
    obtain ⟨o', t1, t2, t3, t4, t5⟩ := ih (pre ++ [c]) o1 (by rw [hd]; simp) (fun d hd => hwf d (by simp [hd]))
      (fun d hd => hlt d (by simp [hd])) s2 (by rw [s3, ha]) s4
    refine ⟨o', ?_, t2, t3, by simpa using t4, fun h1 h2 => t5 h1 (s5 (by omega) h2)⟩
    rw [iterate_eq, s1]
    exact t1

/-- `Decode` of a valid message whose field numbers are in the table: nil error, and the offsets
represent the message, whatever they were before. -/
theorem decode_spec {n : Nat} {rep : Nat → Bool} {buf : Slice} {o : Offsets} {cs : List Chunk}
    (hlen : buf.data.length < maxLen) (hd : buf.data = flat cs) (hwf : ∀ c ∈ cs, c.WF) (hlt : ∀ c ∈ cs, c.num < n)
    (ha : o.a.length = n) :
    ∃ o', decode buf o rep = .ok (o', none) ∧ Rep n rep buf o' cs ∧
      (buf.data.length ≤ 65535 → o.m = none → o'.m = none) := by
  obtain ⟨o', h1, h2, h3, h4, h5⟩ := decode_loop (n := n) (rep := rep) hlen cs [] o.clear (by simpa using hd) hwf hlt
    (Offsets.clear_inv o) (by rw [Offsets.clear_length, ha]) (fun g => by rw [Offsets.clear_view]; simp [offs, pick_nil])
  exact ⟨o', h1, ⟨hd, hwf, hlt, hlen, h2, h3, by simpa using h4⟩, fun h6 h7 => h5 h6 (Offsets.clear_m o h7)⟩

/-! ## Iteration -/

/-- Split at the first record of field `f`: that record and what follows it. -/
def splitFirst (f : Nat) : List Chunk → Option (Chunk × List Chunk)
  | [] => none
  | c :: cs => if c.num = f then some (c, cs) else splitFirst f cs

/-- The scan of `FindNextField` over records that do not belong to the field. -/
theorem find_loop {buf : Slice} (hlen : buf.data.length < maxLen) {f : Nat} (cs : List Chunk) :
    ∀ (P : List Byte), buf.data = P ++ flat cs → (∀ c ∈ cs, c.WF) →
      iterate (findStep buf f) (P.length : Int) = .ok (
        match splitFirst f cs with
        | none => none
        | some (c, post) => some ⟨c.pay ++ flat post, buf.spare⟩) := by
  induction cs with
  | nil =>
    intro P hd _
    rw [iterate_eq]
    have : ¬ ((P.length : Int) < (buf.data.length : Int)) := by rw [hd]; simp
    simp [findStep, this, splitFirst, pure, Except.pure]
  | cons c cs ih =>
    intro P hd hwf
    have hcw := hwf c (by simp)
    have htp := hcw.tag_pos
    have hpp := hcw.pay_pos
    have hl : buf.data.length = P.length + c.tag.length + c.pay.length + (flat cs).length := by
      rw [hd]; simp [Chunk.bytes]; omega
    obtain ⟨t, ht, hf, hty⟩ := hcw.uvarint_tag (flat cs)
    have d1 : buf.dropFrom (P.length : Int) = .ok ⟨c.bytes ++ flat cs, buf.spare⟩ := by
      obtain ⟨d, s⟩ := buf
      simp only [flat_cons] at hd; subst hd; exact dropFrom_append _ _ _
    have d2 : buf.dropFrom ((P.length + c.tag.length : Nat) : Int) = .ok ⟨c.pay ++ flat cs, buf.spare⟩ := by
      obtain ⟨d, s⟩ := buf
      simp only [flat_cons] at hd; subst hd
      rw [← List.length_append, Chunk.bytes, List.append_assoc, ← List.append_assoc]; exact dropFrom_append _ _ _
    have hfd := fieldDataSize_payload (rest := flat cs) hcw.pay (by omega)
    have n1 : ¬ ¬ ((P.length : Int) < (buf.data.length : Int)) := by omega
    have n2 : P.length + c.tag.length < maxLen := by omega
    have n3 : P.length + c.tag.length + c.pay.length < maxLen := by omega
    rw [iterate_eq]
    simp only [findStep]
    rw [if_neg n1, d1]
    simp only [bind, Except.bind, ht, addInt_nat n2, hf, hty, d2, hfd]
    by_cases hcf : c.num = f
    · simp only [if_pos hcf, splitFirst, pure, Except.pure]
    · simp only [if_neg hcf, splitFirst, pure, Except.pure]
      rw [addInt_nat n3]
      have := ih (P ++ c.bytes) (by rw [hd]; simp) (fun d hd => hwf d (by simp [hd]))
      rw [List.length_append, c.bytes_length, ← Nat.add_assoc] at this
      exact this

/-- The iterator positioned at the first record of field `f` among `cs`. -/
def itAt (f : Nat) (sp : List Byte) (cs : List Chunk) : Option Slice :=
  match splitFirst f cs with
  | none => none
  | some (c, post) => some ⟨c.pay ++ flat post, sp⟩

theorem splitFirst_none {f : Nat} {cs : List Chunk} (h : ∀ c ∈ cs, c.num ≠ f) : splitFirst f cs = none := by
  induction cs with
  | nil => rfl
  | cons c cs ih => simp [splitFirst, ih (fun d hd => h d (by simp [hd])), h c (by simp)]

theorem splitFirst_some {f : Nat} {pre post : List Chunk} {c : Chunk} (hc : c.num = f) (hp : ∀ d ∈ pre, d.num ≠ f) :
    splitFirst f (pre ++ c :: post) = some (c, post) := by
  induction pre with
  | nil => simp [splitFirst, hc]
  | cons d pre ih => simp [splitFirst, ih (fun e he => hp e (by simp [he])), hp d (by simp)]

/-- One call of `FindNextField`. -/
theorem findNextField_spec {f : Nat} {sp : List Byte} {c : Chunk} {post : List Chunk} {bs : List Byte}
    (hp : IsPayload (.bytes bs) c.pay) (hwf : ∀ d ∈ post, d.WF) (hlen : (c.pay ++ flat post).length < maxLen) :
    findNextField (some ⟨c.pay ++ flat post, sp⟩) f = .ok (itAt f sp post, some ⟨bs, flat post ++ sp⟩) := by
  obtain ⟨lb, h1, h2⟩ := hp
  have hl2 : c.pay.length + (flat post).length < maxLen := by simpa using hlen
  have hl3 : lb.length + bs.length < maxLen := by rw [h2] at hl2; simp at hl2; omega
  have hloop := find_loop (buf := ⟨c.pay ++ flat post, sp⟩) hlen (f := f) post c.pay rfl hwf
  have hr : (Slice.mk (c.pay ++ flat post) sp).range (lb.length : Int) ((lb.length + bs.length : Nat) : Int) =
      .ok ⟨bs, flat post ++ sp⟩ := by
    rw [h2, List.append_assoc]; exact range_append _ _ _ _
  have hcl : c.pay.length = lb.length + bs.length := by rw [h2]; simp
  rw [hcl] at hloop
  have hu : uvarint (c.pay ++ flat post) = (BitVec.ofNat 64 bs.length, (lb.length : Int)) := by
    rw [h2, List.append_assoc, uvarint_of_isVarint h1]
  have hbl : bs.length < maxLen := by omega
  simp only [findNextField, hu, u64ToInt_nat hbl, addInt_nat hl3, hr, hloop, bind, Except.bind, pure, Except.pure]
  rfl

/-- `GetRepeatedNonPacked` positions the iterator at the first occurrence. -/
theorem Rep.messages {n : Nat} {rep : Nat → Bool} {buf : Slice} {o : Offsets} {cs : List Chunk}
    (h : Rep n rep buf o cs) {f : Nat} (hf : f < n) (hr : rep f = true) :
    getRepeatedNonPacked buf o f = .ok (itAt f buf.spare cs) := by
  by_cases ha : ∃ c ∈ cs, c.num = f
  · obtain ⟨pre, c, post, hcs, hc, hpre⟩ := exists_first ha
    have hloc := h.located_first hcs hr hc hpre
    simp only [getRepeatedNonPacked, hloc.get, bind, Except.bind, Bool.not_true, Bool.false_eq_true, if_false, hloc.drop,
      pure, Except.pure, itAt, hcs, splitFirst_some hc hpre]
  · have ha' : ∀ c ∈ cs, c.num ≠ f := fun c hc he => ha ⟨c, hc, he⟩
    rw [messages_absent (h.get_none hf ha'), itAt, splitFirst_none ha']

/-- Calling `FindNextField` again and again visits the records of the field in order. -/
theorem iterate_spec {f : Nat} (sp : List Byte) (els : List (List Byte)) :
    ∀ (cs : List Chunk), (∀ c ∈ cs, c.WF) → (flat cs).length < maxLen →
      (cs.filter (fun c => c.num = f)).map Chunk.val = els.map Val.bytes →
      ∃ (its : Nat → Option Slice) (rest : Nat → List Byte), its 0 = itAt f sp cs ∧
        (∀ i (hi : i < els.length), findNextField (its i) f = .ok (its (i + 1), some ⟨els[i], rest i⟩) ∧
          ∃ front back, flat cs = front ++ els[i] ++ back ∧ rest i = back ++ sp) ∧
        (∀ i, els.length ≤ i → its i = none) := by
  induction els with
  | nil =>
    intro cs hwf _ hel
    refine ⟨fun _ => none, fun _ => [], ?_, ?_, fun _ _ => rfl⟩
    · rw [itAt, splitFirst_none]
      intro c hc he
      have : cs.filter (fun c => c.num = f) = [] := by simpa using hel
      rw [List.filter_eq_nil_iff] at this
      exact this c hc (by simpa using he)
    · intro i hi; simp at hi
  | cons b els ih =>
    intro cs hwf hlen hel
    have ha : ∃ c ∈ cs, c.num = f := by
      cases hfl : cs.filter (fun c => c.num = f) with
      | nil => rw [hfl] at hel; simp at hel
      | cons c l =>
        have : c ∈ cs.filter (fun c => c.num = f) := by rw [hfl]; simp
        rw [List.mem_filter] at this
        exact ⟨c, this.1, by simpa using this.2⟩
    obtain ⟨pre, c, post, hcs, hc, hpre⟩ := exists_first ha
    have hpf : pre.filter (fun c => c.num = f) = [] := by
      rw [List.filter_eq_nil_iff]; intro d hd; simpa using hpre d hd
    rw [hcs, List.filter_append, hpf, List.nil_append, List.filter_cons, if_pos (by simpa using hc)] at hel
    simp only [List.map_cons, List.cons.injEq] at hel
    have hl : (flat cs).length = (flat pre).length + c.tag.length + c.pay.length + (flat post).length := by
      rw [hcs]; simp [Chunk.bytes]; omega
    have hcw := hwf c (by rw [hcs]; simp)
    have hpw : ∀ d ∈ post, d.WF := fun d hd => hwf d (by rw [hcs]; simp [hd])
    obtain ⟨its, rest, i1, i2, i3⟩ := ih post hpw (by omega) hel.2
    have hp : IsPayload (.bytes b) c.pay := by rw [← hel.1]; exact hcw.pay
    have hfn := findNextField_spec (f := f) (sp := sp) hp hpw (by rw [List.length_append]; omega)
    refine ⟨fun i => match i with | 0 => itAt f sp cs | i + 1 => its i,
      fun i => match i with | 0 => flat post ++ sp | i + 1 => rest i, rfl, ?_, ?_⟩
    · intro i hi
      cases i with
      | zero =>
        constructor
        · simp only [itAt, hcs, splitFirst_some hc hpre, List.getElem_cons_zero, i1]
          rw [hfn]; rfl
        · obtain ⟨lb, _, hpay⟩ := hp
          refine ⟨flat pre ++ c.tag ++ lb, flat post, ?_, rfl⟩
          rw [hcs]; simp [Chunk.bytes, hpay]
      | succ i =>
        obtain ⟨j1, front, back, j2, j3⟩ := i2 i (by simpa using hi)
        refine ⟨by simpa using j1, flat pre ++ c.bytes ++ front, back, ?_, j3⟩
        rw [hcs]
        simp only [flat_append, flat_cons, List.append_assoc, List.getElem_cons_succ] at j2 ⊢
        rw [j2]
    · intro i hi
      cases i with
      | zero => simp at hi
      | succ i => exact i3 i (by simpa using hi)

end Zeropb
