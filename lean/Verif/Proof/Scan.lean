import Verif.Proof.Unique
import Verif.Spec.Scan
import Verif.Proof.Msg
/-!
# `Decode` on arbitrary input
-/

set_option linter.unusedSimpArgs false
set_option linter.unusedVariables false

namespace Zeropb
open Wire

/-! ## Classification of byte strings -/

theorem ofLE_leBytes (bs : List Byte) : ∃ v, v < 256 ^ bs.length ∧ leBytes bs.length v = bs := by
  induction bs with
  | nil => exact ⟨0, by simp, rfl⟩
  | cons b bs ih =>
    obtain ⟨v, h1, h2⟩ := ih
    have hb : b.toNat < 256 := b.isLt
    refine ⟨b.toNat + 256 * v, ?_, ?_⟩
    · rw [List.length_cons, Nat.pow_succ]; omega
    · simp only [List.length_cons, leBytes]
      have e1 : (b.toNat + 256 * v) % 256 = b.toNat := by omega
      have e2 : (b.toNat + 256 * v) / 256 = v := by omega
      rw [e1, e2, h2]
      congr 1
      apply BitVec.eq_of_toNat_eq
      rw [BitVec.toNat_ofNat]; omega

theorem classify (n base : Nat) (X : List Byte) (hlen : base + X.length < maxLen) :
    X = [] ∨ (∃ (c : Chunk) (rest : List Byte), X = c.bytes ++ rest ∧ c.WF ∧ c.num < n) ∨
    CutRecord n base X ∨ Defect n base X := by
  by_cases hX : X = []
  · exact Or.inl hX
  right
  rcases uvarint_cases X with ⟨h, _⟩ | ⟨init, last, rest, h1, h2, h3, h4, _⟩ | ⟨t, tag, Y, rfl, ht, _⟩
  · exact Or.inr (Or.inl (.tag hX h))
  · exact Or.inr (Or.inr (.tagOverflow ⟨init, last, rest, h1, h2, h3, h4⟩))
  · by_cases hY : Y = []
    · subst hY; rw [List.append_nil]; exact Or.inr (Or.inl (.noPayload ht))
    by_cases hn : n ≤ t / 8
    · exact Or.inr (Or.inr (.number ht hn hY))
    have hn' : t / 8 < n := by omega
    simp only [List.length_append] at hlen
    have hmod : t % 8 = 0 ∨ t % 8 = 1 ∨ t % 8 = 2 ∨ t % 8 = 5 ∨ (t % 8 = 3 ∨ t % 8 = 4 ∨ t % 8 = 6 ∨ t % 8 = 7) := by omega
    have mk : ∀ (v : Val) (pay rest : List Byte), v.wireType = t % 8 → IsPayload v pay → Y = pay ++ rest →
        ∃ (c : Chunk) (rest' : List Byte), tag ++ Y = c.bytes ++ rest' ∧ c.WF ∧ c.num < n := by
      intro v pay rest hw hp he
      have htn : (⟨t / 8, v, tag, pay⟩ : Chunk).tagNum = t := by
        show t / 8 * 8 + v.wireType = t
        rw [hw]; omega
      refine ⟨⟨t / 8, v, tag, pay⟩, rest, by simp [Chunk.bytes, he], ⟨?_, hp⟩, hn'⟩
      rw [htn]; exact ht
    have fixed : ∀ (w : Nat), w ≤ Y.length → ∃ v, v < 256 ^ w ∧ leBytes w v = Y.take w := by
      intro w hw
      obtain ⟨v, h1, h2⟩ := ofLE_leBytes (Y.take w)
      rw [List.length_take, Nat.min_eq_left hw] at h1 h2
      exact ⟨v, h1, h2⟩
    rcases hmod with hm | hm | hm | hm | hm
    · rcases uvarint_cases Y with ⟨h, _⟩ | ⟨init, last, rest, h1, h2, h3, h4, _⟩ | ⟨v, vb, rest, h1, h2, _⟩
      · exact Or.inr (Or.inl (.payload ht hn' (by rw [hm]; exact .varint hY h)))
      · exact Or.inr (Or.inr (.payOverflow ht hn' (Or.inl hm) ⟨init, last, rest, h1, h2, h3, h4⟩))
      · left
        apply mk (.varint (BitVec.ofNat 64 v)) vb rest (by simp [Val.wireType, hm]) _ h1
        show IsVarint (BitVec.ofNat 64 v).toNat vb
        rw [ofNat64_toNat h2.lt]; exact h2
    · rcases Nat.lt_or_ge Y.length 8 with h | h
      · exact Or.inr (Or.inl (.payload ht hn' (by rw [hm]; exact .fixed64 hY h)))
      · left
        obtain ⟨v, h1, h2⟩ := fixed 8 h
        apply mk (.fixed64 (BitVec.ofNat 64 v)) (Y.take 8) (Y.drop 8) (by simp [Val.wireType, hm]) _ (by simp)
        show Y.take 8 = leBytes 8 _
        rw [ofNat64_toNat (by omega), h2]
    · rcases uvarint_cases Y with ⟨h, _⟩ | ⟨init, last, rest, h1, h2, h3, h4, _⟩ | ⟨L, lb, rest, rfl, h2, _⟩
      · exact Or.inr (Or.inl (.payload ht hn' (by rw [hm]; exact .length hY h)))
      · exact Or.inr (Or.inr (.payOverflow ht hn' (Or.inr hm) ⟨init, last, rest, h1, h2, h3, h4⟩))
      · by_cases hbig : 2 ^ 63 ≤ base + tag.length + lb.length + L
        · exact Or.inr (Or.inr (.length ht hn' hm h2 hbig))
        · by_cases hL : rest.length < L
          · exact Or.inr (Or.inl (.payload ht hn' (by rw [hm]; exact .bytes h2 hL (by omega))))
          · left
            apply mk (.bytes (rest.take L)) (lb ++ rest.take L) (rest.drop L) (by simp [Val.wireType, hm]) _ (by simp)
            refine ⟨lb, ?_, rfl⟩
            rw [List.length_take, Nat.min_eq_left (by omega)]; exact h2
    · rcases Nat.lt_or_ge Y.length 4 with h | h
      · exact Or.inr (Or.inl (.payload ht hn' (by rw [hm]; exact .fixed32 hY h)))
      · left
        obtain ⟨v, h1, h2⟩ := fixed 4 h
        apply mk (.fixed32 (BitVec.ofNat 32 v)) (Y.take 4) (Y.drop 4) (by simp [Val.wireType, hm]) _ (by simp)
        show Y.take 4 = leBytes 4 _
        rw [BitVec.toNat_ofNat, Nat.mod_eq_of_lt (by omega), h2]
    · exact Or.inr (Or.inr (.wireType ht hn' hm hY))

/-! ## Steps of `Decode` on cut-off records and defects -/

theorem recordOffset_ok {rep : Nat → Bool} {o : Offsets} (hi : o.Inv) {f idx : Nat} (hf : f < o.a.length) (hpos : 0 < idx)
    (hlen : idx < maxLen) :
    ∃ o', recordOffset rep o f (idx : Int) = .ok o' ∧ o'.a.length = o.a.length ∧ o'.Inv ∧
      ∀ g, g ≠ f → o'.view g = o.view g := by
  have hn : (BitVec.ofNat 64 idx).toNat = idx := ofNat64_toNat (by unfold maxLen at hlen; omega)
  obtain ⟨o', s1, s2, s3, s4, _⟩ := Offsets.set_spec hi hf (off := BitVec.ofNat 64 idx) (by rw [hn]; omega)
  have s5 : ∀ g, g ≠ f → o'.view g = o.view g := fun g hg => by rw [s4, if_neg hg]
  unfold recordOffset
  rw [intToU64_nat]
  split
  · rw [Offsets.get_eq hi hf]
    cases o.view f with
    | none => exact ⟨o', by simpa [bind, Except.bind] using s1, s3, s2, s5⟩
    | some x => exact ⟨o, rfl, rfl, hi, fun _ _ => rfl⟩
  · exact ⟨o', s1, s3, s2, s5⟩

theorem recordOffset_fail {rep : Nat → Bool} {o : Offsets} {f : Nat} (idx : Int) (hf : o.a.length ≤ f) :
    recordOffset rep o f idx = .error .indexOutOfRange := by
  unfold recordOffset
  split
  · rw [Offsets.get_fail hf]; rfl
  · exact Offsets.set_fail _ hf

/-- The first half of the loop body: at a complete tag followed by something. -/
theorem decodeStep_tag {rep : Nat → Bool} {buf : Slice} {o : Offsets} {A tag Y : List Byte} {t : Nat}
    (hd : buf.data = A ++ (tag ++ Y)) (hlen : buf.data.length < maxLen) (ht : IsVarint t tag) (hY : Y ≠ []) :
    decodeStep buf rep ((A.length : Int), o) = (do
      let o ← recordOffset rep o (t / 8) ((A.length + tag.length : Nat) : Int)
      let sz ← fieldDataSize (t % 8) Y
      if sz = 0 then return .inr (o, some .unexpectedEOF)
      return .inl (addInt ((A.length + tag.length : Nat) : Int) sz, o)) := by
  have htp := ht.length_pos
  have hYp : 0 < Y.length := by cases Y with | nil => simp at hY | cons _ _ => simp
  have hl : buf.data.length = A.length + tag.length + Y.length := by rw [hd]; simp; omega
  have d1 : buf.dropFrom (A.length : Int) = .ok ⟨tag ++ Y, buf.spare⟩ := by
    obtain ⟨d, s⟩ := buf
    simp only at hd; subst hd; exact dropFrom_append _ _ _
  have d2 : buf.dropFrom ((A.length + tag.length : Nat) : Int) = .ok ⟨Y, buf.spare⟩ := by
    obtain ⟨d, s⟩ := buf
    simp only at hd; subst hd
    rw [← List.length_append, ← List.append_assoc]; exact dropFrom_append _ _ _
  have n1 : ¬ ((A.length : Int) = (buf.data.length : Int)) := by omega
  have n2 : ¬ ((A.length : Int) > (buf.data.length : Int)) := by omega
  have n3 : ¬ ((tag.length : Int) = 0) := by omega
  have n4 : ¬ (((A.length + tag.length : Nat) : Int) ≥ (buf.data.length : Int)) := by omega
  have n6 : A.length + tag.length < maxLen := by omega
  have hu := uvarint_of_isVarint ht Y
  simp only [decodeStep]
  rw [if_neg n1, if_neg n2, d1]
  simp only [bind, Except.bind, hu]
  rw [if_neg n3, addInt_nat n6, if_neg n4, tagField_ofNat ht.lt, tagType_ofNat ht.lt, d2]

theorem uvarint_unterminated {Y : List Byte} (h : Unterminated Y) : uvarint Y = (0#64, 0) :=
  uvarintAux_short _ _ _ _ h

theorem uvarint_overflow {Y : List Byte} (h : OverflowVarint Y) : ∃ k : Nat, 10 ≤ k ∧ k ≤ Y.length ∧ uvarint Y = (0#64, -(k : Int)) := by
  obtain ⟨init, last, rest, rfl, h1, h2, h3⟩ := h
  refine ⟨init.length + 1, by omega, by simp, ?_⟩
  have := uvarintAux_overflow init last rest 0 0#64 0 h1 h2 (by simpa using h3)
  simpa [uvarint] using this

/-- The size found in a cut-off payload: 0, or one reaching beyond the end. -/
theorem fieldDataSize_cut {pos typ : Nat} {Y : List Byte} (h : CutPayload pos typ Y) :
    ∃ k : Nat, fieldDataSize typ Y = .ok (k : Int) ∧ (k = 0 ∨ (Y.length < k ∧ (pos + k < maxLen ∨ k ≤ 8))) := by
  cases h with
  | varint h1 h2 => exact ⟨0, by simp [fieldDataSize, wireVarint, uvarint_unterminated h2], Or.inl rfl⟩
  | fixed64 h1 h2 => exact ⟨8, rfl, Or.inr ⟨h2, Or.inr (by omega)⟩⟩
  | fixed32 h1 h2 => exact ⟨4, rfl, Or.inr ⟨h2, Or.inr (by omega)⟩⟩
  | length h1 h2 =>
    refine ⟨0, ?_, Or.inl rfl⟩
    show (if (uvarint Y).2 = 0 then Except.ok 0 else _) = _
    rw [uvarint_unterminated h2]; rfl
  | @bytes L lb Z h1 h2 h3 =>
    have hp := h1.length_pos
    have n0 : lb.length + L < maxLen := by unfold maxLen; omega
    have n1 : L < maxLen := by omega
    have n2 : ¬ ((lb.length : Int) = 0) := by omega
    refine ⟨lb.length + L, ?_, Or.inr ⟨by simp; omega, Or.inl (by unfold maxLen; omega)⟩⟩
    have e : fieldDataSize 2 (lb ++ Z) =
      (if (uvarint (lb ++ Z)).2 = 0 then .ok 0
       else .ok (addInt (uvarint (lb ++ Z)).2 (u64ToInt (uvarint (lb ++ Z)).1))) := rfl
    rw [e, uvarint_of_isVarint h1, if_neg n2, u64ToInt_nat n1, addInt_nat n0]

theorem _root_.Zeropb.Wire.CutPayload.ne_nil {pos typ : Nat} {Y : List Byte} (h : CutPayload pos typ Y) : Y ≠ [] := by
  cases h with
  | varint h _ => exact h
  | fixed64 h _ => exact h
  | fixed32 h _ => exact h
  | length h _ => exact h
  | bytes h _ _ =>
    have hp := h.length_pos
    intro he
    rw [List.append_eq_nil_iff] at he
    rw [he.1] at hp; simp at hp

theorem iterate_beyond {rep : Nat → Bool} {buf : Slice} {o : Offsets} {idx : Int} (h : idx > (buf.data.length : Int)) :
    iterate (decodeStep buf rep) (idx, o) = .ok (o, some .unexpectedEOF) := by
  rw [iterate_eq]
  have n1 : ¬ idx = (buf.data.length : Int) := by omega
  simp only [decodeStep]
  rw [if_neg n1, if_pos h]
  rfl

/-- `Decode` at a cut-off record. -/
theorem decode_cut {n : Nat} {rep : Nat → Bool} {buf : Slice} {o : Offsets} (hi : o.Inv) (ha : o.a.length = n)
    {A X : List Byte} (hd : buf.data = A ++ X) (hlen : buf.data.length + 8 < maxLen) (h : CutRecord n A.length X) :
    ∃ o', iterate (decodeStep buf rep) ((A.length : Int), o) = .ok (o', some .unexpectedEOF) ∧
      o'.Inv ∧ o'.a.length = n ∧
      ∀ g, (∀ t tag Y, X = tag ++ Y → IsVarint t tag → t / 8 ≠ g) → o'.view g = o.view g := by
  cases h with
  | tag h1 h2 =>
    refine ⟨o, ?_, hi, ha, fun _ _ => rfl⟩
    have hXp : 0 < X.length := by cases X with | nil => simp at h1 | cons _ _ => simp
    have hl : buf.data.length = A.length + X.length := by rw [hd]; simp
    have d1 : buf.dropFrom (A.length : Int) = .ok ⟨X, buf.spare⟩ := by
      obtain ⟨d, s⟩ := buf
      simp only at hd; subst hd; exact dropFrom_append _ _ _
    have n1 : ¬ ((A.length : Int) = (buf.data.length : Int)) := by omega
    have n2 : ¬ ((A.length : Int) > (buf.data.length : Int)) := by omega
    rw [iterate_eq]
    simp only [decodeStep]
    rw [if_neg n1, if_neg n2, d1]
    simp only [bind, Except.bind, uvarint_unterminated h2]
    rfl
  | @noPayload t tag h1 =>
    refine ⟨o, ?_, hi, ha, fun _ _ => rfl⟩
    have htp := h1.length_pos
    have hl : buf.data.length = A.length + X.length := by rw [hd]; simp
    have d1 : buf.dropFrom (A.length : Int) = .ok ⟨X, buf.spare⟩ := by
      obtain ⟨d, s⟩ := buf
      simp only at hd; subst hd; exact dropFrom_append _ _ _
    have n1 : ¬ ((A.length : Int) = (buf.data.length : Int)) := by omega
    have n2 : ¬ ((A.length : Int) > (buf.data.length : Int)) := by omega
    have n3 : ¬ ((X.length : Int) = 0) := by omega
    have n4 : (((A.length + X.length : Nat) : Int) ≥ (buf.data.length : Int)) := by omega
    have n6 : A.length + X.length < maxLen := by omega
    have hu := uvarint_of_isVarint h1 []
    rw [List.append_nil] at hu
    rw [iterate_eq]
    simp only [decodeStep]
    rw [if_neg n1, if_neg n2, d1]
    simp only [bind, Except.bind, hu]
    rw [if_neg n3, addInt_nat n6, if_pos n4]
    rfl
  | @payload t tag Y h1 h2 h3 =>
    have hY : Y ≠ [] := h3.ne_nil
    have htp := h1.length_pos
    have hl : buf.data.length = A.length + tag.length + Y.length := by rw [hd]; simp; omega
    obtain ⟨o', r1, r2, r3, r4⟩ := recordOffset_ok (rep := rep) hi (idx := A.length + tag.length) (by rw [ha]; exact h2) (by omega) (by omega)
    obtain ⟨k, k1, k2⟩ := fieldDataSize_cut h3
    refine ⟨o', ?_, r3, by rw [r2, ha], fun g hg => r4 g (Ne.symm (hg t tag Y rfl h1))⟩
    rw [iterate_eq, decodeStep_tag hd (by omega) h1 hY]
    simp only [r1, k1, bind, Except.bind]
    rcases k2 with k2 | ⟨k2, k3⟩
    · subst k2; rfl
    · have n1 : ¬ ((k : Int) = 0) := by omega
      have k4 : A.length + tag.length + k < maxLen := by
        rcases k3 with k3 | k3 <;> omega
      rw [if_neg n1, addInt_nat k4]
      exact iterate_beyond (by omega)

/-- `Decode` at a field number outside the table. -/
theorem decode_number {n : Nat} {rep : Nat → Bool} {buf : Slice} {o : Offsets} (ha : o.a.length = n)
    {A tag rest : List Byte} {t : Nat} (hd : buf.data = A ++ (tag ++ rest)) (hlen : buf.data.length < maxLen)
    (ht : IsVarint t tag) (hn : n ≤ t / 8) (hr : rest ≠ []) :
    iterate (decodeStep buf rep) ((A.length : Int), o) = .error .indexOutOfRange := by
  rw [iterate_eq, decodeStep_tag hd hlen ht hr, recordOffset_fail _ (by rw [ha]; exact hn)]
  rfl

/-- `Decode` at an unsupported wire type. -/
theorem decode_wireType {n : Nat} {rep : Nat → Bool} {buf : Slice} {o : Offsets} (hi : o.Inv) (ha : o.a.length = n)
    {A tag rest : List Byte} {t : Nat} (hd : buf.data = A ++ (tag ++ rest)) (hlen : buf.data.length < maxLen)
    (ht : IsVarint t tag) (hn : t / 8 < n) (hw : t % 8 = 3 ∨ t % 8 = 4 ∨ t % 8 = 6 ∨ t % 8 = 7) (hr : rest ≠ []) :
    iterate (decodeStep buf rep) ((A.length : Int), o) = .error .unsupportedType := by
  have htp := ht.length_pos
  have hl : buf.data.length = A.length + tag.length + rest.length := by rw [hd]; simp; omega
  obtain ⟨o', r1, _⟩ := recordOffset_ok (rep := rep) hi (idx := A.length + tag.length) (by rw [ha]; exact hn) (by omega) (by omega)
  rw [iterate_eq, decodeStep_tag hd hlen ht hr]
  have : fieldDataSize (t % 8) rest = .error .unsupportedType := by
    rcases hw with h | h | h | h <;> rw [h] <;> rfl
  simp only [r1, this, bind, Except.bind]

theorem addInt_overflow_neg {a b : Nat} (h1 : 2 ^ 63 ≤ a + b) (h2 : a + b < 2 ^ 64) : addInt (a : Int) (b : Int) < 0 := by
  unfold addInt wrapInt
  omega

theorem iterate_negative {rep : Nat → Bool} {buf : Slice} {o : Offsets} {idx : Int} (h : idx < 0) :
    iterate (decodeStep buf rep) (idx, o) = .error .sliceBounds := by
  rw [iterate_eq]
  have k1 : ¬ (idx = (buf.data.length : Int)) := by omega
  have k2 : ¬ (idx > (buf.data.length : Int)) := by omega
  have k4 : ¬ (0 ≤ idx ∧ idx ≤ (buf.data.length : Int)) := by omega
  have k3 : buf.dropFrom idx = .error .sliceBounds := by
    unfold Slice.dropFrom
    rw [if_neg k4]
  simp only [decodeStep]
  rw [if_neg k1, if_neg k2, k3]
  rfl

/-- `Decode` at a length below 2^63 that reaches beyond position 2^63: the index overflows, and the
next slice expression panics. -/
theorem decode_length {n : Nat} {rep : Nat → Bool} {buf : Slice} {o : Offsets} (hi : o.Inv) (ha : o.a.length = n)
    {A tag lb rest : List Byte} {t L : Nat} (hd : buf.data = A ++ (tag ++ (lb ++ rest))) (hlen : buf.data.length < maxLen)
    (ht : IsVarint t tag) (hn : t / 8 < n) (hw : t % 8 = 2) (hL : IsVarint L lb)
    (h1 : 2 ^ 63 ≤ A.length + tag.length + lb.length + L) (h2 : lb.length + L < 2 ^ 63) :
    iterate (decodeStep buf rep) ((A.length : Int), o) = .error .sliceBounds := by
  have htp := ht.length_pos
  have hlp := hL.length_pos
  have hr : lb ++ rest ≠ [] := by
    intro he
    rw [List.append_eq_nil_iff] at he
    rw [he.1] at hlp; simp at hlp
  have hl : buf.data.length = A.length + tag.length + (lb.length + rest.length) := by rw [hd]; simp; omega
  obtain ⟨o', r1, _⟩ := recordOffset_ok (rep := rep) hi (idx := A.length + tag.length) (by rw [ha]; exact hn) (by omega) (by omega)
  have n0 : lb.length + L < maxLen := by unfold maxLen; omega
  have n1 : L < maxLen := by omega
  have n2 : ¬ ((lb.length : Int) = 0) := by omega
  have n3 : ¬ (((lb.length + L : Nat) : Int) = 0) := by omega
  have e : fieldDataSize (t % 8) (lb ++ rest) = .ok ((lb.length + L : Nat) : Int) := by
    have e : fieldDataSize 2 (lb ++ rest) =
      (if (uvarint (lb ++ rest)).2 = 0 then .ok 0
       else .ok (addInt (uvarint (lb ++ rest)).2 (u64ToInt (uvarint (lb ++ rest)).1))) := rfl
    rw [hw, e, uvarint_of_isVarint hL, if_neg n2, u64ToInt_nat n1, addInt_nat n0]
  have m1 : 2 ^ 63 ≤ A.length + tag.length + (lb.length + L) := by omega
  have m2 : A.length + tag.length + (lb.length + L) < 2 ^ 64 := by unfold maxLen at hlen; omega
  rw [iterate_eq, decodeStep_tag hd hlen ht hr]
  simp only [r1, e, bind, Except.bind]
  rw [if_neg n3]
  exact iterate_negative (addInt_overflow_neg m1 m2)

/-! ## Whole inputs -/

/-- The loop of `Decode` consumes a valid beginning of the input. -/
theorem decode_prefix {n : Nat} {rep : Nat → Bool} {buf : Slice} (hlen : buf.data.length < maxLen) {X : List Byte} (post : List Chunk) :
    ∀ (pre : List Chunk) (o : Offsets), buf.data = flat (pre ++ post) ++ X → (∀ c ∈ post, c.WF) →
      (∀ c ∈ post, c.num < n) → o.Inv → o.a.length = n → (∀ g, o.view g = pick (rep g) (offs g 0 pre)) →
      ∃ o', iterate (decodeStep buf rep) (((flat pre).length : Nat), o) =
          iterate (decodeStep buf rep) (((flat (pre ++ post)).length : Nat), o') ∧ o'.Inv ∧
        o'.a.length = n ∧ (∀ g, o'.view g = pick (rep g) (offs g 0 (pre ++ post))) ∧
        (∀ k, run (decodeStep buf rep) (post.length + k) (((flat pre).length : Nat), o) =
          run (decodeStep buf rep) k (((flat (pre ++ post)).length : Nat), o')) := by
  induction post with
  | nil =>
    intro pre o hd _ _ hi ha hv
    exact ⟨o, by simp, hi, ha, by simpa using hv, fun k => by simp⟩
  | cons c post ih =>
    intro pre o hd hwf hlt hi ha hv
    have hd' : buf.data = flat pre ++ (c.bytes ++ (flat post ++ X)) := by rw [hd]; simp
    have hcw := hwf c (by simp)
    obtain ⟨o1, s1, s2, s3, s4, s5⟩ := decodeStep_chunk hi hd' hlen hv (by rw [ha]; exact hlt c (by simp)) hcw
    obtain ⟨o', t1, t2, t3, t4, t5⟩ := ih (pre ++ [c]) o1 (by rw [hd]; simp) (fun d hd => hwf d (by simp [hd]))
      (fun d hd => hlt d (by simp [hd])) s2 (by rw [s3, ha]) s4
    have hap : pre ++ [c] ++ post = pre ++ c :: post := by simp
    rw [hap] at t1 t4 t5
    refine ⟨o', ?_, t2, t3, t4, ?_⟩
    · rw [iterate_eq, s1]
      exact t1
    · intro k
      rw [List.length_cons, Nat.add_right_comm]
      simp only [run, s1]
      exact t5 k

/-- Every input is a valid message followed by nothing, a cut-off record or a defect. -/
theorem decompose (n : Nat) (bs : List Byte) (hlen : bs.length < maxLen) :
    ∃ cs X, bs = flat cs ++ X ∧ (∀ c ∈ cs, c.WF) ∧ (∀ c ∈ cs, c.num < n) ∧
      (X = [] ∨ CutRecord n (flat cs).length X ∨ Defect n (flat cs).length X) := by
  have key : ∀ (k : Nat) (pre : List Chunk) (Y : List Byte), Y.length ≤ k → (flat pre ++ Y).length < maxLen →
      (∀ c ∈ pre, c.WF) → (∀ c ∈ pre, c.num < n) →
      ∃ cs X, flat pre ++ Y = flat cs ++ X ∧ (∀ c ∈ cs, c.WF) ∧ (∀ c ∈ cs, c.num < n) ∧
      (X = [] ∨ CutRecord n (flat cs).length X ∨ Defect n (flat cs).length X) := by
    intro k
    induction k with
    | zero =>
      intro pre Y hY _ h1 h2
      exact ⟨pre, Y, rfl, h1, h2, Or.inl (List.length_eq_zero_iff.1 (by omega))⟩
    | succ k ih =>
      intro pre Y hY hl h1 h2
      rw [List.length_append] at hl
      rcases classify n (flat pre).length Y hl with h | ⟨c, rest, rfl, hw, hn⟩ | h | h
      · exact ⟨pre, Y, rfl, h1, h2, Or.inl h⟩
      · have hp := hw.tag_pos
        have hc : c.bytes.length = c.tag.length + c.pay.length := c.bytes_length
        rw [List.length_append] at hY hl
        obtain ⟨cs, X, e1, e2⟩ := ih (pre ++ [c]) rest (by omega) (by simp; omega)
          (by intro d hd; simp at hd; rcases hd with hd | rfl; exact h1 d hd; exact hw)
          (by intro d hd; simp at hd; rcases hd with hd | rfl; exact h2 d hd; exact hn)
        exact ⟨cs, X, by rw [← e1]; simp, e2⟩
      · exact ⟨pre, Y, rfl, h1, h2, Or.inr (Or.inl h)⟩
      · exact ⟨pre, Y, rfl, h1, h2, Or.inr (Or.inr h)⟩
  obtain ⟨cs, X, h⟩ := key bs.length [] bs (Nat.le_refl _) (by simpa using hlen) (by simp) (by simp)
  exact ⟨cs, X, by simpa using h⟩

/-- `Decode` up to the end of the valid beginning. -/
theorem decode_from_start {n : Nat} {rep : Nat → Bool} {buf : Slice} {o : Offsets} (ha : o.a.length = n)
    (hlen : buf.data.length < maxLen) {cs : List Chunk} {X : List Byte} (hd : buf.data = flat cs ++ X) (hwf : ∀ c ∈ cs, c.WF)
    (hlt : ∀ c ∈ cs, c.num < n) :
    ∃ o', decode buf o rep = iterate (decodeStep buf rep) (((flat cs).length : Nat), o') ∧ o'.Inv ∧ o'.a.length = n ∧
      (∀ g, o'.view g = pick (rep g) (offs g 0 cs)) ∧
      (∀ k, run (decodeStep buf rep) (cs.length + k) (0, o.clear) =
          run (decodeStep buf rep) k (((flat cs).length : Nat), o')) := by
  obtain ⟨o', h1, h2, h3, h4, h5⟩ := decode_prefix (rep := rep) hlen (X := X) cs [] o.clear (by simpa using hd) hwf hlt
    (Offsets.clear_inv o) (by rw [Offsets.clear_length, ha]) (fun g => by rw [Offsets.clear_view]; simp [offs, pick_nil])
  refine ⟨o', ?_, h2, h3, by simpa using h4, by simpa using h5⟩
  unfold decode
  simpa using h1

end Zeropb
