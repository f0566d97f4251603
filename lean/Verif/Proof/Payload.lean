import Verif.Proof.Chunk
/-!
# What getters read and setters write, for each field type
-/

set_option linter.unusedSimpArgs false

namespace Zeropb
open Wire

/-- As `IsPayload`, with shortest varints. -/
def IsMinPayload : Val → List Byte → Prop
  | .varint v, pay => IsMinVarint v.toNat pay
  | .fixed64 v, pay => pay = leBytes 8 v.toNat
  | .fixed32 v, pay => pay = leBytes 4 v.toNat
  | .bytes bs, pay => ∃ lenBytes, IsMinVarint bs.length lenBytes ∧ pay = lenBytes ++ bs

theorem IsMinPayload.isPayload {v : Val} {pay : List Byte} (h : IsMinPayload v pay) : IsPayload v pay := by
  cases v with
  | varint v => exact h.1
  | fixed64 v => exact h
  | fixed32 v => exact h
  | bytes bs => obtain ⟨lb, h1, h2⟩ := h; exact ⟨lb, h1.1, h2⟩

theorem IsMinPayload.unique {v : Val} {p q : List Byte} (h : IsMinPayload v p) (h' : IsMinPayload v q) : p = q := by
  cases v with
  | varint v => exact IsMinVarint.unique h h'
  | fixed64 v => exact (show p = _ from h).trans (show q = _ from h').symm
  | fixed32 v => exact (show p = _ from h).trans (show q = _ from h').symm
  | bytes bs =>
    obtain ⟨lb, h1, rfl⟩ := h
    obtain ⟨lb', h1', rfl⟩ := h'
    rw [h1.unique h1']

theorem minPayload_length {k : Kind} {x : k.Ty} {p : List Byte} (h : IsMinPayload (encodeVal k x) p) :
    p.length ≤ 10 + k.size x := by
  have hv : ∀ v : U64, IsMinPayload (.varint v) p → p.length ≤ 10 := fun v h => h.1.length_le
  have h4 : ∀ v : U32, IsMinPayload (.fixed32 v) p → p.length ≤ 10 := by
    intro v h; rw [show p = _ from h, leBytes_length]; omega
  have h8 : ∀ v : U64, IsMinPayload (.fixed64 v) p → p.length ≤ 10 := by
    intro v h; rw [show p = _ from h, leBytes_length]; omega
  have hb : ∀ bs, IsMinPayload (.bytes bs) p → p.length ≤ 10 + bs.length := by
    rintro bs ⟨lb, h1, rfl⟩
    have := h1.1.length_le
    simp; omega
  cases k <;> simp only [encodeVal, Kind.size] at h ⊢ <;> first
    | exact hb _ h
    | (have := hv _ h; omega)
    | (have := h4 _ h; omega)
    | (have := h8 _ h; omega)

theorem size_le_minPayload {k : Kind} {x : k.Ty} {p : List Byte} (h : IsMinPayload (encodeVal k x) p) :
    k.size x ≤ p.length := by
  have hb : ∀ bs, IsMinPayload (.bytes bs) p → bs.length ≤ p.length := by
    rintro bs ⟨lb, h1, rfl⟩
    simp
  cases k <;> simp only [encodeVal, Kind.size] at h ⊢ <;> first
    | exact hb _ h
    | omega

/-! ## Values -/

theorem unzigzag_zigzag (n : Int) : unzigzag (zigzag n) = n := by
  unfold zigzag unzigzag
  split
  · have : (2 * n).toNat % 2 = 0 := by omega
    rw [if_pos this]; omega
  · have : ¬ (-2 * n - 1).toNat % 2 = 0 := by omega
    rw [if_neg this]; omega

theorem zigzag_unzigzag (u : Nat) : zigzag (unzigzag u) = u := by
  unfold zigzag unzigzag
  split <;> split <;> omega

theorem zigzag_lt (w : Nat) (hw : 0 < w) (x : BitVec w) : zigzag x.toInt < 2 ^ w := by
  have h1 := @BitVec.toInt_lt w x
  have h2 := @BitVec.le_toInt w x
  obtain ⟨w', rfl⟩ : ∃ w', w = w' + 1 := ⟨w - 1, by omega⟩
  simp only [Nat.add_sub_cancel] at h1 h2
  have h3 : (2 : Nat) ^ (w' + 1) = 2 * 2 ^ w' := by rw [Nat.pow_succ]; omega
  have h4 : ((2 : Int) ^ w') = ((2 ^ w' : Nat) : Int) := by simp
  rw [h4] at h1 h2
  rw [h3]
  unfold zigzag
  split <;> omega

/-- Reading back what was written, on the level of the specification. -/
theorem decodeVal_encodeVal (k : Kind) (x : k.Ty) : decodeVal k (encodeVal k x) = some x := by
  cases k with
  | bool => cases x <;> simp [encodeVal, decodeVal]
  | int32 =>
    simp only [encodeVal, decodeVal, Option.some.injEq]
    apply BitVec.eq_of_toNat_eq
    change U32 at x
    have := x.isLt
    simp only [BitVec.toNat_ofNat, BitVec.toNat_ofInt, BitVec.toInt_eq_toNat_cond]
    split <;> omega
  | uint32 =>
    simp only [encodeVal, decodeVal, Option.some.injEq]
    apply BitVec.eq_of_toNat_eq
    change U32 at x
    have := x.isLt
    simp; omega
  | sint32 =>
    change U32 at x
    have h := zigzag_lt 32 (by decide) x
    simp only [encodeVal, decodeVal, BitVec.toNat_ofNat]
    have h2 : zigzag x.toInt % 2 ^ 64 = zigzag x.toInt := Nat.mod_eq_of_lt (by omega)
    rw [h2, if_pos h, unzigzag_zigzag, BitVec.ofInt_toInt]
  | sint64 =>
    change U64 at x
    have h := zigzag_lt 64 (by decide) x
    simp only [encodeVal, decodeVal, BitVec.toNat_ofNat]
    rw [Nat.mod_eq_of_lt h, unzigzag_zigzag, BitVec.ofInt_toInt]
  | _ => rfl

/-! ## Setters: what is handed to `setSingle` -/

theorem wireType_encodeVal (k : Kind) (x : k.Ty) : (encodeVal k x).wireType = k.wt := by
  cases k <;> rfl

theorem wireType_of_decodeVal {k : Kind} {v : Val} {x : k.Ty} (h : decodeVal k v = some x) : v.wireType = k.wt := by
  cases k <;> cases v <;> simp [decodeVal] at h <;> rfl

theorem signExtend_eq (x : U32) : x.signExtend 64 = BitVec.ofInt 64 x.toInt := rfl

theorem zigzagBits_sign (x : U32) : zigzagBits (x.signExtend 64) = BitVec.ofNat 64 (zigzag x.toInt) := by
  apply BitVec.eq_of_toNat_eq
  rw [zigzagBits_toNat, BitVec.toInt_signExtend_of_le (by decide)]
  have h := zigzag_lt 32 (by decide) x
  rw [BitVec.toNat_ofNat, Nat.mod_eq_of_lt (by omega)]

theorem zigzagBits_eq (x : U64) : zigzagBits x = BitVec.ofNat 64 (zigzag x.toInt) := by
  apply BitVec.eq_of_toNat_eq
  have h := zigzag_lt 64 (by decide) x
  rw [zigzagBits_toNat, BitVec.toNat_ofNat, Nat.mod_eq_of_lt h]

theorem setField_bytes (rt : Rt) (buf : Slice) (o : Offsets) (f : Nat) (x : List Byte) (hx : x.length < 2 ^ 64) :
    ∃ valLen, IsMinVarint x.length valLen ∧ setBytes rt buf o f x = setSingle rt buf o f 2 valLen x ∧
      setString rt buf o f x = setSingle rt buf o f 2 valLen x ∧
      appendBytes rt buf o f x = appendSingle rt buf o f 2 valLen x := by
  obtain ⟨bs, h1, h2⟩ := putUvarint64 (BitVec.ofNat 64 x.length)
  rw [BitVec.toNat_ofNat, Nat.mod_eq_of_lt hx] at h2
  refine ⟨bs, h2, ?_, ?_, ?_⟩
  · simp only [setBytes, h1]; rfl
  · simp only [setString, h1]; rfl
  · simp only [appendBytes, h1]; rfl

/-- Every setter hands the shortest encoding of its argument to `setSingle`; in particular its
scratch array is long enough. -/
theorem setField_eq (rt : Rt) (buf : Slice) (o : Offsets) (k : Kind) (f : Nat) (x : k.Ty)
    (hx : k.size x < 2 ^ 64) :
    ∃ valLen val, Msg.setField rt buf o k f x = setSingle rt buf o f k.wt valLen val ∧
      IsMinPayload (encodeVal k x) (valLen ++ val) := by
  cases k with
  | bool => exact ⟨[], _, rfl, by cases x <;> exact ⟨⟨[], _, rfl, by simp, by decide, by decide, by decide, by decide⟩, Or.inl rfl⟩⟩
  | int32 =>
    obtain ⟨bs, h1, h2⟩ := putUvarint64 (BitVec.signExtend 64 x)
    exact ⟨[], bs, by simp only [Msg.setField, setInt32, h1]; rfl, h2⟩
  | int64 =>
    obtain ⟨bs, h1, h2⟩ := putUvarint64 x
    exact ⟨[], bs, by simp only [Msg.setField, setInt64, h1]; rfl, h2⟩
  | uint64 =>
    obtain ⟨bs, h1, h2⟩ := putUvarint64 x
    exact ⟨[], bs, by simp only [Msg.setField, setUint64, h1]; rfl, h2⟩
  | uint32 =>
    change U32 at x
    have hx := x.isLt
    obtain ⟨bs, h1, h2, _⟩ := putUvarint32 (x.setWidth 64) (by simp; omega)
    refine ⟨[], bs, by simp only [Msg.setField, setUint32, h1]; rfl, ?_⟩
    simp only [List.nil_append, encodeVal, IsMinPayload]
    have : (BitVec.setWidth 64 x).toNat = (BitVec.ofNat 64 x.toNat).toNat := by simp
    rw [← this]; exact h2
  | sint32 =>
    change U32 at x
    have hz := zigzag_lt 32 (by decide) x
    obtain ⟨bs, h1, h2, _⟩ := putUvarint32 (zigzagBits (x.signExtend 64)) (by
      rw [zigzagBits_sign, BitVec.toNat_ofNat, Nat.mod_eq_of_lt (by omega)]; exact hz)
    refine ⟨[], bs, by simp only [Msg.setField, setZigZagInt32, putVarint_eq, h1]; rfl, ?_⟩
    rw [zigzagBits_sign] at h2; exact h2
  | sint64 =>
    obtain ⟨bs, h1, h2⟩ := putUvarint64 (zigzagBits x)
    refine ⟨[], bs, by simp only [Msg.setField, setZigZagInt64, putVarint_eq, h1]; rfl, ?_⟩
    rw [zigzagBits_eq] at h2; exact h2
  | fixed32 | sfixed32 | float => exact ⟨[], _, rfl, lePutUint32_eq x⟩
  | fixed64 | sfixed64 | double => exact ⟨[], _, rfl, lePutUint64_eq x⟩
  | string =>
    obtain ⟨vl, h1, h2, h3, _⟩ := setField_bytes rt buf o f x hx
    exact ⟨vl, x, h3, vl, h1, rfl⟩
  | bytes =>
    obtain ⟨vl, h1, h2, h3, _⟩ := setField_bytes rt buf o f x hx
    exact ⟨vl, x, h2, vl, h1, rfl⟩

end Zeropb
