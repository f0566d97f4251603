import Verif.Props.Decode
set_option linter.unusedSimpArgs false
set_option linter.unusedVariables false
/-!
# Varints, zig-zag, integer widths (C24 – C26, C49)
-/

namespace Zeropb
open Wire

/-! ## C24 -/

/-- C24: every 64-bit value is written, within ten bytes, as its shortest varint, and read back
whatever follows. -/
theorem C24_uvarint (x : U64) :
    ∃ bs, putUvarint 10 x = .ok bs ∧ IsVarint x.toNat bs ∧ (∀ bs', IsVarint x.toNat bs' → bs.length ≤ bs'.length) ∧
      ∀ rest, uvarint (bs ++ rest) = (x, (bs.length : Int)) := by
  obtain ⟨bs, h1, h2⟩ := putUvarint64 x
  refine ⟨bs, h1, h2.1, fun bs' h => h2.length_le_of h, fun rest => ?_⟩
  rw [uvarint_of_isVarint h2.1 rest]
  simp

/-- C24: what `Uvarint` accepts, it reads correctly, whatever bytes it is given: it returns a positive length exactly
if the bytes begin with a varint, and then the value and the length of that varint. -/
theorem C24_reads (bs : List Byte) (x : U64) (n : Nat) (hn : 0 < n) :
    uvarint bs = (x, (n : Int)) ↔ ∃ vb rest, bs = vb ++ rest ∧ vb.length = n ∧ IsVarint x.toNat vb := by
  constructor
  · intro h
    rcases uvarint_cases bs with ⟨_, h1⟩ | ⟨_, _, _, _, _, _, _, h1⟩ | ⟨v, vb, rest, h1, h2, h3⟩
    · rw [h1] at h; simp only [Prod.mk.injEq] at h; omega
    · rw [h1] at h; simp only [Prod.mk.injEq] at h; omega
    · rw [h3] at h
      simp only [Prod.mk.injEq] at h
      refine ⟨vb, rest, h1, by omega, ?_⟩
      rw [← h.1, BitVec.toNat_ofNat, Nat.mod_eq_of_lt h2.lt]; exact h2
  · rintro ⟨vb, rest, rfl, rfl, h⟩
    rw [uvarint_of_isVarint h rest]
    simp

/-- Both sides occur: a ten-byte varint is read, one that needs 65 bits is not. -/
example : uvarint (List.replicate 9 0xff#8 ++ [0x01#8, 0x55#8]) = (0xffffffffffffffff#64, 10) ∧
    uvarint (List.replicate 9 0xff#8 ++ [0x02#8, 0x55#8]) = (0#64, -10) := by decide +kernel

/-- C24: the five-byte scratch arrays suffice for 32-bit values. -/
theorem C24_uvarint32 (x : U32) :
    ∃ bs, putUvarint 5 (x.setWidth 64) = .ok bs ∧ putUvarint 10 (x.setWidth 64) = .ok bs := by
  have hx : (x.setWidth 64).toNat < 2 ^ 32 := by
    have := x.isLt; simp; omega
  obtain ⟨bs, h1, h2, _⟩ := putUvarint32 (x.setWidth 64) hx
  obtain ⟨bs', h3, h4⟩ := putUvarint64 (x.setWidth 64)
  rw [h2.unique h4] at h1
  exact ⟨bs', h1, h3⟩

/-- C24: signed values. -/
theorem C24_varint (x : U64) :
    ∃ bs, putVarint 10 x = .ok bs ∧ IsVarint (zigzag x.toInt) bs ∧
      (∀ bs', IsVarint (zigzag x.toInt) bs' → bs.length ≤ bs'.length) ∧
      ∀ rest, varint (bs ++ rest) = (x, (bs.length : Int)) := by
  obtain ⟨bs, h1, h2, h3, h4⟩ := C24_uvarint (zigzagBits x)
  rw [zigzagBits_toNat] at h2 h3
  refine ⟨bs, by rw [putVarint_eq]; exact h1, h2, h3, fun rest => ?_⟩
  rw [varint_eq, h4, unzigzagBits_zigzagBits]

/-- C24: five bytes suffice for `sint32`. -/
theorem C24_varint32 (x : U32) :
    ∃ bs, putVarint 5 (x.signExtend 64) = .ok bs ∧ putVarint 10 (x.signExtend 64) = .ok bs := by
  have hx : (zigzagBits (x.signExtend 64)).toNat < 2 ^ 32 := by
    rw [zigzagBits_sign]
    have := zigzag_lt 32 (by omega) x
    simp; omega
  obtain ⟨bs, h1, h2, _⟩ := putUvarint32 _ hx
  obtain ⟨bs', h3, h4⟩ := putUvarint64 (zigzagBits (x.signExtend 64))
  rw [h2.unique h4] at h1
  exact ⟨bs', by rw [putVarint_eq]; exact h1, by rw [putVarint_eq]; exact h3⟩

/-- C24: four bytes would not suffice, the scratch arrays are not larger than needed. -/
theorem C24_tight : putUvarint 4 0xffffffff#64 = .error .indexOutOfRange ∧
    putVarint 4 ((0x80000000#32).signExtend 64) = .error .indexOutOfRange ∧
    putUvarint 9 0xffffffffffffffff#64 = .error .indexOutOfRange := ⟨rfl, rfl, rfl⟩

/-- C24: no setter fails in an encoder, whatever the state of the message and whatever the value:
each is `setSingle` on the encoding of its value, with the wire type of its field type. -/
theorem C24_setters (rt : Rt) (buf : Slice) (o : Offsets) (k : Kind) (f : Nat) (x : k.Ty) (hx : k.size x < 2 ^ 64) :
    ∃ valLen val, Msg.setField rt buf o k f x = setSingle rt buf o f k.wt valLen val ∧
      IsPayload (encodeVal k x) (valLen ++ val) := by
  obtain ⟨vl, v, h1, h2⟩ := setField_eq rt buf o k f x hx
  exact ⟨vl, v, h1, h2.isPayload⟩

/-- Hypotheses met: the extreme values. -/
example : Kind.size .uint32 0xffffffff#32 < 2 ^ 64 ∧ putUvarint 5 ((0xffffffff#32).setWidth 64) =
    .ok [0xff#8, 0xff#8, 0xff#8, 0xff#8, 0x0f#8] := ⟨by decide, rfl⟩

/-! ## C25 -/

/-- C25: the zig-zag mapping, as the protobuf documentation gives it. -/
theorem C25_zigzag (x : U64) :
    ∃ bs, putVarint 10 x = .ok bs ∧
      IsVarint (if 0 ≤ x.toInt then (2 * x.toInt).toNat else (-2 * x.toInt - 1).toNat) bs := by
  obtain ⟨bs, h1, h2, _⟩ := C24_varint x
  exact ⟨bs, h1, h2⟩

/-- C25: what the setters of `sint32` and `sint64` fields write, and their getters read, in any message. -/
theorem C25_fields {S : Schema} {m m' : Msg} (h : Reach S m) {rt : Rt} {f : Nat} (hr : S.rep f = false) :
    (∀ x : U32, S.kind f = some .sint32 → m.set rt .sint32 f x = .ok m' → m'.get .sint32 f = .ok x ∧
      ∃ rs v, IsMessage rs m'.encode.data ∧ lastVal f rs = some (.varint v) ∧
        v.toNat = if 0 ≤ x.toInt then (2 * x.toInt).toNat else (-2 * x.toInt - 1).toNat) ∧
    (∀ x : U64, S.kind f = some .sint64 → m.set rt .sint64 f x = .ok m' → m'.get .sint64 f = .ok x ∧
      ∃ rs v, IsMessage rs m'.encode.data ∧ lastVal f rs = some (.varint v) ∧
        v.toNat = if 0 ≤ x.toInt then (2 * x.toInt).toNat else (-2 * x.toInt - 1).toNat) := by
  have main : ∀ (k : Kind) (x : k.Ty), S.kind f = some k → k.size x < maxLen → m.set rt k f x = .ok m' → m'.get k f = .ok x ∧
      ∃ rs, IsMessage rs m'.encode.data ∧ lastVal f rs = some (encodeVal k x) := by
    intro k x hk hx he
    obtain ⟨rs, h1, h2⟩ := h.holds
    rcases h1.set rt hk hr x hx (fun v hv => h2.last hk hv) with ⟨m1, rs', e1, e2, e3, _⟩ | ⟨e1, _⟩
    · rw [he] at e1; cases e1
      exact ⟨e2.holds.get hk hr (by rw [e3]; exact decodeVal_encodeVal k x), rs', e2.holds.isMessage, e3⟩
    · rw [he] at e1; cases e1
  constructor
  · intro x hk he
    obtain ⟨h1, rs, h2, h3⟩ := main .sint32 x hk (show 0 < maxLen by decide) he
    refine ⟨h1, rs, _, h2, h3, ?_⟩
    have := zigzag_lt 32 (by omega) x
    rw [BitVec.toNat_ofNat, Nat.mod_eq_of_lt (by omega)]; rfl
  · intro x hk he
    obtain ⟨h1, rs, h2, h3⟩ := main .sint64 x hk (show 0 < maxLen by decide) he
    refine ⟨h1, rs, _, h2, h3, ?_⟩
    have := zigzag_lt 64 (by omega) x
    rw [BitVec.toNat_ofNat, Nat.mod_eq_of_lt (by omega)]; rfl

/-- Hypotheses met. -/
example : Reach testSchema (Msg.zero 35) ∧ testSchema.rep 6 = false ∧ testSchema.kind 6 = some .sint32 ∧
    ∃ m', (Msg.zero 35).set Rt.exact .sint32 6 0xffffffff#32 = .ok m' ∧ m'.encode.data = [0x30#8, 0x01#8] :=
  ⟨.zero, rfl, rfl, _, rfl, rfl⟩

/-- C25: values of magnitude up to 63, and -64, take one byte; all others more. -/
theorem C25_one_byte (x : U64) :
    ∃ bs, putVarint 10 x = .ok bs ∧ (bs.length = 1 ↔ -64 ≤ x.toInt ∧ x.toInt ≤ 63) := by
  obtain ⟨bs, h1, h2, h3, _⟩ := C24_varint x
  refine ⟨bs, h1, ?_⟩
  have hz : zigzag x.toInt < 128 ↔ -64 ≤ x.toInt ∧ x.toInt ≤ 63 := by
    unfold zigzag; split <;> omega
  rw [← hz]
  have hpos := h2.length_pos
  constructor
  · intro hl
    have := h2.upper
    rw [hl] at this; simpa using this
  · intro hlt
    have hb : (BitVec.ofNat 8 (zigzag x.toInt)).toNat = zigzag x.toInt := by simp; omega
    have : IsVarint (zigzag x.toInt) [BitVec.ofNat 8 (zigzag x.toInt)] := by
      refine ⟨[], _, rfl, by simp, by omega, by simp, ?_, by omega⟩
      simp [varintValue]; omega
    have := h3 _ this
    simp at this; omega

/-- C25: zig-zag numbering is a bijection between 64-bit signed and unsigned numbers: every varint
is the encoding of exactly one signed value. -/
theorem C25_bijective (u : U64) : ∃ x : U64, zigzag x.toInt = u.toNat ∧
    (∀ y : U64, zigzag y.toInt = u.toNat → y = x) ∧ ∀ vb rest, IsVarint u.toNat vb → (varint (vb ++ rest)).1 = x := by
  have hu := u.isLt
  have hbig : (BitVec.ofInt 64 (unzigzag u.toNat)).toInt = unzigzag u.toNat := by
    rw [BitVec.toInt_ofInt]
    apply Int.bmod_eq_of_le <;> unfold unzigzag <;> split <;> omega
  have hzz : zigzag (BitVec.ofInt 64 (unzigzag u.toNat)).toInt = u.toNat := by
    rw [hbig, zigzag_unzigzag]
  have huniq : ∀ y z : U64, zigzag y.toInt = zigzag z.toInt → y = z := by
    intro y z h
    apply BitVec.eq_of_toInt_eq
    have := congrArg unzigzag h
    rwa [unzigzag_zigzag, unzigzag_zigzag] at this
  refine ⟨_, hzz, fun y hy => huniq _ _ (by rw [hy, hzz]), ?_⟩
  intro vb rest hv
  rw [varint_eq, uvarint_of_isVarint hv rest]
  simp only [BitVec.ofNat_toNat, BitVec.setWidth_eq]
  have : u = zigzagBits (BitVec.ofInt 64 (unzigzag u.toNat)) := by
    apply BitVec.eq_of_toNat_eq
    rw [zigzagBits_toNat, hzz]
  conv => lhs; rw [this]
  rw [unzigzagBits_zigzagBits]

/-! ## C26 -/

/-- C26: a negative `int32` is written as its 64-bit two's complement, in ten bytes. -/
theorem C26_negative_int32 (x : U32) (hx : x.toInt < 0) :
    ∃ bs, putUvarint 10 (x.signExtend 64) = .ok bs ∧ bs.length = 10 ∧
      IsVarint (x.toInt + 2 ^ 64).toNat bs := by
  obtain ⟨bs, h1, h2⟩ := putUvarint64 (x.signExtend 64)
  have hb := x.isLt
  have hlow : -2 ^ 31 ≤ x.toInt := by
    have := BitVec.le_two_mul_toInt (x := x); omega
  have hv : (x.signExtend 64).toNat = (x.toInt + 2 ^ 64).toNat := by
    rw [signExtend_eq, BitVec.toNat_ofInt]; omega
  refine ⟨bs, h1, ?_, hv ▸ h2.1⟩
  have hle := h2.1.length_le
  have hup := h2.1.upper
  rcases Nat.lt_or_ge bs.length 10 with hlt | hge
  · have : 128 ^ bs.length ≤ 128 ^ 9 := Nat.pow_le_pow_right (by omega) (by omega)
    have e9 : 128 ^ 9 = 9223372036854775808 := by decide
    rw [e9] at this
    omega
  · omega

/-- Hypotheses met. -/
example : (BitVec.ofInt 32 (-1)).toInt < 0 ∧ (BitVec.ofInt 32 (-2147483648)).toInt < 0 := by decide

/-- C26: what the getters make of a varint of any size and encoding: 32-bit types take it modulo
2^32, `bool` tests for nonzero. -/
theorem C26_widths {S : Schema} {m : Msg} (h : Readable S m) {rs : List Record} (hm : IsMessage rs m.encode.data)
    {f : Nat} (hr : S.rep f = false) {v : U64} (hv : lastVal f rs = some (.varint v)) :
    (S.kind f = some .bool → m.get .bool f = .ok (decide (v.toNat ≠ 0))) ∧
    (S.kind f = some .int32 → ∃ x : U32, m.get .int32 f = .ok x ∧ x.toInt = v.toInt.bmod (2 ^ 32)) ∧
    (S.kind f = some .uint32 → ∃ x : U32, m.get .uint32 f = .ok x ∧ x.toNat = v.toNat % 2 ^ 32) ∧
    (S.kind f = some .int64 → ∃ x : U64, m.get .int64 f = .ok x ∧ x.toInt = v.toInt) ∧
    (S.kind f = some .uint64 → ∃ x : U64, m.get .uint64 f = .ok x ∧ x.toNat = v.toNat) := by
  obtain ⟨h1, h2⟩ := h.records hm
  refine ⟨?_, ?_, ?_, ?_, ?_⟩
  · intro hk; exact h1.get hk hr (by rw [hv]; rfl)
  · intro hk
    refine ⟨_, h1.get hk hr (x := BitVec.ofNat 32 v.toNat) (by rw [hv]; rfl), ?_⟩
    have h64 := BitVec.toInt_eq_toNat_bmod v
    rw [BitVec.toInt_ofNat', h64]
    rw [Int.bmod_bmod_of_dvd]
    exact ⟨2 ^ 32, by decide⟩
  · intro hk
    exact ⟨_, h1.get hk hr (x := BitVec.ofNat 32 v.toNat) (by rw [hv]; rfl), by simp⟩
  · intro hk
    exact ⟨_, h1.get hk hr (x := v) (by rw [hv]; rfl), rfl⟩
  · intro hk
    exact ⟨_, h1.get hk hr (x := v) (by rw [hv]; rfl), rfl⟩

/-- Hypotheses met: field 2 of `demo`. -/
example : Readable testSchema demo ∧ IsMessage [⟨14, .bytes [0x68#8, 0x69#8]⟩, ⟨34, .bytes []⟩, ⟨2, .varint 7#64⟩] demo.encode.data ∧
    lastVal 2 [⟨14, .bytes [0x68#8, 0x69#8]⟩, ⟨34, .bytes []⟩, ⟨2, .varint 7#64⟩] = some (.varint 7#64) :=
  ⟨.reach demo_reach, IsMinTagMessage_isMessage demo_records, rfl⟩

/-! ## C49 -/

theorem unzigzagBits_eq (v : U64) : unzigzagBits v = BitVec.ofInt 64 (unzigzag v.toNat) := by
  obtain ⟨x, h1, h2, h3⟩ := C25_bijective v
  have e : v = zigzagBits x := by
    apply BitVec.eq_of_toNat_eq; rw [zigzagBits_toNat, h1]
  rw [← h1, unzigzag_zigzag]
  conv => lhs; rw [e]
  rw [unzigzagBits_zigzagBits]; simp

/-- C49: what the `sint32` getter makes of a varint of any size: it undoes the zig-zag on 64 bits
and then truncates. -/
theorem C49_value {S : Schema} {m0 m : Msg} (h0 : m0.off.a.length = S.n) {buf : Slice} {rs : List Record}
    (hlen : buf.len < maxLen) (hm : IsMessage rs buf.data) (hlt : ∀ r ∈ rs, r.num < S.n)
    (hd : m0.decode S.rep buf = .ok (m, none)) {f : Nat} (hr : S.rep f = false) {v : U64}
    (hv : lastVal f rs = some (.varint v)) :
    m.get .sint32 f = .ok (BitVec.ofInt 32 (unzigzag v.toNat)) := by
  obtain ⟨m', d1, d2, ⟨cs, d3, d4⟩, _⟩ := decode_holds (m := m0) h0 hlen hm hlt
  rw [d1] at hd
  simp only [Except.ok.injEq, Prod.mk.injEq, and_true] at hd
  subst hd
  subst d4
  rw [lastVal_records] at hv
  by_cases ha : ∃ c ∈ cs, c.num = f
  · obtain ⟨pre, c, post, hcs, hc, hp⟩ := exists_last ha
    have hloc := d3.located_last hcs hr hc hp
    rw [hcs, lastChunk_eq hc hp] at hv
    simp only [Option.map_some, Option.some.injEq] at hv
    have hpay : IsPayload c.val c.pay := (d3.wf c (by rw [hcs]; simp)).pay
    rw [hv] at hpay
    have huv := uvarint_of_isVarint (show IsVarint v.toNat c.pay from hpay) (flat post)
    have hx : (BitVec.ofInt 64 (unzigzag v.toNat)).setWidth 32 = BitVec.ofInt 32 (unzigzag v.toNat) := by
      apply BitVec.eq_of_toNat_eq
      rw [BitVec.toNat_setWidth, BitVec.toNat_ofInt, BitVec.toNat_ofInt]
      omega
    rw [← hx]
    simp only [Msg.get, getZigZagInt32, hloc.get, bind, Except.bind, hloc.drop]
    rw [varint_eq, huv]
    simp only [BitVec.ofNat_toNat, BitVec.setWidth_eq, unzigzagBits_eq]
    rfl
  · have ha' : ∀ c ∈ cs, c.num ≠ f := fun c hc he => ha ⟨c, hc, he⟩
    rw [lastChunk_none ha'] at hv; simp at hv

/-- C49: that is what protobuf prescribes (truncate to 32 bits, then undo the zig-zag)
exactly when bit 32 of the varint is clear. -/
theorem C49_sint32 {S : Schema} {m0 m : Msg} (h0 : m0.off.a.length = S.n) {buf : Slice} {rs : List Record}
    (hlen : buf.len < maxLen) (hm : IsMessage rs buf.data) (hlt : ∀ r ∈ rs, r.num < S.n)
    (hd : m0.decode S.rep buf = .ok (m, none)) {f : Nat} (hr : S.rep f = false) {v : U64}
    (hv : lastVal f rs = some (.varint v)) :
    ∃ x : U32, m.get .sint32 f = .ok x ∧
      (x = BitVec.ofInt 32 (unzigzag (v.toNat % 2 ^ 32)) ↔ v.toNat / 2 ^ 32 % 2 = 0) := by
  refine ⟨_, C49_value h0 hlen hm hlt hd hr hv, ?_⟩
  rw [← BitVec.toNat_inj]
  simp only [BitVec.toNat_ofInt]
  have hb := v.isLt
  generalize v.toNat = u at hb
  unfold unzigzag
  split <;> split <;> omega

/-- C49: a field was changed from `sint64` to `sint32`. The value that an older program set, any number of 64 bits, is read as what a Go conversion to `int32` makes of it; so it is
read unchanged if it fits. (An ordinary protobuf implementation agrees if it fits, and also for half of the other numbers: those for which bit 32 of the zig-zag code is clear.) -/
theorem C49_narrowed {S : Schema} {m0 m : Msg} (h0 : m0.off.a.length = S.n) {buf : Slice} {rs : List Record}
    (hlen : buf.len < maxLen) (hm : IsMessage rs buf.data) (hlt : ∀ r ∈ rs, r.num < S.n)
    (hd : m0.decode S.rep buf = .ok (m, none)) {f : Nat} (hr : S.rep f = false) {n : U64}
    (hv : lastVal f rs = some (encodeVal .sint64 n)) :
    ∃ x : U32, m.get .sint32 f = .ok x ∧ x = n.setWidth 32 ∧
      (-(2 ^ 31) ≤ n.toInt → n.toInt < 2 ^ 31 → x.toInt = n.toInt) := by
  have hlo := BitVec.le_toInt (w := 64) n
  have hhi := BitVec.toInt_lt (w := 64) (x := n)
  have hz : (BitVec.ofNat 64 (zigzag n.toInt)).toNat = zigzag n.toInt := by
    rw [BitVec.toNat_ofNat]
    apply Nat.mod_eq_of_lt
    unfold zigzag
    split <;> omega
  have h := C49_value h0 hlen hm hlt hd hr hv
  rw [hz, unzigzag_zigzag] at h
  have hx : BitVec.ofInt 32 n.toInt = n.setWidth 32 := by
    apply BitVec.eq_of_toNat_eq
    rw [BitVec.toNat_setWidth, BitVec.toNat_ofInt, BitVec.toInt_eq_toNat_cond]
    have := n.isLt
    split <;> omega
  refine ⟨_, h, hx, fun h1 h2 => ?_⟩
  rw [BitVec.toInt_ofInt]
  apply Int.bmod_eq_of_le <;> omega

/-- Hypotheses met: the number -2^40 in field 6. -/
example : IsMessage [⟨6, encodeVal .sint64 (BitVec.ofInt 64 (-2 ^ 40))⟩] [0x30#8, 0xff#8, 0xff#8, 0xff#8, 0xff#8, 0xff#8, 0x3f#8] ∧
    lastVal 6 [⟨6, encodeVal .sint64 (BitVec.ofInt 64 (-2 ^ 40))⟩] = some (encodeVal .sint64 (BitVec.ofInt 64 (-2 ^ 40))) ∧
    testSchema.kind 6 = some .sint32 ∧ testSchema.rep 6 = false ∧ (BitVec.ofInt 64 (-2 ^ 40)).setWidth 32 = 0#32 := by
  refine ⟨?_, rfl, rfl, rfl, by decide⟩
  have h : encodeVal .sint64 (BitVec.ofInt 64 (-2 ^ 40)) = .varint (BitVec.ofNat 64 (2 ^ 41 - 1)) := by decide
  rw [h]
  exact .cons (bs := [0x30#8, 0xff#8, 0xff#8, 0xff#8, 0xff#8, 0xff#8, 0x3f#8]) (rest := [])
    ⟨[0x30#8], [0xff#8, 0xff#8, 0xff#8, 0xff#8, 0xff#8, 0x3f#8], rfl, ⟨[], 0x30#8, rfl, by decide, by decide, by decide, by decide, by decide⟩,
      ⟨[0xff#8, 0xff#8, 0xff#8, 0xff#8, 0xff#8], 0x3f#8, rfl, by decide, by decide, by decide, by decide, by decide⟩⟩ .nil

/-- C49, refutation of the unrestricted claim: the varint 2^32 in a `sint32` field. -/
theorem C49_false : IsVarint (2 ^ 32) [0x80#8, 0x80#8, 0x80#8, 0x80#8, 0x10#8] ∧ testSchema.kind 6 = some .sint32 ∧
    (BitVec.ofInt 32 (unzigzag (2 ^ 32 % 2 ^ 32)) = 0#32) ∧
    ∃ m, (Msg.zero testSchema.n).decode testSchema.rep ⟨[0x30#8, 0x80#8, 0x80#8, 0x80#8, 0x80#8, 0x10#8], []⟩ = .ok (m, none) ∧
      m.get .sint32 6 = .ok 0x80000000#32 := by
  refine ⟨⟨[0x80#8, 0x80#8, 0x80#8, 0x80#8], 0x10#8, rfl, by decide, by decide, by decide, by decide, by decide⟩, rfl, by decide,
    ⟨⟨[0x30#8, 0x80#8, 0x80#8, 0x80#8, 0x80#8, 0x10#8], []⟩, ⟨(List.replicate 35 0#16).set 6 1#16, none⟩⟩, ?_, by decide +kernel⟩
  have : run (decodeStep ⟨[0x30#8, 0x80#8, 0x80#8, 0x80#8, 0x80#8, 0x10#8], []⟩ testSchema.rep) 2 (0, (Msg.zero testSchema.n).off.clear) =
    some (.ok (⟨(List.replicate 35 0#16).set 6 1#16, none⟩, none)) := by decide +kernel
  exact Msg.decode_of_run this

end Zeropb
