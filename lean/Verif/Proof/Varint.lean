import Verif.Go.Varint
import Verif.Spec.Wire
/-!
# Lemmas about varints and little-endian integers
-/

namespace Zeropb
open Wire

theorem or_shift_toNat (x y : U64) (s : Nat) (hx : x.toNat < 2 ^ s) (hy : y.toNat * 2 ^ s < 2 ^ 64) :
    (x ||| (y <<< s)).toNat = x.toNat + y.toNat * 2 ^ s := by
  rw [BitVec.toNat_or, BitVec.toNat_shiftLeft, Nat.shiftLeft_eq, Nat.mod_eq_of_lt hy,
    Nat.or_comm, Nat.add_comm, ← Nat.shiftLeft_eq, Nat.shiftLeft_add_eq_or_of_lt hx]

theorem low7 (b : Byte) : ((b &&& 0x7f#8).setWidth 64).toNat = b.toNat % 128 := by
  have : b.toNat < 256 := b.isLt
  simp only [BitVec.toNat_setWidth, BitVec.toNat_and, BitVec.toNat_ofNat]
  have h := Nat.and_two_pow_sub_one_eq_mod b.toNat 7
  simp only [Nat.reducePow, Nat.reduceSub, Nat.reduceMod] at h ⊢
  omega

theorem varintValue_append (xs ys : List Byte) :
    varintValue (xs ++ ys) = varintValue xs + 128 ^ xs.length * varintValue ys := by
  induction xs with
  | nil => simp [varintValue]
  | cons b bs ih =>
    simp only [List.cons_append, varintValue, ih, List.length_cons, Nat.pow_succ]
    rw [Nat.mul_add, ← Nat.add_assoc, ← Nat.mul_assoc, Nat.mul_comm 128 (128 ^ _)]

theorem uvarintAux_ok (init : List Byte) (last : Byte) (rest : List Byte) (i : Nat) (x : U64)
    (hinit : ∀ b ∈ init, 128 ≤ b.toNat) (hlast : last.toNat < 128)
    (hlen : i + init.length ≤ 9) (h9 : i + init.length = 9 → last.toNat ≤ 1)
    (hx : x.toNat < 2 ^ (7 * i)) :
    uvarintAux (init ++ last :: rest) i x (7 * i) =
      (BitVec.ofNat 64 (x.toNat + 2 ^ (7 * i) * varintValue (init ++ [last])),
        ((i + init.length + 1 : Nat) : Int)) := by
  induction init generalizing i x with
  | nil =>
    simp only [List.length_nil, Nat.add_zero] at hlen h9
    simp only [List.nil_append, uvarintAux, hlast, if_true, List.length_nil, Nat.add_zero]
    rw [if_neg (by omega)]
    refine Prod.ext ?_ (by simp)
    apply BitVec.eq_of_toNat_eq
    dsimp only
    have hsw : (last.setWidth 64).toNat = last.toNat := by simp; omega
    have hb : last.toNat * 2 ^ (7 * i) < 2 ^ 64 := by
      by_cases hi : i = 9
      · subst hi; have := h9 rfl; simp only [Nat.reduceMul]; omega
      · have : 2 ^ (7 * i) ≤ 2 ^ 56 := Nat.pow_le_pow_right (by decide) (by omega)
        calc last.toNat * 2 ^ (7 * i) ≤ 127 * 2 ^ 56 := Nat.mul_le_mul (by omega) this
          _ < 2 ^ 64 := by decide
    rw [or_shift_toNat _ _ _ hx (by rw [hsw]; exact hb), hsw]
    have h2 : x.toNat + last.toNat * 2 ^ (7 * i) < 2 ^ 64 := by
      have := (x ||| (last.setWidth 64 <<< (7 * i))).isLt
      rw [or_shift_toNat _ _ _ hx (by rw [hsw]; exact hb), hsw] at this
      exact this
    simp only [varintValue, Nat.mod_eq_of_lt hlast, Nat.mul_zero, Nat.add_zero, BitVec.toNat_ofNat]
    rw [Nat.mul_comm (2 ^ (7 * i)), Nat.mod_eq_of_lt h2]
  | cons b bs ih =>
    have hb : 128 ≤ b.toNat := hinit b (by simp)
    simp only [List.length_cons] at hlen h9
    simp only [List.cons_append, uvarintAux]
    rw [if_neg (by omega)]
    have hp : (2 : Nat) ^ (7 * i) ≤ 2 ^ 56 := Nat.pow_le_pow_right (by decide) (by omega)
    have hm : b.toNat % 128 < 128 := Nat.mod_lt _ (by decide)
    have hbb : (b.toNat % 128) * 2 ^ (7 * i) < 2 ^ 64 := by
      calc (b.toNat % 128) * 2 ^ (7 * i) ≤ 127 * 2 ^ 56 := Nat.mul_le_mul (by omega) hp
          _ < 2 ^ 64 := by decide
    have hx' := or_shift_toNat x ((b &&& 0x7f#8).setWidth 64) (7 * i) hx (by rw [low7]; exact hbb)
    rw [low7] at hx'
    have hpow : (2 : Nat) ^ (7 * (i + 1)) = 128 * 2 ^ (7 * i) := by
      rw [show 7 * (i + 1) = 7 * i + 7 by omega, Nat.pow_add]; omega
    have key := ih (i + 1) (x ||| ((b &&& 0x7f#8).setWidth 64 <<< (7 * i)))
      (fun c hc => hinit c (by simp [hc])) (by omega) (by intro h; exact h9 (by omega))
      (by
        rw [hx', hpow]
        have : b.toNat % 128 * 2 ^ (7 * i) ≤ 127 * 2 ^ (7 * i) := Nat.mul_le_mul (by omega) (Nat.le_refl _)
        omega)
    rw [show 7 * i + 7 = 7 * (i + 1) by omega, key, hx', hpow]
    refine Prod.ext ?_ (by simp only [List.length_cons]; omega)
    simp only [varintValue]
    congr 1
    rw [Nat.mul_add, Nat.mul_comm (2 ^ (7 * i)) (b.toNat % 128), Nat.mul_comm 128 (2 ^ (7 * i)),
      Nat.mul_assoc, Nat.add_assoc]

theorem uvarintAux_overflow (init : List Byte) (last : Byte) (rest : List Byte) (i : Nat) (x : U64) (s : Nat)
    (hinit : ∀ b ∈ init, 128 ≤ b.toNat) (hlast : last.toNat < 128)
    (hov : 9 < i + init.length ∨ (i + init.length = 9 ∧ 1 < last.toNat)) :
    uvarintAux (init ++ last :: rest) i x s = (0#64, -((i + init.length + 1 : Nat) : Int)) := by
  induction init generalizing i x s with
  | nil =>
    simp only [List.nil_append, uvarintAux, hlast, if_true, List.length_nil, Nat.add_zero] at *
    rw [if_pos (by omega)]; simp
  | cons b bs ih =>
    have hb : 128 ≤ b.toNat := hinit b (by simp)
    simp only [List.length_cons] at hov
    simp only [List.cons_append, uvarintAux]
    rw [if_neg (by omega), ih _ _ _ (fun c hc => hinit c (by simp [hc])) (by omega)]
    refine Prod.ext rfl ?_
    simp only [List.length_cons]; omega

theorem uvarintAux_short (init : List Byte) (i : Nat) (x : U64) (s : Nat)
    (hinit : ∀ b ∈ init, 128 ≤ b.toNat) : uvarintAux init i x s = (0#64, 0) := by
  induction init generalizing i x s with
  | nil => rfl
  | cons b bs ih =>
    have hb : 128 ≤ b.toNat := hinit b (by simp)
    simp only [uvarintAux]
    rw [if_neg (by omega)]
    exact ih _ _ _ (fun c hc => hinit c (by simp [hc]))

theorem varintValue_lt (bs : List Byte) : varintValue bs < 128 ^ bs.length := by
  induction bs with
  | nil => simp [varintValue]
  | cons b bs ih =>
    simp only [varintValue, List.length_cons, Nat.pow_succ]
    have : b.toNat % 128 < 128 := Nat.mod_lt _ (by decide)
    omega

/-- In a ten-byte varint below 2^64 the last byte is at most 1. -/
theorem Wire.IsVarint.last_le {v : Nat} {init : List Byte} {last : Byte}
    (h : IsVarint v (init ++ [last])) : init.length ≤ 9 ∧ (init.length = 9 → last.toNat ≤ 1) := by
  obtain ⟨init', last', heq, _, hl, hlen, hval, hlt⟩ := h
  obtain ⟨rfl, h2⟩ := List.append_inj' heq rfl
  cases h2
  simp only [List.length_append, List.length_cons, List.length_nil] at hlen
  refine ⟨by omega, fun h9 => ?_⟩
  rw [varintValue_append, h9] at hval
  simp only [varintValue, Nat.mod_eq_of_lt hl] at hval
  omega

/-- Reading an encoding of `v`, whatever follows, gives `v` and the length of the encoding. -/
theorem uvarint_of_isVarint {v : Nat} {bs : List Byte} (h : IsVarint v bs) (rest : List Byte) :
    uvarint (bs ++ rest) = (BitVec.ofNat 64 v, (bs.length : Int)) := by
  have h0 := h
  obtain ⟨init, last, rfl, hinit, hl, hlen, hval, hlt⟩ := h
  obtain ⟨h1, h2⟩ := h0.last_le
  have := uvarintAux_ok init last rest 0 0#64 hinit hl (by omega) (by simpa using h2) (by simp)
  simp only [uvarint, List.append_assoc, List.cons_append, List.nil_append]
  rw [this]
  simp [hval]

theorem Wire.IsVarint.length_pos {v bs} (h : IsVarint v bs) : 0 < bs.length := by
  obtain ⟨init, last, rfl, _⟩ := h; simp

theorem Wire.IsVarint.length_le {v bs} (h : IsVarint v bs) : bs.length ≤ 10 := by
  obtain ⟨init, last, _, _, _, h, _⟩ := h; exact h

theorem Wire.IsVarint.lt {v bs} (h : IsVarint v bs) : v < 2 ^ 64 := by
  obtain ⟨init, last, _, _, _, _, _, h⟩ := h; exact h

/-- Every byte list starts with bytes having the high bit set, up to its end or to a first byte
without it. -/
theorem split_varint (bs : List Byte) :
    (∀ b ∈ bs, 128 ≤ b.toNat) ∨
    ∃ init last rest, bs = init ++ last :: rest ∧ (∀ b ∈ init, 128 ≤ b.toNat) ∧ last.toNat < 128 := by
  induction bs with
  | nil => left; simp
  | cons b bs ih =>
    by_cases hb : b.toNat < 128
    · right; exact ⟨[], b, bs, rfl, by simp, hb⟩
    · rcases ih with h | ⟨init, last, rest, rfl, h1, h2⟩
      · left; intro c hc
        rcases List.mem_cons.1 hc with rfl | hc
        · omega
        · exact h c hc
      · right
        refine ⟨b :: init, last, rest, rfl, ?_, h2⟩
        intro c hc
        rcases List.mem_cons.1 hc with rfl | hc
        · omega
        · exact h1 c hc

/-- `Uvarint` classified: unterminated, overflowing, or a valid varint followed by the rest. -/
theorem uvarint_cases (bs : List Byte) :
    ((∀ b ∈ bs, 128 ≤ b.toNat) ∧ uvarint bs = (0#64, 0)) ∨
    (∃ init last rest, bs = init ++ last :: rest ∧ (∀ b ∈ init, 128 ≤ b.toNat) ∧ last.toNat < 128 ∧
      (9 < init.length ∨ init.length = 9 ∧ 1 < last.toNat) ∧
      uvarint bs = (0#64, -((init.length + 1 : Nat) : Int))) ∨
    (∃ v vb rest, bs = vb ++ rest ∧ IsVarint v vb ∧
      uvarint bs = (BitVec.ofNat 64 v, (vb.length : Int))) := by
  rcases split_varint bs with h | ⟨init, last, rest, rfl, h1, h2⟩
  · exact Or.inl ⟨h, uvarintAux_short _ _ _ _ h⟩
  · right
    by_cases hov : 9 < init.length ∨ init.length = 9 ∧ 1 < last.toNat
    · left
      refine ⟨init, last, rest, rfl, h1, h2, hov, ?_⟩
      have := uvarintAux_overflow init last rest 0 0#64 0 h1 h2 (by simpa using hov)
      simpa [uvarint] using this
    · right
      have hv : IsVarint (varintValue (init ++ [last])) (init ++ [last]) := by
        refine ⟨init, last, rfl, h1, h2, by simp; omega, rfl, ?_⟩
        by_cases h9 : init.length = 9
        · rw [varintValue_append, h9]
          have := varintValue_lt init
          rw [h9] at this
          simp only [varintValue, Nat.mod_eq_of_lt h2]
          omega
        · have := varintValue_lt (init ++ [last])
          refine Nat.lt_of_lt_of_le this ?_
          have h3 : (init ++ [last]).length ≤ 9 := by simp; omega
          calc 128 ^ (init ++ [last]).length ≤ 128 ^ 9 := Nat.pow_le_pow_right (by decide) h3
            _ ≤ 2 ^ 64 := by decide
      refine ⟨_, init ++ [last], rest, by simp, hv, ?_⟩
      have := uvarint_of_isVarint hv rest
      simpa using this

/-! ## PutUvarint -/

theorem shr7_toNat (x : U64) : (x >>> 7).toNat = x.toNat / 128 := by
  simp [BitVec.toNat_ushiftRight, Nat.shiftRight_eq_div_pow]

theorem or80 (x : U64) : ((x.setWidth 8 ||| 0x80#8 : Byte)).toNat = x.toNat % 128 + 128 := by
  have h : ∀ b : Byte, (b ||| 0x80#8).toNat = b.toNat % 128 + 128 := by decide +kernel
  rw [h]; simp

/-- `PutUvarint` writes the shortest encoding, if it fits the scratch array. -/
theorem putUvarint_spec (n : Nat) (x : U64) (hn : 0 < n) (hx : x.toNat < 128 ^ n) :
    ∃ bs, putUvarint n x = .ok bs ∧ (∃ init last, bs = init ++ [last] ∧
      (∀ b ∈ init, 128 ≤ b.toNat) ∧ last.toNat < 128 ∧ (last = 0#8 → init = [])) ∧
      bs.length ≤ n ∧ varintValue bs = x.toNat := by
  induction n generalizing x with
  | zero => omega
  | succ n ih =>
    by_cases hge : x.toNat ≥ 0x80
    · have hn' : 0 < n := by
        rcases n with _ | n
        · simp at hx; omega
        · omega
      obtain ⟨bs, h1, ⟨init, last, rfl, h2, h3, h4⟩, h5, h6⟩ := ih (x >>> 7) hn' (by
        rw [shr7_toNat, Nat.div_lt_iff_lt_mul (by decide), ← Nat.pow_succ]; exact hx)
      refine ⟨(x.setWidth 8 ||| 0x80#8) :: (init ++ [last]), ?_,
        ⟨(x.setWidth 8 ||| 0x80#8) :: init, last, rfl, ?_, h3, ?_⟩, by simpa using h5, ?_⟩
      · simp only [putUvarint, hge, if_true, h1]; rfl
      · intro c hc
        rcases List.mem_cons.1 hc with rfl | hc
        · rw [or80]; omega
        · exact h2 c hc
      · intro h0; exfalso
        have := h4 h0; subst this; subst h0
        rw [shr7_toNat] at h6
        simp [varintValue] at h6
        omega
      · simp only [varintValue, h6, or80, shr7_toNat]; omega
    · refine ⟨[x.setWidth 8], ?_, ⟨[], x.setWidth 8, rfl, by simp, ?_, by simp⟩, by simp, ?_⟩
      · simp only [putUvarint, hge, if_false]; rfl
      · simp; omega
      · simp [varintValue]; omega

theorem putUvarint_isMin (n : Nat) (x : U64) (hn : 0 < n) (hn' : n ≤ 10) (hx : x.toNat < 128 ^ n) :
    ∃ bs, putUvarint n x = .ok bs ∧ IsMinVarint x.toNat bs ∧ bs.length ≤ n := by
  obtain ⟨bs, h1, ⟨init, last, rfl, h2, h3, h4⟩, h5, h6⟩ := putUvarint_spec n x hn hx
  refine ⟨_, h1, ⟨⟨init, last, rfl, h2, h3, by omega, h6, x.isLt⟩, ?_⟩, h5⟩
  by_cases h0 : last = 0#8
  · left; rw [h4 h0]; rfl
  · right; simpa using h0

theorem putUvarint64 (x : U64) : ∃ bs, putUvarint maxVarintLen64 x = .ok bs ∧ IsMinVarint x.toNat bs := by
  obtain ⟨bs, h1, h2, _⟩ := putUvarint_isMin 10 x (by decide) (by decide) (by have := x.isLt; omega)
  exact ⟨bs, h1, h2⟩

theorem putUvarint32 (x : U64) (hx : x.toNat < 2 ^ 32) :
    ∃ bs, putUvarint maxVarintLen32 x = .ok bs ∧ IsMinVarint x.toNat bs ∧ bs.length ≤ 5 :=
  putUvarint_isMin 5 x (by decide) (by decide) (by omega)

/-- A varint of `n` bytes denotes a number below `128^n`, and a shortest one of `n` bytes a number
of at least `128^(n-1)`. -/
theorem Wire.IsMinVarint.lower {v bs} (h : IsMinVarint v bs) (h1 : 1 < bs.length) :
    128 ^ (bs.length - 1) ≤ v := by
  obtain ⟨⟨init, last, rfl, _, hl, _, hv, _⟩, hmin⟩ := h
  rcases hmin with hmin | hmin
  · omega
  · have h0 : last ≠ 0#8 := by simpa using hmin
    have h00 : 0 < last.toNat := by
      rcases Nat.eq_zero_or_pos last.toNat with h | h
      · exact absurd (BitVec.eq_of_toNat_eq (by simpa using h)) h0
      · exact h
    rw [varintValue_append] at hv
    simp only [varintValue, Nat.mod_eq_of_lt hl] at hv
    simp only [List.length_append, List.length_cons, List.length_nil, Nat.add_sub_cancel] at *
    rw [← hv]
    have : 128 ^ init.length * 1 ≤ 128 ^ init.length * (last.toNat + 128 * 0) :=
      Nat.mul_le_mul (Nat.le_refl _) (by omega)
    omega

theorem Wire.IsVarint.upper {v bs} (h : IsVarint v bs) : v < 128 ^ bs.length := by
  obtain ⟨init, last, rfl, _, _, _, hv, _⟩ := h
  rw [← hv]; exact varintValue_lt _

/-- A shortest encoding is not longer than any other encoding of the same number. -/
theorem Wire.IsMinVarint.length_le_of {v bs bs'} (h : IsMinVarint v bs) (h' : IsVarint v bs') :
    bs.length ≤ bs'.length := by
  by_cases h1 : 1 < bs.length
  · have hlo := h.lower h1
    have hup := h'.upper
    have : 128 ^ (bs.length - 1) < 128 ^ bs'.length := by omega
    have := (Nat.pow_lt_pow_iff_right (by decide : 1 < 128)).1 this
    omega
  · have := h'.length_pos; omega

theorem varint_digits_unique {bs bs' : List Byte} (hlen : bs.length = bs'.length)
    (hv : varintValue bs = varintValue bs') :
    bs.map (fun b => b.toNat % 128) = bs'.map (fun b => b.toNat % 128) := by
  induction bs generalizing bs' with
  | nil => cases bs' with
    | nil => rfl
    | cons _ _ => simp at hlen
  | cons b bs ih => cases bs' with
    | nil => simp at hlen
    | cons c cs =>
      simp only [varintValue] at hv
      simp only [List.length_cons, Nat.add_right_cancel_iff] at hlen
      have h1 : b.toNat % 128 < 128 := Nat.mod_lt _ (by decide)
      have h2 : c.toNat % 128 < 128 := Nat.mod_lt _ (by decide)
      simp only [List.map_cons]
      rw [ih hlen (by omega), show b.toNat % 128 = c.toNat % 128 by omega]

/-- Two encodings of the same number with the same length are the same bytes. -/
theorem Wire.IsVarint.unique {v bs bs'} (h : IsVarint v bs) (h' : IsVarint v bs')
    (hlen : bs.length = bs'.length) : bs = bs' := by
  obtain ⟨init, last, rfl, hi, hl, _, hv, _⟩ := h
  obtain ⟨init', last', rfl, hi', hl', _, hv', _⟩ := h'
  have hlen' : init.length = init'.length := by simpa using hlen
  have hd := varint_digits_unique hlen (hv.trans hv'.symm)
  simp only [List.map_append, List.map_cons, List.map_nil] at hd
  obtain ⟨hd1, hd2⟩ := List.append_inj hd (by simpa using hlen')
  have hlast : last = last' := by
    apply BitVec.eq_of_toNat_eq
    simp only [List.cons.injEq, and_true] at hd2
    omega
  subst hlast
  congr 1
  clear hd hd2 hv hv' hlen hl hl'
  rename_i hz1 _ hz2 _
  clear hz1 hz2
  induction init generalizing init' with
  | nil => cases init' with
    | nil => rfl
    | cons _ _ => simp at hlen'
  | cons b bs ih => cases init' with
    | nil => simp at hlen'
    | cons c cs =>
      simp only [List.map_cons, List.cons.injEq] at hd1
      simp only [List.length_cons, Nat.add_right_cancel_iff] at hlen'
      have hb := hi b (by simp)
      have hc := hi' c (by simp)
      have h1 := b.isLt
      have h2 := c.isLt
      rw [show b = c from BitVec.eq_of_toNat_eq (by omega)]
      rw [ih (fun x hx => hi x (by simp [hx])) cs (fun x hx => hi' x (by simp [hx])) hlen' hd1.2 (by simp at *; omega)]

theorem Wire.IsMinVarint.unique {v bs bs'} (h : IsMinVarint v bs) (h' : IsMinVarint v bs') : bs = bs' :=
  h.1.unique h'.1 (Nat.le_antisymm (h.length_le_of h'.1) (h'.length_le_of h.1))

end Zeropb
