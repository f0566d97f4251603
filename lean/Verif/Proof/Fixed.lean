import Verif.Go.Varint
import Verif.Spec.Kind
/-!
# Lemmas about little-endian integers and zig-zag coding
-/

namespace Zeropb
open Wire

theorem or_shift_toNat' {w : Nat} (x y : BitVec w) (s : Nat) (hx : x.toNat < 2 ^ s)
    (hy : y.toNat * 2 ^ s < 2 ^ w) :
    (x ||| (y <<< s)).toNat = x.toNat + y.toNat * 2 ^ s := by
  rw [BitVec.toNat_or, BitVec.toNat_shiftLeft, Nat.shiftLeft_eq, Nat.mod_eq_of_lt hy,
    Nat.or_comm, Nat.add_comm, ← Nat.shiftLeft_eq, Nat.shiftLeft_add_eq_or_of_lt hx]

theorem byte32 (b : Byte) : (b.setWidth 32).toNat = b.toNat := by
  have := b.isLt; simp; omega
theorem byte64 (b : Byte) : (b.setWidth 64).toNat = b.toNat := by
  have := b.isLt; simp; omega

/-- Number denoted by little-endian bytes. -/
def leValue : List Byte → Nat
  | [] => 0
  | b :: bs => b.toNat + 256 * leValue bs

theorem leUint32_toNat (b0 b1 b2 b3 : Byte) (rest : List Byte) :
    ∃ v, leUint32 (b0 :: b1 :: b2 :: b3 :: rest) = .ok v ∧ v.toNat = leValue [b0, b1, b2, b3] := by
  refine ⟨_, rfl, ?_⟩
  have h0 := b0.isLt; have h1 := b1.isLt; have h2 := b2.isLt; have h3 := b3.isLt
  have e1 := or_shift_toNat' (b0.setWidth 32) (b1.setWidth 32) 8 (by rw [byte32]; omega) (by rw [byte32]; omega)
  rw [byte32, byte32] at e1
  have e2 := or_shift_toNat' (b0.setWidth 32 ||| b1.setWidth 32 <<< 8) (b2.setWidth 32) 16
    (by rw [e1]; omega) (by rw [byte32]; omega)
  rw [e1, byte32] at e2
  have e3 := or_shift_toNat' (b0.setWidth 32 ||| b1.setWidth 32 <<< 8 ||| b2.setWidth 32 <<< 16) (b3.setWidth 32) 24
    (by rw [e2]; omega) (by rw [byte32]; omega)
  rw [e2, byte32] at e3
  rw [e3]; simp only [leValue]; omega

theorem leUint64_toNat (b0 b1 b2 b3 b4 b5 b6 b7 : Byte) (rest : List Byte) :
    ∃ v, leUint64 (b0 :: b1 :: b2 :: b3 :: b4 :: b5 :: b6 :: b7 :: rest) = .ok v ∧
      v.toNat = leValue [b0, b1, b2, b3, b4, b5, b6, b7] := by
  refine ⟨_, rfl, ?_⟩
  have h0 := b0.isLt; have h1 := b1.isLt; have h2 := b2.isLt; have h3 := b3.isLt
  have h4 := b4.isLt; have h5 := b5.isLt; have h6 := b6.isLt; have h7 := b7.isLt
  have e1 := or_shift_toNat' (b0.setWidth 64) (b1.setWidth 64) 8 (by rw [byte64]; omega) (by rw [byte64]; omega)
  rw [byte64, byte64] at e1
  generalize hx1 : b0.setWidth 64 ||| b1.setWidth 64 <<< 8 = x1 at *
  have e2 := or_shift_toNat' x1 (b2.setWidth 64) 16 (by rw [e1]; omega) (by rw [byte64]; omega)
  rw [e1, byte64] at e2
  generalize hx2 : x1 ||| b2.setWidth 64 <<< 16 = x2 at *
  have e3 := or_shift_toNat' x2 (b3.setWidth 64) 24 (by rw [e2]; omega) (by rw [byte64]; omega)
  rw [e2, byte64] at e3
  generalize hx3 : x2 ||| b3.setWidth 64 <<< 24 = x3 at *
  have e4 := or_shift_toNat' x3 (b4.setWidth 64) 32 (by rw [e3]; omega) (by rw [byte64]; omega)
  rw [e3, byte64] at e4
  generalize hx4 : x3 ||| b4.setWidth 64 <<< 32 = x4 at *
  have e5 := or_shift_toNat' x4 (b5.setWidth 64) 40 (by rw [e4]; omega) (by rw [byte64]; omega)
  rw [e4, byte64] at e5
  generalize hx5 : x4 ||| b5.setWidth 64 <<< 40 = x5 at *
  have e6 := or_shift_toNat' x5 (b6.setWidth 64) 48 (by rw [e5]; omega) (by rw [byte64]; omega)
  rw [e5, byte64] at e6
  generalize hx6 : x5 ||| b6.setWidth 64 <<< 48 = x6 at *
  have e7 := or_shift_toNat' x6 (b7.setWidth 64) 56 (by rw [e6]; omega) (by rw [byte64]; omega)
  rw [e6, byte64] at e7
  rw [e7]; simp only [leValue]; omega

theorem leBytes_length (n v : Nat) : (leBytes n v).length = n := by
  induction n generalizing v with
  | zero => rfl
  | succ n ih => simp [leBytes, ih]

theorem leBytes_leValue (bs : List Byte) : leBytes bs.length (leValue bs) = bs := by
  induction bs with
  | nil => rfl
  | cons b bs ih =>
    have := b.isLt
    simp only [List.length_cons, leBytes, leValue]
    rw [show (b.toNat + 256 * leValue bs) / 256 = leValue bs by omega, ih,
      show (b.toNat + 256 * leValue bs) % 256 = b.toNat by omega]
    simp

theorem leValue_leBytes (n v : Nat) (h : v < 256 ^ n) : leValue (leBytes n v) = v := by
  induction n generalizing v with
  | zero => simp [leBytes, leValue] at *; omega
  | succ n ih =>
    simp only [leBytes, leValue]
    rw [ih _ (by rw [Nat.div_lt_iff_lt_mul (by decide), ← Nat.pow_succ]; exact h)]
    simp only [BitVec.toNat_ofNat]; omega

theorem leBytes_inj (n v w : Nat) (hv : v < 256 ^ n) (hw : w < 256 ^ n)
    (h : leBytes n v = leBytes n w) : v = w := by
  rw [← leValue_leBytes n v hv, h, leValue_leBytes n w hw]

/-- The bytes written by `PutUint32` are the little-endian bytes of the specification. -/
theorem lePutUint32_eq (v : U32) : lePutUint32 v = leBytes 4 v.toNat := by
  have := v.isLt
  simp only [lePutUint32, leBytes, List.cons.injEq, and_true]
  refine ⟨?_, ?_, ?_, ?_⟩ <;> apply BitVec.eq_of_toNat_eq <;>
    simp [Nat.shiftRight_eq_div_pow] <;> omega

/-- The bytes written by `PutUint64` are the little-endian bytes of the specification. -/
theorem lePutUint64_eq (v : U64) : lePutUint64 v = leBytes 8 v.toNat := by
  have := v.isLt
  simp only [lePutUint64, leBytes, List.cons.injEq, and_true]
  refine ⟨?_, ?_, ?_, ?_, ?_, ?_, ?_, ?_⟩ <;> apply BitVec.eq_of_toNat_eq <;>
    simp [Nat.shiftRight_eq_div_pow] <;> omega

/-- Reading four little-endian bytes. -/
theorem leUint32_leBytes (v : U32) (rest : List Byte) : leUint32 (leBytes 4 v.toNat ++ rest) = .ok v := by
  have hl := leBytes_length 4 v.toNat
  match h : leBytes 4 v.toNat, hl with
  | [b0, b1, b2, b3], _ =>
    obtain ⟨w, hw, hv⟩ := leUint32_toNat b0 b1 b2 b3 rest
    rw [← h, leValue_leBytes 4 v.toNat (by have := v.isLt; omega)] at hv
    simp only [List.cons_append, List.nil_append, hw]
    rw [BitVec.eq_of_toNat_eq hv]

/-- Reading eight little-endian bytes. -/
theorem leUint64_leBytes (v : U64) (rest : List Byte) : leUint64 (leBytes 8 v.toNat ++ rest) = .ok v := by
  have hl := leBytes_length 8 v.toNat
  match h : leBytes 8 v.toNat, hl with
  | [b0, b1, b2, b3, b4, b5, b6, b7], _ =>
    obtain ⟨w, hw, hv⟩ := leUint64_toNat b0 b1 b2 b3 b4 b5 b6 b7 rest
    rw [← h, leValue_leBytes 8 v.toNat (by have := v.isLt; omega)] at hv
    simp only [List.cons_append, List.nil_append, hw]
    rw [BitVec.eq_of_toNat_eq hv]

theorem leValue_lt (bs : List Byte) : leValue bs < 256 ^ bs.length := by
  induction bs with
  | nil => simp [leValue]
  | cons b bs ih =>
    have := b.isLt
    simp only [leValue, List.length_cons, Nat.pow_succ]; omega

/-- Any four bytes are the little-endian bytes of some value. -/
theorem exists_leBytes32 (bs : List Byte) (h : bs.length = 4) : ∃ v : U32, bs = leBytes 4 v.toNat := by
  have hlt : leValue bs < 2 ^ 32 := by
    have := leValue_lt bs
    rw [h] at this; omega
  refine ⟨BitVec.ofNat 32 (leValue bs), ?_⟩
  rw [BitVec.toNat_ofNat, Nat.mod_eq_of_lt hlt, ← h, leBytes_leValue]

/-- Any eight bytes are the little-endian bytes of some value. -/
theorem exists_leBytes64 (bs : List Byte) (h : bs.length = 8) : ∃ v : U64, bs = leBytes 8 v.toNat := by
  have hlt : leValue bs < 2 ^ 64 := by
    have := leValue_lt bs
    rw [h] at this; omega
  refine ⟨BitVec.ofNat 64 (leValue bs), ?_⟩
  rw [BitVec.toNat_ofNat, Nat.mod_eq_of_lt hlt, ← h, leBytes_leValue]

/-! ## Zig-zag -/

/-- What `PutVarint` passes to `PutUvarint`. -/
def zigzagBits (x : U64) : U64 := if x.toInt < 0 then ~~~(x <<< 1) else x <<< 1

/-- What `Varint` makes of the result of `Uvarint`. -/
def unzigzagBits (u : U64) : U64 := if u &&& 1#64 ≠ 0#64 then ~~~(u >>> 1) else u >>> 1

theorem and_one_toNat (u : U64) : (u &&& 1#64).toNat = u.toNat % 2 := by
  simp [BitVec.toNat_and, Nat.and_one_is_mod]

theorem zigzagBits_toNat (x : U64) : (zigzagBits x).toNat = zigzag x.toInt := by
  have hx := x.isLt
  unfold zigzagBits zigzag
  rw [BitVec.toInt_eq_toNat_cond]
  split <;> split <;> split <;>
    simp only [BitVec.toNat_not, BitVec.toNat_shiftLeft, Nat.shiftLeft_eq] <;> omega

theorem unzigzagBits_zigzagBits (x : U64) : unzigzagBits (zigzagBits x) = x := by
  have hz := zigzagBits_toNat x
  have hx := x.isLt
  have hlt := (zigzagBits x).isLt
  generalize zigzagBits x = u at *
  have ha := and_one_toNat u
  unfold unzigzagBits
  have hne : (u &&& 1#64 ≠ 0#64) ↔ u.toNat % 2 = 1 := by
    rw [← ha, Ne, ← BitVec.toNat_inj]
    simp only [BitVec.toNat_ofNat]; omega
  apply BitVec.eq_of_toNat_eq
  unfold zigzag at hz
  rw [BitVec.toInt_eq_toNat_cond] at hz
  by_cases h : u &&& 1#64 ≠ 0#64
  · rw [if_pos h]
    have := hne.1 h
    simp only [BitVec.toNat_not, BitVec.toNat_ushiftRight, Nat.shiftRight_eq_div_pow]
    split at hz <;> split at hz <;> omega
  · rw [if_neg h]
    have : ¬ u.toNat % 2 = 1 := fun h' => h (hne.2 h')
    simp only [BitVec.toNat_ushiftRight, Nat.shiftRight_eq_div_pow]
    split at hz <;> split at hz <;> omega

theorem varint_eq (bs : List Byte) : varint bs = (unzigzagBits (uvarint bs).1, (uvarint bs).2) := rfl

theorem putVarint_eq (n : Nat) (x : U64) : putVarint n x = putUvarint n (zigzagBits x) := rfl

end Zeropb
