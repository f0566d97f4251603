import Verif.Proof.Payload
/-!
# Getters
-/

set_option linter.unusedSimpArgs false

namespace Zeropb
open Wire

theorem dropFrom_append (A B spare : List Byte) :
    (Slice.mk (A ++ B) spare).dropFrom (A.length : Int) = .ok ⟨B, spare⟩ := by
  unfold Slice.dropFrom
  rw [if_pos (by simp; omega)]
  simp

theorem range_append (A M B spare : List Byte) :
    (Slice.mk (A ++ (M ++ B)) spare).range (A.length : Int) ((A.length + M.length : Nat) : Int) = .ok ⟨M, B ++ spare⟩ := by
  unfold Slice.range
  rw [if_pos (by simp; omega)]
  congr 2
  · simp only [Int.toNat_natCast, List.append_assoc]
    simp
  · simp only [Int.toNat_natCast, List.append_assoc]
    have : A.length + M.length = (A ++ M).length := by simp
    rw [this, ← List.append_assoc A M, List.drop_left]

theorem ofNat64_toNat {n : Nat} (h : n < 2 ^ 64) : (BitVec.ofNat 64 n).toNat = n := by
  rw [BitVec.toNat_ofNat, Nat.mod_eq_of_lt h]

/-- The payload of field `f` is at the recorded position. -/
structure Located (buf : Slice) (o : Offsets) (f : Nat) (A pay B : List Byte) : Prop where
  get : o.get f = .ok (BitVec.ofNat 64 A.length, true)
  data : buf.data = A ++ (pay ++ B)
  len : buf.data.length < maxLen

theorem Located.lens {buf o f A pay B} (h : Located buf o f A pay B) :
    A.length + pay.length + B.length < maxLen := by
  have := h.len; rw [h.data] at this; simp at this; omega

theorem Located.drop {buf o f A pay B} (h : Located buf o f A pay B) :
    buf.dropFrom ((BitVec.ofNat 64 A.length).toNat : Int) = .ok ⟨pay ++ B, buf.spare⟩ := by
  have := h.lens
  rw [ofNat64_toNat (by unfold maxLen at this; omega)]
  obtain ⟨d, s⟩ := buf
  have hd : d = _ := h.data
  subst hd
  exact dropFrom_append _ _ _

theorem Located.range {buf o f A pay B} (h : Located buf o f A pay B) (n : Nat) (hn : pay.length = n) :
    buf.range ((BitVec.ofNat 64 A.length).toNat : Int) ((BitVec.ofNat 64 A.length + BitVec.ofNat 64 n).toNat : Int)
      = .ok ⟨pay, B ++ buf.spare⟩ := by
  have := h.lens
  unfold maxLen at this
  rw [BitVec.toNat_add, ofNat64_toNat (by omega), ofNat64_toNat (by omega), Nat.mod_eq_of_lt (by omega), ← hn]
  obtain ⟨d, s⟩ := buf
  have hd : d = _ := h.data
  subst hd
  exact range_append _ _ _ _

theorem intToU64_nat (n : Nat) : intToU64 (n : Int) = BitVec.ofNat 64 n := by
  simp [intToU64]

/-- `GetBytes` returns exactly the bytes of the occurrence, as a view into the buffer: what follows
them in the array is the rest of the message and the spare capacity. -/
theorem getBytes_located {buf o f A pay B bs} (h : Located buf o f A pay B) (hp : IsPayload (.bytes bs) pay) :
    getBytes buf o f = .ok (some ⟨bs, B ++ buf.spare⟩) := by
  obtain ⟨lb, h1, rfl⟩ := hp
  have hl := h.lens
  unfold maxLen at hl
  simp only [List.length_append] at hl
  simp only [getBytes, h.get, bind, Except.bind, Bool.not_true, Bool.false_eq_true, if_false, pure, Except.pure, h.drop,
    List.append_assoc, uvarint_of_isVarint h1, intToU64_nat]
  have e1 : BitVec.ofNat 64 A.length + BitVec.ofNat 64 lb.length = BitVec.ofNat 64 (A ++ lb).length := by
    rw [List.length_append, BitVec.ofNat_add]
  rw [e1]
  have h' : Located buf o f A (lb ++ bs) B := h
  have hd : buf.data = (A ++ lb) ++ (bs ++ B) := by rw [h'.data]; simp
  rw [BitVec.toNat_add, ofNat64_toNat (by simp; omega), ofNat64_toNat (by omega), Nat.mod_eq_of_lt (by simp; omega)]
  obtain ⟨d, s⟩ := buf
  simp only at hd
  subst hd
  rw [range_append]

theorem getString_located {buf o f A pay B bs} (h : Located buf o f A pay B) (hp : IsPayload (.bytes bs) pay) :
    getString buf o f = .ok bs := by
  have h2 := getBytes_located h hp
  unfold getBytes at h2
  unfold getString
  simp only [h.get, bind, Except.bind, Bool.not_true, Bool.false_eq_true, if_false, pure, Except.pure, h.drop] at h2 ⊢
  split at h2
  · simp at h2
  · rename_i heq
    simp only [Except.ok.injEq, Option.some.injEq] at h2
    simp [h2]

/-- A getter of the right type returns the value located at the recorded position. -/
theorem get_located {buf o f A pay B v} (h : Located buf o f A pay B) (hp : IsPayload v pay)
    (k : Kind) (x : k.Ty) (hx : decodeVal k v = some x) : Msg.get ⟨buf, o⟩ k f = .ok x := by
  have hv : ∀ u : U64, IsPayload (.varint u) pay → uvarint (pay ++ B) = (u, (pay.length : Int)) := by
    intro u hu
    rw [uvarint_of_isVarint hu]
    congr 1
    simp
  have h4 : ∀ u : U32, IsPayload (.fixed32 u) pay →
      (do let s ← buf.range ((BitVec.ofNat 64 A.length).toNat : Int) ((BitVec.ofNat 64 A.length + 4#64).toNat : Int)
          leUint32 s.data) = .ok u := by
    intro u hu
    have hu' : pay = leBytes 4 u.toNat := hu
    rw [h.range 4 (by rw [hu', leBytes_length])]
    have := leUint32_leBytes u []
    rw [List.append_nil, ← hu'] at this
    exact this
  have h8 : ∀ u : U64, IsPayload (.fixed64 u) pay →
      (do let s ← buf.range ((BitVec.ofNat 64 A.length).toNat : Int) ((BitVec.ofNat 64 A.length + 8#64).toNat : Int)
          leUint64 s.data) = .ok u := by
    intro u hu
    have hu' : pay = leBytes 8 u.toNat := hu
    rw [h.range 8 (by rw [hu', leBytes_length])]
    have := leUint64_leBytes u []
    rw [List.append_nil, ← hu'] at this
    exact this
  cases k <;> cases v <;> simp only [decodeVal, Option.some.injEq, reduceCtorEq] at hx
  case bool.varint v =>
    simp only [Msg.get, getBool, h.get, bind, Except.bind, Bool.not_true, Bool.false_eq_true, if_false, pure, Except.pure, h.drop, hv v hp, ← hx]
    congr 1
    rw [decide_eq_decide, gt_iff_lt, BitVec.lt_def]; simp; omega
  case int32.varint v =>
    simp only [Msg.get, getInt32, h.get, bind, Except.bind, Bool.not_true, Bool.false_eq_true, if_false, pure, Except.pure, h.drop, hv v hp, ← hx]
    rfl
  case int64.varint v =>
    simp only [Msg.get, getInt64, h.get, bind, Except.bind, Bool.not_true, Bool.false_eq_true, if_false, pure, Except.pure, h.drop, hv v hp, ← hx]
  case uint32.varint v =>
    simp only [Msg.get, getUint32, h.get, bind, Except.bind, Bool.not_true, Bool.false_eq_true, if_false, pure, Except.pure, h.drop, hv v hp, ← hx]
    rfl
  case uint64.varint v =>
    simp only [Msg.get, getUint64, h.get, bind, Except.bind, Bool.not_true, Bool.false_eq_true, if_false, pure, Except.pure, h.drop, hv v hp, ← hx]
  case sint32.varint v =>
    split at hx
    · rename_i hlt
      simp only [Option.some.injEq] at hx
      simp only [Msg.get, getZigZagInt32, h.get, bind, Except.bind, Bool.not_true, Bool.false_eq_true, if_false, pure, Except.pure, h.drop, varint_eq, hv v hp, ← hx]
      congr 1
      apply BitVec.eq_of_toNat_eq
      unfold unzigzagBits unzigzag
      have h1 := and_one_toNat v
      by_cases hodd : v.toNat % 2 = 0
      · rw [if_pos hodd, if_neg]
        · simp [Nat.shiftRight_eq_div_pow]; omega
        · simp only [ne_eq, Decidable.not_not]; exact BitVec.eq_of_toNat_eq (by simp [h1, hodd])
      · rw [if_neg hodd, if_pos]
        · simp only [BitVec.toNat_setWidth, BitVec.toNat_not, BitVec.toNat_ushiftRight, Nat.shiftRight_eq_div_pow,
            BitVec.toNat_ofInt]
          omega
        · intro he; rw [he] at h1; simp at h1; omega
    · simp at hx
  case sint64.varint v =>
    have hlt := v.isLt
    simp only [Msg.get, getZigZagInt64, h.get, bind, Except.bind, Bool.not_true, Bool.false_eq_true, if_false, pure, Except.pure, h.drop, varint_eq, hv v hp, ← hx]
    congr 1
    apply BitVec.eq_of_toNat_eq
    unfold unzigzagBits unzigzag
    have h1 := and_one_toNat v
    by_cases hodd : v.toNat % 2 = 0
    · rw [if_pos hodd, if_neg]
      · simp [Nat.shiftRight_eq_div_pow]; omega
      · simp only [ne_eq, Decidable.not_not]; exact BitVec.eq_of_toNat_eq (by simp [h1, hodd])
    · rw [if_neg hodd, if_pos]
      · simp only [BitVec.toNat_not, BitVec.toNat_ushiftRight, Nat.shiftRight_eq_div_pow, BitVec.toNat_ofInt]
        omega
      · intro he; rw [he] at h1; simp at h1; omega
  case fixed32.fixed32 v =>
    simp only [Msg.get, getFixedUint32, h.get, bind, Except.bind, Bool.not_true, Bool.false_eq_true, if_false, pure, Except.pure, ← hx]
    exact h4 v hp
  case sfixed32.fixed32 v =>
    simp only [Msg.get, getFixedInt32, h.get, bind, Except.bind, Bool.not_true, Bool.false_eq_true, if_false, pure, Except.pure, ← hx]
    exact h4 v hp
  case float.fixed32 v =>
    simp only [Msg.get, getFloat32, h.get, bind, Except.bind, Bool.not_true, Bool.false_eq_true, if_false, pure, Except.pure, ← hx]
    exact h4 v hp
  case fixed64.fixed64 v =>
    simp only [Msg.get, getFixedUint64, h.get, bind, Except.bind, Bool.not_true, Bool.false_eq_true, if_false, pure, Except.pure, ← hx]
    exact h8 v hp
  case sfixed64.fixed64 v =>
    simp only [Msg.get, getFixedInt64, h.get, bind, Except.bind, Bool.not_true, Bool.false_eq_true, if_false, pure, Except.pure, ← hx]
    exact h8 v hp
  case double.fixed64 v =>
    simp only [Msg.get, getFloat64, h.get, bind, Except.bind, Bool.not_true, Bool.false_eq_true, if_false, pure, Except.pure, ← hx]
    exact h8 v hp
  case string.bytes v =>
    rw [← hx]; exact getString_located h hp
  case bytes.bytes v =>
    simp only [Msg.get, getBytes_located h hp, ← hx]; rfl

theorem get_absent {buf o f} (h : o.get f = .ok (0#64, false)) (k : Kind) : Msg.get ⟨buf, o⟩ k f = .ok k.dflt := by
  cases k <;> simp [Msg.get, getBool, getInt32, getInt64, getUint32, getUint64, getZigZagInt32, getZigZagInt64,
    getFixedUint32, getFixedUint64, getFixedInt32, getFixedInt64, getFloat32, getFloat64, getString, getBytes, h,
    bind, Except.bind, pure, Except.pure, Kind.dflt]

theorem getBytes_absent {buf o f} (h : o.get f = .ok (0#64, false)) : getBytes buf o f = .ok none := by
  simp [getBytes, h, bind, Except.bind, pure, Except.pure]

theorem messages_absent {buf o f} (h : o.get f = .ok (0#64, false)) : getRepeatedNonPacked buf o f = .ok none := by
  simp [getRepeatedNonPacked, h, bind, Except.bind, pure, Except.pure]

/-! ## With the representation invariant -/

variable {n : Nat} {rep : Nat → Bool} {buf : Slice} {o : Offsets} {cs : List Chunk}

theorem Rep.get_none (h : Rep n rep buf o cs) {f : Nat} (hf : f < n) (ha : ∀ c ∈ cs, c.num ≠ f) :
    o.get f = .ok (0#64, false) := by
  rw [Offsets.get_eq h.inv (by rw [h.alen]; exact hf), h.view, offs_eq_nil.2 ha, pick_nil]

theorem Rep.located (h : Rep n rep buf o cs) {f : Nat} {pre post : List Chunk} {c : Chunk}
    (hcs : cs = pre ++ c :: post) (hv : pick (rep f) (offs f 0 cs) = some ((flat pre).length + c.tag.length))
    (hf : f < n) : Located buf o f (flat pre ++ c.tag) c.pay (flat post) := by
  refine ⟨?_, ?_, h.len⟩
  · rw [Offsets.get_eq h.inv (by rw [h.alen]; exact hf), h.view, hv]; simp
  · rw [h.data, hcs]; simp [Chunk.bytes]

theorem Rep.located_last (h : Rep n rep buf o cs) {f : Nat} {pre post : List Chunk} {c : Chunk}
    (hcs : cs = pre ++ c :: post) (hr : rep f = false) (hc : c.num = f) (hp : ∀ d ∈ post, d.num ≠ f) :
    Located buf o f (flat pre ++ c.tag) c.pay (flat post) := by
  refine h.located hcs ?_ ?_
  · rw [hr, hcs, pick_last hc hp]
  · rw [← hc]; exact h.lt c (by rw [hcs]; simp)

theorem Rep.located_first (h : Rep n rep buf o cs) {f : Nat} {pre post : List Chunk} {c : Chunk}
    (hcs : cs = pre ++ c :: post) (hr : rep f = true) (hc : c.num = f) (hp : ∀ d ∈ pre, d.num ≠ f) :
    Located buf o f (flat pre ++ c.tag) c.pay (flat post) := by
  refine h.located hcs ?_ ?_
  · rw [hr, hcs, pick_first hc hp]
  · rw [← hc]; exact h.lt c (by rw [hcs]; simp)

/-- The getter of a singular field returns what the specification reads. -/
theorem Rep.get (h : Rep n rep buf o cs) {f : Nat} (hf : f < n) (hr : rep f = false) (k : Kind) (x : k.Ty)
    (hx : readVal k (lastVal f (records cs)) = some x) : Msg.get ⟨buf, o⟩ k f = .ok x := by
  rw [lastVal_records] at hx
  by_cases ha : ∃ c ∈ cs, c.num = f
  · obtain ⟨pre, c, post, hcs, hc, hp⟩ := exists_last ha
    rw [hcs, lastChunk_eq hc hp] at hx
    exact get_located (h.located_last hcs hr hc hp) (h.wf c (by rw [hcs]; simp)).pay k x hx
  · have ha' : ∀ c ∈ cs, c.num ≠ f := fun c hc he => ha ⟨c, hc, he⟩
    rw [lastChunk_none ha'] at hx
    simp only [Option.map_none, readVal, Option.some.injEq] at hx
    rw [get_absent (h.get_none hf ha'), hx]

end Zeropb
