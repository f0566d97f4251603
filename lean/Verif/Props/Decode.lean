import Verif.Props.Core
import Verif.Proof.Sim
set_option linter.unusedSimpArgs false
set_option linter.unusedVariables false
/-!
# `Decode` on every input (C13 – C16, C27, C29, C36 – C40)
-/

namespace Zeropb
open Wire

/-- Run `Decode` for a bounded number of iterations. -/
theorem Msg.decode_of_run {rep : Nat → Bool} {m : Msg} {buf : Slice} {n : Nat} {o : Offsets} {e : Option DecErr}
    (h : run (decodeStep buf rep) n (0, m.off.clear) = some (.ok (o, e))) : m.decode rep buf = .ok (⟨buf, o⟩, e) := by
  unfold Msg.decode Zeropb.decode
  rw [iterate_of_run h]; rfl

theorem Msg.decode_of_run_error {rep : Nat → Bool} {m : Msg} {buf : Slice} {n : Nat} {e : Fail}
    (h : run (decodeStep buf rep) n (0, m.off.clear) = some (.error e)) : m.decode rep buf = .error e := by
  unfold Msg.decode Zeropb.decode
  rw [iterate_of_run h]; rfl

theorem Msg.decode_eq {rep : Nat → Bool} {m : Msg} {buf : Slice} {r : Res (Offsets × Option DecErr)}
    (h : Zeropb.decode buf m.off rep = r) : m.decode rep buf = r.map (fun p => (⟨buf, p.1⟩, p.2)) := by
  unfold Msg.decode
  rw [h]
  cases r <;> rfl

/-! ## C13 -/

theorem unterminated_of_prefix {v : Nat} {B Z : List Byte} (h : IsVarint v (B ++ Z)) (hZ : Z ≠ []) : Unterminated B := by
  obtain ⟨init, last, he, hi, _⟩ := h
  intro b hb
  apply hi
  rw [← List.dropLast_concat_getLast hZ, ← List.append_assoc] at he
  have := (List.append_inj' he rfl).1
  rw [← this]; simp [hb]

/-- A proper beginning of a record is a cut-off record. -/
theorem cut_of_prefix {n base : Nat} {r : Record} {B C : List Byte} (h : IsRecord r (B ++ C)) (hB : B ≠ []) (hC : C ≠ [])
    (hn : r.num < n) (hlen : base + (B ++ C).length < 2 ^ 63) : CutRecord n base B := by
  obtain ⟨tag, pay, he, ht, hp⟩ := h
  have hw := wireType_lt r.val
  rcases List.append_eq_append_iff.1 he with ⟨Y, h1, h2⟩ | ⟨Z, h1, h2⟩
  · -- tag = B ++ Y
    rw [h1] at ht
    by_cases hY : Y = []
    · subst hY; rw [List.append_nil] at ht; exact .noPayload ht
    · exact .tag hB (unterminated_of_prefix ht hY)
  · -- B = tag ++ Z, pay = Z ++ C
    subst h1 h2
    by_cases hZ : Z = []
    · subst hZ; rw [List.append_nil]; exact .noPayload ht
    · have hdiv : (r.num * 8 + r.val.wireType) / 8 = r.num := by omega
      have hmod : (r.num * 8 + r.val.wireType) % 8 = r.val.wireType := by omega
      refine .payload ht (by omega) ?_
      rw [hmod]
      have hCp : 0 < C.length := by cases C with | nil => simp at hC | cons _ _ => simp
      cases hval : r.val with
      | varint u => rw [hval] at hp; exact .varint hZ (unterminated_of_prefix hp hC)
      | fixed64 u =>
        rw [hval] at hp
        have : (Z ++ C).length = 8 := by rw [show Z ++ C = _ from hp, leBytes_length]
        simp at this
        exact .fixed64 hZ (by omega)
      | fixed32 u =>
        rw [hval] at hp
        have : (Z ++ C).length = 4 := by rw [show Z ++ C = _ from hp, leBytes_length]
        simp at this
        exact .fixed32 hZ (by omega)
      | bytes bs =>
        rw [hval] at hp
        obtain ⟨lb, hl, he2⟩ := hp
        rcases List.append_eq_append_iff.1 he2 with ⟨W, w1, w2⟩ | ⟨W, w1, w2⟩
        · rw [w1] at hl
          by_cases hW : W = []
          · subst hW
            rw [List.append_nil] at hl w1
            have hL : 0 < bs.length := by rw [w2] at hCp; simpa using hCp
            have : CutPayload (base + tag.length) 2 (Z ++ []) := by
              refine .bytes hl (by simpa using hL) ?_
              simp [w2] at hlen; omega
            rw [List.append_nil] at this
            exact this
          · exact .length hZ (unterminated_of_prefix hl hW)
        · subst w1 w2
          refine .bytes hl (by simp; omega) ?_
          simp at hlen ⊢; omega

/-- C13: a valid message cut off strictly inside a record makes `Decode` return
`io.ErrUnexpectedEOF`. -/
theorem C13_truncated {S : Schema} {m0 : Msg} (h0 : m0.off.a.length = S.n) {buf : Slice} {rs : List Record} {r : Record}
    {A B C : List Byte} (hd : buf.data = A ++ B) (hA : IsMessage rs A) (hr : IsRecord r (B ++ C)) (hB : B ≠ []) (hC : C ≠ [])
    (hlt : ∀ r' ∈ rs ++ [r], r'.num < S.n) (hlen : (A ++ B ++ C).length + 8 < maxLen) :
    ∃ m, m0.decode S.rep buf = .ok (m, some .unexpectedEOF) := by
  obtain ⟨cs, h1, h2, h3⟩ := isMessage_iff.1 hA
  subst h1
  have hlt' : ∀ c ∈ cs, c.num < S.n := by
    intro c hc
    have := hlt c.record (by rw [← h3]; exact List.mem_append_left _ (List.mem_map_of_mem hc))
    exact this
  have hl : buf.data.length = (flat cs).length + B.length := by rw [hd]; simp
  simp only [List.length_append] at hlen
  obtain ⟨o', d1, d2, d3, _⟩ := decode_from_start (rep := S.rep) h0 (by omega) hd h2 hlt'
  have hcut : CutRecord S.n (flat cs).length B :=
    cut_of_prefix hr hB hC (hlt r (by simp)) (by simp; unfold maxLen at hlen; omega)
  obtain ⟨o2, e, _⟩ := decode_cut (rep := S.rep) d2 d3 hd (by omega) hcut
  rw [e] at d1
  exact ⟨_, Msg.decode_eq d1⟩

/-- Hypotheses met: `demo`'s bytes cut inside the string. -/
example : IsMessage [] [] ∧ IsRecord ⟨14, .bytes [0x68#8, 0x69#8]⟩ ([0x72#8, 0x02#8, 0x68#8] ++ [0x69#8]) :=
  ⟨.nil, [0x72#8], [0x02#8, 0x68#8, 0x69#8], rfl, ⟨[], 0x72#8, rfl, by simp, by decide, by decide, by decide, by decide⟩,
    [0x02#8], ⟨[], 0x02#8, rfl, by simp, by decide, by decide, by decide, by decide⟩, rfl⟩

/-! ## C14 -/

/-- C14, what holds: every input consists of a valid message `A`, followed by nothing, and then
`Decode` returns nil; or by a cut-off record, and then it returns `io.ErrUnexpectedEOF`; or by a
defect. -/
theorem C14_decode_returns {S : Schema} {m0 : Msg} (h0 : m0.off.a.length = S.n) {buf : Slice} (hlen : buf.len + 8 < maxLen) :
    ∃ rs A X, buf.data = A ++ X ∧ IsMessage rs A ∧ (∀ r ∈ rs, r.num < S.n) ∧
      ((X = [] ∧ ∃ m, m0.decode S.rep buf = .ok (m, none)) ∨
       (CutRecord S.n A.length X ∧ ∃ m, m0.decode S.rep buf = .ok (m, some .unexpectedEOF)) ∨
       Defect S.n A.length X) := by
  unfold Slice.len at hlen
  obtain ⟨cs, X, h1, h2, h3, h4⟩ := decompose S.n buf.data (by omega)
  refine ⟨records cs, flat cs, X, h1, isMessage_iff.2 ⟨cs, rfl, h2, rfl⟩, ?_, ?_⟩
  · intro r hr
    simp only [records, List.mem_map] at hr
    obtain ⟨c, hc, rfl⟩ := hr
    exact h3 c hc
  · obtain ⟨o', d1, d2, d3, _⟩ := decode_from_start (rep := S.rep) h0 (by omega) h1 h2 h3
    rcases h4 with h4 | h4 | h4
    · left
      subst h4
      rw [List.append_nil] at h1
      obtain ⟨o2, e1, _⟩ := decode_spec (rep := S.rep) (o := m0.off) (by omega) h1 h2 h3 h0
      exact ⟨rfl, _, Msg.decode_eq e1⟩
    · right; left
      obtain ⟨o2, e, _⟩ := decode_cut (rep := S.rep) d2 d3 h1 (by omega) h4
      rw [e] at d1
      exact ⟨h4, _, Msg.decode_eq d1⟩
    · right; right; exact h4

/-- C14, the defects that always panic: a field number outside the table, an unsupported wire type,
a length below 2^63 pointing beyond position 2^63. -/
theorem C14_decode_panics {S : Schema} {m0 : Msg} (h0 : m0.off.a.length = S.n) {buf : Slice} (hlen : buf.len < maxLen)
    {rs : List Record} {A tag rest : List Byte} {t : Nat} (hA : IsMessage rs A) (hlt : ∀ r ∈ rs, r.num < S.n)
    (hd : buf.data = A ++ (tag ++ rest)) (ht : IsVarint t tag) (hrest : rest ≠ []) :
    (S.n ≤ t / 8 → m0.decode S.rep buf = .error .indexOutOfRange) ∧
    (t / 8 < S.n → t % 8 = 3 ∨ t % 8 = 4 ∨ t % 8 = 6 ∨ t % 8 = 7 → m0.decode S.rep buf = .error .unsupportedType) ∧
    (t / 8 < S.n → t % 8 = 2 → ∀ L lb rest', rest = lb ++ rest' → IsVarint L lb → lb.length + L < 2 ^ 63 →
      2 ^ 63 ≤ A.length + tag.length + lb.length + L → m0.decode S.rep buf = .error .sliceBounds) := by
  obtain ⟨cs, h1, h2, h3⟩ := isMessage_iff.1 hA
  subst h1
  have hlt' : ∀ c ∈ cs, c.num < S.n := by
    intro c hc
    have := hlt c.record (by rw [← h3]; exact List.mem_map_of_mem hc)
    exact this
  obtain ⟨o', d1, d2, d3, _⟩ := decode_from_start (rep := S.rep) h0 hlen hd h2 hlt'
  refine ⟨?_, ?_, ?_⟩
  · intro hn
    rw [decode_number d3 hd hlen ht hn hrest] at d1
    exact Msg.decode_eq d1
  · intro hn hw
    rw [decode_wireType d2 d3 hd hlen ht hn hw hrest] at d1
    exact Msg.decode_eq d1
  · intro hn hw L lb rest' he hL hl1 hl2
    subst he
    rw [decode_length d2 d3 hd hlen ht hn hw hL hl2 hl1] at d1
    exact Msg.decode_eq d1

/-- Outcomes can be compared (used to run the model on the concrete counterexamples below). -/
instance {ε α : Type} [DecidableEq ε] [DecidableEq α] : DecidableEq (Except ε α)
  | .ok a, .ok b => if h : a = b then isTrue (by rw [h]) else isFalse (by simp [h])
  | .error a, .error b => if h : a = b then isTrue (by rw [h]) else isFalse (by simp [h])
  | .ok _, .error _ => isFalse (by simp)
  | .error _, .ok _ => isFalse (by simp)

/-- An input on which `Decode` goes round for ever: at position 11 a varint of ten bytes that
overflows takes the index back to 1, where the bytes read as other records leading to position 11. -/
def loopBytes : List Byte :=
  [0x0a#8, 0x09#8, 0x0a#8, 0x07#8, 0#8, 0#8, 0#8, 0#8, 0#8, 0#8, 0#8,
   0x80#8, 0x80#8, 0x80#8, 0x80#8, 0x80#8, 0x80#8, 0x80#8, 0x80#8, 0x80#8, 0x02#8]

/-- C14, refutation of the unrestricted claim: `Decode` loops for ever on 21 bytes, whatever the struct held before. -/
theorem C14_false_diverges (spare : List Byte) :
    (Msg.zero testSchema.n).decode testSchema.rep ⟨loopBytes, spare⟩ = .error .diverge := by
  have hsim := decode_sim (buf := ⟨loopBytes, spare⟩) (buf' := ⟨loopBytes, []⟩) rfl testSchema.rep
    (o := (Msg.zero testSchema.n).off) (o' := (Msg.zero testSchema.n).off) rfl
  have hdiv : decode ⟨loopBytes, []⟩ (Msg.zero testSchema.n).off testSchema.rep = .error .diverge := by
    unfold decode
    let f : Nat → Int × Offsets := fun i =>
      match i with
      | 0 => (0, ⟨List.replicate 35 0#16, none⟩)
      | 1 => (11, ⟨(List.replicate 35 0#16).set 1 1#16, none⟩)
      | 2 => (2, ⟨((List.replicate 35 0#16).set 1 1#16).set 0 1#16, none⟩)
      | 3 => (11, ⟨((List.replicate 35 0#16).set 1 3#16).set 0 1#16, none⟩)
      | _ => (2, ⟨((List.replicate 35 0#16).set 1 3#16).set 0 1#16, none⟩)
    apply iterate_diverge (S := fun s => s = f 0 ∨ s = f 1 ∨ s = f 2 ∨ s = f 3 ∨ s = f 4)
    · intro s hs
      rcases hs with rfl | rfl | rfl | rfl | rfl
      · exact ⟨f 1, by decide +kernel, by simp⟩
      · exact ⟨f 2, by decide +kernel, by simp⟩
      · exact ⟨f 3, by decide +kernel, by simp⟩
      · exact ⟨f 4, by decide +kernel, by simp⟩
      · exact ⟨f 3, by decide +kernel, by simp⟩
    · left; rfl
  rw [hdiv] at hsim
  have : decode ⟨loopBytes, spare⟩ (Msg.zero testSchema.n).off testSchema.rep = .error .diverge := by
    cases h : decode ⟨loopBytes, spare⟩ (Msg.zero testSchema.n).off testSchema.rep with
    | error e => rw [h] at hsim; rw [show e = .diverge from hsim]
    | ok v => rw [h] at hsim; exact hsim.elim
  exact Msg.decode_eq this

/-- C14, refutation of the unrestricted claim: `Decode` panics on ten bytes. -/
theorem C14_false_panics :
    (Msg.zero testSchema.n).decode testSchema.rep
      ⟨[0x80#8, 0x80#8, 0x80#8, 0x80#8, 0x80#8, 0x80#8, 0x80#8, 0x80#8, 0x80#8, 0x02#8], []⟩ = .error .sliceBounds :=
  Msg.decode_of_run_error (n := 1) (by decide +kernel)

/-- C14: a field of the impossible length 2^64-1 is accepted; the last byte of the length is read
again as the tag of the next record. -/
theorem C14_false_accepts :
    ∃ m, (Msg.zero testSchema.n).decode testSchema.rep
      ⟨[0x7a#8, 0xff#8, 0xff#8, 0xff#8, 0xff#8, 0xff#8, 0xff#8, 0xff#8, 0xff#8, 0xff#8, 0x01#8,
        0#8, 0#8, 0#8, 0#8, 0#8, 0#8, 0#8, 0#8], []⟩ = .ok (m, none) ∧ ¬ ∃ rs, IsMessage rs m.encode.data := by
  refine ⟨_, Msg.decode_of_run (n := 5)
    (o := ⟨((List.replicate 35 0#16).set 15 1#16).set 0 11#16, none⟩) (by decide +kernel), ?_⟩
  rintro ⟨rs, h⟩
  obtain ⟨cs, h1, h2, h3⟩ := isMessage_iff.1 h
  cases cs with
  | nil => simp [flat, Msg.encode] at h1
  | cons c cs =>
    have hw := h2 c (by simp)
    have e : c.tag ++ (c.pay ++ flat cs) = [0x7a#8] ++ [0xff#8, 0xff#8, 0xff#8, 0xff#8, 0xff#8, 0xff#8, 0xff#8, 0xff#8, 0xff#8, 0x01#8,
        0#8, 0#8, 0#8, 0#8, 0#8, 0#8, 0#8, 0#8] := by
      simpa [flat, Chunk.bytes, Msg.encode] using h1
    have hv : IsVarint 122 [0x7a#8] := ⟨[], 0x7a#8, rfl, by simp, by decide, by decide, by decide, by decide⟩
    obtain ⟨t1, t2, t3⟩ := varint_prefix_unique hw.tag hv e
    have hty : c.val.wireType = 2 := by
      have := wireType_lt c.val
      simp only [Chunk.tagNum] at t1; omega
    have hp := hw.pay
    cases hval : c.val with
    | varint u => rw [hval] at hty; simp [Val.wireType] at hty
    | fixed64 u => rw [hval] at hty; simp [Val.wireType] at hty
    | fixed32 u => rw [hval] at hty; simp [Val.wireType] at hty
    | bytes bs =>
      rw [hval] at hp
      obtain ⟨lb, hl, he⟩ := hp
      have hv2 : IsVarint (2 ^ 64 - 1) [0xff#8, 0xff#8, 0xff#8, 0xff#8, 0xff#8, 0xff#8, 0xff#8, 0xff#8, 0xff#8, 0x01#8] :=
        ⟨[0xff#8, 0xff#8, 0xff#8, 0xff#8, 0xff#8, 0xff#8, 0xff#8, 0xff#8, 0xff#8], 0x01#8, rfl, by decide, by decide, by decide, by decide, by decide⟩
      have e2 : lb ++ (bs ++ flat cs) = [0xff#8, 0xff#8, 0xff#8, 0xff#8, 0xff#8, 0xff#8, 0xff#8, 0xff#8, 0xff#8, 0x01#8] ++ [0#8, 0#8, 0#8, 0#8, 0#8, 0#8, 0#8, 0#8] := by
        rw [he] at t3; simpa using t3
      obtain ⟨u1, u2, u3⟩ := varint_prefix_unique hl hv2 e2
      have := congrArg List.length u3
      simp at this
      omega

/-! ## C15, C36, C37: getters after `Decode` -/

/-- The getter of a field that occurs with its own wire type returns. -/
theorem Holds.get_returns {S m rs} (h : Holds S m rs) {f k} (hk : S.kind f = some k) (hr : S.rep f = false)
    (hw : ∀ v, lastVal f rs = some v → v.wireType = k.wt) : ∃ x, m.get k f = .ok x := by
  cases hl : lastVal f rs with
  | none => exact ⟨_, h.get hk hr (x := k.dflt) (by rw [hl]; rfl)⟩
  | some v =>
    cases hx : decodeVal k v with
    | some x => exact ⟨x, h.get hk hr (by rw [hl]; exact hx)⟩
    | none =>
      have := hw v hl
      have hs : k = .sint32 := by
        cases k <;> cases v <;> simp [decodeVal, Kind.wt, Val.wireType] at hx this <;> first | rfl | omega
      subst hs
      obtain ⟨cs, h1, rfl⟩ := h
      rw [lastVal_records] at hl
      by_cases ha : ∃ c ∈ cs, c.num = f
      · obtain ⟨pre, c, post, hcs, hc, hp⟩ := exists_last ha
        have hloc := h1.located_last hcs hr hc hp
        simp only [Msg.get, getZigZagInt32, hloc.get, bind, Except.bind, hloc.drop]
        exact ⟨_, rfl⟩
      · have ha' : ∀ c ∈ cs, c.num ≠ f := fun c hc he => ha ⟨c, hc, he⟩
        rw [lastChunk_none ha'] at hl; simp at hl

/-- C15, what holds: if `Decode` returns nil and the input contains no defect, then the input is a
valid message, and the getter of every field whose last occurrence has its declared wire type (and
of every absent one) returns. -/
theorem C15_nil_safe {S : Schema} {m0 m : Msg} (h0 : m0.off.a.length = S.n) {buf : Slice} (hlen : buf.len + 8 < maxLen)
    (hok : m0.decode S.rep buf = .ok (m, none))
    (hdef : ∀ rs A X, buf.data = A ++ X → IsMessage rs A → ¬ Defect S.n A.length X) :
    ∃ rs, IsMessage rs buf.data ∧ (∀ r ∈ rs, r.num < S.n) ∧
      ∀ f k, S.kind f = some k → S.rep f = false → (∀ v, lastVal f rs = some v → v.wireType = k.wt) →
        ∃ x, m.get k f = .ok x := by
  obtain ⟨rs, A, X, hd, hA, hlt, h⟩ := C14_decode_returns h0 hlen
  rcases h with ⟨hX, m', hm⟩ | ⟨_, m', hm⟩ | h
  · subst hX
    rw [List.append_nil] at hd
    subst hd
    obtain ⟨m2, d1, _, d3, _⟩ := decode_holds (m := m0) h0 (by omega) hA hlt
    rw [hok] at d1
    simp only [Except.ok.injEq, Prod.mk.injEq, and_true] at d1
    subst d1
    exact ⟨rs, hA, hlt, fun f k hk hr hw => d3.get_returns hk hr hw⟩
  · rw [hok] at hm; simp at hm
  · exact (hdef rs A X hd hA h).elim

/-- C15, refutation of the unrestricted claim: a bytes field encoded as a varint decodes without error, and its getter
panics. -/
theorem C15_false : ∃ m, (Msg.zero testSchema.n).decode testSchema.rep ⟨[0x78#8, 0x7f#8], []⟩ = .ok (m, none) ∧
    IsMessage [⟨15, .varint 127#64⟩] m.encode.data ∧ testSchema.kind 15 = some .bytes ∧
    m.get .bytes 15 = .error .sliceBounds := by
  refine ⟨_, Msg.decode_of_run (n := 2) (o := ⟨(List.replicate 35 0#16).set 15 1#16, none⟩) (by decide +kernel), ?_, rfl, by decide +kernel⟩
  exact .cons (bs := [0x78#8, 0x7f#8]) (rest := [])
    ⟨[0x78#8], [0x7f#8], rfl, ⟨[], 0x78#8, rfl, by simp, by decide, by decide, by decide, by decide⟩,
      ⟨[], 0x7f#8, rfl, by simp, by decide, by decide, by decide, by decide⟩⟩ .nil

/-- C36, refutation of the unrestricted claim: after `Decode` returned an error the getter of the cut-off field panics. -/
theorem C36_false : ∃ m, (Msg.zero testSchema.n).decode testSchema.rep ⟨[0x7a#8, 0x05#8, 0x01#8], []⟩ =
      .ok (m, some .unexpectedEOF) ∧ testSchema.kind 15 = some .bytes ∧ m.get .bytes 15 = .error .sliceBounds :=
  ⟨_, Msg.decode_of_run (n := 2) (o := ⟨(List.replicate 35 0#16).set 15 1#16, none⟩) (by decide +kernel), rfl, by decide +kernel⟩

/-- A getter works wherever its payload is located, also in front of garbage. -/
theorem get_prefix {n : Nat} {rep : Nat → Bool} {buf : Slice} {o : Offsets} (hi : o.Inv) (ha : o.a.length = n)
    (hlen : buf.data.length < maxLen) {cs : List Chunk} {X : List Byte} (hd : buf.data = flat cs ++ X) (hwf : ∀ c ∈ cs, c.WF)
    {f : Nat} (hf : f < n) (hr : rep f = false) (hv : o.view f = pick (rep f) (offs f 0 cs)) (k : Kind) (x : k.Ty)
    (hx : readVal k (lastVal f (records cs)) = some x) : Msg.get ⟨buf, o⟩ k f = .ok x := by
  rw [lastVal_records] at hx
  have hg := Offsets.get_eq hi (by rw [ha]; exact hf)
  rw [hv, hr] at hg
  by_cases hex : ∃ c ∈ cs, c.num = f
  · obtain ⟨pre, c, post, rfl, hc, hp⟩ := exists_last hex
    rw [lastChunk_eq hc hp] at hx
    rw [pick_last hc hp] at hg
    refine get_located (A := flat pre ++ c.tag) (pay := c.pay) (B := flat post ++ X) ⟨?_, ?_, hlen⟩ (hwf c (by simp)).pay k x hx
    · rw [hg, List.length_append]
    · rw [hd]; simp [Chunk.bytes]
  · have ha' : ∀ c ∈ cs, c.num ≠ f := fun c hc he => hex ⟨c, hc, he⟩
    rw [lastChunk_none ha'] at hx
    simp only [Option.map_none, readVal, Option.some.injEq] at hx
    subst hx
    rw [offs_eq_nil.2 ha'] at hg
    exact get_absent hg k

/-- C36, what holds: after `Decode` of a message cut off inside a record, the getters of all fields
other than the one cut off return what the complete records say. -/
theorem C36_others {S : Schema} {m0 : Msg} (h0 : m0.off.a.length = S.n) {buf : Slice} {rs : List Record}
    {A X : List Byte} (hd : buf.data = A ++ X) (hA : IsMessage rs A) (hX : CutRecord S.n A.length X)
    (hlt : ∀ r ∈ rs, r.num < S.n) (hlen : buf.len + 8 < maxLen) :
    ∃ m, m0.decode S.rep buf = .ok (m, some .unexpectedEOF) ∧
      ∀ f k x, (∀ t tag Y, X = tag ++ Y → IsVarint t tag → t / 8 ≠ f) → S.kind f = some k → S.rep f = false →
        readVal k (lastVal f rs) = some x → m.get k f = .ok x := by
  obtain ⟨cs, h1, h2, h3⟩ := isMessage_iff.1 hA
  subst h1
  have hlt' : ∀ c ∈ cs, c.num < S.n := by
    intro c hc
    have := hlt c.record (by rw [← h3]; exact List.mem_map_of_mem hc)
    exact this
  unfold Slice.len at hlen
  obtain ⟨o', d1, d2, d3, d4, _⟩ := decode_from_start (rep := S.rep) h0 (by omega) hd h2 hlt'
  obtain ⟨o2, e, e1, e2, e3⟩ := decode_cut (rep := S.rep) d2 d3 hd (by omega) hX
  rw [e] at d1
  refine ⟨_, Msg.decode_eq d1, ?_⟩
  intro f k x hf hk hr hx
  rw [← h3] at hx
  exact get_prefix e1 e2 (by omega) hd h2 (S.kind_lt f (by rw [hk]; simp)) hr (by rw [e3 f hf, d4]) k x hx

/-- Hypotheses met: the complete string of `demo`, followed by a cut-off field 15. -/
example : IsMessage [⟨14, .bytes [0x68#8, 0x69#8]⟩] [0x72#8, 0x02#8, 0x68#8, 0x69#8] ∧
    CutRecord testSchema.n 4 ([0x7a#8] ++ ([0x05#8] ++ [0x01#8])) := by
  have v : ∀ b : Byte, b.toNat < 128 → IsVarint b.toNat [b] := by
    intro b hb
    refine ⟨[], b, rfl, by simp, hb, by simp, ?_, by omega⟩
    simp [varintValue]; omega
  refine ⟨.cons (r := ⟨14, .bytes [0x68#8, 0x69#8]⟩) (bs := [0x72#8, 0x02#8, 0x68#8, 0x69#8]) (rest := [])
    ⟨[0x72#8], [0x02#8, 0x68#8, 0x69#8], rfl, v 0x72#8 (by decide), [0x02#8], v 0x02#8 (by decide), rfl⟩ .nil, ?_⟩
  exact .payload (t := 122) (v 0x7a#8 (by decide)) (by decide) (.bytes (L := 5) (v 0x05#8 (by decide)) (by decide) (by decide))

/-- C37, what holds: on a readable message the getters do not depend on the spare capacity behind
the message. -/
theorem C37_no_overread {S : Schema} {m : Msg} (h : Readable S m) (spare : List Byte) {f : Nat} {k : Kind}
    (hk : S.kind f = some k) (hr : S.rep f = false) :
    Msg.get ⟨⟨m.buf.data, spare⟩, m.off⟩ k f = m.get k f := by
  obtain ⟨rs, h1, h2⟩ := h.holds
  obtain ⟨x, hx⟩ := h2.read hk
  have h1' : Holds S ⟨⟨m.buf.data, spare⟩, m.off⟩ rs := by
    obtain ⟨cs, ⟨a1, a2, a3, a4, a5, a6, a7⟩, b⟩ := h1
    exact ⟨cs, ⟨a1, a2, a3, a4, a5, a6, a7⟩, b⟩
  rw [h1.get hk hr hx, h1'.get hk hr hx]

/-- Hypotheses met: `demo` has spare capacity with old bytes in it. -/
example : Readable testSchema demo ∧ demo.buf.spare ≠ [] := ⟨.reach demo_reach, by decide⟩

/-- C37, refutation of the unrestricted claim: a `fixed32` field encoded as a varint at the end of the message makes its
getter return bytes that are not part of the message. -/
theorem C37_false : ∃ m : List Byte → Msg,
    (∀ spare, (Msg.zero testSchema.n).decode testSchema.rep ⟨[0x40#8, 0x01#8], spare⟩ = .ok (m spare, none)) ∧
    (m [0xaa#8, 0xbb#8, 0xcc#8]).get .fixed32 8 = .ok 0xccbbaa01#32 ∧
    (m [0x00#8, 0x00#8, 0x00#8]).get .fixed32 8 = .ok 0x00000001#32 ∧ testSchema.kind 8 = some .fixed32 :=
  ⟨fun spare => ⟨⟨[0x40#8, 0x01#8], spare⟩, ⟨(List.replicate 35 0#16).set 8 1#16, none⟩⟩,
    fun spare => Msg.decode_of_run (n := 2) rfl, rfl, rfl, rfl⟩

/-! ## C16 -/

/-- C16: the outcome of `Decode` (return or failure, error, and afterwards every accessor) does not
depend on what the struct held before, on any input. -/
theorem C16_decode_forgets (rep : Nat → Bool) {m1 m2 : Msg} (h : m1.off.a.length = m2.off.a.length) (buf : Slice) :
    (∃ e, m1.decode rep buf = .error e ∧ m2.decode rep buf = .error e) ∨
    (∃ m1' m2' err, m1.decode rep buf = .ok (m1', err) ∧ m2.decode rep buf = .ok (m2', err) ∧
      m1'.encode = m2'.encode ∧ ∀ f, (∀ k, m1'.get k f = m2'.get k f) ∧ bytesOf m1' f = bytesOf m2' f ∧
        (∀ repX x, m1'.subMessage repX f x = m2'.subMessage repX f x) ∧ m1'.messages f = m2'.messages f) := by
  have hs := decode_sim (buf := buf) rfl rep h
  cases h1 : decode buf m1.off rep with
  | error e =>
    cases h2 : decode buf m2.off rep with
    | error e' =>
      rw [h1, h2] at hs
      have : e = e' := hs
      subst this
      exact Or.inl ⟨e, Msg.decode_eq h1, Msg.decode_eq h2⟩
    | ok v => rw [h1, h2] at hs; exact hs.elim
  | ok v =>
    cases h2 : decode buf m2.off rep with
    | error e' => rw [h1, h2] at hs; exact hs.elim
    | ok v' =>
      rw [h1, h2] at hs
      obtain ⟨o1, e1⟩ := v
      obtain ⟨o2, e2⟩ := v'
      obtain ⟨s1, s2⟩ := hs
      simp only at s1 s2
      subst s2
      refine Or.inr ⟨_, _, e1, Msg.decode_eq h1, Msg.decode_eq h2, rfl, ?_⟩
      intro f
      obtain ⟨g1, g2, g3⟩ := s1.getters (buf := buf) f
      refine ⟨g1, ?_, ?_, g3⟩
      · simp only [bytesOf, g2]
      · intro repX x
        simp only [Msg.subMessage, g2]

/-- C16 for `Reset`: afterwards every field is unset. -/
theorem C16_reset_forgets {S : Schema} {m m' : Msg} (h0 : m.off.a.length = S.n) {buf : Slice} (h : m.reset buf = .ok m') :
    Reach S m' ∧ m'.encode.data = [] ∧ ∀ f k, S.kind f = some k →
      (S.rep f = false → m'.get k f = .ok k.dflt ∧
        (k = .bytes → bytesOf m' f = .ok none ∧ ∀ repX x, m'.subMessage repX f x = .ok (x, false, none))) ∧
      (S.rep f = true → m'.messages f = .ok none) := by
  have hr := Reach.reset h0 h
  have he : IsMessage [] m'.encode.data := (HoldsMin.reset h0 h).holds.isMessage
  refine ⟨hr, by cases h' : m'.encode.data with
    | nil => rfl
    | cons b l =>
      rw [h'] at he
      obtain ⟨cs, c1, _, c3⟩ := isMessage_iff.1 he
      cases cs with
      | nil => simp at c1
      | cons c cs => simp [records] at c3, ?_⟩
  intro f k hk
  obtain ⟨a, b⟩ := C04_unset (.reach hr) he (f := f) (by simp) hk
  exact ⟨a, fun hrep => (b hrep).1⟩

/-- Hypotheses met: `demo` and the zero struct. -/
example : demo.off.a.length = (Msg.zero testSchema.n).off.a.length ∧ ∃ m', demo.reset Slice.empty = .ok m' := ⟨rfl, _, rfl⟩

/-! ## C35 -/

/-- C35: `Reset` panics exactly on a nonempty buffer; otherwise the buffer becomes the storage, and the message is the
empty one: every field is unset, whatever the struct held before. (`C35_storage` in `Props/Alloc.lean` is about the
calls that follow.) -/
theorem C35_reset {S : Schema} {m : Msg} (h0 : m.off.a.length = S.n) (buf : Slice) :
    (buf.len > 0 ↔ m.reset buf = .error .bufNotEmpty) ∧ (buf.len = 0 ↔ ∃ m', m.reset buf = .ok m') ∧
    (∀ m', m.reset buf = .ok m' → m'.buf = buf ∧ m'.encode.data = [] ∧ Reach S m' ∧ Agrees S m' Contents.empty) := by
  refine ⟨?_, ?_, ?_⟩
  · unfold Msg.reset
    by_cases h : buf.len > 0
    · rw [if_pos h]; simp [h]
    · rw [if_neg h]; exact ⟨fun h' => absurd h' h, fun h' => by simp at h'⟩
  · unfold Msg.reset
    by_cases h : buf.len > 0
    · rw [if_pos h]; exact ⟨fun h0 => by omega, fun ⟨m', hm⟩ => by simp at hm⟩
    · rw [if_neg h]; exact ⟨fun _ => ⟨_, rfl⟩, fun _ => by omega⟩
  · intro m' hm
    obtain ⟨a1, a2, a3⟩ := C16_reset_forgets h0 hm
    refine ⟨?_, a2, a1, ?_⟩
    · unfold Msg.reset at hm
      split at hm
      · simp at hm
      · simp only [Except.ok.injEq] at hm; subst hm; rfl
    · intro f k hk
      obtain ⟨b1, b2⟩ := a3 f k hk
      refine ⟨fun hr => ⟨⟨k.dflt, rfl, (b1 hr).1⟩, fun hb => ((b1 hr).2 hb).1⟩, fun hr => ?_⟩
      exact ⟨fun _ => none, b2 hr, fun i hi => absurd hi (Nat.not_lt_zero i), fun _ _ => rfl⟩

/-! ## C27 -/

/-- C27: the outcome of `Decode` on a valid message, and the recorded offsets, do not depend on the
contents of a length-delimited field: replace them by any bytes of the same number. -/
theorem C27_lazy {S : Schema} {m0 : Msg} (h0 : m0.off.a.length = S.n) {buf1 buf2 : Slice} {A pre b1 b2 C lb : List Byte}
    {rs1 rs2 : List Record} {f : Nat} (hA : IsMessage rs1 A) (hC : IsMessage rs2 C)
    (htag : IsVarint (f * 8 + 2) pre) (hl : IsVarint b1.length lb) (hbl : b1.length = b2.length)
    (h1 : buf1.data = A ++ (pre ++ (lb ++ b1)) ++ C) (h2 : buf2.data = A ++ (pre ++ (lb ++ b2)) ++ C)
    (hlen : buf1.len < maxLen) (hlt : ∀ r ∈ rs1 ++ ⟨f, .bytes b1⟩ :: rs2, r.num < S.n) :
    ∃ m1 m2, m0.decode S.rep buf1 = .ok (m1, none) ∧ m0.decode S.rep buf2 = .ok (m2, none) ∧
      ∀ g, m1.off.get g = m2.off.get g := by
  obtain ⟨cs1, a1, a2, a3⟩ := isMessage_iff.1 hA
  obtain ⟨cs2, c1, c2, c3⟩ := isMessage_iff.1 hC
  subst a1 c1
  have mk : ∀ (b : List Byte) (buf : Slice), b.length = b1.length → buf.data = flat cs1 ++ (pre ++ (lb ++ b)) ++ flat cs2 →
      buf.len < maxLen → ∃ o', decode buf m0.off S.rep = .ok (o', none) ∧ o'.Inv ∧ o'.a.length = S.n ∧
        ∀ g, o'.view g = pick (S.rep g) (offs g 0 (cs1 ++ ⟨f, .bytes b1, pre, lb ++ b1⟩ :: cs2)) := by
    intro b buf hb hd hlen
    have hwf : (⟨f, .bytes b, pre, lb ++ b⟩ : Chunk).WF := ⟨htag, lb, by rw [hb]; exact hl, rfl⟩
    obtain ⟨o', d1, d2, _⟩ := decode_spec (rep := S.rep) (o := m0.off) (n := S.n) (cs := cs1 ++ ⟨f, .bytes b, pre, lb ++ b⟩ :: cs2) hlen
      (by rw [hd]; simp [Chunk.bytes])
      (by intro c hc; simp at hc; rcases hc with hc | rfl | hc; exact a2 c hc; exact hwf; exact c2 c hc)
      (by
        intro c hc
        simp at hc
        rcases hc with hc | rfl | hc
        · have := hlt c.record (by rw [← a3]; exact List.mem_append_left _ (List.mem_map_of_mem hc)); exact this
        · have := hlt ⟨f, .bytes b1⟩ (by simp); exact this
        · have := hlt c.record (by rw [← c3]; exact List.mem_append_right _ (List.mem_cons_of_mem _ (List.mem_map_of_mem hc))); exact this)
      h0
    refine ⟨o', d1, d2.inv, d2.alen, ?_⟩
    intro g
    rw [d2.view g]
    congr 1
    simp only [offs_append, offs, Chunk.bytes_length, List.length_append, hb]
  obtain ⟨o1, p1, p2, p3, p4⟩ := mk b1 buf1 rfl h1 hlen
  obtain ⟨o2, q1, q2, q3, q4⟩ := mk b2 buf2 hbl.symm h2 (by
    unfold Slice.len at *; rw [h2]; rw [h1] at hlen; simp at hlen ⊢; omega)
  refine ⟨_, _, Msg.decode_eq p1, Msg.decode_eq q1, ?_⟩
  intro g
  show o1.get g = o2.get g
  rcases Nat.lt_or_ge g S.n with hg | hg
  · rw [Offsets.get_eq p2 (by omega), Offsets.get_eq q2 (by omega), p4, q4]
  · rw [Offsets.get_fail (by omega), Offsets.get_fail (by omega)]

/-- C27: the error of an embedded message surfaces when it is accessed, and is the one a direct
`Decode` of the same bytes returns. -/
theorem C27_embedded_error {S : Schema} {m : Msg} (h : Readable S m) {rs : List Record} (hm : IsMessage rs m.encode.data)
    {f : Nat} (hk : S.kind f = some .bytes) (hr : S.rep f = false) {b : List Byte} (hb : lastVal f rs = some (.bytes b))
    (repX : Nat → Bool) (x : Msg) {spare : List Byte} {x' : Msg} {err : Option DecErr}
    (hdir : x.decode repX ⟨b, spare⟩ = .ok (x', err)) :
    ∃ x2, m.subMessage repX f x = .ok (x2, true, err) ∧ x2.encode.data = b := by
  rcases C11_presence h hm hk hr with ⟨ha, _⟩ | ⟨b', hb', rest, hs⟩
  · exact absurd rfl (ha _ (lastVal_mem hb))
  · rw [hb] at hb'
    simp only [Option.some.injEq, Val.bytes.injEq] at hb'
    subst hb'
    have hsim := decode_sim (buf := ⟨b, spare⟩) (buf' := ⟨b, rest⟩) rfl repX (o := x.off) (o' := x.off) rfl
    cases h1 : decode ⟨b, spare⟩ x.off repX with
    | error e => rw [Msg.decode_eq h1] at hdir; simp [Except.map] at hdir
    | ok v =>
      cases h2 : decode ⟨b, rest⟩ x.off repX with
      | error e => rw [h1, h2] at hsim; exact hsim.elim
      | ok v' =>
        rw [h1, h2] at hsim
        rw [Msg.decode_eq h1] at hdir
        simp only [Except.map, Except.ok.injEq, Prod.mk.injEq] at hdir
        refine ⟨⟨⟨b, rest⟩, v'.1⟩, ?_, rfl⟩
        rw [hs, Msg.decode_eq h2]
        simp only [Except.map, ← hdir.2, hsim.2]

/-- Hypotheses met: an embedded message that is cut off, inside a valid message. -/
example : ∃ m, (Msg.zero testSchema.n).decode testSchema.rep ⟨[0x8a#8, 0x01#8, 0x01#8, 0x10#8], []⟩ = .ok (m, none) ∧
    ∃ x', (Msg.zero testSchema.n).decode testSchema.rep ⟨[0x10#8], []⟩ = .ok (x', some .unexpectedEOF) :=
  ⟨_, Msg.decode_of_run (n := 2) (o := ⟨(List.replicate 35 0#16).set 17 2#16, none⟩) (by decide +kernel),
    _, Msg.decode_of_run (n := 1) (o := ⟨List.replicate 35 0#16, none⟩) (by decide +kernel)⟩

/-- C27: in a message that `Decode` accepted, the element the iterator is at is handed to `Next`'s argument, and
`Next` returns true together with the error that a direct `Decode` of the element returns. -/
theorem C27_next {S : Schema} {m : Msg} (h : Readable S m) {rs : List Record} (hm : IsMessage rs m.encode.data)
    {f : Nat} (hk : S.kind f = some .bytes) (hr : S.rep f = true) :
    ∃ els : List (List Byte), allVals f rs = els.map Val.bytes ∧
    ∃ its : Nat → Option Slice, m.messages f = .ok (its 0) ∧
      ∀ i (hi : i < els.length) repX x (spare : List Byte) x' err, x.decode repX ⟨els[i], spare⟩ = .ok (x', err) →
        ∃ x2, Msg.next repX (its i) f x = .ok (its (i + 1), x2, true, err) ∧ x2.encode.data = els[i] := by
  obtain ⟨els, he, its, h0, h1, _⟩ := C09_iterate h hm hk hr
  refine ⟨els, he, its, h0, ?_⟩
  intro i hi repX x spare x' err hdir
  obtain ⟨rest, hn⟩ := h1 i hi
  have hsim := decode_sim (buf := ⟨els[i], spare⟩) (buf' := ⟨els[i], rest⟩) rfl repX (o := x.off) (o' := x.off) rfl
  cases h1 : decode ⟨els[i], spare⟩ x.off repX with
  | error e => rw [Msg.decode_eq h1] at hdir; simp [Except.map] at hdir
  | ok v =>
    cases h2 : decode ⟨els[i], rest⟩ x.off repX with
    | error e => rw [h1, h2] at hsim; exact hsim.elim
    | ok v' =>
      rw [h1, h2] at hsim
      rw [Msg.decode_eq h1] at hdir
      simp only [Except.map, Except.ok.injEq, Prod.mk.injEq] at hdir
      refine ⟨⟨⟨els[i], rest⟩, v'.1⟩, ?_, rfl⟩
      rw [hn, Msg.decode_eq h2]
      simp only [Except.map, ← hdir.2, hsim.2]

/-- Hypotheses met: a repeated element that is cut off, inside a valid message (field 34, one byte `0x10`). -/
example : ∃ m, (Msg.zero testSchema.n).decode testSchema.rep ⟨[0x92#8, 0x02#8, 0x01#8, 0x10#8], []⟩ = .ok (m, none) ∧
    ∃ x', (Msg.zero testSchema.n).decode testSchema.rep ⟨[0x10#8], []⟩ = .ok (x', some .unexpectedEOF) :=
  ⟨_, Msg.decode_of_run (n := 2) (o := ⟨(List.replicate 35 0#16).set 34 2#16, none⟩) (by decide +kernel),
    _, Msg.decode_of_run (n := 1) (o := ⟨List.replicate 35 0#16, none⟩) (by decide +kernel)⟩

/-! ## C29 -/

/-- C29: a valid message that contains a record with a number
outside the table makes `Decode` panic. -/
theorem C29_false_unknown_panics {S : Schema} {m0 : Msg} (h0 : m0.off.a.length = S.n) {buf : Slice} {rs : List Record}
    (hlen : buf.len < maxLen) (hm : IsMessage rs buf.data) (hex : ∃ r ∈ rs, S.n ≤ r.num) :
    m0.decode S.rep buf = .error .indexOutOfRange := by
  obtain ⟨cs, h1, h2, h3⟩ := isMessage_iff.1 hm
  have hfirst : ∃ pre c post, cs = pre ++ c :: post ∧ (∀ d ∈ pre, d.num < S.n) ∧ S.n ≤ c.num := by
    have hex' : ∃ c ∈ cs, S.n ≤ c.num := by
      obtain ⟨r, hr, hn⟩ := hex
      rw [← h3] at hr
      simp only [records, List.mem_map] at hr
      obtain ⟨c, hc, rfl⟩ := hr
      exact ⟨c, hc, hn⟩
    clear h1 h2 h3
    induction cs with
    | nil => obtain ⟨c, hc, _⟩ := hex'; simp at hc
    | cons c cs ih =>
      rcases Nat.lt_or_ge c.num S.n with hc | hc
      · obtain ⟨d, hd, hn⟩ := hex'
        simp at hd
        rcases hd with rfl | hd
        · omega
        · obtain ⟨pre, e, post, rfl, p1, p2⟩ := ih ⟨d, hd, hn⟩
          refine ⟨c :: pre, e, post, rfl, ?_, p2⟩
          intro x hx
          simp at hx
          rcases hx with rfl | hx
          · exact hc
          · exact p1 x hx
      · exact ⟨[], c, cs, rfl, by simp, hc⟩
  obtain ⟨pre, c, post, rfl, p1, p2⟩ := hfirst
  have hw := h2 c (by simp)
  have hwl := wireType_lt c.val
  have hd : buf.data = flat pre ++ (c.tag ++ (c.pay ++ flat post)) := by rw [← h1]; simp [Chunk.bytes]
  have hpp := hw.pay_pos
  have hpre : IsMessage (records pre) (flat pre) := isMessage_iff.2 ⟨pre, rfl, fun d hd => h2 d (by simp [hd]), rfl⟩
  refine (C14_decode_panics h0 hlen hpre ?_ hd hw.tag ?_).1 ?_
  · intro r hr
    simp only [records, List.mem_map] at hr
    obtain ⟨d, hd, rfl⟩ := hr
    exact p1 d hd
  · intro he
    rw [List.append_eq_nil_iff] at he
    rw [he.1] at hpp; simp at hpp
  · unfold Chunk.tagNum; omega

/-- Hypotheses met: `TestMessage` and a record of field 35. -/
example : IsMessage [⟨35, .varint 1#64⟩] [0x98#8, 0x02#8, 0x01#8] ∧ testSchema.n ≤ 35 := by
  refine ⟨.cons (bs := [0x98#8, 0x02#8, 0x01#8]) (rest := [])
    ⟨[0x98#8, 0x02#8], [0x01#8], rfl, ⟨[0x98#8], 0x02#8, rfl, by decide, by decide, by decide, by decide, by decide⟩,
      ⟨[], 0x01#8, rfl, by simp, by decide, by decide, by decide, by decide⟩⟩ .nil, by decide⟩

/-! ## C38 -/

theorem _root_.Zeropb.Wire.IsMessage.append {rs rs' : List Record} {bs bs' : List Byte} (h : IsMessage rs bs) (h' : IsMessage rs' bs') :
    IsMessage (rs ++ rs') (bs ++ bs') := by
  induction h with
  | nil => exact h'
  | cons h1 _ ih => rw [List.cons_append, List.append_assoc]; exact .cons h1 ih

theorem lastVal_append (f : Nat) (rs rs' : List Record) :
    lastVal f (rs ++ rs') = (lastVal f rs').or (lastVal f rs) := by
  unfold lastVal
  rw [List.filter_append, List.getLast?_append]
  cases (List.filter (fun r => decide (r.num = f)) rs').getLast? <;> rfl

theorem allVals_append (f : Nat) (rs rs' : List Record) : allVals f (rs ++ rs') = allVals f rs ++ allVals f rs' := by
  unfold allVals; rw [List.filter_append, List.map_append]

/-- C38: decoding the concatenation of two encodings merges them: for singular fields the second
message's value if it has one, for repeated fields both element sequences. -/
theorem C38_concat {S : Schema} {m0 : Msg} (h0 : m0.off.a.length = S.n) {buf : Slice} {b1 b2 : List Byte} {rs1 rs2 : List Record}
    (hd : buf.data = b1 ++ b2) (hlen : buf.len < maxLen) (h1 : IsMessage rs1 b1) (h2 : IsMessage rs2 b2)
    (w1 : WellTyped S rs1) (w2 : WellTyped S rs2) :
    ∃ m, m0.decode S.rep buf = .ok (m, none) ∧ ∀ f k, S.kind f = some k →
      (S.rep f = false → ∃ x, readVal k ((lastVal f rs2).or (lastVal f rs1)) = some x ∧ m.get k f = .ok x) ∧
      (S.rep f = true → ∃ e1 e2, allVals f rs1 = e1.map Val.bytes ∧ allVals f rs2 = e2.map Val.bytes ∧ Elems m f (e1 ++ e2)) := by
  have hm : IsMessage (rs1 ++ rs2) buf.data := by rw [hd]; exact h1.append h2
  have hw : WellTyped S (rs1 ++ rs2) := by
    intro r hr
    rcases List.mem_append.1 hr with hr | hr
    · exact w1 r hr
    · exact w2 r hr
  obtain ⟨m, d1, d2, d3, _⟩ := decode_holds (m := m0) h0 hlen hm (fun r hr => (hw r hr).1)
  refine ⟨m, d1, ?_⟩
  intro f k hk
  constructor
  · intro hr
    obtain ⟨x, hx⟩ := hw.read hk
    refine ⟨x, by rw [← lastVal_append]; exact hx, d3.get hk hr hx⟩
  · intro hr
    have := S.rep_bytes f k hr hk
    subst this
    obtain ⟨e1, he1⟩ := w1.elems hk
    obtain ⟨e2, he2⟩ := w2.elems hk
    refine ⟨e1, e2, he1, he2, d3.elems (S.kind_lt f (by rw [hk]; simp)) hr ?_⟩
    rw [allVals_append, he1, he2, List.map_append]

/-- Hypotheses met: `demo`'s encoding twice. -/
example : IsMessage [⟨14, .bytes [0x68#8, 0x69#8]⟩, ⟨34, .bytes []⟩, ⟨2, .varint 7#64⟩] demo.encode.data :=
  IsMinTagMessage_isMessage demo_records

/-! ## C39 -/

/-- C39: `Decode` of a valid message goes round its loop once per top-level record, and once more to
find the end; it does not look at the contents of length-delimited fields. -/
theorem C39_linear {S : Schema} {m0 : Msg} (h0 : m0.off.a.length = S.n) {buf : Slice} {rs : List Record}
    (hlen : buf.len < maxLen) (hm : IsMessage rs buf.data) (hlt : ∀ r ∈ rs, r.num < S.n) :
    (∃ o, run (decodeStep buf S.rep) (rs.length + 1) (0, m0.off.clear) = some (.ok (o, none)) ∧
      m0.decode S.rep buf = .ok (⟨buf, o⟩, none)) ∧
    run (decodeStep buf S.rep) rs.length (0, m0.off.clear) = none := by
  obtain ⟨cs, h1, h2, h3⟩ := isMessage_iff.1 hm
  have hlt' : ∀ c ∈ cs, c.num < S.n := by
    intro c hc
    have := hlt c.record (by rw [← h3]; exact List.mem_map_of_mem hc)
    exact this
  obtain ⟨o', d1, d2, d3, _, d4⟩ := decode_from_start (rep := S.rep) (X := []) h0 hlen (by rw [h1]; simp) h2 hlt'
  have hcl : rs.length = cs.length := by rw [← h3]; simp [records]
  have hrun : run (decodeStep buf S.rep) (rs.length + 1) (0, m0.off.clear) = some (.ok (o', none)) := by
    rw [hcl, d4 1]
    have : (((flat cs).length : Nat) : Int) = (buf.data.length : Int) := by rw [h1]
    simp only [run, decodeStep, this, if_true]
    rfl
  refine ⟨⟨o', hrun, Msg.decode_of_run hrun⟩, ?_⟩
  rw [hcl]
  have := d4 0
  simpa [run] using this

/-! ## C40 -/

theorem uvarintAux_late (bs : List Byte) (i : Nat) (x : U64) (s : Nat) (hi : 10 ≤ i) : (uvarintAux bs i x s).2 ≤ 0 := by
  induction bs generalizing i x s with
  | nil => simp [uvarintAux]
  | cons b bs ih =>
    simp only [uvarintAux]
    split
    · rw [if_pos (Or.inl (by omega))]; simp only; omega
    · exact ih (i + 1) _ _ (by omega)

theorem uvarint_versions (bs : List Byte) (i : Nat) (x : U64) (s : Nat) (hi : i ≤ 10) :
    uvarintAux bs i x s = uvarintNewAux bs i x s ∨ ((uvarintAux bs i x s).2 ≤ 0 ∧ (uvarintNewAux bs i x s).2 ≤ 0) := by
  induction bs generalizing i x s with
  | nil => exact Or.inl rfl
  | cons b bs ih =>
    by_cases h10 : i = 10
    · right
      refine ⟨uvarintAux_late _ _ _ _ (by omega), ?_⟩
      simp only [uvarintNewAux, if_pos h10]; omega
    · simp only [uvarintAux, uvarintNewAux, if_neg h10]
      by_cases hb : b.toNat < 0x80
      · rw [if_pos hb, if_pos hb]
        left
        have : (i > 9 ∨ i = 9 ∧ b.toNat > 1) ↔ (i = 9 ∧ b.toNat > 1) := by omega
        simp only [this]
      · rw [if_neg hb, if_neg hb]
        exact ih (i + 1) _ _ (by omega)

/-- C40: the `Uvarint` of Go 1.12 and that of later versions agree whenever either succeeds; they
differ at most in how they report failure. -/
theorem C40_versions (bs : List Byte) :
    ((uvarint bs).2 > 0 → uvarintNew bs = uvarint bs) ∧ ((uvarintNew bs).2 > 0 → uvarint bs = uvarintNew bs) := by
  have := uvarint_versions bs 0 0#64 0 (by omega)
  unfold uvarint uvarintNew
  rcases this with h | ⟨h1, h2⟩
  · exact ⟨fun _ => h.symm, fun _ => h⟩
  · exact ⟨fun h => by omega, fun h => by omega⟩

/-- They do differ on failure: eleven continuation bytes. -/
example : (uvarint (List.replicate 11 0x80#8)).2 = 0 ∧ (uvarintNew (List.replicate 11 0x80#8)).2 = -11 := ⟨rfl, rfl⟩

end Zeropb
