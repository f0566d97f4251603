import Verif.Props.Decode
set_option linter.unusedSimpArgs false
set_option linter.unusedVariables false
/-!
# What a getter reads (C59)

A decoded struct refers to the encoded message it was decoded from ("The encoded message must not be modified for the
lifetime of the decoded struct", README). These theorems say what each accessor depends on when it is.
-/

namespace Zeropb
open Wire

/-- Position `a` of `buf` holds the bytes `bs`. -/
def Slice.Has (buf : Slice) (a : Nat) (bs : List Byte) : Prop := (buf.data.drop a).take bs.length = bs

theorem Slice.Has.split {buf : Slice} {a : Nat} {bs : List Byte} (h : buf.Has a bs) (hne : bs ≠ []) :
    ∃ A B, A.length = a ∧ buf.data = A ++ bs ++ B := by
  have hl : a + bs.length ≤ buf.data.length := by
    have := congrArg List.length h
    have : 0 < bs.length := List.length_pos_iff.2 hne
    simp only [List.length_take, List.length_drop] at *
    omega
  refine ⟨buf.data.take a, (buf.data.drop a).drop bs.length, by rw [List.length_take]; omega, ?_⟩
  have e1 := List.take_append_drop bs.length (buf.data.drop a)
  rw [h] at e1
  rw [List.append_assoc, e1, List.take_append_drop]

/-- The records before, at and behind a position, as chunks. -/
theorem chunks_at {S : Schema} {m : Msg} {rs1 rs2 : List Record} {r : Record} {A rb B : List Byte} (h : Readable S m)
    (hd : m.encode.data = A ++ rb ++ B) (h1 : IsMessage rs1 A) (hr : IsRecord r rb) (h2 : IsMessage rs2 B) :
    ∃ cs1 c cs2, Rep S.n S.rep m.buf m.off (cs1 ++ c :: cs2) ∧ c.WF ∧ c.num = r.num ∧ c.val = r.val ∧ c.bytes = rb ∧ flat cs1 = A ∧
      flat cs2 = B ∧ records cs1 = rs1 ∧ records cs2 = rs2 ∧ WellTyped S (rs1 ++ r :: rs2) := by
  obtain ⟨cs1, a1, a2, a3⟩ := isMessage_iff.1 h1
  obtain ⟨cs2, b1, b2, b3⟩ := isMessage_iff.1 h2
  obtain ⟨tag, pay, rfl, t1, t2⟩ := hr
  have hw : (⟨r.num, r.val, tag, pay⟩ : Chunk).WF := ⟨t1, t2⟩
  have hm : IsMessage (rs1 ++ r :: rs2) m.encode.data := by
    rw [hd, List.append_assoc]
    exact h1.append (.cons ⟨tag, pay, rfl, t1, t2⟩ h2)
  obtain ⟨⟨cs, c1, c2⟩, c3⟩ := h.records hm
  have hcs : cs = cs1 ++ ⟨r.num, r.val, tag, pay⟩ :: cs2 := by
    refine flat_injective c1.wf ?_ ?_
    · intro c hc
      rcases List.mem_append.1 hc with hc | hc
      · exact a2 c hc
      · rcases List.mem_cons.1 hc with hc | hc
        · rw [hc]; exact hw
        · exact b2 c hc
    · rw [← c1.data]
      show m.encode.data = _
      rw [hd]; simp [a1, b1, Chunk.bytes]
  subst hcs
  exact ⟨cs1, _, cs2, c1, hw, rfl, rfl, rfl, a1, b1, a3, b3, c3⟩

theorem located_move {buf buf' : Slice} {o : Offsets} {f : Nat} {A tag pay B : List Byte} (h : Located buf o f (A ++ tag) pay B)
    (hlen : buf'.len < maxLen) (hs : buf'.Has A.length (tag ++ pay)) (hne : pay ≠ []) :
    ∃ A' B', A'.length = A.length ∧ buf'.data = A' ++ (tag ++ pay) ++ B' ∧ Located buf' o f (A' ++ tag) pay B' := by
  obtain ⟨A', B', e1, e2⟩ := hs.split (by simp [hne])
  refine ⟨A', B', e1, e2, ?_, by rw [e2]; simp, hlen⟩
  rw [h.get]; simp [e1]

/-- C59: the getter of a singular field depends on nothing but the bytes of the record that counts (the last one of that
field): it returns the same value after any change of the other bytes of the message, of its length, and of the memory
behind it. -/
theorem C59_get {S : Schema} {m : Msg} (h : Readable S m) {rs1 rs2 : List Record} {f : Nat} {v : Val} {A rb B : List Byte}
    (hd : m.encode.data = A ++ rb ++ B) (h1 : IsMessage rs1 A) (hr : IsRecord ⟨f, v⟩ rb) (h2 : IsMessage rs2 B)
    (hlast : ∀ r ∈ rs2, r.num ≠ f) {k : Kind} (hk : S.kind f = some k) (hs : S.rep f = false) {buf' : Slice}
    (hlen : buf'.len < maxLen) (hb : buf'.Has A.length rb) :
    ∃ x, decodeVal k v = some x ∧ m.get k f = .ok x ∧ Msg.get ⟨buf', m.off⟩ k f = .ok x := by
  obtain ⟨cs1, c, cs2, c1, c2, c3, c4, c5, c6, c7, c8, c9, cw⟩ := chunks_at h hd h1 hr h2
  obtain ⟨x, hx⟩ := (cw ⟨f, v⟩ (by simp)).2 k hk
  have hp : ∀ d ∈ cs2, d.num ≠ f := fun d hd => hlast d.record (by rw [← c9]; exact List.mem_map_of_mem hd)
  have hl := c1.located_last rfl hs c3 hp
  have hpay : IsPayload v c.pay := by have := c2.pay; rwa [c4] at this
  refine ⟨x, hx, get_located hl hpay k x hx, ?_⟩
  rw [← c5, ← c6] at hb
  obtain ⟨A', B', e1, e2, e3⟩ := located_move hl hlen hb (List.ne_nil_of_length_pos hpay.pos)
  exact get_located e3 hpay k x hx

/-- C59: an absent field stays absent whatever happens to the bytes. -/
theorem C59_absent {S : Schema} {m : Msg} (h : Readable S m) {rs : List Record} (hm : IsMessage rs m.encode.data) {f : Nat}
    (hno : ∀ r ∈ rs, r.num ≠ f) {k : Kind} (hk : S.kind f = some k) (buf' : Slice) :
    Msg.get ⟨buf', m.off⟩ k f = .ok k.dflt ∧ bytesOf ⟨buf', m.off⟩ f = .ok none ∧ Msg.messages ⟨buf', m.off⟩ f = .ok none := by
  obtain ⟨⟨cs, c1, c2⟩, _⟩ := h.records hm
  have ha := c1.get_none (S.kind_lt f (by rw [hk]; simp)) (fun c hc => hno c.record (by rw [← c2]; exact List.mem_map_of_mem hc))
  refine ⟨get_absent ha k, ?_, messages_absent ha⟩
  simp [bytesOf, getBytes_absent ha, bind, Except.bind, pure, Except.pure]

/-- C59: string, bytes and message fields show the memory itself: if the bytes of the value are replaced by others of the
same number, the accessor returns the new ones. -/
theorem C59_through {S : Schema} {m : Msg} (h : Readable S m) {rs1 rs2 : List Record} {f : Nat} {A tag lb bs bs' B : List Byte}
    (hd : m.encode.data = A ++ (tag ++ (lb ++ bs)) ++ B) (h1 : IsMessage rs1 A) (ht : IsVarint (f * 8 + 2) tag)
    (hl : IsVarint bs.length lb) (h2 : IsMessage rs2 B) (hlast : ∀ r ∈ rs2, r.num ≠ f) (hs : S.rep f = false)
    (hbs : bs'.length = bs.length) {buf' : Slice} (hlen : buf'.len < maxLen) (hb : buf'.Has A.length (tag ++ (lb ++ bs'))) :
    bytesOf m f = .ok (some bs) ∧ bytesOf ⟨buf', m.off⟩ f = .ok (some bs') ∧ Msg.get ⟨buf', m.off⟩ .string f = .ok bs' ∧
    ∃ rest, ∀ repX x, Msg.subMessage repX ⟨buf', m.off⟩ f x = (x.decode repX ⟨bs', rest⟩).map (fun r => (r.1, true, r.2)) := by
  obtain ⟨cs1, c, cs2, c1, c2, c3, c4, c5, c6, c7, c8, c9, cw⟩ :=
    chunks_at h hd h1 (r := ⟨f, .bytes bs⟩) ⟨tag, lb ++ bs, rfl, ht, lb, hl, rfl⟩ h2
  have hp : ∀ d ∈ cs2, d.num ≠ f := fun d hd => hlast d.record (by rw [← c9]; exact List.mem_map_of_mem hd)
  have hloc := c1.located_last rfl hs c3 hp
  have hpay : IsPayload (.bytes bs) c.pay := by have := c2.pay; rwa [c4] at this
  have htag : c.tag = tag := by
    have t1 := c2.tag
    rw [Chunk.tagNum, c3, c4] at t1
    have e : c.tag ++ c.pay = tag ++ (lb ++ bs) := c5
    exact (varint_prefix_unique t1 ht e).2.1
  have hget : m.off.get f = .ok (BitVec.ofNat 64 (A ++ tag).length, true) := by rw [hloc.get, htag, c6]
  obtain ⟨A', B', e1, e2⟩ := hb.split (by
    have := ht.length_pos
    intro e
    rw [List.append_eq_nil_iff] at e
    rw [e.1] at this; simp at this)
  have hloc' : Located buf' m.off f (A' ++ tag) (lb ++ bs') B' := by
    refine ⟨?_, by rw [e2]; simp, hlen⟩
    rw [hget]; simp [e1]
  have hpay' : IsPayload (.bytes bs') (lb ++ bs') := ⟨lb, by rw [hbs]; exact hl, rfl⟩
  have g1 := getBytes_located hloc hpay
  have g2 := getBytes_located hloc' hpay'
  refine ⟨by rw [bytesOf, g1]; rfl, by simp only [bytesOf, g2]; rfl, ?_, B' ++ buf'.spare, ?_⟩
  · exact getString_located hloc' hpay'
  · intro repX x
    simp only [Msg.subMessage, g2, bind, Except.bind]
    cases x.decode repX ⟨bs', B' ++ buf'.spare⟩ <;> rfl

/-- C59: the iterator of a repeated field depends on nothing before the first element: it is the same after any change of
the bytes before it. -/
theorem C59_iterator {S : Schema} {m : Msg} (h : Readable S m) {rs1 rs2 : List Record} {f : Nat} {v : Val} {A A' rb B : List Byte}
    (hd : m.encode.data = A ++ rb ++ B) (h1 : IsMessage rs1 A) (hr : IsRecord ⟨f, v⟩ rb) (h2 : IsMessage rs2 B)
    (hfirst : ∀ r ∈ rs1, r.num ≠ f) (hs : S.rep f = true) (hA : A'.length = A.length) :
    Msg.messages ⟨⟨A' ++ rb ++ B, m.buf.spare⟩, m.off⟩ f = m.messages f ∧
    ∀ els, Elems ⟨⟨A' ++ rb ++ B, m.buf.spare⟩, m.off⟩ f els ↔ Elems m f els := by
  obtain ⟨cs1, c, cs2, c1, c2, c3, c4, c5, c6, c7, c8, c9, cw⟩ := chunks_at h hd h1 hr h2
  have hp : ∀ d ∈ cs1, d.num ≠ f := fun d hd => hfirst d.record (by rw [← c8]; exact List.mem_map_of_mem hd)
  have hloc := c1.located_first rfl hs c3 hp
  have hlen : (A' ++ rb ++ B).length < maxLen := by
    have hl := c1.len
    have : m.buf.data = A ++ rb ++ B := hd
    rw [this] at hl
    simp only [List.length_append] at hl ⊢
    omega
  have hloc' : Located ⟨A' ++ rb ++ B, m.buf.spare⟩ m.off f (A' ++ c.tag) c.pay B := by
    refine ⟨?_, by rw [← c5]; simp [Chunk.bytes], hlen⟩
    rw [hloc.get, c6]; simp [hA]
  have key : Msg.messages ⟨⟨A' ++ rb ++ B, m.buf.spare⟩, m.off⟩ f = m.messages f := by
    have e : (A' ++ c.tag).length = (flat cs1 ++ c.tag).length := by simp [hA, c6]
    have d := hloc'.drop
    rw [e] at d
    simp only [Msg.messages, getRepeatedNonPacked, hloc.get, d, hloc.drop, bind, Except.bind, c7,
      Bool.not_true, Bool.false_eq_true, if_false]
  refine ⟨key, fun els => ?_⟩
  unfold Elems
  rw [key]

/-- The hypotheses of `C59_get` and `C59_through` hold of `demo`, field 14 = "hi", with everything else overwritten. -/
example : Readable testSchema demo ∧ ∃ A rb B, demo.encode.data = A ++ rb ++ B ∧ IsMessage [] A ∧
    IsRecord ⟨14, .bytes [0x68#8, 0x69#8]⟩ rb ∧ IsMessage [⟨34, .bytes []⟩, ⟨2, .varint 7#64⟩] B ∧
    (∀ r ∈ ([⟨34, .bytes []⟩, ⟨2, .varint 7#64⟩] : List Record), r.num ≠ 14) ∧ testSchema.kind 14 = some .string ∧ testSchema.rep 14 = false ∧
    (⟨rb ++ [0xff#8, 0xff#8], []⟩ : Slice).Has A.length rb := by
  have hm := IsMinTagMessage_isMessage demo_records
  generalize hd : demo.encode.data = d at hm
  cases hm with
  | @cons r rs bs rest h1 h2 => exact ⟨.reach demo_reach, [], bs, rest, rfl, .nil, h1, h2, by decide, rfl, rfl, by simp [Slice.Has]⟩

end Zeropb
