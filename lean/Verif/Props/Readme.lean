import Verif.Props.Local
set_option linter.unusedSimpArgs false
set_option linter.unusedVariables false
/-!
# Statements of the README about embedded messages in pieces (C08) and long messages (C19)
-/

namespace Zeropb
open Wire

/-- C08: an embedded message that is encoded in several pieces. `Decode` accepts it (the README says it returns an
error), and the accessor decodes the last piece alone. -/
theorem C08_split {S : Schema} {m0 : Msg} (h0 : m0.off.a.length = S.n) {buf : Slice} {rs1 rs2 rs3 : List Record} {b1 b2 : List Byte}
    {f : Nat} (hlen : buf.len < maxLen) (hm : IsMessage (rs1 ++ ⟨f, .bytes b1⟩ :: rs2 ++ ⟨f, .bytes b2⟩ :: rs3) buf.data)
    (hw : WellTyped S (rs1 ++ ⟨f, .bytes b1⟩ :: rs2 ++ ⟨f, .bytes b2⟩ :: rs3)) (hlast : ∀ r ∈ rs3, r.num ≠ f)
    (hk : S.kind f = some .bytes) (hr : S.rep f = false) :
    ∃ m rest, m0.decode S.rep buf = .ok (m, none) ∧
      ∀ repX x, m.subMessage repX f x = (x.decode repX ⟨b2, rest⟩).map (fun r => (r.1, true, r.2)) := by
  obtain ⟨m, d1, d2, _⟩ := C07_decode_any h0 hlen hm (fun r hr => (hw r hr).1)
  have hread : Readable S m := .decode h0 hlen hm hw d1
  have hl : lastVal f (rs1 ++ ⟨f, .bytes b1⟩ :: rs2 ++ ⟨f, .bytes b2⟩ :: rs3) = some (.bytes b2) := by
    have : rs3.filter (fun r => r.num = f) = [] := by
      rw [List.filter_eq_nil_iff]; intro r hr; simpa using hlast r hr
    simp only [lastVal, List.filter_append, List.filter_cons, this, decide_true, if_true]
    rw [List.getLast?_append]; simp
  have hm' : IsMessage (rs1 ++ ⟨f, .bytes b1⟩ :: rs2 ++ ⟨f, .bytes b2⟩ :: rs3) m.encode.data := by
    rw [d2]; exact hm
  rcases C11_presence hread hm' hk hr with ⟨h1, _⟩ | ⟨b, h1, rest, h2⟩
  · exact absurd rfl (h1 ⟨f, .bytes b2⟩ (by simp))
  · rw [hl] at h1
    simp only [Option.some.injEq, Val.bytes.injEq] at h1
    subst h1
    exact ⟨m, rest, d1, h2⟩

/-- An encoding of field 17 in two pieces: {int32 = 5}, {bool = true}. -/
def pieces : List Byte := [0x8a#8, 0x01#8, 0x02#8, 0x10#8, 0x05#8, 0x8a#8, 0x01#8, 0x02#8, 0x08#8, 0x01#8]

theorem pieces_records : IsMessage [⟨17, .bytes [0x10#8, 0x05#8]⟩, ⟨17, .bytes [0x08#8, 0x01#8]⟩] pieces := by
  have v1 : IsVarint 138 [0x8a#8, 0x01#8] := ⟨[0x8a#8], 0x01#8, rfl, by decide, by decide, by decide, by decide, by decide⟩
  have v2 : IsVarint 2 [0x02#8] := ⟨[], 0x02#8, rfl, by decide, by decide, by decide, by decide, by decide⟩
  exact .cons (bs := [0x8a#8, 0x01#8] ++ ([0x02#8] ++ [0x10#8, 0x05#8])) ⟨_, _, rfl, v1, _, v2, rfl⟩
    (.cons (bs := [0x8a#8, 0x01#8] ++ ([0x02#8] ++ [0x08#8, 0x01#8])) ⟨_, _, rfl, v1, _, v2, rfl⟩ .nil)

theorem pieces_typed : WellTyped testSchema [⟨17, .bytes [0x10#8, 0x05#8]⟩, ⟨17, .bytes [0x08#8, 0x01#8]⟩] := by
  intro r hr
  simp only [List.mem_cons, List.not_mem_nil, or_false] at hr
  rcases hr with rfl | rfl <;> exact ⟨by decide, fun k hk => by simp [testSchema, testKind] at hk; subst hk; exact ⟨_, rfl⟩⟩

/-- C08, refutation: the pieces are not merged, as the protobuf specification demands. Each piece is a valid message,
together they set int32 = 5 and bool = true; `Decode` and `Message` report no error, and int32 is lost. -/
theorem C08_false_merge : ∃ m x, (Msg.zero 35).decode testRep ⟨pieces, []⟩ = .ok (m, none) ∧
    m.subMessage testRep 17 (Msg.zero 35) = .ok (x, true, none) ∧ x.get .bool 1 = .ok true ∧ x.get .int32 2 = .ok 0#32 := by
  obtain ⟨m, rest, d1, d2⟩ := C08_split (S := testSchema) (m0 := Msg.zero 35) rfl (buf := ⟨pieces, []⟩) (rs1 := []) (rs2 := []) (rs3 := [])
    (by decide) pieces_records pieces_typed (by simp) rfl rfl
  have v0 : IsMessage [⟨1, .varint 1#64⟩] [0x08#8, 0x01#8] :=
    .cons (bs := [0x08#8] ++ [0x01#8]) (rest := []) ⟨_, _, rfl, ⟨[], 0x08#8, rfl, by decide, by decide, by decide, by decide, by decide⟩,
      ⟨[], 0x01#8, rfl, by decide, by decide, by decide, by decide, by decide⟩⟩ .nil
  obtain ⟨x, e1, e2, e3, e4⟩ := C07_decode_any (S := testSchema) (m0 := Msg.zero 35) rfl (buf := ⟨[0x08#8, 0x01#8], rest⟩) (rs := [⟨1, .varint 1#64⟩])
    (show 2 < maxLen by decide) v0 (by simp [testSchema])
  refine ⟨m, x, d1, ?_, e3 1 .bool true rfl rfl rfl, e3 2 .int32 0#32 rfl rfl rfl⟩
  rw [d2]
  have : (Msg.zero 35).decode testRep ⟨[0x08#8, 0x01#8], rest⟩ = .ok (x, none) := e1
  rw [this]; rfl

theorem Reach.set_len {S : Schema} {m m' : Msg} (h : Reach S m) {rt : Rt} {f : Nat} {k : Kind} (hk : S.kind f = some k)
    (hr : S.rep f = false) {x : k.Ty} (hx : k.size x < maxLen) (hs : m.set rt k f x = .ok m') :
    m'.encode.len ≤ m.encode.len + 20 + k.size x := by
  obtain ⟨rs0, h0, w0⟩ := h.holds
  rcases h0.set rt hk hr x hx (fun v hv => w0.last hk hv) with ⟨m1, rs', d1, d2, d3, d4, d5, d6, _⟩ | ⟨d1, _⟩
  · rw [hs] at d1
    simp only [Except.ok.injEq] at d1
    subst d1
    exact d6
  · rw [hs] at d1; simp at d1

/-- C19: messages longer than 65535 bytes work like others (the README says that constructing one panics): a message of
any length below 2^63 can be built, fields can be set behind the first 65535 bytes, and everything can be read. -/
theorem C19_long (rt rt' : Rt) (x : List Byte) (hx : x.length + 41 < maxLen) (b : Bool) :
    ∃ m1 m2, (Msg.zero 35).set rt .bytes 15 x = .ok m1 ∧ m1.set rt' .bool 1 b = .ok m2 ∧ x.length ≤ m2.encode.len ∧
      m2.get .bytes 15 = .ok x ∧ m2.get .bool 1 = .ok b := by
  have z : Reach testSchema (Msg.zero 35) := Reach.zero
  have hx1 : Kind.size .bytes x < maxLen := by show x.length < _; omega
  obtain ⟨m1, e1, r1, g1⟩ := C01_set_get_ok z rt (f := 15) (k := .bytes) rfl rfl x (by
    show 0 + 20 + x.length < maxLen
    omega)
  have hl1 : m1.encode.len ≤ 0 + 20 + x.length := z.set_len (f := 15) (k := .bytes) rfl rfl hx1 e1
  obtain ⟨m2, e2, r2, g2⟩ := C01_set_get_ok r1 rt' (f := 1) (k := .bool) rfl rfl b (by
    show m1.encode.len + 20 + 0 < maxLen
    omega)
  have g3 : m2.get .bytes 15 = .ok x := by
    rw [((C02_set_frame r1 (f := 1) (k := .bool) rfl rfl (by show 0 < maxLen; decide) e2 (g := 15) (k' := .bytes) (by decide) rfl).1 rfl).1]
    exact g1
  refine ⟨m1, m2, e1, e2, ?_, g3, g2⟩
  obtain ⟨rs, h1, h2⟩ := r2.holds
  rcases h2.bytes_cases (f := 15) rfl with hl | ⟨bs, hl⟩
  · have := h1.holds.get (f := 15) (k := .bytes) (x := []) rfl rfl (by rw [hl]; rfl)
    rw [g3] at this
    simp only [Except.ok.injEq] at this
    subst this
    exact Nat.zero_le _
  · obtain ⟨A, B, a1, _⟩ := h1.holds.getBytes_some (f := 15) rfl hl
    have := h1.holds.get (f := 15) (k := .bytes) (x := bs) rfl rfl (by rw [hl]; rfl)
    rw [g3] at this
    simp only [Except.ok.injEq] at this
    subst this
    show x.length ≤ m2.buf.data.length
    rw [a1]; simp only [List.length_append]; omega

/-- The condition of `C19_long` holds of 100000 bytes. -/
example : (List.replicate 100000 0#8).length + 41 < maxLen := by rw [List.length_replicate]; decide

end Zeropb
