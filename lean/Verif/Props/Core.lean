import Verif.Props.Defs
set_option linter.unusedSimpArgs false
set_option linter.unusedVariables false
/-!
# Setters, getters, histories, encoding and decoding (C01 – C11)
-/

namespace Zeropb
open Wire

/-! ## A concrete message, used as example for the hypotheses below -/

/-- `var m TestMessage; m.SetInt32(-5); m.SetString("hi"); m.AppendToMessages(TestMessage{}); m.SetInt32(7)` -/
def demo : Msg :=
  ⟨⟨[0x72#8, 0x02#8, 0x68#8, 0x69#8, 0x92#8, 0x02#8, 0x00#8, 0x10#8, 0x07#8],
    [0xff#8, 0x01#8, 0x72#8, 0x02#8, 0x68#8, 0x69#8, 0x92#8, 0x02#8, 0x00#8]⟩,
   ⟨(((List.replicate 35 0#16).set 14 1#16).set 34 6#16).set 2 8#16, none⟩⟩

theorem demo_steps :
    (do let m ← (Msg.zero 35).set Rt.exact .int32 2 (BitVec.ofInt 32 (-5))
        let m ← m.set Rt.exact .string 14 [0x68#8, 0x69#8]
        let m ← m.appendTo Rt.exact 34 (Msg.zero 35)
        m.set Rt.exact .int32 2 7#32) = .ok demo := by rfl

theorem Reach.of_bind {S : Schema} {r : Res Msg} {g : Msg → Res Msg} {m : Msg} (h : (r >>= g) = .ok m) :
    ∃ m1, r = .ok m1 ∧ g m1 = .ok m := by
  cases r with
  | error e => simp [bind, Except.bind] at h
  | ok m1 => exact ⟨m1, rfl, h⟩

/-- The example is reachable. -/
theorem demo_reach : Reach testSchema demo := by
  obtain ⟨m1, h1, h⟩ := Reach.of_bind (S := testSchema) demo_steps
  obtain ⟨m2, h2, h⟩ := Reach.of_bind (S := testSchema) h
  obtain ⟨m3, h3, h⟩ := Reach.of_bind (S := testSchema) h
  have r1 : Reach testSchema m1 := Reach.set Reach.zero rfl rfl (by decide) h1
  have r2 : Reach testSchema m2 := Reach.set r1 rfl rfl (by decide) h2
  have r3 : Reach testSchema m3 := Reach.append r2 rfl rfl (by decide) h3
  exact Reach.set r3 rfl rfl (by decide) h

/-- The records of the example. -/
theorem demo_records : IsMinTagMessage
    [⟨14, .bytes [0x68#8, 0x69#8]⟩, ⟨34, .bytes []⟩, ⟨2, .varint 7#64⟩] demo.encode.data := by
  have e : demo.encode.data = [0x72#8, 0x02#8, 0x68#8, 0x69#8] ++ ([0x92#8, 0x02#8, 0x00#8] ++ ([0x10#8, 0x07#8] ++ [])) := rfl
  rw [e]
  have mv1 : ∀ b : Byte, b.toNat < 128 → IsMinVarint b.toNat [b] := by
    intro b hb
    refine ⟨⟨[], b, rfl, by simp, hb, by simp, ?_, by omega⟩, Or.inl rfl⟩
    simp [varintValue]; omega
  refine .cons ⟨[0x72#8], [0x02#8, 0x68#8, 0x69#8], rfl, mv1 _ (by decide), [0x02#8], (mv1 _ (by decide)).1, rfl⟩
    (.cons ⟨[0x92#8, 0x02#8], [0x00#8], rfl, ?_, [0x00#8], (mv1 _ (by decide)).1, rfl⟩
    (.cons ⟨[0x10#8], [0x07#8], rfl, mv1 _ (by decide), (mv1 _ (by decide)).1⟩ .nil))
  exact ⟨⟨[0x92#8], 0x02#8, rfl, by decide, by decide, by decide, by decide, by decide⟩, Or.inr (by decide)⟩

/-! ## C01 -/

/-- C01: set then get. For every reachable message, every field kind and value, the setter either
returns, and then the getter returns the value just set; or the message would exceed the largest
possible slice. -/
theorem C01_set_get {S : Schema} {m : Msg} (h : Reach S m) (rt : Rt) {f : Nat} {k : Kind}
    (hk : S.kind f = some k) (hr : S.rep f = false) (x : k.Ty) (hx : k.size x < maxLen) :
    (∃ m', m.set rt k f x = .ok m' ∧ m'.get k f = .ok x) ∨
    (m.set rt k f x = .error .lenOutOfRange ∧ maxLen ≤ m.encode.len + 20 + k.size x) := by
  obtain ⟨rs, h1, h2⟩ := h.holds
  rcases h1.set rt hk hr x hx (fun v hv => h2.last hk hv) with ⟨m', rs', e1, e2, e3, _⟩ | e
  · left
    refine ⟨m', e1, e2.holds.get hk hr ?_⟩
    rw [e3]; exact decodeVal_encodeVal k x
  · exact Or.inr e

/-- C01, for messages of any realistic size: no failure at all. -/
theorem C01_set_get_ok {S : Schema} {m : Msg} (h : Reach S m) (rt : Rt) {f : Nat} {k : Kind}
    (hk : S.kind f = some k) (hr : S.rep f = false) (x : k.Ty) (hx : m.encode.len + 20 + k.size x < maxLen) :
    ∃ m', m.set rt k f x = .ok m' ∧ Reach S m' ∧ m'.get k f = .ok x := by
  rcases C01_set_get h rt hk hr x (by omega) with ⟨m', e1, e2⟩ | ⟨_, e⟩
  · exact ⟨m', e1, Reach.set h hk hr (by omega) e1, e2⟩
  · omega

/-- Hypotheses met: overwriting the string of `demo` (which moves it behind the other fields). -/
example : Reach testSchema demo ∧ testSchema.kind 14 = some .string ∧ testSchema.rep 14 = false ∧
    demo.encode.len + 20 + Kind.size .string [0x7a#8] < maxLen ∧
    (demo.set Rt.exact .string 14 [0x7a#8]).map (·.encode.data) =
      .ok [0x92#8, 0x02#8, 0x00#8, 0x10#8, 0x07#8, 0x72#8, 0x01#8, 0x7a#8] :=
  ⟨demo_reach, rfl, rfl, by decide, rfl⟩

/-! ## C02 -/

/-- C02: a setter changes no other field. -/
theorem C02_set_frame {S : Schema} {m m' : Msg} (h : Reach S m) {rt : Rt} {f : Nat} {k : Kind} {x : k.Ty}
    (hk : S.kind f = some k) (hr : S.rep f = false) (hx : k.size x < maxLen) (hs : m.set rt k f x = .ok m')
    {g : Nat} {k' : Kind} (hg : g ≠ f) (hk' : S.kind g = some k') :
    (S.rep g = false → m'.get k' g = m.get k' g ∧ (k' = .bytes → bytesOf m' g = bytesOf m g)) ∧
    (S.rep g = true → ∀ els, Elems m' g els ↔ Elems m g els) := by
  obtain ⟨rs, h1, h2⟩ := h.holds
  rcases h1.set rt hk hr x hx (fun v hv => h2.last hk hv) with ⟨m1, rs', e1, e2, e3, e4, e5, _⟩ | ⟨e1, _⟩
  · rw [e1] at hs
    simp only [Except.ok.injEq] at hs
    subst hs
    have a := (h1.holds.agrees h2) g k' hk'
    have b := (e2.holds.agrees (h2.set hk x e5)) g k' hk'
    have s1 : (Contents.ofRecords rs').sing g = (Contents.ofRecords rs).sing g := lastVal_of_filter_ne hg e4
    have s2 : (Contents.ofRecords rs').elems g = (Contents.ofRecords rs).elems g := by
      simp only [Contents.ofRecords]; rw [allVals_of_filter_ne hg e4]
    rw [s1, s2] at b
    constructor
    · intro hrg
      obtain ⟨⟨x1, p1, p2⟩, p3⟩ := a.1 hrg
      obtain ⟨⟨y1, q1, q2⟩, q3⟩ := b.1 hrg
      rw [p1] at q1
      simp only [Option.some.injEq] at q1
      subst q1
      exact ⟨by rw [p2, q2], fun hb => by rw [p3 hb, q3 hb]⟩
    · intro hrg els
      have a2 := a.2 hrg
      have b2 := b.2 hrg
      constructor
      · intro he; rw [he.unique b2]; exact a2
      · intro he; rw [he.unique a2]; exact b2
  · rw [e1] at hs; simp at hs

/-- Hypotheses met: overwriting the string of `demo` moves field 2 and the repeated field 34. -/
example : Reach testSchema demo ∧ (∃ m', demo.set Rt.exact .string 14 [0x7a#8] = .ok m' ∧
    m'.off.a[2]? = some 4#16 ∧ demo.off.a[2]? = some 8#16 ∧ m'.get .int32 2 = .ok 7#32) :=
  ⟨demo_reach, _, rfl, rfl, rfl, rfl⟩

/-! ## C03, C06: histories -/

/-- `m` holds records whose meaning is `c`. -/
def Tracks (S : Schema) (m : Msg) (rs : List Record) (c : Contents) : Prop :=
  HoldsMin S m rs ∧ WellTyped S rs ∧ (∀ f, S.rep f = false → lastVal f rs = c.sing f) ∧
    (∀ f, S.rep f = true → S.kind f = some .bytes → allVals f rs = (c.elems f).map Val.bytes) ∧
    ∀ f, S.kind f = none → allVals f rs = c.rest f

theorem Tracks.agrees {S m rs c} (h : Tracks S m rs c) : Agrees S m c := by
  obtain ⟨h1, h2, h3, h4, h5⟩ := h
  intro f k hk
  obtain ⟨a, b⟩ := h1.holds.agrees h2 f k hk
  constructor
  · intro hr; rw [← h3 f hr]; exact a hr
  · intro hr
    have := S.rep_bytes f k hr hk
    subst this
    have := b hr
    simp only [Contents.ofRecords, h4 f hr hk, filterMap_bytes] at this
    exact this

theorem HoldsMin.off_length {S m rs} (h : HoldsMin S m rs) : m.off.a.length = S.n := by
  obtain ⟨cs, h1, _⟩ := h; exact h1.alen

theorem Reach.off_length {S m} (h : Reach S m) : m.off.a.length = S.n := by
  obtain ⟨rs, h1, _⟩ := h.holds; exact h1.off_length

theorem Readable.off_length {S m} (h : Readable S m) : m.off.a.length = S.n := by
  obtain ⟨rs, ⟨cs, h1, _⟩, _⟩ := h.holds; exact h1.alen

theorem allVals_append_record (f : Nat) (rs : List Record) (g : Nat) (v : Val) :
    allVals f (rs ++ [⟨g, v⟩]) = if g = f then allVals f rs ++ [v] else allVals f rs := by
  unfold allVals
  by_cases h : g = f <;> simp [List.filter_append, List.filter_cons, h]

theorem lastVal_append_record (f : Nat) (rs : List Record) (g : Nat) (v : Val) :
    lastVal f (rs ++ [⟨g, v⟩]) = if g = f then some v else lastVal f rs := by
  unfold lastVal
  by_cases h : g = f <;> simp [List.filter_append, List.filter_cons, h]

/-- One call, followed on the records. -/
theorem Tracks.step {S m rs c} (h : Tracks S m rs c) (op : Op) (hv : op.Valid S) :
    (∃ m' rs', op.run S m = .ok m' ∧ Tracks S m' rs' (op.apply c) ∧ m'.encode.len ≤ m.encode.len + op.cost) ∨
    (op.run S m = .error .lenOutOfRange ∧ maxLen ≤ m.encode.len + op.cost) := by
  obtain ⟨h1, h2, h3, h4, h5⟩ := h
  cases op with
  | set rt f k x =>
    obtain ⟨v1, v2, v3⟩ := hv
    rcases h1.set rt v1 v2 x v3 (fun v hv => h2.last v1 hv) with ⟨m', rs', e1, e2, e3, e4, e5, e6, _⟩ | ⟨e1, e2⟩
    · refine Or.inl ⟨m', rs', e1, ⟨e2, h2.set v1 x e5, ?_, ?_, ?_⟩, ?_⟩
      · intro g hg
        simp only [Op.apply, Contents.set]
        split
        · next hgf => subst hgf; exact e3
        · next hgf => rw [lastVal_of_filter_ne hgf e4]; exact h3 g hg
      · intro g hg hkg
        have hgf : g ≠ f := by rintro rfl; rw [v2] at hg; simp at hg
        rw [allVals_of_filter_ne hgf e4]
        exact h4 g hg hkg
      · intro g hg
        have hgf : g ≠ f := by rintro rfl; rw [v1] at hg; simp at hg
        rw [allVals_of_filter_ne hgf e4]
        exact h5 g hg
      · simp only [Op.cost, Msg.encode, Slice.len]; omega
    · refine Or.inr ⟨e1, ?_⟩
      simp only [Op.cost, Msg.encode, Slice.len]; omega
  | append rt f x =>
    obtain ⟨v1, v2, v3⟩ := hv
    have hf := S.kind_lt f (by rw [v1]; simp)
    rcases h1.append rt hf v2 x v3 with ⟨m', e1, e2, e3, _⟩ | ⟨e1, e2⟩
    · refine Or.inl ⟨m', _, e1, ⟨e2, h2.append hf v2 x, ?_, ?_, ?_⟩, ?_⟩
      · intro g hg
        have hgf : f ≠ g := by rintro rfl; rw [v2] at hg; simp at hg
        rw [lastVal_append_record, if_neg hgf]
        exact h3 g hg
      · intro g hg hkg
        rw [allVals_append_record]
        simp only [Op.apply, Contents.append]
        by_cases hgf : g = f
        · subst hgf; simp [h4 g hg hkg]
        · simp [hgf, Ne.symm hgf, h4 g hg hkg]
      · intro g hg
        have hgf : f ≠ g := by rintro rfl; rw [v1] at hg; simp at hg
        rw [allVals_append_record, if_neg hgf]
        exact h5 g hg
      · simp only [Op.cost, Msg.encode, Slice.len]; omega
    · refine Or.inr ⟨e1, ?_⟩
      simp only [Op.cost, Msg.encode, Slice.len]; omega
  | reset buf =>
    left
    have hb : ¬ buf.len > 0 := by have : buf.len = 0 := hv; omega
    have he : m.reset buf = .ok ⟨buf, m.off.clear⟩ := by unfold Msg.reset; rw [if_neg hb]
    refine ⟨_, [], he, ⟨HoldsMin.reset h1.off_length he, by intro r hr; simp at hr, fun _ _ => rfl, fun _ _ _ => rfl, fun _ _ => rfl⟩, ?_⟩
    have : buf.len = 0 := hv
    simp only [Msg.encode, this]; omega
  | decode buf rs' =>
    left
    obtain ⟨v1, v2, v3⟩ := hv
    obtain ⟨m', d1, d2, d3, _⟩ := decode_holdsMin (m := m) h1.off_length v3 v1 (fun r hr => (v2 r hr).1)
    refine ⟨m', rs', by simp only [Op.run, d1]; rfl, ⟨d3, v2, fun _ _ => rfl, ?_, fun _ _ => rfl⟩, ?_⟩
    · intro g hg hkg
      obtain ⟨els, he⟩ := v2.elems hkg
      simp only [Op.apply, Contents.ofRecords, he, filterMap_bytes]
    · simp only [Op.cost, Msg.encode, d2]; omega

theorem Tracks.history {S : Schema} (ops : List Op) (hv : ∀ op ∈ ops, op.Valid S) {m rs c} (h : Tracks S m rs c) :
    (∃ m' rs', runAll S ops m = .ok m' ∧ Tracks S m' rs' (applyAll ops c)) ∨
    (runAll S ops m = .error .lenOutOfRange ∧ maxLen ≤ m.encode.len + (ops.map Op.cost).sum) := by
  induction ops generalizing m rs c with
  | nil => exact Or.inl ⟨m, rs, rfl, h⟩
  | cons op ops ih =>
    rcases h.step op (hv op (by simp)) with ⟨m1, rs1, e1, e2, e3⟩ | ⟨e1, e2⟩
    · rcases ih (fun o ho => hv o (by simp [ho])) e2 with ⟨m', rs', f1, f2⟩ | ⟨f1, f2⟩
      · exact Or.inl ⟨m', rs', by simp only [runAll, e1, bind, Except.bind, f1], f2⟩
      · refine Or.inr ⟨by simp only [runAll, e1, bind, Except.bind, f1], ?_⟩
        simp only [List.map_cons, List.sum_cons]; omega
    · refine Or.inr ⟨by simp only [runAll, e1, bind, Except.bind], ?_⟩
      simp only [List.map_cons, List.sum_cons]; omega

theorem Tracks.zero (S : Schema) : Tracks S (Msg.zero S.n) [] .empty :=
  ⟨HoldsMin.zero S, by intro r hr; simp at hr, fun _ _ => rfl, fun _ _ _ => rfl, fun _ _ => rfl⟩

/-- C03: any history of API calls from the zero struct behaves like the record `Contents`: all
calls return and every getter, presence test and iterator agrees with the intended contents; unless
the message grew beyond the largest possible slice, which takes 2^63 bytes of input. -/
theorem C03_history (S : Schema) (ops : List Op) (hv : ∀ op ∈ ops, op.Valid S) :
    (∃ m, runAll S ops (Msg.zero S.n) = .ok m ∧ Agrees S m (applyAll ops .empty)) ∨
    (runAll S ops (Msg.zero S.n) = .error .lenOutOfRange ∧ maxLen ≤ (ops.map Op.cost).sum) := by
  rcases Tracks.history ops hv (Tracks.zero S) with ⟨m, rs, e1, e2⟩ | ⟨e1, e2⟩
  · exact Or.inl ⟨m, e1, e2.agrees⟩
  · refine Or.inr ⟨e1, ?_⟩
    simpa [Msg.encode, Msg.zero, Slice.len, Slice.empty] using e2

/-- C03 with a plain size hypothesis. -/
theorem C03_history_ok (S : Schema) (ops : List Op) (hv : ∀ op ∈ ops, op.Valid S)
    (hc : (ops.map Op.cost).sum < maxLen) :
    ∃ m, runAll S ops (Msg.zero S.n) = .ok m ∧ Agrees S m (applyAll ops .empty) := by
  rcases C03_history S ops hv with h | ⟨_, h⟩
  · exact h
  · omega

/-- Hypotheses met: a history with every kind of call. -/
example : let ops : List Op := [.decode demo.encode [⟨14, .bytes [0x68#8, 0x69#8]⟩, ⟨34, .bytes []⟩, ⟨2, .varint 7#64⟩],
      .set Rt.exact 3 .int64 5#64, .append Rt.exact 34 [1#8], .reset ⟨[], [0#8]⟩, .set Rt.exact 1 .bool true]
    (∀ op ∈ ops, op.Valid testSchema) ∧ (ops.map Op.cost).sum < maxLen := by
  refine ⟨?_, by decide⟩
  intro op hop
  simp only [List.mem_cons, List.not_mem_nil, or_false] at hop
  rcases hop with rfl | rfl | rfl | rfl | rfl
  · refine ⟨demo_records, ?_, by decide⟩
    intro r hr
    simp only [List.mem_cons, List.not_mem_nil, or_false] at hr
    rcases hr with rfl | rfl | rfl <;>
      exact ⟨by decide, fun k hk => by simp [testSchema, testKind] at hk; subst hk; exact ⟨_, rfl⟩⟩
  · exact ⟨rfl, rfl, by decide⟩
  · exact ⟨rfl, rfl, by decide⟩
  · exact rfl
  · exact ⟨rfl, rfl, by decide⟩

/-- C06: what `Encode` returns after any history is a well-formed protobuf message, with shortest
tags, whose meaning according to the wire format is exactly the intended contents; it is the only
reading of these bytes. -/
theorem C06_encode_valid (S : Schema) (ops : List Op) (hv : ∀ op ∈ ops, op.Valid S) {m : Msg}
    (hm : runAll S ops (Msg.zero S.n) = .ok m) :
    ∃ rs, IsMinTagMessage rs m.encode.data ∧ (∀ rs', IsMessage rs' m.encode.data → rs' = rs) ∧ WellTyped S rs ∧
      (∀ f, S.rep f = false → lastVal f rs = (applyAll ops .empty).sing f) ∧
      (∀ f, S.rep f = true → S.kind f = some .bytes → allVals f rs = ((applyAll ops .empty).elems f).map Val.bytes) ∧
      (∀ f, S.kind f = none → allVals f rs = (applyAll ops .empty).rest f) := by
  rcases Tracks.history ops hv (Tracks.zero S) with ⟨m', rs, e1, e2, e3, e4, e5, e6⟩ | ⟨e1, _⟩
  · rw [e1] at hm
    simp only [Except.ok.injEq] at hm
    subst hm
    exact ⟨rs, e2.isMessage, fun rs' h => isMessage_unique h e2.holds.isMessage, e3, e4, e5, e6⟩
  · rw [e1] at hm; simp at hm

/-- Hypotheses met. -/
example : ∃ m, runAll testSchema [.set Rt.exact 2 .int32 7#32, .append Rt.exact 34 [1#8]] (Msg.zero testSchema.n) = .ok m ∧
    m.encode.data = [0x10#8, 0x07#8, 0x92#8, 0x02#8, 0x01#8, 0x01#8] := ⟨_, rfl, rfl⟩

/-! ## C04 -/

/-- C04: a field that does not occur in the message reads as default, is not present, iterates
nothing; the target struct of a message accessor is untouched. -/
theorem C04_unset {S : Schema} {m : Msg} (h : Readable S m) {rs : List Record} (hm : IsMessage rs m.encode.data)
    {f : Nat} (ha : ∀ r ∈ rs, r.num ≠ f) {k : Kind} (hk : S.kind f = some k) :
    (S.rep f = false → m.get k f = .ok k.dflt ∧
      (k = .bytes → bytesOf m f = .ok none ∧ ∀ repX x, m.subMessage repX f x = .ok (x, false, none))) ∧
    (S.rep f = true → m.messages f = .ok none ∧ ∀ repX x, Msg.next repX none f x = .ok (none, x, false, none)) := by
  obtain ⟨h1, h2⟩ := h.records hm
  have hf := S.kind_lt f (by rw [hk]; simp)
  have hfil : rs.filter (fun r => r.num = f) = [] := by
    rw [List.filter_eq_nil_iff]; intro r hr; simpa using ha r hr
  have hl : lastVal f rs = none := by unfold lastVal; rw [hfil]; rfl
  constructor
  · intro hr
    refine ⟨h1.get hk hr (by rw [hl]; rfl), ?_⟩
    intro hb
    have hg := h1.getBytes_none hf hl
    refine ⟨by unfold bytesOf; rw [hg]; rfl, ?_⟩
    intro repX x
    unfold Msg.subMessage
    rw [hg]; rfl
  · intro hr
    have he : allVals f rs = ([] : List (List Byte)).map Val.bytes := by unfold allVals; rw [hfil]; rfl
    obtain ⟨its, rest, i1, i2, i3⟩ := h1.iterate hf hr he
    rw [i3 0 (by simp)] at i1
    exact ⟨i1, fun repX x => rfl⟩

/-- Hypotheses met: field 5 and field 17 of `demo`; and the repeated field of a zero struct. -/
example : Readable testSchema demo ∧ (∀ r ∈ [⟨14, .bytes [0x68#8, 0x69#8]⟩, ⟨34, .bytes []⟩, (⟨2, .varint 7#64⟩ : Record)], r.num ≠ 17) ∧
    testSchema.kind 17 = some .bytes ∧ testSchema.rep 17 = false := ⟨.reach demo_reach, by decide, rfl, rfl⟩

/-! ## C05 -/

/-- C05: decoding the encoding, into any struct of the same type, succeeds and gives a message with
the same fields. -/
theorem C05_encode_decode {S : Schema} {m : Msg} (h : Reach S m) {m0 : Msg} (h0 : m0.off.a.length = S.n)
    {buf : Slice} (hb : buf.data = m.encode.data) :
    ∃ m', m0.decode S.rep buf = .ok (m', none) ∧ m'.encode = buf ∧ SameFields S m m' ∧ Reach S m' := by
  obtain ⟨rs, h1, h2⟩ := h.holds
  have hlen : buf.len < maxLen := by
    obtain ⟨cs, r, _⟩ := h1
    unfold Slice.len; rw [hb]; exact r.len
  have hmsg : IsMinTagMessage rs buf.data := by rw [hb]; exact h1.isMessage
  obtain ⟨m', d1, d2, d3, _⟩ := decode_holdsMin (m := m0) h0 hlen hmsg (fun r hr => (h2 r hr).1)
  exact ⟨m', d1, d2, (h1.holds.agrees h2).same (d3.holds.agrees h2), Reach.decode h0 hlen hmsg h2 d1⟩

/-- Hypotheses met. -/
example : Reach testSchema demo ∧ demo.off.a.length = testSchema.n ∧ demo.encode.data.length = 9 :=
  ⟨demo_reach, rfl, rfl⟩

/-! ## C07 -/

/-- C07: every valid message whose field numbers fit the table decodes without error, whatever its
encoder did about order, duplicates and varint lengths; each field that has its declared wire type
reads as the wire format says. -/
theorem C07_decode_any {S : Schema} {m0 : Msg} (h0 : m0.off.a.length = S.n) {buf : Slice} {rs : List Record}
    (hlen : buf.len < maxLen) (hm : IsMessage rs buf.data) (hlt : ∀ r ∈ rs, r.num < S.n) :
    ∃ m, m0.decode S.rep buf = .ok (m, none) ∧ m.encode = buf ∧
      (∀ f k x, S.kind f = some k → S.rep f = false → readVal k (lastVal f rs) = some x → m.get k f = .ok x) ∧
      (∀ f, S.kind f = some .bytes → S.rep f = false → lastVal f rs = none → bytesOf m f = .ok none) ∧
      (∀ f b, S.kind f = some .bytes → S.rep f = false → lastVal f rs = some (.bytes b) → bytesOf m f = .ok (some b)) ∧
      (∀ f els, S.kind f = some .bytes → S.rep f = true → allVals f rs = els.map Val.bytes → Elems m f els) := by
  obtain ⟨m, d1, d2, d3, _⟩ := decode_holds (m := m0) h0 hlen hm hlt
  refine ⟨m, d1, d2, fun f k x hk hr hx => d3.get hk hr hx, ?_, ?_, ?_⟩
  · intro f hk hr hl
    have := d3.bytesOf (S.kind_lt f (by rw [hk]; simp)) hr (Or.inl hl)
    rw [this, hl]
  · intro f b hk hr hl
    have := d3.bytesOf (S.kind_lt f (by rw [hk]; simp)) hr (Or.inr ⟨b, hl⟩)
    rw [this, hl]
  · intro f els hk hr he
    exact d3.elems (S.kind_lt f (by rw [hk]; simp)) hr he

/-- A message no canonical encoder writes: field 5 twice, the first time with a padded tag and a
padded value; field 30 (a repeated scalar without accessors) in between. -/
def oddBytes : List Byte := [0xa8#8, 0x00#8, 0x81#8, 0x00#8, 0xf5#8, 0x01#8, 1#8, 2#8, 3#8, 4#8, 0x28#8, 0x09#8]

theorem oddBytes_records : IsMessage [⟨5, .varint 1#64⟩, ⟨30, .fixed32 0x04030201#32⟩, ⟨5, .varint 9#64⟩] oddBytes := by
  have e : oddBytes = [0xa8#8, 0x00#8, 0x81#8, 0x00#8] ++ ([0xf5#8, 0x01#8, 1#8, 2#8, 3#8, 4#8] ++ ([0x28#8, 0x09#8] ++ [])) := rfl
  rw [e]
  have v2 : ∀ a b : Byte, 128 ≤ a.toNat → b.toNat < 128 → IsVarint (a.toNat % 128 + 128 * b.toNat) [a, b] := by
    intro a b ha hb
    refine ⟨[a], b, rfl, by simpa using ha, hb, by simp, ?_, by omega⟩
    simp [varintValue]; omega
  have v1 : ∀ b : Byte, b.toNat < 128 → IsVarint b.toNat [b] := by
    intro b hb
    refine ⟨[], b, rfl, by simp, hb, by simp, ?_, by omega⟩
    simp [varintValue]; omega
  exact .cons ⟨[0xa8#8, 0x00#8], [0x81#8, 0x00#8], rfl, v2 _ _ (by decide) (by decide), v2 _ _ (by decide) (by decide)⟩
    (.cons ⟨[0xf5#8, 0x01#8], [1#8, 2#8, 3#8, 4#8], rfl, v2 _ _ (by decide) (by decide), rfl⟩
    (.cons ⟨[0x28#8], [0x09#8], rfl, v1 _ (by decide), v1 _ (by decide)⟩ .nil))

/-- Hypotheses met by the odd message; the last value of field 5 counts. -/
example : oddBytes.length < maxLen ∧
    IsMessage [⟨5, .varint 1#64⟩, ⟨30, .fixed32 0x04030201#32⟩, ⟨5, .varint 9#64⟩] oddBytes ∧
    (∀ r ∈ [⟨5, .varint 1#64⟩, ⟨30, .fixed32 0x04030201#32⟩, (⟨5, .varint 9#64⟩ : Record)], r.num < testSchema.n) ∧
    readVal .uint64 (lastVal 5 [⟨5, .varint 1#64⟩, ⟨30, .fixed32 0x04030201#32⟩, ⟨5, .varint 9#64⟩]) = some 9#64 :=
  ⟨by decide, oddBytes_records, by decide, rfl⟩

/-! ## C08 -/

/-- C08: of several occurrences of a singular field the last one counts. -/
theorem C08_last_wins {S : Schema} {m0 : Msg} (h0 : m0.off.a.length = S.n) {buf : Slice} {rs1 rs2 : List Record} {v : Val}
    {f : Nat} (hlen : buf.len < maxLen) (hm : IsMessage (rs1 ++ ⟨f, v⟩ :: rs2) buf.data)
    (hlt : ∀ r ∈ rs1 ++ ⟨f, v⟩ :: rs2, r.num < S.n) (hlast : ∀ r ∈ rs2, r.num ≠ f)
    {k : Kind} {x : k.Ty} (hk : S.kind f = some k) (hr : S.rep f = false) (hx : decodeVal k v = some x) :
    ∃ m, m0.decode S.rep buf = .ok (m, none) ∧ m.get k f = .ok x := by
  obtain ⟨m, d1, _, d3, _⟩ := C07_decode_any h0 hlen hm hlt
  refine ⟨m, d1, d3 f k x hk hr ?_⟩
  have : rs2.filter (fun r => r.num = f) = [] := by
    rw [List.filter_eq_nil_iff]; intro r hr; simpa using hlast r hr
  have : lastVal f (rs1 ++ ⟨f, v⟩ :: rs2) = some v := by
    simp [lastVal, List.filter_append, List.filter_cons, this]
  rw [this]; exact hx

/-- C08, second part: overwriting replaces the last occurrence only. The earlier ones stay in the
bytes, and the getter returns the new value. -/
theorem C08_overwrite {S : Schema} {m : Msg} (h : Reach S m) {rs : List Record} (hm : IsMessage rs m.encode.data)
    {rt : Rt} {f : Nat} {k : Kind} {x : k.Ty} (hk : S.kind f = some k) (hr : S.rep f = false) (hx : k.size x < maxLen)
    {m' : Msg} (hs : m.set rt k f x = .ok m') :
    m'.get k f = .ok x ∧ ∃ rs', IsMessage rs' m'.encode.data ∧ allVals f rs' = (allVals f rs).dropLast ++ [encodeVal k x] ∧
      rs'.filter (fun r => r.num ≠ f) = rs.filter (fun r => r.num ≠ f) := by
  obtain ⟨h1, h2⟩ := h.records hm
  rcases h1.set rt hk hr x hx (fun v hv => h2.last hk hv) with ⟨m1, rs', e1, e2, e3, e4, e5, _, _, e6⟩ | ⟨e1, _⟩
  · rw [e1] at hs
    simp only [Except.ok.injEq] at hs
    subst hs
    refine ⟨e2.holds.get hk hr (by rw [e3]; exact decodeVal_encodeVal k x), rs', e2.holds.isMessage, ?_, e4⟩
    unfold allVals
    rw [e6]; simp [List.map_dropLast]
  · rw [e1] at hs; simp at hs

/-! ## C09 -/

/-- C09: the iterator of a repeated message field visits every occurrence once, in order, and then
stays at its end. `its i` is the iterator after `i` calls of `Next`; the `i`-th call decodes exactly
the bytes of the `i`-th occurrence into its argument. -/
theorem C09_iterate {S : Schema} {m : Msg} (h : Readable S m) {rs : List Record} (hm : IsMessage rs m.encode.data)
    {f : Nat} (hk : S.kind f = some .bytes) (hr : S.rep f = true) :
    ∃ els : List (List Byte), allVals f rs = els.map Val.bytes ∧
    ∃ its : Nat → Option Slice, m.messages f = .ok (its 0) ∧
      (∀ i (hi : i < els.length), ∃ rest, ∀ repX x, Msg.next repX (its i) f x =
        (x.decode repX ⟨els[i], rest⟩).map (fun r => (its (i + 1), r.1, true, r.2))) ∧
      (∀ i, els.length ≤ i → ∀ repX x, Msg.next repX (its i) f x = .ok (its (i + 1), x, false, none)) := by
  obtain ⟨h1, h2⟩ := h.records hm
  obtain ⟨els, he⟩ := h2.elems hk
  obtain ⟨its, rest, i1, i2, i3⟩ := h1.iterate (S.kind_lt f (by rw [hk]; simp)) hr he
  refine ⟨els, he, its, i1, ?_, ?_⟩
  · intro i hi
    refine ⟨rest i, ?_⟩
    intro repX x
    unfold Msg.next
    rw [(i2 i hi).1]
    simp only [bind, Except.bind]
    cases x.decode repX ⟨els[i], rest i⟩ <;> rfl
  · intro i hi repX x
    rw [i3 i hi, i3 (i + 1) (by omega)]; rfl

/-- Hypotheses met: the repeated field of `demo` has one, empty, element, followed by field 2. -/
example : Readable testSchema demo ∧
    allVals 34 [⟨14, .bytes [0x68#8, 0x69#8]⟩, ⟨34, .bytes []⟩, (⟨2, .varint 7#64⟩ : Record)] = [.bytes []] ∧
    testSchema.kind 34 = some .bytes ∧ testSchema.rep 34 = true := ⟨.reach demo_reach, rfl, rfl, rfl⟩

/-! ## C10 -/

/-- C10: `AppendTo` adds one element at the end of its field, and changes no other field. -/
theorem C10_append {S : Schema} {m : Msg} (h : Reach S m) (rt : Rt) {f : Nat} (hk : S.kind f = some .bytes)
    (hr : S.rep f = true) (x : Msg) (hx : x.encode.len < maxLen) {els : List (List Byte)} (he : Elems m f els) :
    (∃ m', m.appendTo rt f x = .ok m' ∧ Reach S m' ∧ Elems m' f (els ++ [x.encode.data]) ∧
      ∀ g k, g ≠ f → S.kind g = some k →
        (S.rep g = false → m'.get k g = m.get k g ∧ (k = .bytes → bytesOf m' g = bytesOf m g)) ∧
        (S.rep g = true → ∀ els, Elems m' g els ↔ Elems m g els)) ∨
    (m.appendTo rt f x = .error .lenOutOfRange ∧ maxLen ≤ m.encode.len + 20 + x.encode.len) := by
  obtain ⟨rs, h1, h2⟩ := h.holds
  have hf := S.kind_lt f (by rw [hk]; simp)
  rcases h1.append rt hf hr x.encode.data hx with ⟨m', e1, e2, e3, _⟩ | ⟨e1, e2⟩
  · left
    have h2' := h2.append hf hr x.encode.data
    refine ⟨m', e1, Reach.append h hk hr hx e1, ?_, ?_⟩
    · obtain ⟨els0, he0⟩ := h2.elems hk
      have := he.unique (h1.holds.elems hf hr he0)
      subst this
      apply e2.holds.elems hf hr
      rw [allVals_append_record, if_pos rfl, he0]; simp
    · intro g k hg hkg
      obtain ⟨a1, a2⟩ := (h1.holds.agrees h2) g k hkg
      obtain ⟨b1, b2⟩ := (e2.holds.agrees h2') g k hkg
      have s1 : (Contents.ofRecords (rs ++ [⟨f, .bytes x.encode.data⟩])).sing g = (Contents.ofRecords rs).sing g := by
        simp only [Contents.ofRecords]; rw [lastVal_append_record, if_neg (Ne.symm hg)]
      have s2 : (Contents.ofRecords (rs ++ [⟨f, .bytes x.encode.data⟩])).elems g = (Contents.ofRecords rs).elems g := by
        simp only [Contents.ofRecords]; rw [allVals_append_record, if_neg (Ne.symm hg)]
      rw [s1] at b1; rw [s2] at b2
      constructor
      · intro hrg
        obtain ⟨⟨x1, p1, p2⟩, p3⟩ := a1 hrg
        obtain ⟨⟨y1, q1, q2⟩, q3⟩ := b1 hrg
        rw [p1] at q1
        simp only [Option.some.injEq] at q1
        subst q1
        exact ⟨by rw [p2, q2], fun hb => by rw [p3 hb, q3 hb]⟩
      · intro hrg els
        constructor
        · intro he; rw [he.unique (b2 hrg)]; exact a2 hrg
        · intro he; rw [he.unique (a2 hrg)]; exact b2 hrg
  · exact Or.inr ⟨e1, e2⟩

/-- Hypotheses met: appending `demo` to itself. -/
example : Reach testSchema demo ∧ Elems demo 34 [[]] ∧ demo.encode.len < maxLen := by
  refine ⟨demo_reach, ?_, by decide⟩
  obtain ⟨h1, h2⟩ := demo_reach.records (IsMinTagMessage_isMessage demo_records)
  exact h1.holds.elems (by decide) rfl rfl

/-! ## C11 -/

/-- C11: a message accessor reports the field present exactly if it occurs; it then decodes the
bytes of its last occurrence into its argument. -/
theorem C11_presence {S : Schema} {m : Msg} (h : Readable S m) {rs : List Record} (hm : IsMessage rs m.encode.data)
    {f : Nat} (hk : S.kind f = some .bytes) (hr : S.rep f = false) :
    ((∀ r ∈ rs, r.num ≠ f) ∧ ∀ repX x, m.subMessage repX f x = .ok (x, false, none)) ∨
    (∃ b, lastVal f rs = some (.bytes b) ∧ ∃ rest, ∀ repX x, m.subMessage repX f x =
      (x.decode repX ⟨b, rest⟩).map (fun r => (r.1, true, r.2))) := by
  obtain ⟨h1, h2⟩ := h.records hm
  rcases h2.bytes_cases hk with hl | ⟨b, hl⟩
  · left
    have ha : ∀ r ∈ rs, r.num ≠ f := by
      intro r hr he
      have : r ∈ rs.filter (fun r => r.num = f) := List.mem_filter.2 ⟨hr, by simpa using he⟩
      unfold lastVal at hl
      simp only [Option.map_eq_none_iff, List.getLast?_eq_none_iff] at hl
      rw [hl] at this; simp at this
    exact ⟨ha, ((C04_unset h hm ha hk).1 hr).2 rfl |>.2⟩
  · right
    obtain ⟨A, B, _, hg⟩ := h1.getBytes_some hr hl
    refine ⟨b, hl, B ++ m.buf.spare, ?_⟩
    intro repX x
    unfold Msg.subMessage
    rw [hg]
    simp only [bind, Except.bind]
    cases x.decode repX ⟨b, B ++ m.buf.spare⟩ <;> rfl

/-- Decoding an empty slice: no error, no fields. -/
theorem decode_empty (repX : Nat → Bool) (x : Msg) (rest : List Byte) :
    x.decode repX ⟨[], rest⟩ = .ok (⟨⟨[], rest⟩, x.off.clear⟩, none) := by
  unfold Msg.decode decode
  rw [iterate_eq]
  rfl

/-- C11, second part: after `SetMessage` of any message, even an empty one, the field is present, and
the accessor decodes the bytes of that message. -/
theorem C11_setMessage {S : Schema} {m : Msg} (h : Reach S m) {rt : Rt} {f : Nat} (hk : S.kind f = some .bytes)
    (hr : S.rep f = false) {y m' : Msg} (hy : y.encode.len < maxLen) (hs : m.setMessage rt f y = .ok m') :
    (∃ rest, ∀ repX x, m'.subMessage repX f x = (x.decode repX ⟨y.encode.data, rest⟩).map (fun r => (r.1, true, r.2))) ∧
    (y.encode.data = [] → ∀ repX x, ∃ rest, m'.subMessage repX f x = .ok (⟨⟨[], rest⟩, x.off.clear⟩, true, none)) := by
  obtain ⟨rs, h1, h2⟩ := h.holds
  have key : ∃ rest, ∀ repX x, m'.subMessage repX f x = (x.decode repX ⟨y.encode.data, rest⟩).map (fun r => (r.1, true, r.2)) := by
    rcases h1.set rt hk hr y.encode.data hy (fun v hv => h2.last hk hv) with ⟨m1, rs', e1, e2, e3, e4, e5, _⟩ | ⟨e1, _⟩
    · rw [Msg.setMessage, e1] at hs
      simp only [Except.ok.injEq] at hs
      subst hs
      obtain ⟨A, B, _, hg⟩ := e2.holds.getBytes_some hr (bs := y.encode.data) e3
      refine ⟨B ++ m1.buf.spare, ?_⟩
      intro repX x
      unfold Msg.subMessage
      rw [hg]
      simp only [bind, Except.bind]
      cases x.decode repX ⟨y.encode.data, B ++ m1.buf.spare⟩ <;> rfl
    · rw [Msg.setMessage, e1] at hs; simp at hs
  refine ⟨key, ?_⟩
  intro hy0 repX x
  obtain ⟨rest, hk2⟩ := key
  refine ⟨rest, ?_⟩
  rw [hk2, hy0, decode_empty]; rfl

/-- Hypotheses met: setting an empty message in `demo`. -/
example : Reach testSchema demo ∧ (∃ m', demo.setMessage Rt.exact 17 (Msg.zero 35) = .ok m') ∧
    (Msg.zero 35).encode.data = [] := ⟨demo_reach, ⟨_, rfl⟩, rfl⟩

end Zeropb
