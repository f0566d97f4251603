import Verif.Props.Decode
set_option linter.unusedSimpArgs false
set_option linter.unusedVariables false
/-!
# What setters do to the bytes (C21 – C23, C28, C30, C34)
-/

namespace Zeropb
open Wire

/-! ## Segments and chunks -/

def Chunk.seg (c : Chunk) : Record × List Byte := (c.record, c.bytes)

theorem flat_eq_segs (cs : List Chunk) : flat cs = ((cs.map Chunk.seg).map Prod.snd).flatten := by
  induction cs with
  | nil => rfl
  | cons c cs ih => rw [flat_cons, ih]; rfl

theorem isSegmented_iff {segs : List (Record × List Byte)} {bs : List Byte} :
    IsSegmented segs bs ↔ ∃ cs, flat cs = bs ∧ (∀ c ∈ cs, c.WF) ∧ cs.map Chunk.seg = segs := by
  constructor
  · rintro ⟨h1, rfl⟩
    induction segs with
    | nil => exact ⟨[], rfl, by simp, rfl⟩
    | cons s segs ih =>
      obtain ⟨cs, e1, e2, e3⟩ := ih (fun s hs => h1 s (by simp [hs]))
      obtain ⟨tag, pay, r1, r2, r3⟩ := h1 s (by simp)
      refine ⟨⟨s.1.num, s.1.val, tag, pay⟩ :: cs, ?_, ?_, ?_⟩
      · rw [flat_cons, e1]; simp [Chunk.bytes, r1]
      · intro c hc
        simp only [List.mem_cons] at hc
        rcases hc with rfl | hc
        · exact ⟨r2, r3⟩
        · exact e2 c hc
      · rw [List.map_cons, e3]
        obtain ⟨r, b⟩ := s
        simp only [Chunk.seg, Chunk.record, Chunk.bytes] at r1 ⊢
        rw [← r1]
  · rintro ⟨cs, rfl, h2, rfl⟩
    refine ⟨?_, flat_eq_segs cs⟩
    intro s hs
    simp only [List.mem_map] at hs
    obtain ⟨c, hc, rfl⟩ := hs
    exact ⟨c.tag, c.pay, rfl, (h2 c hc).tag, (h2 c hc).pay⟩

theorem Chunk.minTag_iff {c : Chunk} (h : c.WF) : IsMinTagRecord c.record c.bytes ↔ c.MinTag := by
  constructor
  · rintro ⟨tag, pay, h1, h2, h3⟩
    have := varint_prefix_unique h.tag h2.1 h1
    unfold Chunk.MinTag
    rw [this.2.1]; exact h2
  · intro hm; exact ⟨c.tag, c.pay, rfl, hm, h.pay⟩

theorem seg_filter (p : Nat → Bool) (cs : List Chunk) :
    (cs.map Chunk.seg).filter (fun s => p s.1.num) = (cs.filter (fun c => p c.num)).map Chunk.seg := by
  rw [List.filter_map]; rfl

theorem seg_records (cs : List Chunk) : (cs.map Chunk.seg).map Prod.fst = records cs := by
  simp [records, Chunk.seg]

/-- The chunks of a readable message are determined by its bytes. -/
theorem _root_.Zeropb.Readable.segs {S : Schema} {m : Msg} (h : Readable S m) {segs} (hs : IsSegmented segs m.encode.data) :
    ∃ cs, Rep S.n S.rep m.buf m.off cs ∧ cs.map Chunk.seg = segs ∧ WellTyped S (Zeropb.records cs) := by
  obtain ⟨rs, ⟨cs, h1, rfl⟩, h2⟩ := h.holds
  obtain ⟨ds, d1, d2, d3⟩ := isSegmented_iff.1 hs
  have : ds = cs := flat_injective d2 h1.wf (by rw [d1, ← h1.data]; rfl)
  subst this
  exact ⟨ds, h1, d3, h2⟩

/-! ## Lengths of shortest encodings -/

theorem varintLen_eq (n v : Nat) (h1 : n = 0 ∨ 128 ^ n ≤ v) (h2 : v < 128 ^ (n + 1)) : varintLen v = n + 1 := by
  induction n generalizing v with
  | zero => unfold varintLen; rw [if_pos (by simpa using h2)]
  | succ n ih =>
    have h1' : 128 ^ (n + 1) ≤ v := by
      rcases h1 with h | h
      · omega
      · exact h
    have e1 : 128 ^ (n + 1) = 128 ^ n * 128 := by rw [Nat.pow_succ]
    have e2 : 128 ^ (n + 1 + 1) = 128 ^ (n + 1) * 128 := by rw [Nat.pow_succ]
    have hp : 0 < 128 ^ n := Nat.pow_pos (by omega)
    unfold varintLen
    rw [if_neg (by omega), ih (v / 128) (Or.inr (by omega)) (by omega)]

theorem _root_.Zeropb.Wire.IsMinVarint.length_eq {v : Nat} {bs : List Byte} (h : IsMinVarint v bs) : bs.length = varintLen v := by
  have hpos := h.1.length_pos
  have hup := h.1.upper
  obtain ⟨n, hn⟩ : ∃ n, bs.length = n + 1 := ⟨bs.length - 1, by omega⟩
  rw [varintLen_eq n v ?_ (by rw [← hn]; exact hup), hn]
  rcases Nat.eq_zero_or_pos n with h0 | h0
  · exact Or.inl h0
  · right
    have := h.lower (by omega)
    rwa [hn] at this

theorem IsMinPayload.length_eq {v : Val} {p : List Byte} (h : IsMinPayload v p) : p.length = valLen v := by
  cases v with
  | varint u => exact Wire.IsMinVarint.length_eq h
  | fixed64 u => rw [show p = _ from h, leBytes_length]; rfl
  | fixed32 u => rw [show p = _ from h, leBytes_length]; rfl
  | bytes bs =>
    obtain ⟨lb, h1, rfl⟩ := h
    rw [List.length_append, h1.length_eq]; rfl

theorem min_length {c : Chunk} (ht : c.MinTag) (hp : IsMinPayload c.val c.pay) : c.bytes.length = recordLen c.record := by
  rw [Chunk.bytes_length, Wire.IsMinVarint.length_eq ht, hp.length_eq]; rfl

/-! ## C30, C28: setters on the bytes -/

/-- The last record of field `f`, if it occurs, has its tag in the shortest encoding. -/
def LastTagMinimal (f : Nat) (segs : List (Record × List Byte)) : Prop :=
  ∀ s, (segs.filter (fun s => s.1.num = f)).getLast? = some s → IsMinTagRecord s.1 s.2

theorem LastTagMinimal.chunk {f : Nat} {cs : List Chunk} (hwf : ∀ c ∈ cs, c.WF) (h : LastTagMinimal f (cs.map Chunk.seg))
    {c : Chunk} (hc : lastChunk f cs = some c) : c.MinTag := by
  have hmem : c ∈ cs := (List.mem_filter.1 (List.mem_of_getLast? hc)).1
  have := h c.seg (by
    rw [seg_filter (fun n => decide (n = f)), List.getLast?_map]
    unfold lastChunk at hc
    rw [hc]; rfl)
  exact (Chunk.minTag_iff (hwf c hmem)).1 this

/-- The effect of a setter on the bytes: the records of all other fields stay, byte for byte and in
order; of the field itself the last record is replaced by the new one. -/
theorem C28_set_bytes {S : Schema} {m : Msg} (h : Readable S m) {segs : List (Record × List Byte)}
    (hs : IsSegmented segs m.encode.data) (rt : Rt) {f : Nat} {k : Kind} (hk : S.kind f = some k) (hr : S.rep f = false)
    (hmin : LastTagMinimal f segs) (x : k.Ty) (hx : k.size x < maxLen) :
    (∃ m' segs' bs, m.set rt k f x = .ok m' ∧ IsSegmented segs' m'.encode.data ∧
      segs'.filter (fun s => s.1.num ≠ f) = segs.filter (fun s => s.1.num ≠ f) ∧
      IsMinTagRecord ⟨f, encodeVal k x⟩ bs ∧
      segs'.filter (fun s => s.1.num = f) = (segs.filter (fun s => s.1.num = f)).dropLast ++ [(⟨f, encodeVal k x⟩, bs)]) ∨
    (m.set rt k f x = .error .lenOutOfRange ∧ maxLen ≤ m.encode.len + 20 + k.size x) := by
  obtain ⟨cs, h1, rfl, hw⟩ := h.segs hs
  have hf := S.kind_lt f (by rw [hk]; simp)
  obtain ⟨new, n1, n2, n3, n4, n5, n6⟩ := set_chunks rt h1 hf hr k x hx (fun c hc =>
    ⟨hw.last hk (by rw [lastVal_records, hc]; rfl), hmin.chunk h1.wf hc⟩)
  have hle := flat_setChunks_length_le new cs
  have hnl := new_length_le n3 n4
  rw [← h1.data] at hle
  have hnr : new.record = ⟨f, encodeVal k x⟩ := by rw [Chunk.record, n1, n2]
  by_cases hlen : (flat (setChunks new cs)).length < maxLen
  · left
    obtain ⟨m', a1, a2, a3, a4, _⟩ := n5 hlen
    have hnw : new.WF := a3.wf new (by
      have := lastChunk_setChunks new cs
      exact (List.mem_filter.1 (List.mem_of_getLast? this)).1)
    refine ⟨m', (setChunks new cs).map Chunk.seg, new.bytes, a1, isSegmented_iff.2 ⟨_, a2.symm, a3.wf, rfl⟩, ?_, ?_, ?_⟩
    · rw [seg_filter (fun n => decide (n ≠ f)), seg_filter (fun n => decide (n ≠ f)), ← n1, setChunks_others]
    · rw [← hnr]; exact (Chunk.minTag_iff hnw).2 n3
    · rw [seg_filter (fun n => decide (n = f)), seg_filter (fun n => decide (n = f)), ← n1, setChunks_filter_eq,
        List.map_append, List.map_dropLast, n1, ← hnr]
      rfl
  · right
    exact ⟨n6 (by omega), by unfold Msg.encode Slice.len; omega⟩

/-- C28, `AppendTo`: all bytes stay, one record is appended. -/
theorem C28_append_bytes {S : Schema} {m : Msg} (h : Readable S m) (rt : Rt) {f : Nat} (hk : S.kind f = some .bytes)
    (hr : S.rep f = true) (x : List Byte) (hx : x.length < maxLen) :
    (∃ m' bs, m.appendRaw rt f x = .ok m' ∧ m'.encode.data = m.encode.data ++ bs ∧ IsMinTagRecord ⟨f, .bytes x⟩ bs) ∨
    (m.appendRaw rt f x = .error .lenOutOfRange ∧ maxLen ≤ m.encode.len + 20 + x.length) := by
  obtain ⟨rs, ⟨cs, h1, rfl⟩, h2⟩ := h.holds
  have hf := S.kind_lt f (by rw [hk]; simp)
  obtain ⟨new, n1, n2, n3, n4, n5, n6⟩ := append_chunks rt h1 hf hr x hx
  have hle : (flat (cs ++ [new])).length = m.buf.data.length + new.bytes.length := by rw [h1.data]; simp
  have hnl : new.bytes.length ≤ 20 + x.length := new_length_le (k := .bytes) (x := x) n3 n4
  by_cases hlen : (flat (cs ++ [new])).length < maxLen
  · left
    obtain ⟨m', a1, a2, a3, a4⟩ := n5 hlen
    refine ⟨m', new.bytes, a1, ?_, ?_⟩
    · unfold Msg.encode; rw [a2, h1.data]; simp
    · have hnr : new.record = ⟨f, .bytes x⟩ := by rw [Chunk.record, n1, n2]
      rw [← hnr]; exact (Chunk.minTag_iff (a3.wf new (by simp))).2 n3
  · right
    exact ⟨n6 (by omega), by unfold Msg.encode Slice.len; omega⟩

/-- C28: records of undeclared numbers within the table are kept byte for byte, in order, by every
setter and by every `AppendTo`. -/
theorem C28_unknown_kept {S : Schema} {m m' : Msg} (h : Readable S m) {segs : List (Record × List Byte)}
    (hs : IsSegmented segs m.encode.data) :
    (∀ (rt : Rt) (f : Nat) (k : Kind) (x : k.Ty), S.kind f = some k → S.rep f = false → LastTagMinimal f segs →
      k.size x < maxLen → m.set rt k f x = .ok m' → ∃ segs', IsSegmented segs' m'.encode.data ∧
        segs'.filter (fun s => S.kind s.1.num = none) = segs.filter (fun s => S.kind s.1.num = none)) ∧
    (∀ (rt : Rt) (f : Nat) (x : List Byte), S.kind f = some .bytes → S.rep f = true →
      x.length < maxLen → m.appendRaw rt f x = .ok m' → ∃ segs', IsSegmented segs' m'.encode.data ∧
        segs'.filter (fun s => S.kind s.1.num = none) = segs.filter (fun s => S.kind s.1.num = none)) := by
  constructor
  · intro rt f k x hk hr hmin hx he
    rcases C28_set_bytes h hs rt hk hr hmin x hx with ⟨m1, segs', bs, e1, e2, e3, _⟩ | ⟨e1, _⟩
    · rw [e1] at he
      simp only [Except.ok.injEq] at he
      subst he
      refine ⟨segs', e2, ?_⟩
      have key : ∀ l : List (Record × List Byte), l.filter (fun s => S.kind s.1.num = none) =
          (l.filter (fun s => s.1.num ≠ f)).filter (fun s => S.kind s.1.num = none) := by
        intro l
        rw [List.filter_filter]
        congr 1
        funext s
        by_cases hsf : s.1.num = f
        · simp [hsf, hk]
        · simp [hsf]
      rw [key segs', e3, ← key]
    · rw [e1] at he; simp at he
  · intro rt f x hk hr hx he
    rcases C28_append_bytes h rt hk hr x hx with ⟨m1, bs, e1, e2, e3⟩ | ⟨e1, _⟩
    · rw [e1] at he
      simp only [Except.ok.injEq] at he
      subst he
      refine ⟨segs ++ [(⟨f, .bytes x⟩, bs)], ⟨?_, ?_⟩, ?_⟩
      · intro s hs'
        simp only [List.mem_append, List.mem_singleton] at hs'
        rcases hs' with hs' | rfl
        · exact hs.1 s hs'
        · obtain ⟨tag, pay, r1, r2, r3⟩ := e3; exact ⟨tag, pay, r1, r2.1, r3⟩
      · rw [e2, hs.2]; simp
      · simp [List.filter_append, hk]
    · rw [e1] at he; simp at he

/-- C30, what holds: on any message decoded from valid bytes, a setter whose field last occurs with a
shortest tag (or does not occur) returns, sets its field, and changes no other. -/
theorem C30_safe {S : Schema} {m : Msg} (h : Readable S m) {segs : List (Record × List Byte)}
    (hs : IsSegmented segs m.encode.data) (rt : Rt) {f : Nat} {k : Kind} (hk : S.kind f = some k) (hr : S.rep f = false)
    (hmin : LastTagMinimal f segs) (x : k.Ty) (hx : m.encode.len + 20 + k.size x < maxLen) :
    ∃ m', m.set rt k f x = .ok m' ∧ m'.get k f = .ok x ∧
      ∀ g k', g ≠ f → S.kind g = some k' →
        (S.rep g = false → m'.get k' g = m.get k' g ∧ (k' = .bytes → bytesOf m' g = bytesOf m g)) ∧
        (S.rep g = true → ∀ els, Elems m' g els ↔ Elems m g els) := by
  obtain ⟨cs, h1, rfl, hw⟩ := h.segs hs
  have hf := S.kind_lt f (by rw [hk]; simp)
  obtain ⟨new, n1, n2, n3, n4, n5, n6⟩ := set_chunks rt h1 hf hr k x (by omega) (fun c hc =>
    ⟨hw.last hk (by rw [lastVal_records, hc]; rfl), hmin.chunk h1.wf hc⟩)
  have hle := flat_setChunks_length_le new cs
  have hnl := new_length_le n3 n4
  rw [← h1.data] at hle
  unfold Msg.encode Slice.len at hx
  obtain ⟨m', a1, a2, a3, a4, _⟩ := n5 (by omega)
  have e4 : (records (setChunks new cs)).filter (fun r => r.num ≠ f) = (records cs).filter (fun r => r.num ≠ f) := by
    rw [records_filter_ne, records_filter_ne, ← n1, setChunks_others]
  have e5 : ∀ r ∈ records (setChunks new cs), r = ⟨f, encodeVal k x⟩ ∨ r ∈ records cs := by
    intro r hr
    simp only [records, List.mem_map] at hr ⊢
    obtain ⟨c, hc, rfl⟩ := hr
    rcases mem_setChunks hc with rfl | hc
    · left; simp [Chunk.record, n1, n2]
    · right; exact ⟨c, hc, rfl⟩
  have hA : Holds S m (records cs) := ⟨cs, h1, rfl⟩
  have hB : Holds S m' (records (setChunks new cs)) := ⟨_, a3, rfl⟩
  refine ⟨m', a1, hB.get hk hr ?_, ?_⟩
  · rw [lastVal_records, ← n1, lastChunk_setChunks]; simp only [Option.map_some, n2]; exact decodeVal_encodeVal k x
  · intro g k' hg hk'
    have a := (hA.agrees hw) g k' hk'
    have b := (hB.agrees (hw.set hk x e5)) g k' hk'
    have s1 : (Contents.ofRecords (records (setChunks new cs))).sing g = (Contents.ofRecords (records cs)).sing g :=
      lastVal_of_filter_ne hg e4
    have s2 : (Contents.ofRecords (records (setChunks new cs))).elems g = (Contents.ofRecords (records cs)).elems g := by
      simp only [Contents.ofRecords]; rw [allVals_of_filter_ne hg e4]
    rw [s1, s2] at b
    constructor
    · intro hrg
      obtain ⟨⟨x1, p1, p2⟩, p3⟩ := a.1 hrg
      obtain ⟨⟨y1, q1, q2⟩, q3⟩ := b.1 hrg
      rw [p1] at q1
      simp only [Option.some.injEq] at q1
      subst q1
      exact ⟨by rw [p2, q2], fun hb => by rw [p3 hb, q3 hb]⟩
    · intro hrg els
      have a2 := a.2 hrg
      have b2 := b.2 hrg
      constructor
      · intro he; rw [he.unique b2]; exact a2
      · intro he; rw [he.unique a2]; exact b2

/-- Run `FindNextField` for a bounded number of iterations. -/
theorem findNextField_of_run {b : Slice} {f n : Nat} {next : Option Slice} {msg : Slice}
    (h1 : b.range (uvarint b.data).2 (addInt (uvarint b.data).2 (u64ToInt (uvarint b.data).1)) = .ok msg)
    (h2 : run (findStep b f) n (addInt (uvarint b.data).2 (u64ToInt (uvarint b.data).1)) = some (.ok next)) :
    findNextField (some b) f = .ok (next, some msg) := by
  simp only [findNextField, h1, iterate_of_run h2, bind, Except.bind]
  rfl

/-- A valid message in which the tag of field 2 is written in two bytes. -/
def paddedBytes : List Byte := [0x92#8, 0x02#8, 0x00#8] ++ ([0x90#8, 0x00#8, 0x05#8] ++ [0x92#8, 0x02#8, 0x00#8])

def paddedSegs : List (Record × List Byte) :=
  [(⟨34, .bytes []⟩, [0x92#8, 0x02#8, 0x00#8]), (⟨2, .varint 5#64⟩, [0x90#8, 0x00#8, 0x05#8]),
   (⟨34, .bytes []⟩, [0x92#8, 0x02#8, 0x00#8])]

theorem padded_segmented : IsSegmented paddedSegs paddedBytes := by
  refine ⟨?_, rfl⟩
  have h34 : IsRecord ⟨34, .bytes []⟩ [0x92#8, 0x02#8, 0x00#8] :=
    ⟨[0x92#8, 0x02#8], [0x00#8], rfl, ⟨[0x92#8], 0x02#8, rfl, by decide, by decide, by decide, by decide, by decide⟩,
      [0x00#8], ⟨[], 0x00#8, rfl, by simp, by decide, by decide, by decide, by decide⟩, rfl⟩
  intro s hs
  simp only [paddedSegs, List.mem_cons, List.not_mem_nil, or_false] at hs
  rcases hs with rfl | rfl | rfl
  · exact h34
  · exact ⟨[0x90#8, 0x00#8], [0x05#8], rfl, ⟨[0x90#8], 0x00#8, rfl, by decide, by decide, by decide, by decide, by decide⟩,
      ⟨[], 0x05#8, rfl, by simp, by decide, by decide, by decide, by decide⟩⟩
  · exact h34

/-- The struct after `Decode` of these bytes. -/
def padded : Msg := ⟨⟨paddedBytes, []⟩, ⟨((List.replicate 35 0#16).set 34 2#16).set 2 5#16, none⟩⟩

theorem padded_decode : (Msg.zero testSchema.n).decode testSchema.rep ⟨paddedBytes, []⟩ = .ok (padded, none) :=
  Msg.decode_of_run (n := 4) (by decide +kernel)

theorem isMessage_of_segmented {segs : List (Record × List Byte)} {bs : List Byte} (h : IsSegmented segs bs) :
    IsMessage (segs.map Prod.fst) bs := by
  obtain ⟨cs, h1, h2, rfl⟩ := isSegmented_iff.1 h
  rw [seg_records]
  exact isMessage_iff.2 ⟨cs, h1, h2, rfl⟩

theorem padded_readable : Readable testSchema padded := by
  refine .decode (m0 := Msg.zero testSchema.n) rfl (by decide) (isMessage_of_segmented padded_segmented) ?_ padded_decode
  intro r hr
  simp only [paddedSegs, List.map_cons, List.map_nil, List.mem_cons, List.not_mem_nil, or_false] at hr
  rcases hr with rfl | rfl | rfl <;>
    exact ⟨by decide, fun k hk => by simp [testSchema, testKind] at hk; subst hk; exact ⟨_, rfl⟩⟩

/-- C30, refutation of the unrestricted claim: overwriting field 2 of this message with a value of another length
leaves a byte of the old tag behind, and the second element of the repeated field disappears. -/
theorem C30_false : Readable testSchema padded ∧ Elems padded 34 [[], []] ∧
    ∃ m', padded.set Rt.exact .int32 2 300#32 = .ok m' ∧ Elems m' 34 [[]] := by
  refine ⟨padded_readable, ?_, ?_⟩
  · refine ⟨fun i => match i with
      | 0 => some ⟨[0x00#8, 0x90#8, 0x00#8, 0x05#8, 0x92#8, 0x02#8, 0x00#8], []⟩
      | 1 => some ⟨[0x00#8], []⟩
      | _ => none, rfl, ?_, ?_⟩
    · intro i hi
      match i, hi with
      | 0, _ =>
        refine ⟨[0x90#8, 0x00#8, 0x05#8, 0x92#8, 0x02#8, 0x00#8], ?_⟩
        exact findNextField_of_run (n := 5) (msg := ⟨[], _⟩) (by decide +kernel) (by decide +kernel)
      | 1, _ =>
        refine ⟨[], ?_⟩
        exact findNextField_of_run (n := 5) (msg := ⟨[], _⟩) (by decide +kernel) (by decide +kernel)
    · intro i hi
      match i, hi with
      | i + 2, _ => rfl
  · refine ⟨⟨⟨[0x92#8, 0x02#8, 0x00#8, 0x90#8, 0x92#8, 0x02#8, 0x00#8, 0x10#8, 0xac#8, 0x02#8], []⟩,
      ⟨((List.replicate 35 0#16).set 34 2#16).set 2 8#16, none⟩⟩, by decide +kernel, ?_⟩
    refine ⟨fun i => match i with
      | 0 => some ⟨[0x00#8, 0x90#8, 0x92#8, 0x02#8, 0x00#8, 0x10#8, 0xac#8, 0x02#8], []⟩
      | _ => none, rfl, ?_, ?_⟩
    · intro i hi
      match i, hi with
      | 0, _ =>
        refine ⟨[0x90#8, 0x92#8, 0x02#8, 0x00#8, 0x10#8, 0xac#8, 0x02#8], ?_⟩
        exact findNextField_of_run (n := 5) (msg := ⟨[], _⟩) (by decide +kernel) (by decide +kernel)
    · intro i hi
      match i, hi with
      | i + 1, _ => rfl

/-- Hypotheses of `C30_safe` and `C28_unknown_kept` met: in the same message, a field other than 2. -/
example : Readable testSchema padded ∧ IsSegmented paddedSegs padded.encode.data ∧ LastTagMinimal 3 paddedSegs ∧
    ¬ LastTagMinimal 2 paddedSegs := by
  refine ⟨padded_readable, padded_segmented, ?_, ?_⟩
  · intro s hs; simp [paddedSegs] at hs
  · intro h
    obtain ⟨tag, pay, h1, h2, h3⟩ := h (⟨2, .varint 5#64⟩, [0x90#8, 0x00#8, 0x05#8]) rfl
    have hv : IsVarint 16 [0x90#8, 0x00#8] := ⟨[0x90#8], 0x00#8, rfl, by decide, by decide, by decide, by decide, by decide⟩
    have := varint_prefix_unique (r := pay) (r' := [0x05#8]) h2.1 hv (by rw [← h1]; rfl)
    rw [this.2.1] at h2
    rcases h2.2 with h | h <;> simp at h

/-! ## C21 -/

/-- The record a setter writes is determined by field and value. -/
theorem new_unique {k : Kind} {x : k.Ty} {a b : Chunk} (h1 : a.num = b.num) (h2 : a.val = encodeVal k x) (h3 : b.val = encodeVal k x)
    (ta : a.MinTag) (tb : b.MinTag) (pa : IsMinPayload (encodeVal k x) a.pay) (pb : IsMinPayload (encodeVal k x) b.pay) : a = b := by
  have ht : a.tag = b.tag := by
    unfold Chunk.MinTag Chunk.tagNum at ta tb
    rw [h1, h2] at ta
    rw [h3] at tb
    exact ta.unique tb
  have hp := pa.unique pb
  cases a; cases b
  simp_all

/-- C21: calling the same setter again with the same value returns the very same struct: same bytes,
same spare capacity, same offsets. -/
theorem C21_idempotent {S : Schema} {m m1 : Msg} (h : Reach S m) {rt : Rt} (rt' : Rt) {f : Nat} {k : Kind} {x : k.Ty}
    (hk : S.kind f = some k) (hr : S.rep f = false) (hx : k.size x < maxLen) (hs : m.set rt k f x = .ok m1) :
    m1.set rt' k f x = .ok m1 := by
  obtain ⟨rs, ⟨cs, h1, h2, rfl⟩, hw⟩ := h.holds
  have hf := S.kind_lt f (by rw [hk]; simp)
  obtain ⟨new, n1, n2, n3, n4, n5, n6⟩ := set_chunks rt h1 hf hr k x hx (fun c hc =>
    ⟨hw.last hk (by rw [lastVal_records, hc]; rfl), h2 c (List.mem_filter.1 (List.mem_of_getLast? hc)).1⟩)
  rcases Nat.lt_or_ge (flat (setChunks new cs)).length maxLen with hlt | hge
  · obtain ⟨m', a1, a2, a3, _⟩ := n5 hlt
    rw [a1] at hs
    simp only [Except.ok.injEq] at hs
    subst hs
    have hlast : lastChunk f (setChunks new cs) = some new := by rw [← n1]; exact lastChunk_setChunks new cs
    obtain ⟨new', p1, p2, p3, p4, p5, p6⟩ := set_chunks rt' a3 hf hr k x hx (by
      intro c hc
      rw [hlast] at hc
      simp only [Option.some.injEq] at hc
      subst hc
      exact ⟨by rw [n2, wireType_encodeVal], n3⟩)
    have hnn : new' = new := new_unique (by rw [p1, n1]) p2 n2 p3 n3 p4 n4
    subst hnn
    have hsame : setChunks new' (setChunks new' cs) = setChunks new' cs := by
      have hmem : ∃ c ∈ setChunks new' cs, c.num = new'.num :=
        ⟨new', (List.mem_filter.1 (List.mem_of_getLast? hlast)).1, rfl⟩
      obtain ⟨pre, c, post, e1, e2, e3⟩ := exists_last hmem
      have : c = new' := by
        rw [e1] at hlast
        rw [← n1, lastChunk_eq e2 e3] at hlast
        exact Option.some.inj hlast
      subst this
      conv => lhs; rw [e1]
      unfold setChunks at e1 ⊢
      rw [splitLast_some e2 e3]
      simp only [if_true]
      exact e1.symm
    rw [hsame] at p5
    obtain ⟨m2, b1, b2, b3, _, b5⟩ := p5 hlt
    obtain ⟨c1, c2⟩ := b5 new' hlast rfl
    rw [b1]
    congr 1
    cases m2 with
    | mk b o =>
      cases m' with
      | mk b' o' =>
        cases b; cases b'
        simp_all
  · rw [n6 hge] at hs; simp at hs

/-- Hypotheses met: the last call that made `demo`. -/
example : demo.set Rt.exact .int32 2 7#32 = .ok demo := rfl

/-- C21: overwriting a value by one whose encoding has the same length changes the bytes of that
value only; spare capacity and offsets are untouched. -/
theorem C21_same_length {S : Schema} {m : Msg} (h : Reach S m) (rt : Rt) {f : Nat} {k : Kind} (x : k.Ty)
    (hk : S.kind f = some k) (hr : S.rep f = false) (hx : k.size x < maxLen) {segs : List (Record × List Byte)}
    (hs : IsSegmented segs m.encode.data) {s : Record × List Byte}
    (hlast : (segs.filter (fun s => s.1.num = f)).getLast? = some s)
    (hlen : s.2.length = recordLen ⟨f, encodeVal k x⟩) :
    ∃ A tag old new B, m.encode.data = A ++ (tag ++ old) ++ B ∧ s.2 = tag ++ old ∧
      IsPayload s.1.val old ∧ IsPayload (encodeVal k x) new ∧ new.length = old.length ∧
      m.set rt k f x = .ok ⟨⟨A ++ (tag ++ new) ++ B, m.buf.spare⟩, m.off⟩ := by
  obtain ⟨rs, ⟨cs, h1, h2, rfl⟩, hw⟩ := h.holds
  have hf := S.kind_lt f (by rw [hk]; simp)
  have hcs : cs.map Chunk.seg = segs := by
    obtain ⟨ds, d1, d2, d3⟩ := isSegmented_iff.1 hs
    have : ds = cs := flat_injective d2 h1.wf (by rw [d1, ← h1.data]; rfl)
    rw [← this]; exact d3
  subst hcs
  rw [seg_filter (fun n => decide (n = f)), List.getLast?_map] at hlast
  obtain ⟨c, hc, rfl⟩ := Option.map_eq_some_iff.1 hlast
  have hlc : lastChunk f cs = some c := hc
  have hmem := (List.mem_filter.1 (List.mem_of_getLast? hc)).1
  have hwt : c.val.wireType = k.wt := hw.last hk (by rw [lastVal_records, hlc]; rfl)
  obtain ⟨new, n1, n2, n3, n4, n5, n6⟩ := set_chunks rt h1 hf hr k x hx (fun c' hc' => by
    rw [hlc] at hc'
    simp only [Option.some.injEq] at hc'
    subst hc'
    exact ⟨hwt, h2 c hmem⟩)
  have hcn : c.num = f := by simpa using (List.mem_filter.1 (List.mem_of_getLast? hc)).2
  have htag : c.tag = new.tag := by
    have a := h2 c hmem
    have b := n3
    unfold Chunk.MinTag Chunk.tagNum at a b
    rw [n1, n2, wireType_encodeVal] at b
    rw [hcn, hwt] at a
    exact a.unique b
  have hpay : c.pay.length = new.pay.length := by
    have hnr : new.record = ⟨f, encodeVal k x⟩ := by rw [Chunk.record, n1, n2]
    have : new.bytes.length = recordLen new.record := min_length n3 (by rw [n2]; exact n4)
    rw [hnr, ← hlen] at this
    simp only [Chunk.seg, Chunk.bytes_length, htag] at this
    omega
  obtain ⟨pre, c', post, e1, e2, e3⟩ := exists_last ⟨c, hmem, hcn⟩
  have : c' = c := by
    rw [e1, lastChunk_eq e2 e3] at hlc
    exact Option.some.inj hlc
  subst this
  have hset : setChunks new cs = pre ++ new :: post := by
    unfold setChunks
    rw [e1, n1, splitLast_some e2 e3]
    simp only [hpay, if_true]
  have hsl : (flat (setChunks new cs)).length = (flat cs).length := by
    rw [hset, e1]
    simp only [flat_append, flat_cons, List.length_append, Chunk.bytes_length, htag, hpay]
  have hml := h1.len
  rw [h1.data] at hml
  obtain ⟨m', a1, a2, a3, _, a5⟩ := n5 (by omega)
  obtain ⟨b1, b2⟩ := a5 c' hlc hpay
  refine ⟨flat pre, c'.tag, c'.pay, new.pay, flat post, ?_, rfl, (h1.wf c' hmem).pay, n4.isPayload, hpay.symm, ?_⟩
  · show m.buf.data = _
    rw [h1.data, e1]; simp [Chunk.bytes]
  · rw [a1, ← b1, ← b2]
    congr 1
    cases m' with
    | mk b o =>
      cases b
      simp only at a2 ⊢
      rw [a2, hset]
      simp [Chunk.bytes, htag]

/-- Hypotheses met: field 2 of `demo` by another one-byte value. -/
example : (([(⟨14, .bytes [0x68#8, 0x69#8]⟩, [0x72#8, 0x02#8, 0x68#8, 0x69#8]), (⟨34, .bytes []⟩, [0x92#8, 0x02#8, 0x00#8]),
    (⟨2, .varint 7#64⟩, [0x10#8, 0x07#8])] : List (Record × List Byte)).filter (fun s => s.1.num = 2)).getLast? =
      some (⟨2, .varint 7#64⟩, [0x10#8, 0x07#8]) ∧
    recordLen ⟨2, encodeVal .int32 5#32⟩ = 2 ∧
    demo.set Rt.exact .int32 2 5#32 = .ok ⟨⟨demo.buf.data.dropLast ++ [0x05#8], demo.buf.spare⟩, demo.off⟩ := by
  refine ⟨rfl, ?_, rfl⟩
  simp [recordLen, encodeVal, valLen, varintLen, Val.wireType]

/-! ## C22 -/

/-- C22: setting two different fields in either order gives structs that cannot be told apart. -/
theorem C22_commute {S : Schema} {m m1 m12 m2 m21 : Msg} (h : Reach S m) {r1 r2 r3 r4 : Rt} {f g : Nat} {k l : Kind}
    {x : k.Ty} {y : l.Ty} (hfg : f ≠ g) (hk : S.kind f = some k) (hl : S.kind g = some l) (hf : S.rep f = false)
    (hg : S.rep g = false) (hx : k.size x < maxLen) (hy : l.size y < maxLen)
    (e1 : m.set r1 k f x = .ok m1) (e12 : m1.set r2 l g y = .ok m12)
    (e2 : m.set r3 l g y = .ok m2) (e21 : m2.set r4 k f x = .ok m21) : SameFields S m12 m21 := by
  obtain ⟨rs, h1, h2⟩ := h.holds
  have ht : Tracks S m rs ⟨fun f => lastVal f rs, fun f => (allVals f rs).filterMap (fun v => match v with | .bytes b => some b | _ => none), fun f => allVals f rs⟩ := by
    refine ⟨h1, h2, fun _ _ => rfl, ?_, fun _ _ => rfl⟩
    intro f' hr' hk'
    obtain ⟨els, he⟩ := h2.elems hk'
    simp only [he]
    exact congrArg _ (filterMap_bytes els).symm
  generalize hc : (⟨fun f => lastVal f rs, fun f => (allVals f rs).filterMap (fun v => match v with | .bytes b => some b | _ => none), fun f => allVals f rs⟩ : Contents) = c at ht
  have step : ∀ {m m' : Msg} {rs : List Record} {c : Contents} {rt : Rt} {f : Nat} {k : Kind} {x : k.Ty}, Tracks S m rs c →
      S.kind f = some k → S.rep f = false → k.size x < maxLen → m.set rt k f x = .ok m' →
      ∃ rs', Tracks S m' rs' (c.set f (encodeVal k x)) := by
    intro m m' rs c rt f k x ht hk hf hx he
    rcases ht.step (.set rt f k x) ⟨hk, hf, hx⟩ with ⟨m2, rs2, a1, a2, _⟩ | ⟨a1, _⟩
    · have : m.set rt k f x = .ok m2 := a1
      rw [this] at he
      simp only [Except.ok.injEq] at he
      subst he
      exact ⟨rs2, a2⟩
    · have : m.set rt k f x = .error .lenOutOfRange := a1
      rw [this] at he; simp at he
  obtain ⟨_, t1⟩ := step ht hk hf hx e1
  obtain ⟨_, t12⟩ := step t1 hl hg hy e12
  obtain ⟨_, t2⟩ := step ht hl hg hy e2
  obtain ⟨_, t21⟩ := step t2 hk hf hx e21
  refine Agrees.same t12.agrees (t21.agrees.congr ?_ ?_)
  · intro n
    simp only [Contents.set]
    by_cases h1 : n = f <;> by_cases h2 : n = g <;> simp [h1, h2, hfg, Ne.symm hfg]
  · intro n _; rfl

/-- Hypotheses met; and the bytes do differ. -/
example : ∃ m1 m12 m2 m21, (Msg.zero 35).set Rt.exact .int32 2 7#32 = .ok m1 ∧ m1.set Rt.exact .bool 1 true = .ok m12 ∧
    (Msg.zero 35).set Rt.exact .bool 1 true = .ok m2 ∧ m2.set Rt.exact .int32 2 7#32 = .ok m21 ∧
    m12.encode.data ≠ m21.encode.data := ⟨_, _, _, _, rfl, rfl, rfl, rfl, by decide⟩

/-! ## C23 -/

/-- Messages built from empty by setters and `AppendTo` (no `Decode`). -/
inductive Built (S : Schema) : Msg → Prop where
  | zero : Built S (Msg.zero S.n)
  | reset {m0 m : Msg} {buf : Slice} : m0.off.a.length = S.n → m0.reset buf = .ok m → Built S m
  | set {m m' : Msg} {rt : Rt} {f : Nat} {k : Kind} {x : k.Ty} : Built S m → S.kind f = some k → S.rep f = false → k.size x < maxLen →
      m.set rt k f x = .ok m' → Built S m'
  | append {m m' : Msg} {rt : Rt} {f : Nat} {x : List Byte} : Built S m → S.kind f = some .bytes → S.rep f = true → x.length < maxLen →
      m.appendRaw rt f x = .ok m' → Built S m'

theorem Built.reach {S m} (h : Built S m) : Reach S m := by
  induction h with
  | zero => exact .zero
  | reset h1 h2 => exact .reset h1 h2
  | set _ a b c d ih => exact .set ih a b c d
  | append _ a b c d ih => exact .append ih a b c d

theorem Built.chunks {S m} (h : Built S m) : ∃ cs, Rep S.n S.rep m.buf m.off cs ∧ WellTyped S (Zeropb.records cs) ∧
    (∀ c ∈ cs, c.MinTag ∧ IsMinPayload c.val c.pay) ∧
    ∀ f, S.rep f = false → (cs.filter (fun c => c.num = f)).length ≤ 1 := by
  induction h with
  | zero =>
    obtain ⟨cs, h1, _, h3⟩ := HoldsMin.zero S
    have : cs = [] := by simpa [Zeropb.records] using h3
    subst this
    exact ⟨[], h1, by intro r hr; simp [Zeropb.records] at hr, by simp, by simp⟩
  | reset h1 h2 =>
    obtain ⟨cs, h1, _, h3⟩ := HoldsMin.reset h1 h2
    have : cs = [] := by simpa [Zeropb.records] using h3
    subst this
    exact ⟨[], h1, by intro r hr; simp [Zeropb.records] at hr, by simp, by simp⟩
  | @set m m' rt f k x _ hk hr hx he ih =>
    obtain ⟨cs, h1, hw, h2, h3⟩ := ih
    have hf := S.kind_lt f (by rw [hk]; simp)
    obtain ⟨new, n1, n2, n3, n4, n5, n6⟩ := set_chunks rt h1 hf hr k x hx (fun c hc =>
      ⟨hw.last hk (by rw [lastVal_records, hc]; rfl), (h2 c (List.mem_filter.1 (List.mem_of_getLast? hc)).1).1⟩)
    rcases Nat.lt_or_ge (flat (setChunks new cs)).length maxLen with hlt | hge
    · obtain ⟨m2, a1, a2, a3, _⟩ := n5 hlt
      rw [a1] at he
      simp only [Except.ok.injEq] at he
      subst he
      refine ⟨setChunks new cs, a3, hw.set hk x ?_, ?_, ?_⟩
      · intro r hr
        simp only [Zeropb.records, List.mem_map] at hr ⊢
        obtain ⟨c, hc, rfl⟩ := hr
        rcases mem_setChunks hc with rfl | hc
        · left; simp [Chunk.record, n1, n2]
        · right; exact ⟨c, hc, rfl⟩
      · intro c hc
        rcases mem_setChunks hc with rfl | hc
        · exact ⟨n3, by rw [n2]; exact n4⟩
        · exact h2 c hc
      · intro g hg
        by_cases hgf : g = f
        · subst hgf
          rw [← n1, setChunks_filter_eq, n1]
          have := h3 g hg
          simp only [List.length_append, List.length_dropLast, List.length_singleton]
          omega
        · rw [setChunks_filter_ne (by rw [n1]; exact hgf)]
          exact h3 g hg
    · rw [n6 hge] at he; simp at he
  | @append m m' rt f x _ hk hr hx he ih =>
    obtain ⟨cs, h1, hw, h2, h3⟩ := ih
    have hf := S.kind_lt f (by rw [hk]; simp)
    obtain ⟨new, n1, n2, n3, n4, n5, n6⟩ := append_chunks rt h1 hf hr x hx
    rcases Nat.lt_or_ge (flat (cs ++ [new])).length maxLen with hlt | hge
    · obtain ⟨m2, a1, a2, a3, _⟩ := n5 hlt
      rw [a1] at he
      simp only [Except.ok.injEq] at he
      subst he
      refine ⟨cs ++ [new], a3, ?_, ?_, ?_⟩
      · have hnr : new.record = ⟨f, .bytes x⟩ := by rw [Chunk.record, n1, n2]
        have : Zeropb.records (cs ++ [new]) = Zeropb.records cs ++ [⟨f, .bytes x⟩] := by simp [Zeropb.records, hnr]
        rw [this]; exact hw.append hf hr x
      · intro c hc
        simp only [List.mem_append, List.mem_singleton] at hc
        rcases hc with hc | rfl
        · exact h2 c hc
        · exact ⟨n3, by rw [n2]; exact n4⟩
      · intro g hg
        have : new.num ≠ g := by rw [n1]; rintro rfl; rw [hr] at hg; simp at hg
        simp only [List.filter_append, List.filter_cons, List.filter_nil, this, decide_false]
        simpa using h3 g hg
    · rw [n6 hge] at he; simp at he

theorem flat_length (cs : List Chunk) (h : ∀ c ∈ cs, c.bytes.length = recordLen c.record) :
    (flat cs).length = ((Zeropb.records cs).map recordLen).sum := by
  induction cs with
  | nil => rfl
  | cons c cs ih =>
    rw [flat_cons, List.length_append, h c (by simp), ih (fun d hd => h d (by simp [hd]))]
    simp [Zeropb.records]

/-- C23: in a message built by setters and `AppendTo` every singular field occurs at most once,
however often it was overwritten, and the encoding is as long as the shortest encodings of its
records together: there are no left-over bytes. -/
theorem C23_no_leak {S : Schema} {m : Msg} (h : Built S m) :
    ∃ rs, IsMessage rs m.encode.data ∧ (∀ f, S.rep f = false → (rs.filter (fun r => r.num = f)).length ≤ 1) ∧
      m.encode.len = (rs.map recordLen).sum := by
  obtain ⟨cs, h1, h2, h3, h4⟩ := h.chunks
  refine ⟨Zeropb.records cs, isMessage_iff.2 ⟨cs, h1.data.symm, h1.wf, rfl⟩, ?_, ?_⟩
  · intro f hf
    rw [filter_records]
    simpa [Zeropb.records] using h4 f hf
  · unfold Msg.encode Slice.len
    rw [h1.data]
    exact flat_length cs (fun c hc => min_length (h3 c hc).1 (h3 c hc).2)

/-- Hypotheses met: `demo`, built with one overwritten field; nine bytes. -/
example : Built testSchema demo ∧ demo.encode.len = 9 := by
  refine ⟨?_, rfl⟩
  obtain ⟨m1, h1, h⟩ := Reach.of_bind (S := testSchema) demo_steps
  obtain ⟨m2, h2, h⟩ := Reach.of_bind (S := testSchema) h
  obtain ⟨m3, h3, h⟩ := Reach.of_bind (S := testSchema) h
  exact .set (.append (.set (.set .zero rfl rfl (by decide) h1) rfl rfl (by decide) h2) rfl rfl (by decide) h3) rfl rfl (by decide) h

/-! ## C34, for the values of slices -/

/-- C34: the slices handed out by the bytes getters are part of the message's own bytes, with the
rest of the message as their spare capacity. -/
theorem C34_views {S : Schema} {m : Msg} (h : Readable S m) {f : Nat} (hk : S.kind f = some .bytes) :
    (S.rep f = false → ∀ s, getBytes m.buf m.off f = .ok (some s) →
      ∃ A B, m.encode.data = A ++ s.data ++ B ∧ s.spare = B ++ m.buf.spare) ∧
    (S.rep f = true → ∀ els, Elems m f els → ∃ (its : Nat → Option Slice) (rest : Nat → List Byte),
      m.messages f = .ok (its 0) ∧ ∀ i (hi : i < els.length),
        findNextField (its i) f = .ok (its (i + 1), some ⟨els[i], rest i⟩) ∧
        ∃ A B, m.encode.data = A ++ els[i] ++ B ∧ rest i = B ++ m.buf.spare) := by
  obtain ⟨rs, h1, h2⟩ := h.holds
  have hf := S.kind_lt f (by rw [hk]; simp)
  constructor
  · intro hr s hs
    rcases h2.bytes_cases hk with hl | ⟨b, hl⟩
    · rw [h1.getBytes_none hf hl] at hs; simp at hs
    · obtain ⟨A, B, e1, e2⟩ := h1.getBytes_some hr hl
      rw [e2] at hs
      simp only [Except.ok.injEq, Option.some.injEq] at hs
      subst hs
      exact ⟨A, B, e1, rfl⟩
  · intro hr els hel
    obtain ⟨els', he⟩ := h2.elems hk
    have : els = els' := hel.unique (h1.elems hf hr he)
    subst this
    obtain ⟨its, rest, i1, i2, _⟩ := h1.iterate hf hr he
    exact ⟨its, rest, i1, i2⟩

/-- Hypotheses met: a string-typed field cannot be used, but field 34 of `demo` can. -/
example : Readable testSchema demo ∧ testSchema.kind 34 = some .bytes ∧ testSchema.rep 34 = true :=
  ⟨.reach demo_reach, rfl, rfl⟩

end Zeropb
