import Verif.Proof.Decode
/-!
# Messages: what a struct holds, and how the operations change it
-/

set_option linter.unusedSimpArgs false

namespace Zeropb
open Wire

/-- The struct holds the records `rs`: its bytes encode them, and its offsets index them. -/
def Holds (S : Schema) (m : Msg) (rs : List Record) : Prop :=
  ∃ cs, Rep S.n S.rep m.buf m.off cs ∧ records cs = rs

/-- As `Holds`, all tags in shortest form. -/
def HoldsMin (S : Schema) (m : Msg) (rs : List Record) : Prop :=
  ∃ cs, Rep S.n S.rep m.buf m.off cs ∧ (∀ c ∈ cs, c.MinTag) ∧ records cs = rs

theorem HoldsMin.holds {S m rs} (h : HoldsMin S m rs) : Holds S m rs := by
  obtain ⟨cs, h1, _, h2⟩ := h; exact ⟨cs, h1, h2⟩

theorem Holds.isMessage {S m rs} (h : Holds S m rs) : IsMessage rs m.buf.data := by
  obtain ⟨cs, h1, h2⟩ := h
  exact isMessage_iff.2 ⟨cs, h1.data.symm, h1.wf, h2⟩

theorem HoldsMin.isMessage {S m rs} (h : HoldsMin S m rs) : IsMinTagMessage rs m.buf.data := by
  obtain ⟨cs, h1, h3, h2⟩ := h
  exact isMinTagMessage_iff.2 ⟨cs, h1.data.symm, h1.wf, h3, h2⟩

theorem Holds.num_lt {S m rs} (h : Holds S m rs) {r : Record} (hr : r ∈ rs) : r.num < S.n := by
  obtain ⟨cs, h1, rfl⟩ := h
  simp only [records, List.mem_map] at hr
  obtain ⟨c, hc, rfl⟩ := hr
  exact h1.lt c hc

theorem IsMinTagMessage_isMessage {rs bs} (h : IsMinTagMessage rs bs) : IsMessage rs bs := by
  obtain ⟨cs, h1, h2, _, h3⟩ := isMinTagMessage_iff.1 h
  exact isMessage_iff.2 ⟨cs, h1, h2, h3⟩

/-! ## Creation -/

theorem empty_rep {S : Schema} {buf : Slice} {o : Offsets} (hb : buf.data = []) (hi : o.Inv) (ha : o.a.length = S.n)
    (hv : ∀ f, o.view f = none) : Rep S.n S.rep buf o [] :=
  ⟨by rw [hb]; rfl, by simp, by simp, by rw [hb]; decide, hi, ha, fun f => by rw [hv]; simp [offs, pick_nil]⟩

theorem HoldsMin.zero (S : Schema) : HoldsMin S (Msg.zero S.n) [] :=
  ⟨[], empty_rep rfl (Offsets.zero_inv _) (Offsets.zero_length _) (Offsets.zero_view _), by simp, rfl⟩

theorem HoldsMin.reset {S : Schema} {m : Msg} (ha : m.off.a.length = S.n) {buf : Slice} {m' : Msg}
    (h : m.reset buf = .ok m') : HoldsMin S m' [] := by
  unfold Msg.reset at h
  split at h
  · simp at h
  · rename_i hb
    simp only [Except.ok.injEq] at h
    subst h
    refine ⟨[], empty_rep ?_ (Offsets.clear_inv _) (by rw [Offsets.clear_length, ha]) (Offsets.clear_view _), by simp, rfl⟩
    have : buf.data.length = 0 := by unfold Slice.len at hb; omega
    simpa using this

theorem decode_holds {S : Schema} {m : Msg} (ha : m.off.a.length = S.n) {buf : Slice} {rs : List Record}
    (hlen : buf.len < maxLen) (h : IsMessage rs buf.data) (hlt : ∀ r ∈ rs, r.num < S.n) :
    ∃ m', m.decode S.rep buf = .ok (m', none) ∧ m'.buf = buf ∧ Holds S m' rs ∧
      (buf.len ≤ 65535 → m.off.m = none → m'.off.m = none) := by
  obtain ⟨cs, h1, h2, h3⟩ := isMessage_iff.1 h
  have hlt' : ∀ c ∈ cs, c.num < S.n := by
    intro c hc
    have := hlt c.record (by rw [← h3]; exact List.mem_map_of_mem hc)
    exact this
  obtain ⟨o', d1, d2, d3⟩ := decode_spec (rep := S.rep) hlen h1.symm h2 hlt' ha
  exact ⟨⟨buf, o'⟩, by simp only [Msg.decode, d1]; rfl, rfl, ⟨cs, d2, h3⟩, d3⟩

theorem decode_holdsMin {S : Schema} {m : Msg} (ha : m.off.a.length = S.n) {buf : Slice} {rs : List Record}
    (hlen : buf.len < maxLen) (h : IsMinTagMessage rs buf.data) (hlt : ∀ r ∈ rs, r.num < S.n) :
    ∃ m', m.decode S.rep buf = .ok (m', none) ∧ m'.buf = buf ∧ HoldsMin S m' rs ∧
      (buf.len ≤ 65535 → m.off.m = none → m'.off.m = none) := by
  obtain ⟨cs, h1, h2, h4, h3⟩ := isMinTagMessage_iff.1 h
  have hlt' : ∀ c ∈ cs, c.num < S.n := by
    intro c hc
    have := hlt c.record (by rw [← h3]; exact List.mem_map_of_mem hc)
    exact this
  obtain ⟨o', d1, d2, d3⟩ := decode_spec (rep := S.rep) hlen h1.symm h2 hlt' ha
  exact ⟨⟨buf, o'⟩, by simp only [Msg.decode, d1]; rfl, rfl, ⟨cs, d2, h4, h3⟩, d3⟩

/-! ## Reading -/

theorem Holds.get {S m rs} (h : Holds S m rs) {f k x} (hk : S.kind f = some k) (hr : S.rep f = false)
    (hx : readVal k (lastVal f rs) = some x) : m.get k f = .ok x := by
  obtain ⟨cs, h1, rfl⟩ := h
  exact h1.get (S.kind_lt f (by rw [hk]; simp)) hr k x hx

theorem Holds.getBytes_none {S m rs} (h : Holds S m rs) {f} (hf : f < S.n) (hl : lastVal f rs = none) :
    getBytes m.buf m.off f = .ok none := by
  obtain ⟨cs, h1, rfl⟩ := h
  apply getBytes_absent
  apply h1.get_none hf
  intro c hc he
  rw [lastVal_records] at hl
  obtain ⟨pre, c', post, hcs, hc', hp⟩ := exists_last ⟨c, hc, he⟩
  rw [hcs, lastChunk_eq hc' hp] at hl
  simp at hl

/-- The bytes getter returns a view: the occurrence's bytes, located inside the message. -/
theorem Holds.getBytes_some {S m rs} (h : Holds S m rs) {f bs} (hr : S.rep f = false)
    (hl : lastVal f rs = some (.bytes bs)) :
    ∃ A B, m.buf.data = A ++ bs ++ B ∧ getBytes m.buf m.off f = .ok (some ⟨bs, B ++ m.buf.spare⟩) := by
  obtain ⟨cs, h1, rfl⟩ := h
  rw [lastVal_records] at hl
  by_cases ha : ∃ c ∈ cs, c.num = f
  · obtain ⟨pre, c, post, hcs, hc, hp⟩ := exists_last ha
    rw [hcs, lastChunk_eq hc hp] at hl
    simp only [Option.map_some, Option.some.injEq] at hl
    have hcw := (h1.wf c (by rw [hcs]; simp)).pay
    rw [hl] at hcw
    have hloc := h1.located_last hcs hr hc hp
    have hg := getBytes_located hloc hcw
    obtain ⟨lb, _, hpay⟩ := hcw
    refine ⟨flat pre ++ c.tag ++ lb, flat post, ?_, hg⟩
    rw [hloc.data, hpay]; simp
  · rw [lastChunk_none (fun c hc he => ha ⟨c, hc, he⟩)] at hl
    simp at hl

/-- Repeated calls of `Next` visit the elements of a repeated message field in order. -/
theorem Holds.iterate {S m rs} (h : Holds S m rs) {f} {els : List (List Byte)} (hf : f < S.n) (hr : S.rep f = true)
    (hel : allVals f rs = els.map Val.bytes) :
    ∃ (its : Nat → Option Slice) (rest : Nat → List Byte), m.messages f = .ok (its 0) ∧
      (∀ i (hi : i < els.length), findNextField (its i) f = .ok (its (i + 1), some ⟨els[i], rest i⟩) ∧
        ∃ front back, m.buf.data = front ++ els[i] ++ back ∧ rest i = back ++ m.buf.spare) ∧
      (∀ i, els.length ≤ i → its i = none) := by
  obtain ⟨cs, h1, rfl⟩ := h
  rw [allVals_records] at hel
  obtain ⟨its, rest, i1, i2, i3⟩ := iterate_spec m.buf.spare els cs h1.wf (by rw [← h1.data]; exact h1.len) hel
  refine ⟨its, rest, ?_, ?_, i3⟩
  · rw [Msg.messages, h1.messages hf hr, i1]
  · intro i hi
    rw [h1.data]; exact i2 i hi

/-! ## Writing -/

/-- A setter on the level of encoded records. -/
theorem set_chunks (rt : Rt) {S : Schema} {m : Msg} {cs : List Chunk} (h : Rep S.n S.rep m.buf m.off cs) {f : Nat}
    (hf : f < S.n) (hr : S.rep f = false) (k : Kind) (x : k.Ty) (hx : k.size x < maxLen)
    (hold : ∀ c, lastChunk f cs = some c → c.val.wireType = k.wt ∧ c.MinTag) :
    ∃ new : Chunk, new.num = f ∧ new.val = encodeVal k x ∧ new.MinTag ∧ IsMinPayload (encodeVal k x) new.pay ∧
      ((flat (setChunks new cs)).length < maxLen →
        ∃ m', m.set rt k f x = .ok m' ∧ m'.buf.data = flat (setChunks new cs) ∧
          Rep S.n S.rep m'.buf m'.off (setChunks new cs) ∧
          (m'.buf.data.length ≤ 65535 → m.off.m = none → m'.off.m = none) ∧
          (∀ c, lastChunk f cs = some c → c.pay.length = new.pay.length → m'.buf.spare = m.buf.spare ∧ m'.off = m.off)) ∧
      (maxLen ≤ (flat (setChunks new cs)).length → m.set rt k f x = .error .lenOutOfRange) := by
  obtain ⟨valLen, val, e1, e2⟩ := setField_eq rt m.buf m.off k f x (by unfold maxLen at hx; omega)
  rw [← wireType_encodeVal k x] at e1 hold
  obtain ⟨tag, t1, t2, t3⟩ := setSingle_spec rt h S.n_le hf hr e2.isPayload hold
  refine ⟨⟨f, encodeVal k x, tag, valLen ++ val⟩, rfl, rfl, t1, e2, ?_, ?_⟩
  · intro hlen
    obtain ⟨sp, o', s1, s2, s3⟩ := t2 hlen
    exact ⟨⟨_, o'⟩, by simp only [Msg.set, e1, s1]; rfl, rfl, s2, s3⟩
  · intro hlen
    simp only [Msg.set, e1, t3 hlen]; rfl

theorem append_chunks (rt : Rt) {S : Schema} {m : Msg} {cs : List Chunk} (h : Rep S.n S.rep m.buf m.off cs) {f : Nat}
    (hf : f < S.n) (hr : S.rep f = true) (x : List Byte) (hx : x.length < maxLen) :
    ∃ new : Chunk, new.num = f ∧ new.val = .bytes x ∧ new.MinTag ∧ IsMinPayload (.bytes x) new.pay ∧
      ((flat (cs ++ [new])).length < maxLen →
        ∃ m', m.appendRaw rt f x = .ok m' ∧ m'.buf.data = flat (cs ++ [new]) ∧
          Rep S.n S.rep m'.buf m'.off (cs ++ [new]) ∧
          (m'.buf.data.length ≤ 65535 → m.off.m = none → m'.off.m = none)) ∧
      (maxLen ≤ (flat (cs ++ [new])).length → m.appendRaw rt f x = .error .lenOutOfRange) := by
  obtain ⟨valLen, e1, _, _, e2⟩ := setField_bytes rt m.buf m.off f x (by unfold maxLen at hx; omega)
  have hp : IsMinPayload (.bytes x) (valLen ++ x) := ⟨valLen, e1, rfl⟩
  obtain ⟨tag, t1, t2, t3⟩ := appendSingle_spec rt h S.n_le hf hr hp.isPayload
  refine ⟨⟨f, .bytes x, tag, valLen ++ x⟩, rfl, rfl, t1, hp, ?_, ?_⟩
  · intro hlen
    obtain ⟨sp, o', s1, s2, s3⟩ := t2 hlen
    exact ⟨⟨_, o'⟩, by simp only [Msg.appendRaw, e2]; erw [s1]; rfl, rfl, s2, s3⟩
  · intro hlen
    simp only [Msg.appendRaw, e2]; erw [t3 hlen]; rfl

theorem flat_setChunks_length_le (new : Chunk) (cs : List Chunk) :
    (flat (setChunks new cs)).length ≤ (flat cs).length + new.bytes.length := by
  by_cases ha : ∃ c ∈ cs, c.num = new.num
  · obtain ⟨pre, c, post, rfl, hc, hp⟩ := exists_last ha
    simp only [setChunks, splitLast_some hc hp]
    split <;> simp <;> omega
  · have ha' : ∀ c ∈ cs, c.num ≠ new.num := fun c hc he => ha ⟨c, hc, he⟩
    simp [setChunks, splitLast_none ha']

theorem new_length_le {new : Chunk} {k : Kind} {x : k.Ty} (h1 : new.MinTag) (h2 : IsMinPayload (encodeVal k x) new.pay) :
    new.bytes.length ≤ 20 + k.size x := by
  have := h1.1.length_le
  have := minPayload_length h2
  rw [Chunk.bytes_length]; omega

theorem records_filter_ne (f : Nat) (cs : List Chunk) :
    (records cs).filter (fun r => r.num ≠ f) = records (cs.filter (fun c => c.num ≠ f)) := by
  simp only [records, List.filter_map]; rfl

/-- The effect of a setter on the records of a struct. -/
theorem HoldsMin.set (rt : Rt) {S m rs} (h : HoldsMin S m rs) {f k} (hk : S.kind f = some k) (hr : S.rep f = false)
    (x : k.Ty) (hx : k.size x < maxLen) (hlast : ∀ v, lastVal f rs = some v → v.wireType = k.wt) :
    (∃ m' rs', m.set rt k f x = .ok m' ∧ HoldsMin S m' rs' ∧ lastVal f rs' = some (encodeVal k x) ∧
      rs'.filter (fun r => r.num ≠ f) = rs.filter (fun r => r.num ≠ f) ∧
      (∀ r ∈ rs', r = ⟨f, encodeVal k x⟩ ∨ r ∈ rs) ∧
      m'.buf.data.length ≤ m.buf.data.length + 20 + k.size x ∧
      (m'.buf.data.length ≤ 65535 → m.off.m = none → m'.off.m = none) ∧
      rs'.filter (fun r => r.num = f) = (rs.filter (fun r => r.num = f)).dropLast ++ [⟨f, encodeVal k x⟩]) ∨
    (m.set rt k f x = .error .lenOutOfRange ∧ maxLen ≤ m.buf.data.length + 20 + k.size x) := by
  obtain ⟨cs, h1, h2, rfl⟩ := h
  have hf := S.kind_lt f (by rw [hk]; simp)
  obtain ⟨new, n1, n2, n3, n4, n5, n6⟩ := set_chunks rt h1 hf hr k x hx (by
    intro c hc
    refine ⟨hlast c.val (by rw [lastVal_records, hc]; rfl), h2 c ?_⟩
    exact (List.mem_filter.1 (List.mem_of_getLast? hc)).1)
  have hle := flat_setChunks_length_le new cs
  have hnl := new_length_le n3 n4
  rw [← h1.data] at hle
  by_cases hlen : (flat (setChunks new cs)).length < maxLen
  · left
    obtain ⟨m', a1, a2, a3, a4, _⟩ := n5 hlen
    refine ⟨m', records (setChunks new cs), a1, ⟨_, a3, ?_, rfl⟩, ?_, ?_, ?_, by rw [a2]; omega, a4, ?_⟩
    · intro c hc
      rcases mem_setChunks hc with rfl | hc
      · exact n3
      · exact h2 c hc
    · rw [lastVal_records, ← n1, lastChunk_setChunks]; simp [n2]
    · rw [records_filter_ne, records_filter_ne, ← n1, setChunks_others]
    · intro r hr
      simp only [records, List.mem_map] at hr ⊢
      obtain ⟨c, hc, rfl⟩ := hr
      rcases mem_setChunks hc with rfl | hc
      · left; simp [Chunk.record, n1, n2]
      · right; exact ⟨c, hc, rfl⟩
    · rw [filter_records, filter_records, ← n1, setChunks_filter_eq]
      simp [records, List.map_dropLast, Chunk.record, n2]
  · right
    exact ⟨n6 (by omega), by omega⟩

/-- The effect of `AppendTo` on the records of a struct. -/
theorem HoldsMin.append (rt : Rt) {S m rs} (h : HoldsMin S m rs) {f} (hf : f < S.n) (hr : S.rep f = true)
    (x : List Byte) (hx : x.length < maxLen) :
    (∃ m', m.appendRaw rt f x = .ok m' ∧ HoldsMin S m' (rs ++ [⟨f, .bytes x⟩]) ∧
      m'.buf.data.length ≤ m.buf.data.length + 20 + x.length ∧
      (m'.buf.data.length ≤ 65535 → m.off.m = none → m'.off.m = none)) ∨
    (m.appendRaw rt f x = .error .lenOutOfRange ∧ maxLen ≤ m.buf.data.length + 20 + x.length) := by
  obtain ⟨cs, h1, h2, rfl⟩ := h
  obtain ⟨new, n1, n2, n3, n4, n5, n6⟩ := append_chunks rt h1 hf hr x hx
  have hle : (flat (cs ++ [new])).length = m.buf.data.length + new.bytes.length := by rw [h1.data]; simp
  have hnl : new.bytes.length ≤ 20 + x.length := new_length_le (k := .bytes) (x := x) n3 n4
  by_cases hlen : (flat (cs ++ [new])).length < maxLen
  · left
    obtain ⟨m', a1, a2, a3, a4⟩ := n5 hlen
    refine ⟨m', a1, ⟨_, a3, ?_, ?_⟩, by rw [a2]; omega, a4⟩
    · intro c hc
      simp at hc
      rcases hc with hc | rfl
      · exact h2 c hc
      · exact n3
    · simp [records, Chunk.record, n1, n2]
  · right
    exact ⟨n6 (by omega), by omega⟩

/-! ## Values after filtering -/

theorem filter_eq_of_filter_ne {rs rs' : List Record} {f g : Nat} (hg : g ≠ f)
    (h : rs'.filter (fun r => r.num ≠ f) = rs.filter (fun r => r.num ≠ f)) :
    rs'.filter (fun r => r.num = g) = rs.filter (fun r => r.num = g) := by
  have key : ∀ l : List Record, l.filter (fun c => c.num = g) = (l.filter (fun c => c.num ≠ f)).filter (fun c => c.num = g) := by
    intro l
    rw [List.filter_filter]
    congr 1
    funext c
    by_cases h : c.num = g
    · simp [h, hg]
    · simp [h]
  rw [key rs', h, ← key]

theorem lastVal_of_filter_ne {rs rs' : List Record} {f g : Nat} (hg : g ≠ f)
    (h : rs'.filter (fun r => r.num ≠ f) = rs.filter (fun r => r.num ≠ f)) : lastVal g rs' = lastVal g rs := by
  unfold lastVal; rw [filter_eq_of_filter_ne hg h]

theorem allVals_of_filter_ne {rs rs' : List Record} {f g : Nat} (hg : g ≠ f)
    (h : rs'.filter (fun r => r.num ≠ f) = rs.filter (fun r => r.num ≠ f)) : allVals g rs' = allVals g rs := by
  unfold allVals; rw [filter_eq_of_filter_ne hg h]

theorem lastVal_mem {rs : List Record} {f : Nat} {v : Val} (h : lastVal f rs = some v) : ⟨f, v⟩ ∈ rs := by
  unfold lastVal at h
  obtain ⟨r, hr, rfl⟩ := Option.map_eq_some_iff.1 h
  have := List.mem_of_getLast? hr
  rw [List.mem_filter] at this
  have h2 : r.num = f := by simpa using this.2
  subst h2; exact this.1

theorem WellTyped.last {S : Schema} {rs : List Record} (h : WellTyped S rs) {f k} (hk : S.kind f = some k) {v : Val}
    (hv : lastVal f rs = some v) : v.wireType = k.wt := by
  obtain ⟨_, h2⟩ := h _ (lastVal_mem hv)
  obtain ⟨x, hx⟩ := h2 k hk
  exact wireType_of_decodeVal hx

theorem WellTyped.read {S : Schema} {rs : List Record} (h : WellTyped S rs) {f k} (hk : S.kind f = some k) :
    ∃ x, readVal k (lastVal f rs) = some x := by
  cases hv : lastVal f rs with
  | none => exact ⟨_, rfl⟩
  | some v => exact (h _ (lastVal_mem hv)).2 k hk

theorem WellTyped.set {S : Schema} {rs rs' : List Record} (h : WellTyped S rs) {f k} (hk : S.kind f = some k) (x : k.Ty)
    (hm : ∀ r ∈ rs', r = ⟨f, encodeVal k x⟩ ∨ r ∈ rs) : WellTyped S rs' := by
  intro r hr
  rcases hm r hr with rfl | hr
  · refine ⟨S.kind_lt f (by rw [hk]; simp), ?_⟩
    intro k' hk'
    simp only at hk'
    rw [hk] at hk'
    simp only [Option.some.injEq] at hk'
    subst hk'
    exact ⟨x, decodeVal_encodeVal k x⟩
  · exact h r hr

theorem WellTyped.append {S : Schema} {rs : List Record} (h : WellTyped S rs) {f} (hf : f < S.n) (hr : S.rep f = true)
    (x : List Byte) : WellTyped S (rs ++ [⟨f, .bytes x⟩]) := by
  intro r hm
  simp at hm
  rcases hm with hm | rfl
  · exact h r hm
  · refine ⟨hf, ?_⟩
    intro k hk
    have := S.rep_bytes f k hr hk
    subst this
    exact ⟨x, rfl⟩

theorem WellTyped.elems {S : Schema} {rs : List Record} (h : WellTyped S rs) {f} (hk : S.kind f = some .bytes) :
    ∃ els : List (List Byte), allVals f rs = els.map Val.bytes := by
  have : ∀ v ∈ allVals f rs, ∃ b, v = .bytes b := by
    intro v hv
    simp only [allVals, List.mem_map, List.mem_filter] at hv
    obtain ⟨r, ⟨hr, hf⟩, rfl⟩ := hv
    have hf : r.num = f := by simpa using hf
    obtain ⟨x, hx⟩ := (h r hr).2 .bytes (by rw [hf]; exact hk)
    cases hval : r.val <;> rw [hval] at hx <;> simp [decodeVal] at hx
    exact ⟨_, rfl⟩
  generalize allVals f rs = l at this
  induction l with
  | nil => exact ⟨[], rfl⟩
  | cons v l ih =>
    obtain ⟨els, he⟩ := ih (fun w hw => this w (by simp [hw]))
    obtain ⟨b, rfl⟩ := this v (by simp)
    exact ⟨b :: els, by simp [he]⟩

end Zeropb
