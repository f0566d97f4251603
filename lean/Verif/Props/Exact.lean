import Verif.Props.Bytes
set_option linter.unusedSimpArgs false
set_option linter.unusedVariables false
/-!
# The exact bytes of a message (C54)

The encoding of a message is a function of the calls made, computed here by a small specification that knows only
the wire format: capacities, overflow maps and offsets do not occur in it.
-/

namespace Zeropb
open Wire

/-! ## Specification -/

/-- Groups of seven bits, least significant first, at most `n` of them. -/
def varintDigits : Nat → Nat → List Byte
  | 0, _ => []
  | n + 1, v => if v < 128 then [BitVec.ofNat 8 v] else BitVec.ofNat 8 (128 + v % 128) :: varintDigits n (v / 128)

/-- The shortest varint of a 64-bit number. -/
def varintBytes (v : Nat) : List Byte := varintDigits 10 v

/-- The shortest encoding of a value. -/
def valBytes : Val → List Byte
  | .varint v => varintBytes v.toNat
  | .fixed64 v => leBytes 8 v.toNat
  | .fixed32 v => leBytes 4 v.toNat
  | .bytes bs => varintBytes bs.length ++ bs

/-- The shortest encoding of a record. -/
def recordBytes (r : Record) : List Byte := varintBytes (r.num * 8 + r.val.wireType) ++ valBytes r.val

/-- A record with the bytes that encode it. -/
abbrev Seg := Record × List Byte

/-- The shortest encoding of field `f` with value `v`. -/
def freshSeg (f : Nat) (v : Val) : Seg := (⟨f, v⟩, recordBytes ⟨f, v⟩)

/-- Cut a message at the last record of field `f`. -/
def cutLast (f : Nat) : List Seg → Option (List Seg × Seg × List Seg)
  | [] => none
  | s :: segs =>
    match cutLast f segs with
    | some (p, t, q) => some (s :: p, t, q)
    | none => if s.1.num = f then some ([], s, segs) else none

/-- A setter: the new record takes the place of the last record of the field if it has the same number of bytes;
otherwise that record is deleted, and the new one goes to the end. -/
def putSeg (new : Seg) (segs : List Seg) : List Seg :=
  match cutLast new.1.num segs with
  | none => segs ++ [new]
  | some (p, old, q) => if old.2.length = new.2.length then p ++ new :: q else p ++ q ++ [new]

/-- The records of a message after some calls, given those before. -/
inductive Lays : List Op → List Seg → List Seg → Prop where
  | nil {s} : Lays [] s s
  | set {rt f k x ops s t} : Lays ops (putSeg (freshSeg f (encodeVal k x)) s) t → Lays (.set rt f k x :: ops) s t
  | append {rt f x ops s t} : Lays ops (s ++ [freshSeg f (.bytes x)]) t → Lays (.append rt f x :: ops) s t
  | reset {buf ops s t} : Lays ops [] t → Lays (.reset buf :: ops) s t
  | decode {buf rs ops s u t} : IsSegmented u buf.data → Lays ops u t → Lays (.decode buf rs :: ops) s t

/-- The same call with the same arguments: memory layout and the runtime's choices may differ. -/
inductive SameCall : Op → Op → Prop where
  | set (rt rt' : Rt) (f : Nat) (k : Kind) (x : k.Ty) : SameCall (.set rt f k x) (.set rt' f k x)
  | append (rt rt' : Rt) (f : Nat) (x : List Byte) : SameCall (.append rt f x) (.append rt' f x)
  | reset {buf buf' : Slice} : buf.data = buf'.data → SameCall (.reset buf) (.reset buf')
  | decode {buf buf' : Slice} (rs : List Record) : buf.data = buf'.data → SameCall (.decode buf rs) (.decode buf' rs)

/-- The same calls in the same order. -/
inductive SameCalls : List Op → List Op → Prop where
  | nil : SameCalls [] []
  | cons {a b as bs} : SameCall a b → SameCalls as bs → SameCalls (a :: as) (b :: bs)

/-! ## Proof -/

theorem putUvarint_digits {n : Nat} {v : U64} {bs : List Byte} (h : putUvarint n v = .ok bs) : bs = varintDigits n v.toNat := by
  induction n generalizing v bs with
  | zero => simp [putUvarint] at h
  | succ n ih =>
    unfold putUvarint at h
    unfold varintDigits
    split at h
    · next hv =>
      rw [if_neg (by omega)]
      cases hr : putUvarint n (v >>> 7) with
      | error e => rw [hr] at h; simp [bind, Except.bind] at h
      | ok r =>
        rw [hr] at h
        simp only [bind, Except.bind, pure, Except.pure, Except.ok.injEq] at h
        rw [← h, ih hr]
        congr 1
        · apply BitVec.eq_of_toNat_eq
          rw [BitVec.toNat_or, BitVec.toNat_setWidth, BitVec.toNat_ofNat]
          have e : v.toNat % 2 ^ 8 ||| 128 % 2 ^ 8 = 128 + v.toNat % 128 := by
            have h1 : v.toNat % 2 ^ 8 = (v.toNat / 128 % 2) * 128 + v.toNat % 128 := by omega
            have h2 : 128 % 2 ^ 8 = 2 ^ 7 * 1 := rfl
            rcases Nat.mod_two_eq_zero_or_one (v.toNat / 128) with h0 | h0
            · rw [h1, h0, h2, Nat.zero_mul, Nat.zero_add, Nat.or_comm, ← Nat.two_pow_add_eq_or_of_lt (by omega)]
            · have h3 : v.toNat % 2 ^ 8 = 2 ^ 7 * 1 + v.toNat % 128 := by omega
              rw [h3, Nat.two_pow_add_eq_or_of_lt (by omega), h2, Nat.or_comm, ← Nat.or_assoc, Nat.or_self,
                ← Nat.two_pow_add_eq_or_of_lt (by omega)]
          rw [e, BitVec.toNat_ofNat]; omega
        · congr 1
          rw [BitVec.toNat_ushiftRight, Nat.shiftRight_eq_div_pow]
    · next hv =>
      rw [if_pos (by omega)]
      simp only [pure, Except.pure, Except.ok.injEq] at h
      rw [← h]
      congr 1

theorem varintBytes_min {v : Nat} (h : v < 2 ^ 64) : IsMinVarint v (varintBytes v) := by
  obtain ⟨bs, h1, h2⟩ := putUvarint64 (BitVec.ofNat 64 v)
  have := putUvarint_digits h1
  rw [BitVec.toNat_ofNat, Nat.mod_eq_of_lt h] at this h2
  rw [this] at h2; exact h2

theorem valBytes_min {v : Val} (h : ∀ bs, v = .bytes bs → bs.length < 2 ^ 64) : IsMinPayload v (valBytes v) := by
  cases v with
  | varint v => exact varintBytes_min v.isLt
  | fixed64 v => rfl
  | fixed32 v => rfl
  | bytes bs => exact ⟨_, varintBytes_min (h bs rfl), rfl⟩

/-- The chunk of a fresh record. -/
def freshChunk (f : Nat) (v : Val) : Chunk := ⟨f, v, varintBytes (f * 8 + v.wireType), valBytes v⟩

theorem freshChunk_seg (f : Nat) (v : Val) : (freshChunk f v).seg = freshSeg f v := rfl

theorem chunk_eq_fresh {c : Chunk} {v : Val} (hv : c.val = v) (h1 : c.MinTag) (h2 : IsMinPayload v c.pay) (hn : c.num < 2 ^ 61)
    (hl : ∀ bs, v = .bytes bs → bs.length < 2 ^ 64) : c = freshChunk c.num v := by
  obtain ⟨n, v', tag, pay⟩ := c
  simp only at hv
  subst hv
  unfold Chunk.MinTag Chunk.tagNum at h1
  simp only at h1 h2 hn
  have := wireType_lt v'
  have e1 := h1.unique (varintBytes_min (v := n * 8 + v'.wireType) (by omega))
  have e2 := h2.unique (valBytes_min hl)
  unfold freshChunk
  rw [e1, e2]

theorem cutLast_seg (f : Nat) (cs : List Chunk) :
    cutLast f (cs.map Chunk.seg) = (splitLast f cs).map (fun r => (r.1.map Chunk.seg, r.2.1.seg, r.2.2.map Chunk.seg)) := by
  induction cs with
  | nil => rfl
  | cons c cs ih =>
    simp only [List.map_cons, cutLast, splitLast, ih]
    cases splitLast f cs with
    | none => by_cases h : c.num = f <;> simp [h, Chunk.seg, Chunk.record]
    | some r => obtain ⟨p, d, q⟩ := r; rfl

theorem putSeg_chunks {new : Chunk} {cs : List Chunk} (hnew : new.MinTag)
    (hold : ∀ c, lastChunk new.num cs = some c → c.val.wireType = new.val.wireType ∧ c.MinTag) :
    putSeg new.seg (cs.map Chunk.seg) = (setChunks new cs).map Chunk.seg := by
  unfold putSeg setChunks
  have hn : new.seg.1.num = new.num := rfl
  rw [hn, cutLast_seg]
  by_cases ha : ∃ c ∈ cs, c.num = new.num
  · obtain ⟨pre, c, post, rfl, hc, hp⟩ := exists_last ha
    simp only [splitLast_some hc hp, Option.map_some]
    obtain ⟨w1, w2⟩ := hold c (lastChunk_eq hc hp)
    have ht : c.tag = new.tag := by
      unfold Chunk.MinTag Chunk.tagNum at w2 hnew
      rw [hc, w1] at w2
      exact w2.unique hnew
    have he : c.seg.2.length = new.seg.2.length ↔ c.pay.length = new.pay.length := by
      simp only [Chunk.seg, Chunk.bytes_length, ht]; omega
    by_cases hl : c.pay.length = new.pay.length
    · rw [if_pos (he.2 hl), if_pos hl]; simp
    · rw [if_neg (fun h => hl (he.1 h)), if_neg hl]; simp
  · have ha' : ∀ c ∈ cs, c.num ≠ new.num := fun c hc he => ha ⟨c, hc, he⟩
    simp [splitLast_none ha']

/-- One call, followed on the records; `op'` is the same call with other choices of the runtime. -/
theorem exact_step {S : Schema} {op : Op} (hv : op.Valid S) {cs : List Chunk} (hmin : ∀ c ∈ cs, c.MinTag)
    (hw : WellTyped S (records cs)) :
    ∃ cs', (∀ c ∈ cs', c.MinTag) ∧ WellTyped S (records cs') ∧
      (∀ ops t, Lays ops (cs'.map Chunk.seg) t → Lays (op :: ops) (cs.map Chunk.seg) t) ∧
      ∀ op', SameCall op op' → ∀ m, Rep S.n S.rep m.buf m.off cs →
        ((flat cs').length < maxLen → ∃ m', op'.run S m = .ok m' ∧ Rep S.n S.rep m'.buf m'.off cs') ∧
        (maxLen ≤ (flat cs').length → op'.run S m = .error .lenOutOfRange) := by
  cases op with
  | set rt f k x =>
    obtain ⟨v1, v2, v3⟩ := hv
    have hf := S.kind_lt f (by rw [v1]; simp)
    have hn : f < 2 ^ 61 := Nat.lt_of_lt_of_le hf S.n_le
    have hbl : ∀ bs, encodeVal k x = .bytes bs → bs.length < 2 ^ 64 := by
      intro bs hb
      cases k <;> simp only [encodeVal, Val.bytes.injEq, reduceCtorEq] at hb <;>
        (subst hb; unfold Kind.size maxLen at v3; exact Nat.lt_trans v3 (by decide))
    have hold : ∀ c, lastChunk f cs = some c → c.val.wireType = k.wt ∧ c.MinTag := by
      intro c hc
      refine ⟨hw.last v1 (v := c.val) (by rw [lastVal_records, hc]; rfl), hmin c ?_⟩
      unfold lastChunk at hc
      exact (List.mem_filter.1 (List.mem_of_getLast? hc)).1
    have hfm : (freshChunk f (encodeVal k x)).MinTag := by
      have := wireType_lt (encodeVal k x)
      exact varintBytes_min (by show f * 8 + (encodeVal k x).wireType < 2 ^ 64; omega)
    have hmem : ∀ c ∈ setChunks (freshChunk f (encodeVal k x)) cs, c = freshChunk f (encodeVal k x) ∨ c ∈ cs :=
      fun c hc => mem_setChunks hc
    refine ⟨setChunks (freshChunk f (encodeVal k x)) cs, ?_, ?_, ?_, ?_⟩
    · intro c hc
      rcases hmem c hc with rfl | h
      · exact hfm
      · exact hmin c h
    · refine hw.set v1 x ?_
      intro r hr
      simp only [records, List.mem_map] at hr
      obtain ⟨c, hc, rfl⟩ := hr
      rcases hmem c hc with rfl | h
      · exact Or.inl rfl
      · exact Or.inr (List.mem_map_of_mem h)
    · intro ops t h
      refine Lays.set ?_
      rw [← freshChunk_seg, putSeg_chunks hfm (fun c hc => ⟨by rw [(hold c hc).1]; exact (wireType_encodeVal k x).symm, (hold c hc).2⟩)]
      exact h
    · intro op' hs m hrep
      cases hs with
      | set _ rt' =>
        obtain ⟨new, n1, n2, n3, n4, n5, n6⟩ := set_chunks rt' hrep hf v2 k x v3 hold
        have hnew : new = freshChunk f (encodeVal k x) := by
          rw [← n1]; exact chunk_eq_fresh n2 n3 n4 (by rw [n1]; exact hn) hbl
        subst hnew
        refine ⟨fun hl => ?_, fun hl => n6 hl⟩
        obtain ⟨m', a1, _, a3, _⟩ := n5 hl
        exact ⟨m', a1, a3⟩
  | append rt f x =>
    obtain ⟨v1, v2, v3⟩ := hv
    have hf := S.kind_lt f (by rw [v1]; simp)
    have hn : f < 2 ^ 61 := Nat.lt_of_lt_of_le hf S.n_le
    have hbl : ∀ bs, Val.bytes x = .bytes bs → bs.length < 2 ^ 64 := by
      intro bs hb
      simp only [Val.bytes.injEq] at hb
      subst hb; unfold maxLen at v3; exact Nat.lt_trans v3 (by decide)
    have hfm : (freshChunk f (.bytes x)).MinTag := varintBytes_min (by show f * 8 + 2 < 2 ^ 64; omega)
    refine ⟨cs ++ [freshChunk f (.bytes x)], ?_, ?_, ?_, ?_⟩
    · intro c hc
      simp only [List.mem_append, List.mem_singleton] at hc
      rcases hc with h | rfl
      · exact hmin c h
      · exact hfm
    · have := hw.append hf v2 x
      simpa [records, Chunk.record, freshChunk] using this
    · intro ops t h
      refine Lays.append ?_
      rw [← freshChunk_seg]
      simpa using h
    · intro op' hs m hrep
      cases hs with
      | append _ rt' =>
        obtain ⟨new, n1, n2, n3, n4, n5, n6⟩ := append_chunks rt' hrep hf v2 x v3
        have hnew : new = freshChunk f (.bytes x) := by
          rw [← n1]; exact chunk_eq_fresh n2 n3 n4 (by rw [n1]; exact hn) hbl
        subst hnew
        refine ⟨fun hl => ?_, fun hl => n6 hl⟩
        obtain ⟨m', a1, _, a3, _⟩ := n5 hl
        exact ⟨m', a1, a3⟩
  | reset buf =>
    refine ⟨[], by simp, by intro r hr; simp [records] at hr, fun ops t h => .reset h, ?_⟩
    intro op' hs m hrep
    cases hs with
    | @reset _ buf' hb =>
      have hl : buf'.len = 0 := by
        have : buf.len = 0 := hv
        unfold Slice.len at this ⊢; rw [← hb]; exact this
      have e : m.reset buf' = .ok ⟨buf', m.off.clear⟩ := by
        unfold Msg.reset; rw [if_neg (by omega)]
      refine ⟨fun _ => ⟨_, e, empty_rep (List.length_eq_zero_iff.1 hl) (Offsets.clear_inv _) (by rw [Offsets.clear_length, hrep.alen])
        (Offsets.clear_view _)⟩, fun h => absurd h (by decide)⟩
  | decode buf rs =>
    obtain ⟨v1, v2, v3⟩ := hv
    obtain ⟨ds, h1, h2, h4, h3⟩ := isMinTagMessage_iff.1 v1
    have hlt : ∀ c ∈ ds, c.num < S.n := by
      intro c hc
      exact (v2 c.record (by rw [← h3]; exact List.mem_map_of_mem hc)).1
    refine ⟨ds, h4, by rw [h3]; exact v2, fun ops t h => .decode (isSegmented_iff.2 ⟨ds, h1, h2, rfl⟩) h, ?_⟩
    intro op' hs m hrep
    cases hs with
    | @decode _ buf' _ hb =>
      have hlen : buf'.len < maxLen := by unfold Slice.len at v3 ⊢; rw [← hb]; exact v3
      obtain ⟨o', d1, d2, _⟩ := decode_spec (rep := S.rep) (o := m.off) (n := S.n) hlen (by rw [← hb]; exact h1.symm) h2 hlt hrep.alen
      refine ⟨fun _ => ⟨⟨buf', o'⟩, by simp only [Op.run, Msg.decode, d1]; rfl, d2⟩, fun h => ?_⟩
      rw [h1] at h
      unfold Slice.len at v3
      omega

theorem exact_history {S : Schema} {ops : List Op} (hv : ∀ op ∈ ops, op.Valid S) : ∀ {cs : List Chunk},
    (∀ c ∈ cs, c.MinTag) → WellTyped S (records cs) → (flat cs).length < maxLen →
    (∃ cs', WellTyped S (records cs') ∧ Lays ops (cs.map Chunk.seg) (cs'.map Chunk.seg) ∧
      ∀ ops', SameCalls ops ops' → ∀ m, Rep S.n S.rep m.buf m.off cs →
        ∃ m', runAll S ops' m = .ok m' ∧ Rep S.n S.rep m'.buf m'.off cs') ∨
    (∀ ops', SameCalls ops ops' → ∀ m, Rep S.n S.rep m.buf m.off cs → runAll S ops' m = .error .lenOutOfRange) := by
  induction ops with
  | nil =>
    intro cs _ hw _
    refine Or.inl ⟨cs, hw, .nil, ?_⟩
    intro ops' hs m hm
    cases hs
    exact ⟨m, rfl, hm⟩
  | cons op ops ih =>
    intro cs hmin hw hl
    obtain ⟨cs1, a1, a2, a3, a4⟩ := exact_step (hv op (by simp)) hmin hw
    rcases Nat.lt_or_ge (flat cs1).length maxLen with hlt | hge
    · rcases ih (fun op h => hv op (by simp [h])) a1 a2 hlt with ⟨cs', b1, b2, b3⟩ | b
      · refine Or.inl ⟨cs', b1, a3 _ _ b2, ?_⟩
        intro ops' hs m hm
        cases hs with
        | cons hab hrest =>
          obtain ⟨m1, c1, c2⟩ := (a4 _ hab m hm).1 hlt
          obtain ⟨m2, d1, d2⟩ := b3 _ hrest m1 c2
          exact ⟨m2, by simp only [runAll, c1, bind, Except.bind, d1], d2⟩
      · refine Or.inr ?_
        intro ops' hs m hm
        cases hs with
        | cons hab hrest =>
          obtain ⟨m1, c1, c2⟩ := (a4 _ hab m hm).1 hlt
          simp only [runAll, c1, bind, Except.bind, b _ hrest m1 c2]
    · refine Or.inr ?_
      intro ops' hs m hm
      cases hs with
      | cons hab hrest =>
        simp only [runAll, (a4 _ hab m hm).2 hge, bind, Except.bind]

theorem zero_rep (S : Schema) : Rep S.n S.rep (Msg.zero S.n).buf (Msg.zero S.n).off [] :=
  empty_rep rfl (Offsets.zero_inv _) (Offsets.zero_length _) (Offsets.zero_view _)

theorem SameCall.refl (op : Op) : SameCall op op := by
  cases op with
  | set rt f k x => exact .set ..
  | append rt f x => exact .append ..
  | reset b => exact .reset rfl
  | decode b rs => exact .decode rs rfl

theorem SameCalls.refl (ops : List Op) : SameCalls ops ops := by
  induction ops with
  | nil => exact .nil
  | cons op ops ih => exact .cons (.refl op) ih

theorem Lays.unique {ops ops' : List Op} {s t t' : List Seg} (hs : SameCalls ops ops') (h : Lays ops s t) (h' : Lays ops' s t') :
    t = t' := by
  induction h generalizing ops' with
  | nil => cases hs; cases h'; rfl
  | set _ ih => cases hs with | cons h1 h2 => cases h1; cases h' with | set h' => exact ih h2 h'
  | append _ ih => cases hs with | cons h1 h2 => cases h1; cases h' with | append h' => exact ih h2 h'
  | reset _ ih => cases hs with | cons h1 h2 => cases h1; cases h' with | reset h' => exact ih h2 h'
  | decode hu _ ih => cases hs with
    | cons h1 h2 => cases h1 with
      | decode _ hb => cases h' with
        | decode hu' h' =>
          refine ih h2 ?_
          obtain ⟨ds, d1, d2, d3⟩ := isSegmented_iff.1 hu
          obtain ⟨es, e1, e2, e3⟩ := isSegmented_iff.1 hu'
          have := flat_injective d2 e2 (by rw [d1, e1, hb])
          subst this
          rw [← d3, e3]; exact h'

/-! ## C54 -/

/-- C54: the encoding after any history is the concatenation of the records that the specification `Lays` computes from
the calls; there is exactly one such list of records. -/
theorem C54_exact (S : Schema) {ops : List Op} (hv : ∀ op ∈ ops, op.Valid S) {m : Msg}
    (h : runAll S ops (Msg.zero S.n) = .ok m) :
    ∃ segs, Lays ops [] segs ∧ m.encode.data = (segs.map Prod.snd).flatten ∧ IsSegmented segs m.encode.data ∧
      ∀ segs', Lays ops [] segs' → segs' = segs := by
  rcases exact_history (S := S) hv (cs := []) (by simp) (by intro r hr; simp [records] at hr) (by decide) with ⟨cs', b1, b2, b3⟩ | b
  · obtain ⟨m', e1, e2⟩ := b3 ops (.refl ops) _ (zero_rep S)
    rw [e1] at h
    simp only [Except.ok.injEq] at h
    subst h
    have hd : m'.encode.data = flat cs' := e2.data
    refine ⟨cs'.map Chunk.seg, b2, by rw [hd, flat_eq_segs], ?_, fun s' hs' => hs'.unique (.refl ops) b2⟩
    rw [hd]
    exact isSegmented_iff.2 ⟨cs', rfl, e2.wf, rfl⟩
  · rw [b ops (.refl ops) _ (zero_rep S)] at h
    simp at h

/-- C54: the encoding is deterministic. Two runs of the same calls either both run out of address space, or give the same
bytes, fields that cannot be told apart and the same recorded offsets, whatever capacities `append` chose, whatever the
memory behind the buffers passed to `Reset` and `Decode` was, and in whatever order maps were iterated. -/
theorem C54_deterministic (S : Schema) {ops ops' : List Op} (hv : ∀ op ∈ ops, op.Valid S) (hs : SameCalls ops ops') :
    (∃ m m', runAll S ops (Msg.zero S.n) = .ok m ∧ runAll S ops' (Msg.zero S.n) = .ok m' ∧
      m.encode.data = m'.encode.data ∧ SameFields S m m' ∧ ∀ f, m.off.get f = m'.off.get f) ∨
    (runAll S ops (Msg.zero S.n) = .error .lenOutOfRange ∧ runAll S ops' (Msg.zero S.n) = .error .lenOutOfRange) := by
  rcases exact_history (S := S) hv (cs := []) (by simp) (by intro r hr; simp [records] at hr) (by decide) with ⟨cs', b1, b2, b3⟩ | b
  · left
    obtain ⟨m, e1, e2⟩ := b3 ops (.refl ops) _ (zero_rep S)
    obtain ⟨m', f1, f2⟩ := b3 ops' hs _ (zero_rep S)
    refine ⟨m, m', e1, f1, (e2.data.trans f2.data.symm), ?_, ?_⟩
    · have h1 : Holds S m (records cs') := ⟨cs', e2, rfl⟩
      have h2 : Holds S m' (records cs') := ⟨cs', f2, rfl⟩
      exact (h1.agrees b1).same (h2.agrees b1)
    · intro f
      rcases Nat.lt_or_ge f S.n with hf | hf
      · rw [Offsets.get_eq e2.inv (by rw [e2.alen]; exact hf), Offsets.get_eq f2.inv (by rw [f2.alen]; exact hf)]
        have := e2.view f
        rw [← f2.view f] at this
        rw [this]
      · rw [Offsets.get_fail (by rw [e2.alen]; exact hf), Offsets.get_fail (by rw [f2.alen]; exact hf)]
  · right
    exact ⟨b ops (.refl ops) _ (zero_rep S), b ops' hs _ (zero_rep S)⟩

/-- The record a setter or an `AppendTo` writes. -/
def Op.record : Op → Option Record
  | .set _ f k x => some ⟨f, encodeVal k x⟩
  | .append _ f x => some ⟨f, .bytes x⟩
  | .reset _ => none
  | .decode _ _ => none

theorem cutLast_none {f : Nat} {segs : List Seg} (h : ∀ s ∈ segs, s.1.num ≠ f) : cutLast f segs = none := by
  induction segs with
  | nil => rfl
  | cons s segs ih =>
    simp only [cutLast, ih (fun t ht => h t (by simp [ht])), if_neg (h s (by simp))]

theorem Lays.fresh {ops : List Op} : ∀ {rs : List Record} {s : List Seg}, ops.map Op.record = rs.map some →
    (∀ rt f k x pre post, ops = pre ++ .set rt f k x :: post → (∀ t ∈ s, t.1.num ≠ f) ∧ ∀ op ∈ pre, ∀ r, op.record = some r → r.num ≠ f) →
    Lays ops s (s ++ rs.map (fun r => (r, recordBytes r))) := by
  induction ops with
  | nil =>
    intro rs s hr _
    cases rs with
    | nil => simpa using Lays.nil
    | cons r rs => simp at hr
  | cons op ops ih =>
    intro rs s hr hf
    cases rs with
    | nil => simp at hr
    | cons r rs =>
      simp only [List.map_cons, List.cons.injEq] at hr
      have next : ∀ s', s' = s ++ [(r, recordBytes r)] → Lays ops s' (s ++ (r :: rs).map (fun r => (r, recordBytes r))) := by
        intro s' hs'
        have := ih (rs := rs) (s := s') hr.2 ?_
        · rw [hs'] at this ⊢; simpa using this
        · intro rt f k x pre post he
          obtain ⟨h1, h2⟩ := hf rt f k x (op :: pre) post (by rw [he]; rfl)
          refine ⟨?_, fun o ho r hor => h2 o (by simp [ho]) r hor⟩
          intro t ht
          rw [hs', List.mem_append, List.mem_singleton] at ht
          rcases ht with ht | rfl
          · exact h1 t ht
          · exact h2 op (by simp) r hr.1
      cases op with
      | set rt f k x =>
        have hro : r = ⟨f, encodeVal k x⟩ := by have := hr.1; simp only [Op.record, Option.some.injEq] at this; exact this.symm
        refine Lays.set (next _ ?_)
        unfold putSeg
        show (match cutLast f s with | none => _ | some (p, old, q) => _) = _
        rw [cutLast_none (hf rt f k x [] ops rfl).1, hro]
        rfl
      | append rt f x =>
        have hro : r = ⟨f, .bytes x⟩ := by have := hr.1; simp only [Op.record, Option.some.injEq] at this; exact this.symm
        exact Lays.append (next _ (by rw [hro]; rfl))
      | reset b => simp [Op.record] at hr
      | decode b rs' => simp [Op.record] at hr

/-- C54: setting each singular field at most once, and appending any number of elements, on an empty message, gives exactly
the shortest encodings of these records in the order of the calls. -/
theorem C54_once (S : Schema) {ops : List Op} {rs : List Record} (hv : ∀ op ∈ ops, op.Valid S) {m : Msg}
    (hr : ops.map Op.record = rs.map some)
    (honce : (rs.filter (fun r => S.rep r.num = false)).Pairwise (fun r r' => r.num ≠ r'.num))
    (h : runAll S ops (Msg.zero S.n) = .ok m) : m.encode.data = (rs.map recordBytes).flatten := by
  obtain ⟨segs, h1, h2, _, h4⟩ := C54_exact S hv h
  have := h4 _ (Lays.fresh (s := []) hr ?_)
  · rw [h2, ← this]; simp [List.map_map, Function.comp_def]
  · intro rt f k x pre post he
    refine ⟨by simp, ?_⟩
    intro op hop r hor hnum
    have hsing : S.rep f = false := (hv (.set rt f k x) (by rw [he]; simp)).2.1
    subst he
    obtain ⟨p1, p2, hp⟩ := List.append_of_mem hop
    subst hp
    have hfm : rs = (p1 ++ op :: p2 ++ Op.set rt f k x :: post).filterMap Op.record := by
      have : (ops : List (Option Record)) → ∀ rs : List Record, ops = rs.map some → rs = ops.filterMap id := by
        intro o rs he; subst he; simp
      have := this _ rs hr
      rw [List.filterMap_map] at this
      exact this
    rw [hfm] at honce
    have hset : Op.record (.set rt f k x) = some ⟨f, encodeVal k x⟩ := rfl
    simp only [List.filterMap_append, List.filterMap_cons, hor, hset, List.filter_append, List.filter_cons, hnum, hsing,
      decide_true, if_true, List.append_assoc, List.cons_append] at honce
    have h5 := (List.pairwise_append.1 honce).2.1
    have h6 := (List.pairwise_cons.1 h5).1 ⟨f, encodeVal k x⟩ (by simp)
    exact h6 hnum

/-- Equal contents may have different encodings: the encoding is a function of the calls, not of the contents. -/
theorem C54_false_canonical : ∃ ops ops' : List Op, (∀ op ∈ ops, op.Valid testSchema) ∧ (∀ op ∈ ops', op.Valid testSchema) ∧
    ∃ m m', runAll testSchema ops (Msg.zero testSchema.n) = .ok m ∧ runAll testSchema ops' (Msg.zero testSchema.n) = .ok m' ∧
      (∀ c, applyAll ops c = applyAll ops' c) ∧ m.encode.data ≠ m'.encode.data := by
  refine ⟨[.set Rt.exact 2 .int32 7#32, .set Rt.exact 1 .bool true], [.set Rt.exact 1 .bool true, .set Rt.exact 2 .int32 7#32],
    ?_, ?_, _, _, rfl, rfl, ?_, by decide⟩
  · intro op h
    simp only [List.mem_cons, List.not_mem_nil, or_false] at h
    rcases h with rfl | rfl <;> exact ⟨rfl, rfl, by decide⟩
  · intro op h
    simp only [List.mem_cons, List.not_mem_nil, or_false] at h
    rcases h with rfl | rfl <;> exact ⟨rfl, rfl, by decide⟩
  · intro c
    simp only [applyAll, Op.apply, Contents.set]
    congr 1
    funext f
    by_cases h2 : f = 2
    · subst h2; simp
    · by_cases h1 : f = 1 <;> simp [h1, h2]

/-- Six calls: field 2 is set, overwritten by a value of the same length, field 1 is set, field 2 is overwritten by a longer
value (and so moves to the end), two elements are appended; the specification gives these records. -/
example : let ops : List Op := [.set Rt.exact 2 .int32 5#32, .set Rt.exact 2 .int32 7#32, .set Rt.exact 1 .bool true,
      .set Rt.exact 2 .int32 300#32, .append Rt.exact 34 [1#8], .append Rt.exact 34 []]
    (∀ op ∈ ops, op.Valid testSchema) ∧
    (∃ m, runAll testSchema ops (Msg.zero testSchema.n) = .ok m ∧ m.encode.data =
      [0x08#8, 0x01#8, 0x10#8, 0xac#8, 0x02#8, 0x92#8, 0x02#8, 0x01#8, 0x01#8, 0x92#8, 0x02#8, 0x00#8]) ∧
    Lays ops [] [(⟨1, .varint 1#64⟩, [0x08#8, 0x01#8]), (⟨2, .varint 300#64⟩, [0x10#8, 0xac#8, 0x02#8]),
      (⟨34, .bytes [1#8]⟩, [0x92#8, 0x02#8, 0x01#8, 0x01#8]), (⟨34, .bytes []⟩, [0x92#8, 0x02#8, 0x00#8])] := by
  refine ⟨?_, ⟨_, rfl, rfl⟩, ?_⟩
  · intro op h
    simp only [List.mem_cons, List.not_mem_nil, or_false] at h
    rcases h with rfl | rfl | rfl | rfl | rfl | rfl <;> exact ⟨rfl, rfl, by decide⟩
  · exact .set (.set (.set (.set (.append (.append .nil)))))

/-- The hypotheses of `C54_once` hold of three fields and two elements. -/
example : let ops : List Op := [.set Rt.exact 14 .string [0x68#8], .append Rt.exact 34 [1#8], .set Rt.exact 2 .int32 7#32,
      .append Rt.exact 34 []]
    let rs : List Record := [⟨14, .bytes [0x68#8]⟩, ⟨34, .bytes [1#8]⟩, ⟨2, .varint 7#64⟩, ⟨34, .bytes []⟩]
    (∀ op ∈ ops, op.Valid testSchema) ∧ ops.map Op.record = rs.map some ∧
    (rs.filter (fun r => testSchema.rep r.num = false)).Pairwise (fun r r' => r.num ≠ r'.num) ∧
    ∃ m, runAll testSchema ops (Msg.zero testSchema.n) = .ok m := by
  refine ⟨?_, rfl, ?_, ⟨_, rfl⟩⟩
  · intro op h
    simp only [List.mem_cons, List.not_mem_nil, or_false] at h
    rcases h with rfl | rfl | rfl | rfl <;> exact ⟨rfl, rfl, by decide⟩
  · rw [show ([⟨14, .bytes [0x68#8]⟩, ⟨34, .bytes [1#8]⟩, ⟨2, .varint 7#64⟩, ⟨34, .bytes []⟩] : List Record).filter
      (fun r => testSchema.rep r.num = false) = [⟨14, .bytes [0x68#8]⟩, ⟨2, .varint 7#64⟩] from rfl]
    simp

end Zeropb
