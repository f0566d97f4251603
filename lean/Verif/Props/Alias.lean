import Verif.Mem.Grow
import Verif.Props.Mem
import Verif.Props.Big
set_option linter.unusedSimpArgs false
set_option linter.unusedVariables false
/-!
# Sharing memory (C32, C33, C34, C48, C50)

Arguments of setters, results of getters, extracted sub-messages and copied structs share memory with
the message; these theorems say when that matters.
-/

namespace Zeropb
open Wire

/-- The heaps agree on every byte outside the `len` bytes of slice `t`, and on the overflow maps. -/
def SameOutside (t : HSlice) (w w' : World) : Prop :=
  w'.maps = w.maps ∧ ∀ a p, ¬ (t.arr = a ∧ t.off ≤ p ∧ p < t.off + t.len) → w'.cell a p = w.cell a p

theorem msg_of_sameOutside {w w2 : World} {m : HMsg} {t : HSlice} (ha : Src.Apart w m.buf (.mem t)) (h : SameOutside t w w2) :
    w2.msg m = w.msg m := by
  unfold World.msg
  rw [World.offs_congr h.1]
  congr 1
  apply World.slice_congr
  intro i p ho
  apply h.2
  rintro ⟨rfl, h1, h2⟩
  exact ha.2 p h1 h2 ho

/-! ## C32 -/

/-- C32: a string, bytes or message setter copies its argument. `w` is the heap before the call, `w'`
the one after it, and `w2` what later code makes of it by changing the bytes of the argument at will:
the message is the same in `w2` as in `w'`, and the field holds the bytes the argument had at the time
of the call. The argument must not share memory with the buffer of the message. -/
theorem C32_set_copies {S : Schema} {w w' w2 : World} {m m' : HMsg} (hw : w.WF m) (h : Reach S (w.msg m)) {rt : Rt} {f : Nat}
    {t : HSlice} (ha : Src.Apart w m.buf (.mem t)) (ht : t.len < maxLen)
    (hk : S.kind f = some .bytes ∨ S.kind f = some .string) (hr : S.rep f = false)
    (hs : m.setBytes rt w f (.mem t) = .ok (m', w')) (h2 : SameOutside t w' w2) :
    w2.msg m' = w'.msg m' ∧ Reach S (w'.msg m') ∧
    bytesOf (w2.msg m') f = .ok (some (w.slice t).data) ∧ (w2.msg m').get .string f = .ok (w.slice t).data := by
  have hlen : (w.slice t).data.length = t.len := World.slice_len ha.1
  have r := setBytes_refines rt hw f ha
  cases hv : setBytes rt (w.slice m.buf) (w.offs m) f (w.src (.mem t)) with
  | error e =>
    rw [hv] at r
    have : m.setBytes rt w f (.mem t) = .error e := r
    rw [this] at hs; simp at hs
  | ok p =>
    obtain ⟨b, o⟩ := p
    rw [hv] at r
    obtain ⟨m1, w1, e1, e2, e3, e4⟩ := r
    rw [e1] at hs
    simp only [Except.ok.injEq, Prod.mk.injEq] at hs
    obtain ⟨rfl, rfl⟩ := hs
    have hsame := msg_of_sameOutside (ha.frame e4.bytes).1 h2
    have hset : ∀ k : Kind, (hkk : k = .bytes ∨ k = .string) → S.kind f = some k →
        Reach S (w1.msg m1) ∧ bytesOf (w1.msg m1) f = .ok (some (w.slice t).data) ∧
        (w1.msg m1).get .string f = .ok (w.slice t).data := by
      intro k hkk hkf
      obtain ⟨rs, g1, g2⟩ := h.holds
      have hb : ∃ v, (w.msg m).set rt k f v = .ok (w1.msg m1) ∧ encodeVal k v = .bytes (w.slice t).data ∧ k.size v < maxLen := by
        rcases hkk with rfl | rfl
        · refine ⟨(w.slice t).data, ?_, rfl, by rw [← hlen] at ht; exact ht⟩
          show (do let (b, o) ← setBytes rt (w.slice m.buf) (w.offs m) f (w.src (.mem t)); return (⟨b, o⟩ : Msg)) = _
          rw [hv, e2]; rfl
        · refine ⟨(w.slice t).data, ?_, rfl, by rw [← hlen] at ht; exact ht⟩
          show (do let (b, o) ← setBytes rt (w.slice m.buf) (w.offs m) f (w.src (.mem t)); return (⟨b, o⟩ : Msg)) = _
          rw [hv, e2]; rfl
      obtain ⟨v, hv1, hv2, hv3⟩ := hb
      rcases g1.set rt hkf hr v hv3 (fun u hu => g2.last hkf hu) with ⟨mm, rs', d1, d2, d3, _⟩ | ⟨d1, _⟩
      · rw [hv1] at d1
        simp only [Except.ok.injEq] at d1
        rw [hv2] at d3
        refine ⟨.set h hkf hr hv3 hv1, ?_, ?_⟩
        · have := d2.holds.bytesOf (f := f) (S.kind_lt f (by rw [hkf]; simp)) hr (Or.inr ⟨_, d3⟩)
          rw [d3] at this
          rw [d1]; exact this
        · obtain ⟨cs, c1, c2⟩ := d2.holds
          subst c2
          rw [lastVal_records] at d3
          by_cases hex : ∃ c ∈ cs, c.num = f
          · obtain ⟨pre, c, post, hcs, hc, hp⟩ := exists_last hex
            rw [hcs, lastChunk_eq hc hp] at d3
            simp only [Option.map_some, Option.some.injEq] at d3
            have hcw := (c1.wf c (by rw [hcs]; simp)).pay
            rw [d3] at hcw
            rw [d1]
            exact getString_located (c1.located_last hcs hr hc hp) hcw
          · exfalso
            have : (cs.filter (fun c => c.num = f)).getLast? = none := by
              rw [List.getLast?_eq_none_iff, List.filter_eq_nil_iff]
              intro c hc; simpa using fun e => hex ⟨c, hc, e⟩
            unfold lastChunk at d3
            rw [this] at d3
            simp at d3
      · rw [hv1] at d1; simp at d1
    rw [hsame]
    rcases hk with hk | hk
    · exact ⟨rfl, hset .bytes (Or.inl rfl) hk⟩
    · exact ⟨rfl, hset .string (Or.inr rfl) hk⟩

/-- C32: `AppendTo` copies its argument. -/
theorem C32_append_copies {S : Schema} {w w' w2 : World} {m m' : HMsg} (hw : w.WF m) (h : Reach S (w.msg m)) {rt : Rt} {f : Nat}
    {t : HSlice} (ha : Src.Apart w m.buf (.mem t)) (ht : t.len < maxLen) (hk : S.kind f = some .bytes) (hr : S.rep f = true)
    {els : List (List Byte)} (he : Elems (w.msg m) f els)
    (hs : m.appendBytes rt w f (.mem t) = .ok (m', w')) (h2 : SameOutside t w' w2) :
    w2.msg m' = w'.msg m' ∧ Reach S (w'.msg m') ∧ Elems (w2.msg m') f (els ++ [(w.slice t).data]) := by
  have hlen : (w.slice t).data.length = t.len := World.slice_len ha.1
  have r := appendBytes_refines rt hw f ha
  cases hv : appendBytes rt (w.slice m.buf) (w.offs m) f (w.src (.mem t)) with
  | error e =>
    rw [hv] at r
    have : m.appendBytes rt w f (.mem t) = .error e := r
    rw [this] at hs; simp at hs
  | ok p =>
    obtain ⟨b, o⟩ := p
    rw [hv] at r
    obtain ⟨m1, w1, e1, e2, e3, e4⟩ := r
    rw [e1] at hs
    simp only [Except.ok.injEq, Prod.mk.injEq] at hs
    obtain ⟨rfl, rfl⟩ := hs
    have hsame := msg_of_sameOutside (ha.frame e4.bytes).1 h2
    have hap : (w.msg m).appendRaw rt f (w.slice t).data = .ok (w1.msg m1) := by
      show (do let (b, o) ← appendBytes rt (w.slice m.buf) (w.offs m) f (w.src (.mem t)); return (⟨b, o⟩ : Msg)) = _
      rw [hv, e2]; rfl
    rw [hsame]
    refine ⟨rfl, .append h hk hr (by rw [hlen]; exact ht) hap, ?_⟩
    rcases C10_append h rt hk hr ⟨⟨(w.slice t).data, []⟩, ⟨[], none⟩⟩ (by show (w.slice t).data.length < _; rw [hlen]; exact ht) he with
      ⟨m2, d1, _, d3, _⟩ | ⟨d1, _⟩
    · have d1' : (w.msg m).appendRaw rt f (w.slice t).data = .ok m2 := d1
      rw [hap] at d1'
      simp only [Except.ok.injEq] at d1'
      rw [d1']; exact d3
    · have d1' : (w.msg m).appendRaw rt f (w.slice t).data = .error .lenOutOfRange := d1
      rw [hap] at d1'; simp at d1'

/-- A message with bytes field 15 = "abcd" and bool field 1 = true, in an array of its own. -/
def aliasWorld : World := ⟨[[0x7a#8, 0x04#8, 0x61#8, 0x62#8, 0x63#8, 0x64#8, 0x08#8, 0x01#8]], []⟩
def aliasMsg : HMsg := ⟨⟨0, 0, 8, 8⟩, ((List.replicate 35 0#16).set 15 1#16).set 1 7#16, none⟩

theorem aliasMsg_steps : (do let m ← (Msg.zero 35).set Rt.exact .bytes 15 [0x61#8, 0x62#8, 0x63#8, 0x64#8]
                             m.set Rt.exact .bool 1 true) = .ok (aliasWorld.msg aliasMsg) := by decide +kernel

theorem aliasMsg_reach : Reach testSchema (aliasWorld.msg aliasMsg) := by
  obtain ⟨m1, h1, h⟩ := Reach.of_bind (S := testSchema) aliasMsg_steps
  exact .set (.set .zero rfl rfl (by decide) h1) rfl rfl (by decide) h

theorem aliasMsg_wf : aliasWorld.WF aliasMsg := by
  refine ⟨⟨by decide, by decide⟩, ?_⟩
  intro id h; simp [aliasMsg] at h

/-- Hypotheses of `C32_set_copies` met: the message takes a string from another array. -/
example : let w : World := ⟨aliasWorld.arrs ++ [[0x78#8, 0x79#8, 0x7a#8]], []⟩
    let t : HSlice := ⟨1, 0, 2, 3⟩
    w.WF aliasMsg ∧ Reach testSchema (w.msg aliasMsg) ∧ Src.Apart w aliasMsg.buf (.mem t) ∧ (w.slice t).data = [0x78#8, 0x79#8] ∧
    ∃ m' w', aliasMsg.setBytes Rt.exact w 15 (.mem t) = .ok (m', w') ∧ SameOutside t w' (w'.write 1 0 [0#8, 0#8]) := by
  refine ⟨⟨⟨by decide, by decide⟩, by intro id h; simp [aliasMsg] at h⟩, aliasMsg_reach, ⟨⟨by decide, by decide⟩, ?_⟩, by decide,
    ⟨⟨0, 0, 6, 8⟩, ((List.replicate 35 0#16).set 1 1#16).set 15 3#16, none⟩,
    ⟨[[0x08#8, 0x01#8, 0x7a#8, 0x02#8, 0x78#8, 0x79#8, 0x08#8, 0x01#8], [0x78#8, 0x79#8, 0x7a#8]], []⟩, by decide +kernel, ?_, ?_⟩
  · rintro p _ _ ⟨h, _⟩; simp [aliasMsg] at h
  · rfl
  · intro a p h
    rw [World.cell_write _ _ _ _ (by decide)]
    rw [if_neg]
    rintro ⟨rfl, h1, h2⟩
    exact h ⟨rfl, h1, by simp only [List.length_cons, List.length_nil] at h2 ⊢; omega⟩

/-- C32 fails for an argument inside the message: `b := m.Bytes(); m.SetBytes(b[:2])` should store
"ab", but when the argument is appended, its memory has already been overwritten: the field then holds
its own tag and length bytes. -/
theorem C32_false_self : aliasWorld.WF aliasMsg ∧ Reach testSchema (aliasWorld.msg aliasMsg) ∧
    aliasMsg.getBytes aliasWorld 15 = .ok (some ⟨0, 2, 4, 6⟩) ∧ (⟨0, 2, 4, 6⟩ : HSlice).range 0 2 = .ok ⟨0, 2, 2, 6⟩ ∧
    (aliasWorld.slice ⟨0, 2, 2, 6⟩).data = [0x61#8, 0x62#8] ∧
    ∃ m' w', aliasMsg.setBytes Rt.exact aliasWorld 15 (.mem ⟨0, 2, 2, 6⟩) = .ok (m', w') ∧
      bytesOf (w'.msg m') 15 = .ok (some [0x7a#8, 0x02#8]) :=
  ⟨aliasMsg_wf, aliasMsg_reach, by decide +kernel, by decide, by decide +kernel,
    ⟨⟨0, 0, 6, 8⟩, ((List.replicate 35 0#16).set 1 1#16).set 15 3#16, none⟩,
    ⟨[[0x08#8, 0x01#8, 0x7a#8, 0x02#8, 0x7a#8, 0x02#8, 0x08#8, 0x01#8]], []⟩, by decide +kernel, by decide +kernel⟩

/-! ## C34: readers -/

/-- Two heaps with the same bytes. -/
theorem msg_eq_of_frame {w w' : World} {x x' m : HMsg} (hf : Frame w w' x x') (ha : w'.arrs = w.arrs) (hw : w.WF m)
    (hm : ∀ id, x.m = some id → m.m ≠ some id) : w'.msg m = w.msg m := by
  unfold World.msg
  rw [World.slice_arrs ha]
  congr 1
  unfold World.offs
  cases hmm : m.m with
  | none => rfl
  | some id =>
    simp only [Option.map_some, Offsets.mk.injEq, true_and, Option.some.injEq]
    exact hf.maps id (hw.2 id hmm) (fun e => hm id e hmm)

/-- C34: `Decode(buf)` writes no byte of memory, and changes no struct but its own. The message's
buffer is `buf` itself. -/
theorem C34_decode_reads (rep : Nat → Bool) {w w' : World} {x x' : HMsg} {buf : HSlice} {err : Option DecErr}
    (hw : w.WF x) (hb : w.WFs buf) (h : x.decode rep w buf = .ok (x', w', err)) :
    w'.arrs = w.arrs ∧ x'.buf = buf ∧ (w.msg x).decode rep (w.slice buf) = .ok (w'.msg x', err) ∧
    ∀ m, w.WF m → (∀ id, x.m = some id → m.m ≠ some id) → w'.msg m = w.msg m := by
  have r := decode_refines rep hw hb
  cases hv : (w.msg x).decode rep (w.slice buf) with
  | error e => rw [hv] at r; simp only at r; rw [r] at h; simp at h
  | ok p =>
    obtain ⟨v, err1⟩ := p
    rw [hv] at r
    obtain ⟨m1, w1, e1, e2, e3, e4, e5, e6⟩ := r
    rw [e1] at h
    simp only [Except.ok.injEq, Prod.mk.injEq] at h
    obtain ⟨rfl, rfl, rfl⟩ := h
    exact ⟨e5, e4, by rw [e2], fun m hm hne => msg_eq_of_frame e6 e5 hm hne⟩

/-- A view: `v` refers to bytes of `s` (within its length, not only its capacity). -/
def HSlice.Inside (s v : HSlice) : Prop := v.arr = s.arr ∧ s.off ≤ v.off ∧ v.off + v.len ≤ s.off + s.len

/-- Where the bytes of a view are, from its value. -/
theorem view_position {w : World} {s v : HSlice} (hs : w.WFs s) (hv : w.WFs v) (ht : s.Tail v) {A b B : List Byte}
    (hd : (w.slice s).data = A ++ b ++ B) (hvs : w.slice v = ⟨b, B ++ (w.slice s).spare⟩) :
    s.Inside v ∧ v.off = s.off + A.length ∧ v.len = b.length := by
  have l1 := World.slice_len hs
  have l2 := World.slice_len hv
  have l3 := World.slice_spare hs
  have l4 := World.slice_spare hv
  rw [hd] at l1
  rw [hvs] at l2 l4
  simp only [List.length_append] at l1 l2 l4
  obtain ⟨t1, t2, t3⟩ := ht
  have := hs.1
  have := hv.1
  exact ⟨⟨t1, t2, by omega⟩, by omega, by omega⟩

/-- C34: the bytes (or string, or sub-message) getter of a message returns a view of the message's own
bytes, without copying. -/
theorem C34_view {S : Schema} {w : World} {m : HMsg} (hw : w.WF m) (h : Readable S (w.msg m)) {f : Nat}
    (hk : S.kind f = some .bytes) (hr : S.rep f = false) {v : HSlice} (hg : m.getBytes w f = .ok (some v)) :
    m.buf.Inside v ∧ bytesOf (w.msg m) f = .ok (some (w.slice v).data) := by
  have hview := getBytes_view hw.1 f
  rw [hg] at hview
  obtain ⟨A, B, a1, a2⟩ := (C34_views h hk).1 hr (w.slice v) hview
  obtain ⟨i, j, hij⟩ := getBytes_owns hg
  refine ⟨(view_position hw.1 (HSlice.range_wf hw.1 hij) (HSlice.range_tail hij) a1 ?_).1, ?_⟩
  · show (⟨(w.slice v).data, (w.slice v).spare⟩ : Slice) = _
    rw [a2]; rfl
  · show (do let r ← getBytes (w.slice m.buf) (w.offs m) f; return r.map Slice.data : Res _) = _
    rw [hview]; rfl

/-- C34: each element returned while iterating a repeated field is a view of the message's own bytes. -/
theorem C34_iterate_views {S : Schema} {w : World} {m : HMsg} (hw : w.WF m) (h : Readable S (w.msg m)) {f : Nat}
    (hk : S.kind f = some .bytes) (hr : S.rep f = true) {els : List (List Byte)} (he : Elems (w.msg m) f els) :
    ∃ its : Nat → Option HSlice, m.messages w f = .ok (its 0) ∧ (∀ i (hi : i < els.length), ∃ v,
      hFindNextField w (its i) f = .ok (its (i + 1), some v) ∧ m.buf.Inside v ∧ (w.slice v).data = els[i]) ∧
      ∀ i, els.length ≤ i → its i = none ∧ hFindNextField w (its i) f = .ok (its (i + 1), none) := by
  obtain ⟨its, rest, v1, v2⟩ := (C34_views h hk).2 hr els he
  obtain ⟨its', u1, u2, u3⟩ := he
  have hsame : ∀ i, i ≤ els.length → its i = its' i := by
    intro i
    induction i with
    | zero => intro _; rw [v1] at u1; exact Except.ok.inj u1
    | succ i ih =>
      intro hi
      obtain ⟨a, _⟩ := v2 i (by omega)
      obtain ⟨r, b⟩ := u2 i (by omega)
      rw [ih (by omega), b] at a
      simp only [Except.ok.injEq, Prod.mk.injEq] at a
      exact a.1.symm
  -- the iterators in the heap, by recursion over the value-level ones
  have step : ∀ n, n ≤ els.length → ∃ hs : Nat → Option HSlice, m.messages w f = .ok (hs 0) ∧
      (∀ i, i ≤ n → (hs i).map w.slice = its i ∧ ∀ b, hs i = some b → w.WFs b ∧ m.buf.Tail b) ∧
      (∀ i (hi : i < els.length), i < n → ∃ v, hFindNextField w (hs i) f = .ok (hs (i + 1), some v) ∧ w.WFs v ∧ m.buf.Tail v ∧
        w.slice v = ⟨els[i], rest i⟩) := by
    intro n
    induction n with
    | zero =>
      intro _
      have hv := messages_view hw.1 f
      have v1' : getRepeatedNonPacked (w.slice m.buf) (w.offs m) f = .ok (its 0) := v1
      rw [v1'] at hv
      cases hm : m.messages w f with
      | error e => rw [hm] at hv; simp [Except.map] at hv
      | ok o =>
        rw [hm] at hv
        simp only [Except.map, Except.ok.injEq] at hv
        refine ⟨fun _ => o, rfl, ?_, fun i _ hi => absurd hi (by omega)⟩
        intro i hi
        have : i = 0 := by omega
        subst this
        refine ⟨hv.symm, ?_⟩
        intro b hb
        have hb' : o = some b := hb
        subst hb'
        have := messages_tail hw.1 hm
        exact ⟨this.2, this.1⟩
    | succ n ih =>
      intro hn
      obtain ⟨hs, s1, s2, s3⟩ := ih (by omega)
      obtain ⟨a, _⟩ := v2 n (by omega)
      obtain ⟨b1, b2⟩ := s2 n (Nat.le_refl _)
      have hv := findNextField_view (w := w) (it := hs n) (fun b hb => (b2 b hb).1) f
      rw [b1, a] at hv
      cases hf : hFindNextField w (hs n) f with
      | error e => rw [hf] at hv; simp [Except.map] at hv
      | ok p =>
        obtain ⟨nx, vw⟩ := p
        rw [hf] at hv
        simp only [Except.map, Except.ok.injEq, Prod.mk.injEq] at hv
        obtain ⟨hv1, hv2⟩ := hv
        cases hsn : hs n with
        | none => rw [hsn] at hf; simp [hFindNextField] at hf; rw [← hf.2] at hv2; simp at hv2
        | some b =>
          obtain ⟨c1, c2⟩ := b2 b hsn
          rw [hsn] at hf
          obtain ⟨t1, t2⟩ := hFindNextField_tail c1 hf
          cases vw with
          | none => simp at hv2
          | some v =>
            refine ⟨fun i => if i ≤ n then hs i else nx, by simp only [if_pos (Nat.zero_le _)]; exact s1, ?_, ?_⟩
            · intro i hi
              by_cases e : i ≤ n
              · simp only [if_pos e]; exact s2 i e
              · simp only [if_neg e]
                have : i = n + 1 := by omega
                subst this
                refine ⟨hv1.symm, fun r hr => ?_⟩
                have := t1 r hr
                exact ⟨this.2, c2.trans this.1⟩
            · intro i hil hi
              by_cases e : i < n
              · simp only [if_pos (show i ≤ n by omega), if_pos (show i + 1 ≤ n by omega)]
                exact s3 i hil e
              · have : i = n := by omega
                subst this
                simp only [if_pos (Nat.le_refl i), if_neg (show ¬ i + 1 ≤ i by omega)]
                rw [hsn]
                have := t2 v rfl
                refine ⟨v, hf, this.2, c2.trans this.1, ?_⟩
                simp only [Option.map_some, Option.some.injEq] at hv2
                exact hv2.symm
  obtain ⟨hs, s1, s2, s3⟩ := step els.length (Nat.le_refl _)
  have hlast : hs els.length = none := by
    have := (s2 els.length (Nat.le_refl _)).1
    rw [hsame _ (Nat.le_refl _), u3 _ (Nat.le_refl _)] at this
    simpa using this
  refine ⟨fun i => if i ≤ els.length then hs i else none, by simp only [if_pos (Nat.zero_le _)]; exact s1, ?_, ?_⟩
  · intro i hi
    simp only [if_pos (show i ≤ els.length by omega), if_pos (show i + 1 ≤ els.length by omega)]
    obtain ⟨v, d1, d2, d3, d4⟩ := s3 i hi hi
    obtain ⟨_, A, B, e1, e2⟩ := v2 i hi
    refine ⟨v, d1, (view_position hw.1 d2 d3 e1 ?_).1, by rw [d4]⟩
    rw [d4, e2]; rfl
  · intro i hi
    have : ∀ j, els.length ≤ j → (if j ≤ els.length then hs j else none) = none := by
      intro j hj
      by_cases e : j ≤ els.length
      · rw [if_pos e]
        have : j = els.length := by omega
        rw [this]; exact hlast
      · rw [if_neg e]
    simp only [this i hi, this (i + 1) (by omega)]
    exact ⟨trivial, rfl⟩

/-- Hypotheses met. -/
example : aliasWorld.WF aliasMsg ∧ Readable testSchema (aliasWorld.msg aliasMsg) ∧ testSchema.kind 15 = some .bytes ∧
    testSchema.rep 15 = false ∧ aliasMsg.getBytes aliasWorld 15 = .ok (some ⟨0, 2, 4, 6⟩) :=
  ⟨aliasMsg_wf, .reach aliasMsg_reach, rfl, rfl, by decide +kernel⟩

/-! ## C33, C34: extracting a sub-message -/

/-- C34, C33: the accessor of a sub-message field does what the value model says, writes no byte,
leaves the parent as it was, and the sub-message's buffer is the view the bytes getter would return.
`x` is the struct the caller passes in; it is not the parent. -/
theorem C34_extract {w w' : World} {m x x' : HMsg} (hw : w.WF m) (hx : w.WF x) (hne : ∀ id, x.m = some id → m.m ≠ some id)
    {repX : Nat → Bool} {f : Nat} {present : Bool} {err : Option DecErr}
    (h : m.subMessage repX w f x = .ok (x', w', present, err)) :
    (w.msg m).subMessage repX f (w.msg x) = .ok (w'.msg x', present, err) ∧ w'.arrs = w.arrs ∧ w'.msg m = w.msg m ∧
    w'.WF x' ∧ w'.WF m ∧
    (present = true → m.getBytes w f = .ok (some x'.buf)) ∧ (∀ id, x'.m = some id → m.m ≠ some id) := by
  unfold HMsg.subMessage at h
  unfold Msg.subMessage
  have hv := getBytes_view hw.1 f
  have hv' : getBytes (w.msg m).buf (w.msg m).off f = (m.getBytes w f).map (Option.map w.slice) := hv
  rw [hv']
  cases hg : m.getBytes w f with
  | error e => rw [hg] at h; simp [bind, Except.bind] at h
  | ok o =>
    rw [hg] at h
    cases o with
    | none =>
      simp only [bind, Except.bind, pure, Except.pure, Except.ok.injEq, Prod.mk.injEq] at h
      obtain ⟨rfl, rfl, rfl, rfl⟩ := h
      exact ⟨rfl, rfl, rfl, hx, hw, fun h => by simp at h, hne⟩
    | some buf =>
      obtain ⟨i, j, hij⟩ := getBytes_owns hg
      have hb := HSlice.range_wf hw.1 hij
      simp only [bind, Except.bind] at h
      cases hd : x.decode repX w buf with
      | error e => rw [hd] at h; simp at h
      | ok q =>
        obtain ⟨x1, w1, err1⟩ := q
        rw [hd] at h
        simp only [pure, Except.pure, Except.ok.injEq, Prod.mk.injEq] at h
        obtain ⟨rfl, rfl, rfl, rfl⟩ := h
        have r := decode_refines repX hx hb
        cases hv : (w.msg x).decode repX (w.slice buf) with
        | error e => rw [hv] at r; simp only at r; rw [r] at hd; simp at hd
        | ok p =>
          obtain ⟨v, err2⟩ := p
          rw [hv] at r
          obtain ⟨m1, w2, e1, e2, e3, e4, e5, e6⟩ := r
          rw [e1] at hd
          simp only [Except.ok.injEq, Prod.mk.injEq] at hd
          obtain ⟨rfl, rfl, rfl⟩ := hd
          refine ⟨?_, e5, msg_eq_of_frame e6 e5 hw hne, e3, ?_, fun _ => by rw [e4], ?_⟩
          · simp only [Except.map, Option.map_some, bind, Except.bind, hv, pure, Except.pure, e2]
          · exact ⟨e6.bytes.wf hw.1, fun id h => Nat.lt_of_lt_of_le (hw.2 id h) e6.mgrow⟩
          · intro id h1 h2
            rcases e6.mown with h3 | ⟨id', h3, h4⟩
            · simp only at h3
              exact hne id (h3 ▸ h1) h2
            · simp only at h3
              rw [h3] at h1
              simp only [Option.some.injEq] at h1
              have := hw.2 id h2
              omega

/-- C33, what is guaranteed: let the bytes of message `m` be `A ++ B`, where `A` are the records `rs1`
and `B` the records `rs2`. Whatever calls are made on messages whose buffers reach no byte of `A`
(such as a sub-message extracted from `B`), all singular fields of `m` that do not occur in `B` keep
their values. -/
theorem C33_before {S : Schema} (Ss : Nat → Schema) {s s' : Sys} {m : HMsg} (hw : s.w.WF m) (h : Readable S (s.w.msg m))
    {rs1 rs2 : List Record} {A B : List Byte} (hd : (s.w.msg m).encode.data = A ++ B) (hA : IsMessage rs1 A) (hB : IsMessage rs2 B)
    (hsep : s.Separate) {ops : List SysOp} (hdis : ∀ op ∈ ops, op.Distinct)
    (hview : ∀ mi ∈ s.ms, (∀ p, m.buf.off ≤ p → p < m.buf.off + A.length → ¬ mi.buf.owns m.buf.arr p) ∧
      (∀ id, mi.m = some id → m.m ≠ some id))
    (hr : s.runAll Ss ops = .ok s') {g : Nat} {k : Kind} (hk : S.kind g = some k) (hg : S.rep g = false)
    (hgB : ∀ r ∈ rs2, r.num ≠ g) :
    (s'.w.msg m).get k g = (s.w.msg m).get k g ∧ (k = .bytes → bytesOf (s'.w.msg m) g = bytesOf (s.w.msg m) g) := by
  obtain ⟨fc, fm, fs⟩ := C31_footprint Ss hdis hsep hr
  -- the chunks
  obtain ⟨cs1, d1, d2, rfl⟩ := isMessage_iff.1 hA
  obtain ⟨cs2, d3, d4, rfl⟩ := isMessage_iff.1 hB
  obtain ⟨rs, h1, hwt⟩ := h.holds
  obtain ⟨cs, h2, rfl⟩ := h1
  have hcs : cs = cs1 ++ cs2 := by
    refine flat_injective h2.wf ?_ ?_
    · intro c hc
      rcases List.mem_append.1 hc with hc | hc
      · exact d2 c hc
      · exact d4 c hc
    · rw [flat_append, d1, d3, ← hd]; exact h2.data.symm
  subst hcs
  have hgB' : ∀ c ∈ cs2, c.num ≠ g := fun c hc => hgB c.record (List.mem_map.2 ⟨c, hc, rfl⟩)
  have hgl : g < S.n := S.kind_lt g (by rw [hk]; simp)
  -- offsets unchanged
  have hoff : s'.w.offs m = s.w.offs m := by
    unfold World.offs
    cases hm : m.m with
    | none => rfl
    | some id =>
      simp only [Option.map_some, Offsets.mk.injEq, true_and, Option.some.injEq]
      exact fm id (hw.2 id hm) (fun op _ mi hmi e => (hview mi (List.mem_of_getElem? hmi)).2 id e hm)
  have hdata : (s.w.slice m.buf).data = A ++ B := hd
  have hlen : m.buf.len = A.length + B.length := by
    rw [← World.slice_len hw.1, hdata, List.length_append]
  have hwfs' : s'.w.WFs m.buf := by
    refine ⟨hw.1.1, ?_⟩
    by_cases hc : m.buf.cap = 0
    · by_cases ha : m.buf.arr < s.w.arrs.length
      · rw [fs _ ha]; exact hw.1.2
      · have := hw.1.2
        have hz : s.w.arr m.buf.arr = [] := by
          unfold World.arr; rw [List.getD_eq_getElem?_getD, List.getElem?_eq_none (by omega)]; rfl
        rw [hz] at this
        simp only [List.length_nil] at this
        omega
    · rw [fs _ (hw.1.cell_lt (i := m.buf.arr) (p := m.buf.off) ⟨rfl, Nat.le_refl _, by omega⟩)]; exact hw.1.2
  -- the bytes of A are unchanged
  have hA' : ∃ B', (s'.w.slice m.buf).data = A ++ B' ∧ B'.length = B.length := by
    refine ⟨(s'.w.slice m.buf).data.drop A.length, ?_, ?_⟩
    · have : (s'.w.slice m.buf).data.take A.length = A := by
        apply List.ext_getElem?
        intro p
        by_cases hp : p < A.length
        · rw [List.getElem?_take_of_lt hp]
          have e1 : ∀ w : World, (w.slice m.buf).data[p]? = w.cell m.buf.arr (m.buf.off + p) := by
            intro w
            have hc := hw.1.1
            unfold World.slice World.full World.cell
            simp only
            rw [List.getElem?_take_of_lt (by omega), List.getElem?_take_of_lt (by omega), List.getElem?_drop]
          rw [e1, fc _ _ (hw.1.cell_lt (i := m.buf.arr) (p := m.buf.off + p) ⟨rfl, by omega, by have := hw.1.1; omega⟩), ← e1, hdata,
            List.getElem?_append_left hp]
          intro op _ mi hmi
          exact (hview mi (List.mem_of_getElem? hmi)).1 _ (by omega) (by omega)
        · rw [List.getElem?_eq_none (by rw [List.length_take]; omega), List.getElem?_eq_none (by omega)]
      have t := List.take_append_drop A.length (s'.w.slice m.buf).data
      rw [this] at t
      exact t.symm
    · rw [List.length_drop, World.slice_len hwfs', hlen]; omega
  obtain ⟨B', hB1, hB2⟩ := hA'
  have e' : s'.w.msg m = ⟨s'.w.slice m.buf, s.w.offs m⟩ := by unfold World.msg; rw [hoff]
  by_cases hex : ∃ c ∈ cs1, c.num = g
  · obtain ⟨pre, c, post, hc1, hc, hp⟩ := exists_last hex
    have hcsplit : cs1 ++ cs2 = pre ++ c :: (post ++ cs2) := by rw [hc1]; simp
    have hpost : ∀ d ∈ post ++ cs2, d.num ≠ g := by
      intro d hdm
      rcases List.mem_append.1 hdm with hdm | hdm
      · exact hp d hdm
      · exact hgB' d hdm
    have loc := h2.located_last hcsplit hg hc hpost
    have hpay := (h2.wf c (by rw [hcsplit]; simp)).pay
    have loc' : Located (s'.w.slice m.buf) (s.w.offs m) g (flat pre ++ c.tag) c.pay (flat post ++ B') := by
      refine ⟨loc.get, ?_, ?_⟩
      · rw [hB1, ← d1, hc1]; simp [Chunk.bytes]
      · have := loc.len
        have hx : (s.w.msg m).buf.data = A ++ B := hd
        rw [hx] at this
        rw [hB1]
        simp only [List.length_append] at this ⊢
        omega
    have hval : lastVal g (records (cs1 ++ cs2)) = some c.val := by
      rw [lastVal_records, hcsplit, lastChunk_eq hc hpost]; rfl
    obtain ⟨x, hx⟩ := (hwt _ (lastVal_mem hval)).2 k hk
    have g1 := get_located loc hpay k x hx
    have g2 := get_located loc' hpay k x hx
    refine ⟨by rw [e', g2]; exact g1.symm, ?_⟩
    intro hkb
    subst hkb
    obtain ⟨b, hb⟩ : ∃ b, c.val = .bytes b := by
      rcases hwt.bytes_cases hk with h0 | ⟨b, hb⟩
      · rw [h0] at hval; simp at hval
      · rw [hb] at hval; exact ⟨b, (Option.some.inj hval).symm⟩
    rw [hb] at hpay
    have k1 := getBytes_located loc hpay
    have k2 := getBytes_located loc' hpay
    unfold bytesOf
    rw [e', k2]
    have k1' : getBytes (s.w.msg m).buf (s.w.msg m).off g = .ok (some ⟨b, flat (post ++ cs2) ++ (s.w.slice m.buf).spare⟩) := k1
    rw [k1']; rfl
  · have hn : ∀ c ∈ cs1 ++ cs2, c.num ≠ g := by
      intro c hc
      rcases List.mem_append.1 hc with hc | hc
      · exact fun e => hex ⟨c, hc, e⟩
      · exact hgB' c hc
    have hz := h2.get_none hgl hn
    have hz' : (s.w.offs m).get g = .ok (0#64, false) := hz
    refine ⟨?_, ?_⟩
    · rw [e', get_absent hz', show s.w.msg m = ⟨s.w.slice m.buf, s.w.offs m⟩ from rfl, get_absent hz']
    · intro _
      unfold bytesOf
      rw [e', show s.w.msg m = ⟨s.w.slice m.buf, s.w.offs m⟩ from rfl]
      simp only
      rw [getBytes_absent hz', getBytes_absent hz']

/-- A program state with one message. -/
theorem Sys.Separate.single {w : World} {x : HMsg} (h : w.WF x) : (⟨w, [x]⟩ : Sys).Separate := by
  refine ⟨?_, ?_, ?_⟩
  · intro m hm
    simp only [List.mem_cons, List.not_mem_nil, or_false] at hm
    subst hm; exact h
  · intro i j mi mj hij hi hj
    rw [List.getElem?_eq_some_iff] at hi hj
    obtain ⟨hi, _⟩ := hi
    obtain ⟨hj, _⟩ := hj
    simp only [List.length_cons, List.length_nil] at hi hj
    omega
  · intro i j mi mj hij hi hj
    rw [List.getElem?_eq_some_iff] at hi hj
    obtain ⟨hi, _⟩ := hi
    obtain ⟨hj, _⟩ := hj
    simp only [List.length_cons, List.length_nil] at hi hj
    omega

theorem records_split {cs : List Chunk} {rs1 rs2 : List Record} {r : Record} (h : records cs = rs1 ++ r :: rs2) :
    ∃ cs1 c cs2, cs = cs1 ++ c :: cs2 ∧ records cs1 = rs1 ∧ c.record = r ∧ records cs2 = rs2 := by
  unfold records at h
  obtain ⟨a, b, rfl, h1, h2⟩ := List.map_eq_append_iff.1 h
  obtain ⟨c, d, rfl, h3, h4⟩ := List.map_eq_cons_iff.1 h2
  exact ⟨a, c, d, rfl, h1, h3, h4⟩

/-- C33, what is guaranteed, for the accessor of a sub-message field: take the sub-message of field `f`
(`m.F(&x)`) and make any calls on `x` afterwards. All singular fields of the parent `m` that do not
occur behind the sub-message keep their values. -/
theorem C33_sub_before {S : Schema} (Ss : Nat → Schema) {w w' : World} {m x x' : HMsg} (hw : w.WF m) (hx : w.WF x)
    (hne : ∀ id, x.m = some id → m.m ≠ some id) (h : Readable S (w.msg m)) {rs1 rs2 : List Record} {f : Nat} {b : List Byte}
    (hm : IsMessage (rs1 ++ ⟨f, .bytes b⟩ :: rs2) (w.msg m).encode.data)
    (hkf : S.kind f = some .bytes) (hrf : S.rep f = false) (hf2 : ∀ r ∈ rs2, r.num ≠ f)
    {repX : Nat → Bool} {present : Bool} {err : Option DecErr} (hsub : m.subMessage repX w f x = .ok (x', w', present, err))
    {ops : List SysOp} (hdis : ∀ op ∈ ops, op.Distinct) {s' : Sys} (hr : (⟨w', [x']⟩ : Sys).runAll Ss ops = .ok s')
    {g : Nat} {k : Kind} (hk : S.kind g = some k) (hg : S.rep g = false) (hgf : g ≠ f) (hg2 : ∀ r ∈ rs2, r.num ≠ g) :
    present = true ∧ (s'.w.msg m).get k g = (w.msg m).get k g ∧
      (k = .bytes → bytesOf (s'.w.msg m) g = bytesOf (w.msg m) g) := by
  obtain ⟨e1, e2, e3, e4, e5, e6, e7⟩ := C34_extract hw hx hne hsub
  obtain ⟨h1, hwt⟩ := h.records hm
  obtain ⟨cs, c1, c2⟩ := h1
  obtain ⟨cs1, c, cs2, hcs, r1, r2, r3⟩ := records_split c2
  have hcn : c.num = f := by
    have := congrArg Record.num r2; simpa [Chunk.record] using this
  have hcv : c.val = .bytes b := by
    have := congrArg Record.val r2; simpa [Chunk.record] using this
  have hf2' : ∀ d ∈ cs2, d.num ≠ f := by
    intro d hd
    exact hf2 d.record (r3 ▸ List.mem_map.2 ⟨d, hd, rfl⟩)
  have hcw := c1.wf c (by rw [hcs]; simp)
  have hpay := hcw.pay
  rw [hcv] at hpay
  have loc := c1.located_last hcs hrf hcn hf2'
  have hgb := getBytes_located loc hpay
  -- presence
  have hpres : present = true := by
    have := e1
    unfold Msg.subMessage at this
    rw [hgb] at this
    simp only [bind, Except.bind] at this
    cases hd : (w.msg x).decode repX ⟨b, flat cs2 ++ (w.msg m).buf.spare⟩ with
    | error e => rw [hd] at this; simp at this
    | ok q =>
      rw [hd] at this
      simp only [pure, Except.pure, Except.ok.injEq, Prod.mk.injEq] at this
      exact this.2.1.symm
  have hview := e6 hpres
  have hgv := getBytes_view hw.1 f
  rw [hview] at hgv
  have hgb' : getBytes (w.slice m.buf) (w.offs m) f = .ok (some ⟨b, flat cs2 ++ (w.slice m.buf).spare⟩) := hgb
  rw [hgb'] at hgv
  simp only [Except.map, Option.map_some, Except.ok.injEq, Option.some.injEq] at hgv
  obtain ⟨i, j, hij⟩ := getBytes_owns hview
  obtain ⟨lb, hlb, hpl⟩ := hpay
  have hdat : (w.slice m.buf).data = (flat cs1 ++ c.tag ++ lb) ++ b ++ flat cs2 := by
    show (w.msg m).buf.data = _
    rw [loc.data, hpl]; simp
  obtain ⟨p1, p2, p3⟩ := view_position hw.1 (HSlice.range_wf hw.1 hij) (HSlice.range_tail hij) hdat hgv.symm
  have hg3 := C33_before (S := S) Ss (s := ⟨w', [x']⟩) (m := m) e5 (by rw [e3]; exact h) (rs1 := rs1)
    (rs2 := ⟨f, .bytes b⟩ :: rs2) (A := flat cs1) (B := c.bytes ++ flat cs2)
    (by rw [e3]; show (w.msg m).buf.data = _; rw [loc.data]; simp [Chunk.bytes])
    (isMessage_iff.2 ⟨cs1, rfl, fun d hd => c1.wf d (by rw [hcs]; simp [hd]), r1⟩)
    (isMessage_iff.2 ⟨c :: cs2, rfl, fun d hd => c1.wf d (by rw [hcs]; simp only [List.mem_append]; exact Or.inr hd), by
      unfold records at r3 ⊢; rw [List.map_cons, r2, r3]⟩)
    (Sys.Separate.single e4) hdis (by
      intro mi hmi
      simp only [List.mem_cons, List.not_mem_nil, or_false] at hmi
      subst hmi
      refine ⟨?_, e7⟩
      rintro p hp1 hp2 ⟨_, ho, _⟩
      simp only [List.length_append] at p2
      omega) hr hk hg (by
      intro r hr
      rcases List.mem_cons.1 hr with rfl | hr
      · exact fun e => hgf e.symm
      · exact hg2 r hr)
  rw [e3] at hg3
  exact ⟨hpres, hg3⟩

/-- C33, C48: a call that only appends, on a message without spare capacity, moves the message to new
memory. From then on it is separate from every other message `m`, and `m` is unchanged, even if they
shared their buffer before (as a parent and its sub-message, or a struct and its copy). -/
theorem moves {w w' : World} {x x' m : HMsg} (hx : w.WF x) (hm : w.WF m) (hne : ∀ id, x.m = some id → m.m ≠ some id)
    (hcap : x.buf.cap ≤ x.buf.len) (ha : Appends w w' x.buf x'.buf) (hf : Frame w w' x x') (hwf : w'.WF x') :
    w'.msg m = w.msg m ∧ (⟨w', [m, x']⟩ : Sys).Separate := by
  have cells : ∀ i p, i < w.arrs.length → w'.cell i p = w.cell i p :=
    fun i p hi => ha.behind.cells i p hi (HSlice.behind_full hcap i p)
  have hfresh := ha.fresh hcap
  have hmaps : ∀ id, m.m = some id → x'.m ≠ some id := by
    intro id h1 h2
    rcases hf.mown with h3 | ⟨id', h3, h4⟩
    · exact hne id (h3 ▸ h2) h1
    · rw [h3] at h2
      simp only [Option.some.injEq] at h2
      have := hm.2 id h1
      omega
  have hdisj : ∀ a p, m.buf.owns a p → ¬ x'.buf.owns a p := by
    intro a p h1 h2
    have := hm.1.cell_lt h1
    have h3 := h2.1
    omega
  constructor
  · unfold World.msg
    congr 1
    · apply World.slice_congr
      intro i p ho
      exact cells i p (hm.1.cell_lt ho)
    · unfold World.offs
      cases hmm : m.m with
      | none => rfl
      | some id =>
        simp only [Option.map_some, Offsets.mk.injEq, true_and, Option.some.injEq]
        exact hf.maps id (hm.2 id hmm) (fun e => hne id e hmm)
  · have wfm : w'.WF m := ⟨hf.bytes.wf hm.1, fun id h => Nat.lt_of_lt_of_le (hm.2 id h) hf.mgrow⟩
    have two : ∀ (i : Nat) (mi : HMsg), [m, x'][i]? = some mi → (i = 0 ∧ mi = m) ∨ (i = 1 ∧ mi = x') := by
      intro i mi h
      match i, h with
      | 0, h => left; simp at h; exact ⟨rfl, h.symm⟩
      | 1, h => right; simp at h; exact ⟨rfl, h.symm⟩
    refine ⟨?_, ?_, ?_⟩
    · intro y hy
      simp only [List.mem_cons, List.not_mem_nil, or_false] at hy
      rcases hy with rfl | rfl
      · exact wfm
      · exact hwf
    · intro i j mi mj hij hi hj a p
      rcases two i mi hi with ⟨rfl, rfl⟩ | ⟨rfl, rfl⟩ <;> rcases two j mj hj with ⟨rfl, rfl⟩ | ⟨rfl, rfl⟩
      · omega
      · exact hdisj a p
      · intro h1 h2; exact hdisj a p h2 h1
      · omega
    · intro i j mi mj hij hi hj id
      rcases two i mi hi with ⟨rfl, rfl⟩ | ⟨rfl, rfl⟩ <;> rcases two j mj hj with ⟨rfl, rfl⟩ | ⟨rfl, rfl⟩
      · omega
      · exact hmaps id
      · intro h1 h2; exact hmaps id h2 h1
      · omega

/-- C33, what is guaranteed: the first setter of an absent field on a message without spare capacity
(such as a sub-message at the very end of its parent's array) changes no other message `m`, and makes
the two separate for good (see `C31_no_interference`). -/
theorem C33_exact_capacity {w w' : World} {x x' m : HMsg} (hx : w.WF x) (hm : w.WF m)
    (hne : ∀ id, x.m = some id → m.m ≠ some id) (hcap : x.buf.cap ≤ x.buf.len) {rt : Rt} {f : Nat} {k : Kind} {v : k.Ty}
    (hab : ∃ o, (w.offs x).get f = .ok (o, false)) (hs : x.setField rt w k f v = .ok (x', w')) :
    w'.msg m = w.msg m ∧ (⟨w', [m, x']⟩ : Sys).Separate := by
  obtain ⟨o, hab⟩ := hab
  have r := setField_refines rt hx k f v
  cases hv : Msg.setField rt (w.slice x.buf) (w.offs x) k f v with
  | error e =>
    rw [hv] at r
    have : x.setField rt w k f v = .error e := r
    rw [this] at hs; simp at hs
  | ok p =>
    rw [hv] at r
    obtain ⟨m1, w1, e1, e2, e3, e4⟩ := r
    rw [e1] at hs
    simp only [Except.ok.injEq, Prod.mk.injEq] at hs
    obtain ⟨rfl, rfl⟩ := hs
    exact moves hx hm hne hcap (setField_absent rt hx.1 hab e1) e4 e3

/-- A message with the sub-message field 17 = {bool field 1: true} and int32 field 2 = 7. -/
def parentWorld : World := ⟨[[0x8a#8, 0x01#8, 0x02#8, 0x08#8, 0x01#8, 0x10#8, 0x07#8]], []⟩
def parentMsg : HMsg := ⟨⟨0, 0, 7, 7⟩, ((List.replicate 35 0#16).set 17 2#16).set 2 6#16, none⟩
/-- The sub-message, extracted. -/
def childMsg : HMsg := ⟨⟨0, 3, 2, 4⟩, (List.replicate 35 0#16).set 1 1#16, none⟩

theorem parentMsg_reach : Reach testSchema (parentWorld.msg parentMsg) := by
  have h : (do let m ← (Msg.zero 35).set Rt.exact .bytes 17 [0x08#8, 0x01#8]
               m.set Rt.exact .int32 2 7#32) = .ok (parentWorld.msg parentMsg) := by decide +kernel
  obtain ⟨m1, h1, h⟩ := Reach.of_bind (S := testSchema) h
  exact .set (.set .zero rfl rfl (by decide) h1) rfl rfl (by decide) h

theorem parentMsg_wf : parentWorld.WF parentMsg := by
  refine ⟨⟨by decide, by decide⟩, ?_⟩
  intro id h; simp [parentMsg] at h

theorem childMsg_extract : parentMsg.subMessage testSchema.rep parentWorld 17 (HMsg.zero 35) =
    .ok (childMsg, parentWorld, true, none) := by
  unfold HMsg.subMessage
  have h1 : parentMsg.getBytes parentWorld 17 = .ok (some ⟨0, 3, 2, 4⟩) := by decide +kernel
  rw [h1]
  have h2 : (HMsg.zero 35).decode testSchema.rep parentWorld ⟨0, 3, 2, 4⟩ = .ok (childMsg, parentWorld, none) := by
    unfold HMsg.decode
    have h3 : Zeropb.decode (parentWorld.slice ⟨0, 3, 2, 4⟩) (parentWorld.offs (HMsg.zero 35)) testSchema.rep =
        .ok (⟨(List.replicate 35 0#16).set 1 1#16, none⟩, none) := by
      unfold Zeropb.decode
      exact iterate_of_run (n := 2) (by decide +kernel)
    rw [h3]; rfl
  simp only [bind, Except.bind, h2, pure, Except.pure]

/-- C33, refutation of the unrestricted claim: `m.Message(&x); x.SetInt64(5)` overwrites the parent's next field, an int32 of value
7, which then reads as 5. -/
theorem C33_false : parentWorld.WF parentMsg ∧ Reach testSchema (parentWorld.msg parentMsg) ∧
    parentMsg.subMessage testSchema.rep parentWorld 17 (HMsg.zero 35) = .ok (childMsg, parentWorld, true, none) ∧
    (parentWorld.msg parentMsg).get .int32 2 = .ok 7#32 ∧
    ∃ x' w', childMsg.setField Rt.exact parentWorld .int64 3 5#64 = .ok (x', w') ∧
      (w'.msg parentMsg).get .int32 2 = .ok 5#32 :=
  ⟨parentMsg_wf, parentMsg_reach, childMsg_extract, by decide +kernel,
    ⟨⟨0, 3, 4, 4⟩, ((List.replicate 35 0#16).set 1 1#16).set 3 3#16, none⟩,
    ⟨[[0x8a#8, 0x01#8, 0x02#8, 0x08#8, 0x01#8, 0x18#8, 0x05#8]], []⟩, by decide +kernel, by decide +kernel⟩

/-- C33, the unrestricted claim is false also without appending: a setter that keeps the length writes through to the parent. -/
theorem C33_false_in_place : ∃ x' w', childMsg.setField Rt.exact parentWorld .bool 1 false = .ok (x', w') ∧
    bytesOf (parentWorld.msg parentMsg) 17 = .ok (some [0x08#8, 0x01#8]) ∧
    bytesOf (w'.msg parentMsg) 17 = .ok (some [0x08#8, 0x00#8]) :=
  ⟨childMsg, ⟨[[0x8a#8, 0x01#8, 0x02#8, 0x08#8, 0x00#8, 0x10#8, 0x07#8]], []⟩, by decide +kernel, by decide +kernel, by decide +kernel⟩

/-- Hypotheses of `C33_exact_capacity` met: the sub-message at the end of its parent's array. -/
example : let w : World := ⟨[[0x8a#8, 0x01#8, 0x02#8, 0x08#8, 0x01#8]], []⟩
    let x : HMsg := ⟨⟨0, 3, 2, 2⟩, (List.replicate 35 0#16).set 1 1#16, none⟩
    let m : HMsg := ⟨⟨0, 0, 5, 5⟩, (List.replicate 35 0#16).set 17 2#16, none⟩
    w.WF x ∧ w.WF m ∧ (∀ id, x.m = some id → m.m ≠ some id) ∧ x.buf.cap ≤ x.buf.len ∧
    (∃ o, (w.offs x).get 3 = .ok (o, false)) ∧ (x.setField Rt.exact w .int64 3 5#64).toOption ≠ none := by
  refine ⟨⟨⟨by decide, by decide⟩, by simp⟩, ⟨⟨by decide, by decide⟩, by simp⟩, by simp, by decide, ⟨0#64, by decide +kernel⟩,
    by decide +kernel⟩

/-- A message with int32 field 2 = 7, the sub-message field 17 = {bool field 1: true} and int64 field 3 = 9. -/
def parent2World : World := ⟨[[0x10#8, 0x07#8, 0x8a#8, 0x01#8, 0x02#8, 0x08#8, 0x01#8, 0x18#8, 0x09#8]], []⟩
def parent2Msg : HMsg := ⟨⟨0, 0, 9, 9⟩, (((List.replicate 35 0#16).set 2 1#16).set 17 4#16).set 3 8#16, none⟩

/-- Hypotheses of `C33_sub_before` met: the string set on the sub-message destroys field 3 of the parent,
but not field 2, which is in front. -/
example : let w := parent2World
    let m := parent2Msg
    let x' : HMsg := ⟨⟨0, 5, 2, 4⟩, (List.replicate 35 0#16).set 1 1#16, none⟩
    w.WF m ∧ Readable testSchema (w.msg m) ∧
    IsMessage ([⟨2, .varint 7#64⟩] ++ ⟨17, .bytes [0x08#8, 0x01#8]⟩ :: [⟨3, .varint 9#64⟩]) (w.msg m).encode.data ∧
    m.subMessage testSchema.rep w 17 (HMsg.zero 35) = .ok (x', w, true, none) ∧
    (x'.setField Rt.exact w .uint32 4 1#32).map (fun r => ((r.2.msg m).get .int32 2, (r.2.msg m).get .int64 3)) =
      .ok (.ok 7#32, .ok 1#64) := by
  refine ⟨⟨⟨by decide, by decide⟩, by simp [parent2Msg]⟩, .reach ?_, ?_, ?_, by decide +kernel⟩
  · have h : (do let m ← (Msg.zero 35).set Rt.exact .int32 2 7#32
                 let m ← m.set Rt.exact .bytes 17 [0x08#8, 0x01#8]
                 m.set Rt.exact .int64 3 9#64) = .ok (parent2World.msg parent2Msg) := by decide +kernel
    obtain ⟨m1, h1, h⟩ := Reach.of_bind (S := testSchema) h
    obtain ⟨m2, h2, h⟩ := Reach.of_bind (S := testSchema) h
    exact .set (.set (.set .zero rfl rfl (by decide) h1) rfl rfl (by decide) h2) rfl rfl (by decide) h
  · have e : (parent2World.msg parent2Msg).encode.data =
        [0x10#8, 0x07#8] ++ ([0x8a#8, 0x01#8, 0x02#8, 0x08#8, 0x01#8] ++ ([0x18#8, 0x09#8] ++ [])) := by decide +kernel
    rw [e]
    exact .cons ⟨[0x10#8], [0x07#8], rfl, ⟨[], 0x10#8, rfl, by simp, by decide, by decide, by decide, by decide⟩,
        ⟨[], 0x07#8, rfl, by simp, by decide, by decide, by decide, by decide⟩⟩
      (.cons ⟨[0x8a#8, 0x01#8], [0x02#8, 0x08#8, 0x01#8], rfl, ⟨[0x8a#8], 0x01#8, rfl, by decide, by decide, by decide, by decide, by decide⟩,
        [0x02#8], ⟨[], 0x02#8, rfl, by simp, by decide, by decide, by decide, by decide⟩, rfl⟩
      (.cons ⟨[0x18#8], [0x09#8], rfl, ⟨[], 0x18#8, rfl, by simp, by decide, by decide, by decide, by decide⟩,
        ⟨[], 0x09#8, rfl, by simp, by decide, by decide, by decide, by decide⟩⟩ .nil))
  · unfold HMsg.subMessage
    have h1 : parent2Msg.getBytes parent2World 17 = .ok (some ⟨0, 5, 2, 4⟩) := by decide +kernel
    rw [h1]
    have h2 : (HMsg.zero 35).decode testSchema.rep parent2World ⟨0, 5, 2, 4⟩ =
        .ok (⟨⟨0, 5, 2, 4⟩, (List.replicate 35 0#16).set 1 1#16, none⟩, parent2World, none) := by
      unfold HMsg.decode
      have h3 : Zeropb.decode (parent2World.slice ⟨0, 5, 2, 4⟩) (parent2World.offs (HMsg.zero 35)) testSchema.rep =
          .ok (⟨(List.replicate 35 0#16).set 1 1#16, none⟩, none) := by
        unfold Zeropb.decode
        exact iterate_of_run (n := 2) (by decide +kernel)
      rw [h3]; rfl
    simp only [bind, Except.bind, h2, pure, Except.pure]

/-! ## C48: copies of structs

A struct assignment `c := m` copies the references: in the heap model the copy is the same `HMsg`. The
theorems run a call on the copy and look at the original in the resulting heap. -/

/-- C48, refutation of the unrestricted claim: setting a field of the copy to a value of the same length changes the original. -/
theorem C48_false_in_place : aliasWorld.WF aliasMsg ∧ Reach testSchema (aliasWorld.msg aliasMsg) ∧
    (aliasWorld.msg aliasMsg).get .bool 1 = .ok true ∧
    ∃ c' w', aliasMsg.setField Rt.exact aliasWorld .bool 1 false = .ok (c', w') ∧ (w'.msg aliasMsg).get .bool 1 = .ok false :=
  ⟨aliasMsg_wf, aliasMsg_reach, by decide +kernel, aliasMsg,
    ⟨[[0x7a#8, 0x04#8, 0x61#8, 0x62#8, 0x63#8, 0x64#8, 0x08#8, 0x00#8]], []⟩, by decide +kernel, by decide +kernel⟩

/-- C48, refutation of the unrestricted claim: setting bytes field 15 of the copy to "x" makes field 15 of the original, "abcd",
read as the garbage "z". -/
theorem C48_false_resize : bytesOf (aliasWorld.msg aliasMsg) 15 = .ok (some [0x61#8, 0x62#8, 0x63#8, 0x64#8]) ∧
    ∃ c' w', aliasMsg.setBytes Rt.exact aliasWorld 15 (.lit [0x78#8]) = .ok (c', w') ∧
      bytesOf (w'.msg aliasMsg) 15 = .ok (some [0x7a#8]) :=
  ⟨by decide +kernel, ⟨⟨0, 0, 5, 8⟩, ((List.replicate 35 0#16).set 1 1#16).set 15 3#16, none⟩,
    ⟨[[0x08#8, 0x01#8, 0x7a#8, 0x01#8, 0x78#8, 0x64#8, 0x08#8, 0x01#8]], []⟩, by decide +kernel, by decide +kernel⟩

/-- C48: `Reset` of a copy (or `Decode` into it) empties the overflow map the two structs share. Each
field of the original that was recorded there is then believed to be at the start of the message. -/
theorem C48_reset_shared {w w' : World} {m c' : HMsg} {id f : Nat} {b : HSlice} (hw : w.WF m) (hm : m.m = some id)
    (hslot : m.a[f]? = some offsetInMap) (hr : m.reset w b = .ok (c', w')) :
    (w'.offs m).get f = .ok (0#64, true) ∧ (w'.msg m).buf = (w.msg m).buf ∧
    (w'.msg m).messages f = .ok (some (w.msg m).buf) := by
  unfold HMsg.reset at hr
  split at hr
  · simp at hr
  · simp only [Except.ok.injEq, Prod.mk.injEq] at hr
    obtain ⟨rfl, rfl⟩ := hr
    have hid := hw.2 id hm
    have ho : (w.offs m).clear.m = some [] := by simp [World.offs, hm, Offsets.clear]
    have hst : w.storeOffs m (w.offs m).clear = ({ m with a := (w.offs m).clear.a }, { w with maps := w.maps.set id [] }) := by
      unfold World.storeOffs; rw [hm, ho]
    have hget : (World.offs { w with maps := w.maps.set id [] } m).get f = .ok (0#64, true) := by
      unfold Offsets.get Offsets.slot World.offs
      simp only [hslot, hm, Option.map_some, Offsets.mapRead, bind, Except.bind, List.getD_eq_getElem?_getD]
      rw [List.getElem?_set_self hid]
      rfl
    rw [hst]
    refine ⟨hget, rfl, ?_⟩
    show getRepeatedNonPacked (w.slice m.buf) (World.offs { w with maps := w.maps.set id [] } m) f = _
    unfold getRepeatedNonPacked
    rw [hget]
    simp only [bind, Except.bind, Bool.not_true, Bool.false_eq_true, if_false, pure, Except.pure]
    unfold Slice.dropFrom
    rw [if_pos ⟨by simp, by simp⟩]
    simp [World.msg]

/-- C48, the unrestricted claim is false for large messages even if the copy gets a buffer of its own: there is a reachable
message whose repeated field changes when a copy of the struct is `Reset` to a new buffer. -/
theorem C48_false_reset : ∃ (w : World) (m : HMsg), w.WF m ∧ Reach testSchema (w.msg m) ∧ Elems (w.msg m) 34 [[]] ∧
    ∃ c' w', m.reset w .nil = .ok (c', w') ∧ ¬ Elems (w'.msg m) 34 [[]] := by
  obtain ⟨v, h1, h2, h3, h4, h5, h6⟩ := big_message
  obtain ⟨l1, l2⟩ := v.load_spec
  obtain ⟨mp, hmp⟩ : ∃ mp, v.off.m = some mp := by
    cases h : v.off.m with
    | none => exact absurd h h3
    | some mp => exact ⟨mp, rfl⟩
  have hm0 : v.load.2.m = some 0 := by simp [Msg.load, hmp]
  refine ⟨v.load.1, v.load.2, l2, by rw [l1]; exact h1, by rw [l1]; exact h5, ?_⟩
  have hr : v.load.2.reset v.load.1 .nil = .ok
      ({ (v.load.1.storeOffs v.load.2 (v.load.1.offs v.load.2).clear).1 with buf := .nil },
        (v.load.1.storeOffs v.load.2 (v.load.1.offs v.load.2).clear).2) := rfl
  refine ⟨_, _, hr, ?_⟩
  obtain ⟨_, _, hmsg⟩ := C48_reset_shared l2 hm0 (f := 34) (show v.off.a[34]? = _ from h2) hr
  rw [l1] at hmsg
  generalize (v.load.1.storeOffs v.load.2 (v.load.1.offs v.load.2).clear).2 = w' at hmsg ⊢
  -- the iterator now starts with a tag instead of a length
  rintro ⟨its, i1, i2, i3⟩
  rw [hmsg] at i1
  have hi0 : its 0 = some v.buf := (Except.ok.inj i1).symm
  obtain ⟨rest, hfn⟩ := i2 0 (by decide)
  rw [hi0] at hfn
  obtain ⟨n, tag, more, d1, d2, d3, d4⟩ := h6
  have huv : uvarint v.buf.data = (BitVec.ofNat 64 n, (tag.length : Int)) := by
    show uvarint v.encode.data = _
    rw [d1]; exact uvarint_of_isVarint d2 _
  have htl := d2.length_le
  have hn : u64ToInt (BitVec.ofNat 64 n) = (n : Int) := u64ToInt_nat (by unfold maxLen; omega)
  have ha : addInt (tag.length : Int) (n : Int) = ((tag.length + n : Nat) : Int) := addInt_nat (by unfold maxLen; omega)
  unfold findNextField at hfn
  simp only [huv, hn, ha] at hfn
  cases hr : v.buf.range (tag.length : Int) ((tag.length + n : Nat) : Int) with
  | error e => rw [hr] at hfn; simp [bind, Except.bind] at hfn
  | ok b =>
    rw [hr] at hfn
    simp only [bind, Except.bind] at hfn
    split at hfn
    · simp at hfn
    · simp only [pure, Except.pure, Except.ok.injEq, Prod.mk.injEq, Option.some.injEq] at hfn
      have hb : b.data = [] := by rw [hfn.2]; rfl
      unfold Slice.range at hr
      split at hr
      · simp only [Except.ok.injEq] at hr
        rename_i hc
        rw [← hr] at hb
        have := congrArg List.length hb
        simp only [List.length_take, List.length_drop, List.length_append, List.length_nil] at this
        obtain ⟨_, _, hc3⟩ := hc
        omega
      · simp at hr

end Zeropb
