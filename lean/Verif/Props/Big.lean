import Verif.Props.Bytes
import Verif.Mem.Read
set_option linter.unusedSimpArgs false
set_option linter.unusedVariables false
/-!
# A message larger than the offset array can index

Examples of reachable messages for the theorems that are about the overflow map (C18, C19, C20, C48).
-/

namespace Zeropb
open Wire

/-- In a reachable message longer than 65535 bytes, an element appended to an empty repeated field is
indexed by the overflow map. -/
theorem append_overflow {S : Schema} {m m' : Msg} (h : Reach S m) (hbig : 65535 < m.encode.len) {rt : Rt} {f : Nat}
    (hk : S.kind f = some .bytes) (hr : S.rep f = true) {rs : List Record} (hm : IsMessage rs m.encode.data)
    (hno : ∀ r ∈ rs, r.num ≠ f) {x : List Byte} (hx : x.length < maxLen) (hs : m.appendRaw rt f x = .ok m') :
    m'.off.a[f]? = some offsetInMap ∧ m'.off.m ≠ none := by
  obtain ⟨h1, h2⟩ := h.records hm
  obtain ⟨cs, c1, c2, rfl⟩ := h1
  have hf := S.kind_lt f (by rw [hk]; simp)
  obtain ⟨new, n1, n2, n3, n4, n5, n6⟩ := append_chunks rt c1 hf hr x hx
  rcases Nat.lt_or_ge (flat (cs ++ [new])).length maxLen with hlt | hge
  · obtain ⟨m1, a1, _, a2, _⟩ := n5 hlt
    rw [a1] at hs
    simp only [Except.ok.injEq] at hs
    subst hs
    have hno' : ∀ c ∈ cs, c.num ≠ f := fun c hc => hno c.record (List.mem_map.2 ⟨c, hc, rfl⟩)
    have hv := a2.view f
    have hcs : cs ++ [new] = cs ++ new :: [] := rfl
    rw [hr, hcs, pick_first n1 hno'] at hv
    have hlen : 65535 < (flat cs).length := by rw [← c1.data]; exact hbig
    unfold Offsets.view at hv
    cases hs : m1.off.a[f]? with
    | none => rw [hs] at hv; simp at hv
    | some v =>
      rw [hs] at hv
      simp only at hv
      by_cases e : v = offsetInMap
      · refine ⟨by rw [e], ?_⟩
        rw [if_pos e] at hv
        intro hn
        rw [Offsets.mfind, hn] at hv
        simp at hv
      · rw [if_neg e] at hv
        split at hv
        · simp at hv
        · simp only [Option.some.injEq] at hv
          have := v.isLt
          omega
  · rw [n6 hge] at hs; simp at hs

theorem big_message_of (x : List Byte) (hl : x.length = 70000) : ∃ m : Msg, Reach testSchema m ∧ m.off.a[34]? = some offsetInMap ∧ m.off.m ≠ none ∧
    70000 < m.encode.len ∧ Elems m 34 [[]] ∧ m.get .bytes 15 = .ok x ∧
    ∃ v tag rest, m.encode.data = tag ++ rest ∧ IsVarint v tag ∧ 0 < v ∧ v < 128 := by
  have z : Reach testSchema (Msg.zero 35) := Reach.zero
  obtain ⟨m1, e1, r1, g1⟩ := C01_set_get_ok z Rt.exact (f := 15) (k := .bytes) rfl rfl x (by
    show 0 + 20 + x.length < maxLen
    rw [hl]; decide)
  obtain ⟨rs, h1, h2, h3, h4, h5⟩ : ∃ rs, IsMessage rs m1.encode.data ∧ (∀ r ∈ rs, r.num = 15) ∧ 70000 ≤ m1.encode.len ∧
      m1.encode.len ≤ 70020 ∧ HoldsMin testSchema m1 rs := by
    obtain ⟨rs0, h0, w0⟩ := z.holds
    have hempty : rs0 = [] := isMessage_unique h0.holds.isMessage (show IsMessage [] (Msg.zero 35).buf.data from .nil)
    subst hempty
    rcases h0.set Rt.exact (f := 15) (k := .bytes) rfl rfl x (by
      show x.length < maxLen
      rw [hl]; decide) (fun v hv => by simp [lastVal] at hv) with ⟨m', rs', d1, d2, d3, d4, d5, d6, _⟩ | ⟨d1, _⟩
    · rw [e1] at d1
      simp only [Except.ok.injEq] at d1
      subst d1
      refine ⟨rs', d2.holds.isMessage, ?_, ?_, ?_, d2⟩
      · intro r hr
        rcases d5 r hr with h | h
        · rw [h]
        · simp at h
      · obtain ⟨A, B, b1, b2⟩ := d2.holds.getBytes_some (f := 15) rfl d3
        unfold Msg.encode Slice.len
        rw [b1]
        simp only [List.length_append, hl]; omega
      · have : (Msg.zero 35).buf.data.length = 0 := rfl
        unfold Msg.encode Slice.len
        have d6' : m1.buf.data.length ≤ (Msg.zero 35).buf.data.length + 20 + x.length := d6
        rw [hl] at d6'
        omega
    · rw [e1] at d1; simp at d1
  have hel : Elems m1 34 [] := by
    refine h5.holds.elems (f := 34) (by decide) rfl ?_
    simp only [allVals, List.map_nil, List.map_eq_nil_iff, List.filter_eq_nil_iff]
    intro r hr; rw [h2 r hr]; decide
  rcases C10_append r1 Rt.exact (f := 34) rfl rfl (Msg.zero 35) (by decide) hel with ⟨m2, a1, a2, a3, a4⟩ | ⟨_, a1⟩
  · have a1' : m1.appendRaw Rt.exact 34 [] = .ok m2 := a1
    obtain ⟨o1, o2⟩ := append_overflow r1 (by omega) (f := 34) rfl rfl h1 (fun r hr => by rw [h2 r hr]; decide) (x := []) (by decide) a1'
    obtain ⟨bs, b2, hne⟩ : ∃ bs : List Byte, m2.encode.data = m1.encode.data ++ bs ∧ bs ≠ [] := by
      rcases C28_append_bytes (.reach r1) Rt.exact (f := 34) rfl rfl [] (by decide) with ⟨m3, bs, b1, b2, b3⟩ | ⟨b1, _⟩
      · rw [a1'] at b1
        simp only [Except.ok.injEq] at b1
        subst b1
        refine ⟨bs, b2, ?_⟩
        obtain ⟨tag, pay, rfl, ht, _⟩ := b3
        have := ht.1.length_pos
        intro e
        rw [List.append_eq_nil_iff] at e
        rw [e.1] at this; simp at this
      · rw [a1'] at b1; simp at b1
    refine ⟨m2, a2, o1, o2, ?_, a3, ?_, ?_⟩
    · have : 0 < bs.length := List.length_pos_iff.2 hne
      have l1 : m1.encode.data.length = m1.encode.len := rfl
      show 70000 < m2.encode.data.length
      rw [b2, List.length_append]; omega
    · rw [((a4 15 .bytes (by decide) rfl).1 rfl).1, g1]
    · rw [b2]
      generalize hd : m1.encode.data = d at h1
      cases h1 with
      | nil => unfold Slice.len at h3; rw [hd] at h3; simp at h3
      | cons hrec _ =>
        rename_i r rs1 bs1 rest hm1
        obtain ⟨tag, pay, rfl, t1, _⟩ := hrec
        refine ⟨_, tag, pay ++ rest ++ bs, by simp, t1, ?_, ?_⟩
        · rw [h2 r (by simp)]; omega
        · rw [h2 r (by simp)]; cases r.val <;> simp [Val.wireType]
  · have : (Msg.zero 35).encode.len = 0 := rfl
    unfold maxLen at a1
    omega

/-- There is a reachable `TestMessage` whose repeated field 34 is indexed by the overflow map. -/
theorem big_message : ∃ m : Msg, Reach testSchema m ∧ m.off.a[34]? = some offsetInMap ∧ m.off.m ≠ none ∧
    70000 < m.encode.len ∧ Elems m 34 [[]] ∧
    ∃ v tag rest, m.encode.data = tag ++ rest ∧ IsVarint v tag ∧ 0 < v ∧ v < 128 := by
  obtain ⟨m, h1, h2, h3, h4, h5, _, h6⟩ := big_message_of (List.replicate 70000 0#8) List.length_replicate
  exact ⟨m, h1, h2, h3, h4, h5, h6⟩

/-- Put a value into a heap of its own. -/
def Msg.load (v : Msg) : World × HMsg :=
  (⟨[v.buf.data ++ v.buf.spare], match v.off.m with | none => [] | some mp => [mp]⟩,
   ⟨⟨0, 0, v.buf.data.length, v.buf.data.length + v.buf.spare.length⟩, v.off.a, v.off.m.map fun _ => 0⟩)

theorem Msg.load_spec (v : Msg) : v.load.1.msg v.load.2 = v ∧ v.load.1.WF v.load.2 := by
  obtain ⟨⟨d, s⟩, ⟨a, m⟩⟩ := v
  constructor
  · have e1 : ((d ++ s).take (d.length + s.length)).take d.length = d := by
      rw [← List.length_append, List.take_length, List.take_left]
    have e2 : ((d ++ s).take (d.length + s.length)).drop d.length = s := by
      rw [← List.length_append, List.take_length, List.drop_left]
    cases m <;> simp [Msg.load, World.msg, World.slice, World.full, World.arr, World.offs, e1, e2]
  · cases m <;> exact ⟨⟨by simp [Msg.load], by simp [Msg.load, World.arr]⟩, by simp [Msg.load]⟩

end Zeropb
