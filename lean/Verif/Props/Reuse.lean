import Verif.Mem.AllocMap
import Verif.Props.Alloc
import Verif.Props.Exact
set_option linter.unusedSimpArgs false
set_option linter.unusedVariables false
/-!
# Reusing the buffer (C70)

The pattern of the encoding benchmarks (bench_test.go:320-372, 374-436, 438-540): one struct, one buffer; each round
resets the struct to the empty prefix of the buffer and calls setters. What does a round allocate?

The heap of `Verif/Mem/Model.lean` is a list of byte arrays and a list of overflow maps: what is allocated is counted
by the growth of these lists, call by call, so that other code may run in between and allocate what it likes.
-/

namespace Zeropb

/-- Other code ran: it may have allocated and written anything, but the bytes and the recorded offsets of this
message are as before. -/
structure LeftAlone (w w' : World) (m : HMsg) : Prop where
  wf : w'.WF m
  data : (w'.slice m.buf).data = (w.slice m.buf).data
  offs : w'.offs m = w.offs m

/-- From heap `w` and struct `m` the calls `ops` lead to `w'` and `m'`; they allocated `a` byte arrays and `b` maps.
Arguments of setters for strings, bytes and messages are anywhere in memory apart from the message itself. -/
inductive Calls : World → HMsg → List Op → Nat → Nat → World → HMsg → Prop where
  | done {w m} : Calls w m [] 0 0 w m
  | other {w w1 m ops a b w2 m2} : LeftAlone w w1 m → Calls w1 m ops a b w2 m2 → Calls w m ops a b w2 m2
  | set {w m rt f k x w1 m1 ops a b w2 m2} : m.setField rt w k f x = .ok (m1, w1) → Calls w1 m1 ops a b w2 m2 →
      Calls w m (.set rt f k x :: ops) (w1.arrs.length - w.arrs.length + a) (w1.maps.length - w.maps.length + b) w2 m2
  | setString {w m rt f x w1 m1 ops a b w2 m2} : Src.Apart w m.buf x → m.setBytes rt w f x = .ok (m1, w1) →
      Calls w1 m1 ops a b w2 m2 →
      Calls w m (.set rt f .string (w.src x) :: ops) (w1.arrs.length - w.arrs.length + a) (w1.maps.length - w.maps.length + b) w2 m2
  | setBytes {w m rt f x w1 m1 ops a b w2 m2} : Src.Apart w m.buf x → m.setBytes rt w f x = .ok (m1, w1) →
      Calls w1 m1 ops a b w2 m2 →
      Calls w m (.set rt f .bytes (w.src x) :: ops) (w1.arrs.length - w.arrs.length + a) (w1.maps.length - w.maps.length + b) w2 m2
  | append {w m rt f x w1 m1 ops a b w2 m2} : Src.Apart w m.buf x → m.appendBytes rt w f x = .ok (m1, w1) →
      Calls w1 m1 ops a b w2 m2 →
      Calls w m (.append rt f (w.src x) :: ops) (w1.arrs.length - w.arrs.length + a) (w1.maps.length - w.maps.length + b) w2 m2

/-- One round: `m.Reset(b)`, then the calls. -/
def RoundWith (w : World) (m : HMsg) (b : HSlice) (ops : List Op) (a c : Nat) (w' : World) (m' : HMsg) : Prop :=
  ∃ m1 w1, m.reset w b = .ok (m1, w1) ∧ Calls w1 m1 ops a c w' m'

/-- One round which reuses the buffer: `m.Reset(m.Encode()[:0])`, then the calls. -/
def Round (w : World) (m : HMsg) (ops : List Op) (a c : Nat) (w' : World) (m' : HMsg) : Prop :=
  RoundWith w m { m.buf with len := 0 } ops a c w' m'

/-- While these calls are made on an empty message, it never gets longer than `n` bytes. -/
def StaysWithin (S : Schema) (ops : List Op) (n : Nat) : Prop :=
  ∀ pre post, ops = pre ++ post → ∀ v, runAll S pre (Msg.zero S.n) = .ok v → v.encode.data.length ≤ n

/-! ## Proof -/

/-- Along the run of `ops` from `v`. -/
def Along (S : Schema) (ops : List Op) (v : Msg) (P : Msg → Prop) : Prop :=
  ∀ pre post, ops = pre ++ post → ∀ u, runAll S pre v = .ok u → P u

theorem Along.nil {S : Schema} {v : Msg} {P : Msg → Prop} : Along S [] v P ↔ P v := by
  constructor
  · intro h; exact h [] [] rfl v rfl
  · intro h pre post hp u hu
    have : pre = [] := by cases pre <;> simp_all
    subst this
    simp only [runAll, Except.ok.injEq] at hu
    exact hu ▸ h

theorem Along.cons {S : Schema} {op : Op} {ops : List Op} {v v' : Msg} {P : Msg → Prop} (h : op.run S v = .ok v') :
    Along S (op :: ops) v P ↔ P v ∧ Along S ops v' P := by
  constructor
  · intro hA
    refine ⟨hA [] _ rfl v rfl, fun pre post hp u hu => ?_⟩
    exact hA (op :: pre) post (by rw [hp]; rfl) u (by simp only [runAll, h, bind, Except.bind]; exact hu)
  · rintro ⟨h0, hA⟩ pre post hp u hu
    cases pre with
    | nil => simp only [runAll, Except.ok.injEq] at hu; exact hu ▸ h0
    | cons p pre =>
      simp only [List.cons_append, List.cons.injEq] at hp
      obtain ⟨rfl, hp⟩ := hp
      simp only [runAll, h, bind, Except.bind] at hu
      exact hA pre post hp u hu

/-- What one call of a round does to the struct. -/
structure StepOk (w w1 : World) (m m1 : HMsg) (op : Op) (S : Schema) : Prop where
  run : ∃ v, op.run S (w.msg m) = .ok v ∧ w1.msg m1 = v
  wf : w1.WF m1
  grown : Grown w w1 m.buf m1.buf
  stay : m.m ≠ none → MapsStay w w1 m m1
  one : MapOne w w1 m m1

theorem msg_buf (w : World) (m : HMsg) : (w.msg m).buf = w.slice m.buf := rfl
theorem msg_off (w : World) (m : HMsg) : (w.msg m).off = w.offs m := rfl

theorem stepOk_of {S : Schema} {w w1 : World} {m m1 : HMsg} {op : Op} {rv : Res (Slice × Offsets)} {rh : Res (HMsg × World)}
    (hr : Refines rv rh w m) (h : rh = .ok (m1, w1)) (hrun : op.run S (w.msg m) = (rv >>= fun r => .ok ⟨r.1, r.2⟩))
    (hg : Grown w w1 m.buf m1.buf ∧ (m1.buf.len ≤ 65535 ∨ m.m ≠ none → MapsStay w w1 m m1)) (ho : MapOne w w1 m m1) :
    StepOk w w1 m m1 op S := by
  unfold Refines at hr
  cases rv with
  | error e => simp only at hr; rw [h] at hr; simp at hr
  | ok p =>
    obtain ⟨b, o⟩ := p
    simp only at hr
    obtain ⟨m', w', e1, e2, e3, _⟩ := hr
    rw [h] at e1
    simp only [Except.ok.injEq, Prod.mk.injEq] at e1
    obtain ⟨rfl, rfl⟩ := e1
    exact ⟨⟨_, hrun, e2⟩, e3, hg.1, fun hm => hg.2 (Or.inr hm), ho⟩

theorem StepOk.cap {S : Schema} {w w1 : World} {m m1 : HMsg} {op : Op} (hw : w.WF m) (h : StepOk w w1 m m1 op S) :
    m.buf.cap ≤ m1.buf.cap ∧ (w1.arrs.length - w.arrs.length = 0 ↔ m1.buf.len ≤ m.buf.cap) ∧
    (m1.buf.len ≤ m.buf.cap → m1.buf.cap = m.buf.cap) := by
  have := h.wf.1.1
  rcases h.grown with ⟨a1, a2, a3, a4, a5⟩ | ⟨a1, a2⟩
  · have := a5 hw.1.1
    exact ⟨by omega, ⟨fun _ => this, fun _ => by omega⟩, fun _ => a4⟩
  · exact ⟨by omega, ⟨fun _ => by omega, fun _ => by omega⟩, fun _ => by omega⟩

/-- What is known about a sequence of calls, relative to the same calls made on the value `v`. -/
structure Followed (S : Schema) (vops : List Op) (v : Msg) (w w' : World) (m m' : HMsg) (a b : Nat) : Prop where
  wf : w'.WF m'
  alen : m'.a.length = S.n
  result : ∃ u, runAll S vops v = .ok u ∧ u.encode.data = (w'.slice m'.buf).data
  capLe : m.buf.cap ≤ m'.buf.cap
  arrays : a = 0 ↔ Along S vops v (fun u => u.encode.data.length ≤ m.buf.cap)
  same : a = 0 → m'.buf.cap = m.buf.cap
  peak : Along S vops v (fun u => u.encode.data.length ≤ m'.buf.cap)
  mapStay : m.m ≠ none → m'.m ≠ none ∧ b = 0
  mapOne : m.m = none → (m'.m = none ∧ b = 0 ∧ Along S vops v (fun u => ¬ u.off.Far)) ∨
    (m'.m ≠ none ∧ b = 1 ∧ ¬ Along S vops v (fun u => ¬ u.off.Far))

theorem rep_far {S : Schema} {v v' : Msg} {cs : List Chunk} (h : Rep S.n S.rep v.buf v.off cs) (h' : Rep S.n S.rep v'.buf v'.off cs) :
    v.off.Far ↔ v'.off.Far := by
  unfold Offsets.Far
  simp only [h.view, h'.view]

theorem rep_len {S : Schema} {w : World} {m : HMsg} {v : Msg} {cs : List Chunk} (hw : w.WF m)
    (h : Rep S.n S.rep v.buf v.off cs) (h' : Rep S.n S.rep (w.msg m).buf (w.msg m).off cs) :
    v.encode.data.length = m.buf.len ∧ v.encode.data = (w.slice m.buf).data := by
  have : v.encode.data = (w.slice m.buf).data := h.data.trans h'.data.symm
  exact ⟨by rw [this]; exact World.slice_len hw.1, this⟩

/-- One more call in front. -/
theorem Followed.cons {S : Schema} {op vop : Op} {vops : List Op} {w w1 w2 : World} {m m1 m2 : HMsg} {a b : Nat} {v : Msg}
    {cs : List Chunk} (hv : vop.Valid S) (hs : SameCall vop op) (hmin : ∀ c ∈ cs, c.MinTag) (hwt : WellTyped S (records cs))
    (hw : w.WF m) (hrep : Rep S.n S.rep v.buf v.off cs) (hrepm : Rep S.n S.rep (w.msg m).buf (w.msg m).off cs)
    (hstep : StepOk w w1 m m1 op S)
    (hrest : ∀ cs' v', (∀ c ∈ cs', c.MinTag) → WellTyped S (records cs') → Rep S.n S.rep v'.buf v'.off cs' →
      Rep S.n S.rep (w1.msg m1).buf (w1.msg m1).off cs' → w1.WF m1 → Followed S vops v' w1 w2 m1 m2 a b) :
    Followed S (vop :: vops) v w w2 m m2 (w1.arrs.length - w.arrs.length + a) (w1.maps.length - w.maps.length + b) := by
  obtain ⟨cs', c1, c2, _, c4⟩ := exact_step hv hmin hwt
  obtain ⟨vm, r1, r2⟩ := hstep.run
  obtain ⟨g1, g2⟩ := c4 _ hs _ hrepm
  rcases Nat.lt_or_ge (flat cs').length maxLen with hl | hl
  · obtain ⟨vm', e1, e2⟩ := g1 hl
    rw [r1] at e1
    simp only [Except.ok.injEq] at e1
    subst e1
    rw [← r2] at e2
    obtain ⟨v', f1, f2⟩ := (c4 _ (SameCall.refl vop) v hrep).1 hl
    have hF := hrest cs' v' c1 c2 f2 e2 hstep.wf
    have hcap := hstep.cap hw
    obtain ⟨l1, _⟩ := rep_len hw hrep hrepm
    obtain ⟨l2, _⟩ := rep_len hstep.wf f2 e2
    have hfar : v'.off.Far ↔ (w1.offs m1).Far := rep_far f2 e2
    have hfar0 : v.off.Far ↔ (w.offs m).Far := rep_far hrep hrepm
    have hlen := hw.1.1
    refine ⟨hF.wf, hF.alen, ?_, Nat.le_trans hcap.1 hF.capLe, ?_, ?_, ?_, ?_, ?_⟩
    · obtain ⟨u, u1, u2⟩ := hF.result
      exact ⟨u, by simp only [runAll, f1, bind, Except.bind, u1], u2⟩
    · rw [Along.cons f1]
      have hA := hF.arrays
      constructor
      · intro h0
        have h1 : w1.arrs.length - w.arrs.length = 0 := by omega
        have h2 : a = 0 := by omega
        have h3 := hcap.2.2 (hcap.2.1.1 h1)
        exact ⟨by omega, by rw [← h3]; exact hA.1 h2⟩
      · rintro ⟨_, h1⟩
        have h2 : m1.buf.len ≤ m.buf.cap := by rw [← l2]; exact h1 [] _ rfl v' rfl
        have h3 := hcap.2.1.2 h2
        have h4 := hcap.2.2 h2
        rw [← h4] at h1
        rw [h3, hA.2 h1]
    · intro h0
      have h1 : w1.arrs.length - w.arrs.length = 0 := by omega
      rw [hF.same (by omega), hcap.2.2 (hcap.2.1.1 h1)]
    · rw [Along.cons f1]
      exact ⟨by have := hcap.1; have := hF.capLe; omega, hF.peak⟩
    · intro hm
      obtain ⟨s1, s2⟩ := hstep.stay hm
      obtain ⟨t1, t2⟩ := hF.mapStay (fun h => hm (s2.1 h))
      exact ⟨t1, by omega⟩
    · intro hm
      rw [Along.cons f1]
      have h0 : ¬ v.off.Far := by rw [hfar0]; exact Offsets.not_far (World.offs_map.2 hm)
      rcases hstep.one hm with ⟨o1, o2⟩ | ⟨o1, o2, o3⟩
      · rcases hF.mapOne o1 with ⟨p1, p2, p3⟩ | ⟨p1, p2, p3⟩
        · exact Or.inl ⟨p1, by omega, h0, p3⟩
        · exact Or.inr ⟨p1, by omega, fun h => p3 h.2⟩
      · obtain ⟨t1, t2⟩ := hF.mapStay o1
        refine Or.inr ⟨t1, by omega, fun h => ?_⟩
        exact h.2 [] _ rfl v' rfl (hfar.2 o3)
  · rw [g2 hl] at r1
    simp at r1

theorem calls_follow {S : Schema} {w w' : World} {m m' : HMsg} {ops : List Op} {a b : Nat} (h : Calls w m ops a b w' m') :
    ∀ {vops : List Op} {v : Msg} {cs : List Chunk}, (∀ op ∈ vops, op.Valid S) → SameCalls vops ops → (∀ c ∈ cs, c.MinTag) →
      WellTyped S (records cs) → w.WF m → Rep S.n S.rep v.buf v.off cs → Rep S.n S.rep (w.msg m).buf (w.msg m).off cs →
      Followed S vops v w w' m m' a b := by
  induction h with
  | @done w m =>
    intro vops v cs hv hs hmin hwt hw hrep hrepm
    cases hs
    obtain ⟨l1, l2⟩ := rep_len hw hrep hrepm
    have hlen := hw.1.1
    refine ⟨hw, hrepm.alen, ⟨v, rfl, l2⟩, Nat.le_refl _, ⟨fun _ => Along.nil.2 (by omega), fun _ => rfl⟩, fun _ => rfl,
      Along.nil.2 (by omega), fun h => ⟨h, rfl⟩, fun hm => Or.inl ⟨hm, rfl, Along.nil.2 ?_⟩⟩
    rw [rep_far hrep hrepm]
    exact Offsets.not_far (World.offs_map.2 hm)
  | @other w w1 m ops a b w2 m2 hu _ ih =>
    intro vops v cs hv hs hmin hwt hw hrep hrepm
    have hrep1 : Rep S.n S.rep (w1.msg m).buf (w1.msg m).off cs := by
      refine ⟨hu.data.trans hrepm.data, hrepm.wf, hrepm.lt, ?_, ?_, ?_, ?_⟩
      · rw [msg_buf, hu.data]; exact hrepm.len
      · rw [msg_off, hu.offs]; exact hrepm.inv
      · rw [msg_off, hu.offs]; exact hrepm.alen
      · rw [msg_off, hu.offs]; exact hrepm.view
    have := ih hv hs hmin hwt hu.wf hrep hrep1
    exact ⟨this.wf, this.alen, this.result, this.capLe, this.arrays, this.same, this.peak, this.mapStay, this.mapOne⟩
  | @set w m rt f k x w1 m1 ops a b w2 m2 hr _ ih =>
    intro vops v cs hv hs hmin hwt hw hrep hrepm
    cases hs with
    | cons hab hrest =>
      refine Followed.cons (hv _ (by simp)) hab hmin hwt hw hrep hrepm ?_
        (fun cs' v' h1 h2 h3 h4 h5 => ih (fun op h => hv op (by simp [h])) hrest h1 h2 h5 h3 h4)
      exact stepOk_of (setField_refines rt hw k f x) hr rfl (setField_grown rt hr) (setField_one rt hr)
  | @setString w m rt f x w1 m1 ops a b w2 m2 hx hr _ ih =>
    intro vops v cs hv hs hmin hwt hw hrep hrepm
    cases hs with
    | cons hab hrest =>
      refine Followed.cons (hv _ (by simp)) hab hmin hwt hw hrep hrepm ?_
        (fun cs' v' h1 h2 h3 h4 h5 => ih (fun op h => hv op (by simp [h])) hrest h1 h2 h5 h3 h4)
      exact stepOk_of (setBytes_refines rt hw f hx) hr rfl (setBytes_grown rt hr) (setBytes_one rt hr)
  | @setBytes w m rt f x w1 m1 ops a b w2 m2 hx hr _ ih =>
    intro vops v cs hv hs hmin hwt hw hrep hrepm
    cases hs with
    | cons hab hrest =>
      refine Followed.cons (hv _ (by simp)) hab hmin hwt hw hrep hrepm ?_
        (fun cs' v' h1 h2 h3 h4 h5 => ih (fun op h => hv op (by simp [h])) hrest h1 h2 h5 h3 h4)
      exact stepOk_of (setBytes_refines rt hw f hx) hr rfl (setBytes_grown rt hr) (setBytes_one rt hr)
  | @append w m rt f x w1 m1 ops a b w2 m2 hx hr _ ih =>
    intro vops v cs hv hs hmin hwt hw hrep hrepm
    cases hs with
    | cons hab hrest =>
      refine Followed.cons (hv _ (by simp)) hab hmin hwt hw hrep hrepm ?_
        (fun cs' v' h1 h2 h3 h4 h5 => ih (fun op h => hv op (by simp [h])) hrest h1 h2 h5 h3 h4)
      exact stepOk_of (appendBytes_refines rt hw f hx) hr rfl (appendBytes_grown rt hr) (appendBytes_one rt hr)

/-- A whole round, relative to the same calls on an empty message. -/
theorem round_follow {S : Schema} {w w' : World} {m m' : HMsg} {b : HSlice} {vops ops : List Op} {a c : Nat}
    (hv : ∀ op ∈ vops, op.Valid S) (hs : SameCalls vops ops) (hw : w.WF m) (hn : m.a.length = S.n) (hb : w.WFs b)
    (h : RoundWith w m b ops a c w' m') :
    ∃ w1 m1, m1.buf = b ∧ (m1.m = none ↔ m.m = none) ∧ Followed S vops (Msg.zero S.n) w1 w' m1 m' a c := by
  obtain ⟨m1, w1, hr, hc⟩ := h
  have h1 := reset_refines hw hb
  obtain ⟨_, hbuf, hstay⟩ := reset_grown hr
  unfold Msg.reset at h1
  by_cases hl : (w.slice b).len > 0
  · rw [if_pos hl] at h1
    simp only at h1
    rw [hr] at h1
    simp at h1
  · rw [if_neg hl] at h1
    simp only at h1
    obtain ⟨m', w', e1, e2, e3, _⟩ := h1
    rw [hr] at e1
    simp only [Except.ok.injEq, Prod.mk.injEq] at e1
    obtain ⟨rfl, rfl⟩ := e1
    refine ⟨w1, m1, hbuf, hstay.2, calls_follow hc hv hs (cs := []) (by simp) (by intro r hr; simp [records] at hr) e3 (zero_rep S) ?_⟩
    rw [e2]
    refine empty_rep (List.length_eq_zero_iff.1 ?_) (Offsets.clear_inv _) (by rw [Offsets.clear_length]; exact hn) (Offsets.clear_view _)
    show (w.slice b).len = 0
    omega

/-! ## Theorems -/

/-- C70: a round allocates a byte array exactly when the message gets longer than the capacity of the buffer given to
`Reset`, whatever the runtime does; the result is the encoding of the calls, and if nothing was allocated it is in the
given buffer, which therefore can be given again. -/
theorem C70_round (S : Schema) {w w' : World} {m m' : HMsg} {b : HSlice} {ops : List Op} {a c : Nat}
    (hv : ∀ op ∈ ops, op.Valid S) (hw : w.WF m) (hn : m.a.length = S.n) (hb : w.WFs b) (h : RoundWith w m b ops a c w' m') :
    (a = 0 ↔ StaysWithin S ops b.cap) ∧ (a = 0 → m'.buf.cap = b.cap) ∧ c ≤ 1 ∧ (m.m ≠ none → c = 0) ∧
    ∃ v, runAll S ops (Msg.zero S.n) = .ok v ∧ (w'.slice m'.buf).data = v.encode.data := by
  obtain ⟨w1, m1, h1, h2, hF⟩ := round_follow hv (.refl _) hw hn hb h
  refine ⟨by rw [← h1]; exact hF.arrays, by rw [← h1]; exact hF.same, ?_, fun hm => (hF.mapStay (fun h => hm (h2.1 h))).2, ?_⟩
  · by_cases hm : m1.m = none
    · rcases hF.mapOne hm with ⟨_, h, _⟩ | ⟨_, h, _⟩ <;> omega
    · have := (hF.mapStay hm).2; omega
  · obtain ⟨u, u1, u2⟩ := hF.result
    exact ⟨u, u1, u2.symm⟩

theorem reuse_wf {w : World} {m : HMsg} (h : w.WF m) : w.WFs { m.buf with len := 0 } := ⟨Nat.zero_le _, h.1.2⟩

/-- Every state between the rounds is well-formed. -/
theorem rounds_wf (S : Schema) {n : Nat} {w : Nat → World} {m : Nat → HMsg} {ops : Nat → List Op} {a c : Nat → Nat}
    (hw : (w 0).WF (m 0)) (hn : (m 0).a.length = S.n) (hv : ∀ i < n, ∀ op ∈ ops i, op.Valid S)
    (hr : ∀ i < n, Round (w i) (m i) (ops i) (a i) (c i) (w (i + 1)) (m (i + 1))) :
    ∀ i, i ≤ n → (w i).WF (m i) ∧ (m i).a.length = S.n := by
  intro i
  induction i with
  | zero => intro _; exact ⟨hw, hn⟩
  | succ i ih =>
    intro hi
    obtain ⟨h1, h2⟩ := ih (by omega)
    obtain ⟨_, _, _, _, hF⟩ := round_follow (hv i (by omega)) (.refl _) h1 h2 (reuse_wf h1) (hr i (by omega))
    exact ⟨hF.wf, hF.alen⟩

/-- C70: rounds with arbitrary calls. A round allocates a byte array only if its message gets longer than the message
ever was in each of the rounds before; and all rounds together allocate at most one overflow map. -/
theorem C70_rounds (S : Schema) {n : Nat} {w : Nat → World} {m : Nat → HMsg} {ops : Nat → List Op} {a c : Nat → Nat}
    (hw : (w 0).WF (m 0)) (hn : (m 0).a.length = S.n) (hv : ∀ i < n, ∀ op ∈ ops i, op.Valid S)
    (hr : ∀ i < n, Round (w i) (m i) (ops i) (a i) (c i) (w (i + 1)) (m (i + 1))) :
    (∀ i j, i < j → j < n → (∀ l, StaysWithin S (ops i) l → StaysWithin S (ops j) l) → a j = 0) ∧
    (∀ i < n, c i ≤ 1) ∧ ∀ i j, i < n → j < n → c i ≠ 0 → c j ≠ 0 → i = j := by
  have hwf := rounds_wf S hw hn hv hr
  have hround : ∀ i, i < n → _ := fun i hi =>
    round_follow (hv i hi) (.refl _) (hwf i (by omega)).1 (hwf i (by omega)).2 (reuse_wf (hwf i (by omega)).1) (hr i hi)
  have hstep : ∀ i, i < n → (m i).buf.cap ≤ (m (i + 1)).buf.cap ∧ StaysWithin S (ops i) (m (i + 1)).buf.cap ∧
      (a i = 0 ↔ StaysWithin S (ops i) (m i).buf.cap) := by
    intro i hi
    obtain ⟨w1, m1, h1, h2, hF⟩ := hround i hi
    have hc : m1.buf.cap = (m i).buf.cap := by rw [h1]
    refine ⟨hc ▸ hF.capLe, hF.peak, ?_⟩
    rw [← hc]; exact hF.arrays
  have hmap : ∀ i, i < n → c i ≤ 1 ∧ (c i ≠ 0 → (m i).m = none ∧ (m (i + 1)).m ≠ none) ∧ ((m i).m ≠ none → (m (i + 1)).m ≠ none) := by
    intro i hi
    obtain ⟨w1, m1, h1, h2, hF⟩ := hround i hi
    by_cases hm : m1.m = none
    · rcases hF.mapOne hm with ⟨p1, p2, _⟩ | ⟨p1, p2, _⟩
      · exact ⟨by omega, fun h => absurd p2 h, fun h => absurd (h2.1 hm) h⟩
      · exact ⟨by omega, fun _ => ⟨h2.1 hm, p1⟩, fun _ => p1⟩
    · obtain ⟨p1, p2⟩ := hF.mapStay hm
      exact ⟨by omega, fun h => absurd p2 h, fun _ => p1⟩
  have hcap : ∀ i k, i + k ≤ n → (m i).buf.cap ≤ (m (i + k)).buf.cap := by
    intro i k
    induction k with
    | zero => intro _; exact Nat.le_refl _
    | succ k ih => intro h; exact Nat.le_trans (ih (by omega)) (hstep (i + k) (by omega)).1
  have hkeep : ∀ i k, i + k ≤ n → (m i).m ≠ none → (m (i + k)).m ≠ none := by
    intro i k
    induction k with
    | zero => intro _ h; exact h
    | succ k ih => intro h hm; exact (hmap (i + k) (by omega)).2.2 (ih (by omega) hm)
  have key : ∀ i j, i < j → j < n → c i ≠ 0 → c j ≠ 0 → False := by
    intro i j hij hj h1 h2
    have e1 := ((hmap i (by omega)).2.1 h1).2
    have e2 := ((hmap j hj).2.1 h2).1
    obtain ⟨k, rfl⟩ : ∃ k, j = (i + 1) + k := ⟨j - (i + 1), by omega⟩
    exact hkeep (i + 1) k (by omega) e1 e2
  refine ⟨?_, fun i hi => (hmap i hi).1, ?_⟩
  · intro i j hij hj hle
    obtain ⟨k, rfl⟩ : ∃ k, j = (i + 1) + k := ⟨j - (i + 1), by omega⟩
    have h1 := hle _ (hstep i (by omega)).2.1
    have h2 := hcap (i + 1) k (by omega)
    exact (hstep _ hj).2.2.2 (fun pre post hp v hrun => Nat.le_trans (h1 pre post hp v hrun) h2)
  · intro i j hi hj h1 h2
    rcases Nat.lt_trichotomy i j with h | h | h
    · exact (key i j h hj h1 h2).elim
    · exact h
    · exact (key j i h hi h2 h1).elim

/-- C70, the benchmarks: the same calls in every round, with whatever choices the runtime makes and whatever other code
runs in between. From the second round on nothing is allocated, neither an array nor a map, and every round produces
the same bytes. -/
theorem C70_steady (S : Schema) {n : Nat} {w : Nat → World} {m : Nat → HMsg} {ops : Nat → List Op} {a c : Nat → Nat}
    (hw : (w 0).WF (m 0)) (hn : (m 0).a.length = S.n) (hv : ∀ op ∈ ops 0, op.Valid S) (hs : ∀ i < n, SameCalls (ops 0) (ops i))
    (hr : ∀ i < n, Round (w i) (m i) (ops i) (a i) (c i) (w (i + 1)) (m (i + 1))) :
    ∀ i, 0 < i → i < n → a i = 0 ∧ c i = 0 ∧
      ((w (i + 1)).slice (m (i + 1)).buf).data = ((w 1).slice (m 1).buf).data := by
  have hwf : ∀ i, i ≤ n → (w i).WF (m i) ∧ (m i).a.length = S.n := by
    intro i
    induction i with
    | zero => intro _; exact ⟨hw, hn⟩
    | succ i ih =>
      intro hi
      obtain ⟨h1, h2⟩ := ih (by omega)
      obtain ⟨_, _, _, _, hF⟩ := round_follow hv (hs i (by omega)) h1 h2 (reuse_wf h1) (hr i (by omega))
      exact ⟨hF.wf, hF.alen⟩
  have hround : ∀ i, i < n → _ := fun i hi =>
    round_follow hv (hs i hi) (hwf i (by omega)).1 (hwf i (by omega)).2 (reuse_wf (hwf i (by omega)).1) (hr i hi)
  have hstep : ∀ i, i < n → StaysWithin S (ops 0) (m (i + 1)).buf.cap ∧ (a i = 0 ↔ StaysWithin S (ops 0) (m i).buf.cap) := by
    intro i hi
    obtain ⟨w1, m1, h1, h2, hF⟩ := hround i hi
    have hc : m1.buf.cap = (m i).buf.cap := by rw [h1]
    refine ⟨hF.peak, ?_⟩
    rw [← hc]; exact hF.arrays
  have hmap : ∀ i, i < n → ((m i).m ≠ none → c i = 0 ∧ (m (i + 1)).m ≠ none) ∧
      ((m (i + 1)).m = none → Along S (ops 0) (Msg.zero S.n) (fun u => ¬ u.off.Far)) ∧
      (c i ≠ 0 → ¬ Along S (ops 0) (Msg.zero S.n) (fun u => ¬ u.off.Far)) := by
    intro i hi
    obtain ⟨w1, m1, h1, h2, hF⟩ := hround i hi
    by_cases hm : m1.m = none
    · refine ⟨fun h => absurd (h2.1 hm) h, ?_, ?_⟩
      · intro h
        rcases hF.mapOne hm with ⟨p1, p2, p3⟩ | ⟨p1, p2, p3⟩
        · exact p3
        · exact absurd h p1
      · intro h
        rcases hF.mapOne hm with ⟨p1, p2, p3⟩ | ⟨p1, p2, p3⟩
        · exact absurd p2 h
        · exact p3
    · obtain ⟨p1, p2⟩ := hF.mapStay hm
      exact ⟨fun _ => ⟨p2, p1⟩, fun h => absurd h p1, fun h => absurd p2 h⟩
  have hres : ∀ i, i < n → ∃ u, runAll S (ops 0) (Msg.zero S.n) = .ok u ∧ u.encode.data = ((w (i + 1)).slice (m (i + 1)).buf).data := by
    intro i hi
    obtain ⟨w1, m1, h1, h2, hF⟩ := hround i hi
    exact hF.result
  intro i hi hin
  obtain ⟨j, rfl⟩ : ∃ j, i = j + 1 := ⟨i - 1, by omega⟩
  refine ⟨(hstep (j + 1) hin).2.2 (hstep j (by omega)).1, ?_, ?_⟩
  · by_cases hm : (m (j + 1)).m = none
    · by_cases hc : c (j + 1) = 0
      · exact hc
      · exact absurd ((hmap j (by omega)).2.1 hm) ((hmap (j + 1) hin).2.2 hc)
    · exact ((hmap (j + 1) hin).1 hm).1
  · obtain ⟨u, u1, u2⟩ := hres 0 (by omega)
    obtain ⟨u', u1', u2'⟩ := hres (j + 1) hin
    rw [u1] at u1'
    simp only [Except.ok.injEq] at u1'
    rw [← u2', ← u1', u2]

/-- A setter or `AppendTo`. -/
def Op.IsSetter : Op → Prop
  | .set .. => True
  | .append .. => True
  | _ => False

theorem calls_exist {S : Schema} {vops : List Op} (hset : ∀ op ∈ vops, op.IsSetter) : ∀ {w : World} {m : HMsg} {v u : Msg} {cs : List Chunk},
    (∀ op ∈ vops, op.Valid S) → (∀ c ∈ cs, c.MinTag) → WellTyped S (records cs) → w.WF m → Rep S.n S.rep v.buf v.off cs →
    Rep S.n S.rep (w.msg m).buf (w.msg m).off cs → runAll S vops v = .ok u → ∃ a b w' m', Calls w m vops a b w' m' := by
  induction vops with
  | nil => intro w m v u cs _ _ _ _ _ _ _; exact ⟨0, 0, w, m, .done⟩
  | cons op ops ih =>
    intro w m v u cs hv hmin hwt hw hrep hrepm hrun
    obtain ⟨cs', c1, c2, _, c4⟩ := exact_step (hv op (by simp)) hmin hwt
    obtain ⟨g1, g2⟩ := c4 _ (.refl op) _ hrep
    rcases Nat.lt_or_ge (flat cs').length maxLen with hl | hl
    · obtain ⟨v', e1, e2⟩ := g1 hl
      simp only [runAll, e1, bind, Except.bind] at hrun
      obtain ⟨vm, f1, f2⟩ := (c4 _ (.refl op) _ hrepm).1 hl
      have go : ∀ {w1 m1}, w1.msg m1 = vm → w1.WF m1 → ∃ a b w' m', Calls w1 m1 ops a b w' m' := by
        intro w1 m1 h1 h2
        exact ih (fun op h => hset op (by simp [h])) (fun op h => hv op (by simp [h])) c1 c2 h2 e2 (h1 ▸ f2) hrun
      cases op with
      | set rt f k x =>
        have hr := setField_refines rt hw k f x
        unfold Refines at hr
        have hrun' : (Msg.setField rt (w.slice m.buf) (w.offs m) k f x >>= fun r => .ok (⟨r.1, r.2⟩ : Msg)) = .ok vm := f1
        cases hq : Msg.setField rt (w.slice m.buf) (w.offs m) k f x with
        | error e => rw [hq] at hrun'; simp [bind, Except.bind] at hrun'
        | ok p =>
          rw [hq] at hr hrun'
          simp only [bind, Except.bind, Except.ok.injEq] at hrun'
          obtain ⟨m1, w1, h1, h2, h3, _⟩ := hr
          obtain ⟨a, b, w', m', h4⟩ := go (h2.trans hrun') h3
          exact ⟨_, _, _, _, .set h1 h4⟩
      | append rt f x =>
        have hr := appendBytes_refines rt hw f (x := .lit x) trivial
        unfold Refines at hr
        have hrun' : (appendBytes rt (w.slice m.buf) (w.offs m) f x >>= fun r => .ok (⟨r.1, r.2⟩ : Msg)) = .ok vm := f1
        have hq' : w.src (.lit x) = x := rfl
        rw [hq'] at hr
        cases hq : appendBytes rt (w.slice m.buf) (w.offs m) f x with
        | error e => rw [hq] at hrun'; simp [bind, Except.bind] at hrun'
        | ok p =>
          rw [hq] at hr hrun'
          simp only [bind, Except.bind, Except.ok.injEq] at hrun'
          obtain ⟨m1, w1, h1, h2, h3, _⟩ := hr
          obtain ⟨a, b, w', m', h4⟩ := go (h2.trans hrun') h3
          exact ⟨_, _, _, _, Calls.append (x := .lit x) trivial h1 h4⟩
      | reset buf => exact absurd (hset (.reset buf) (by simp)) id
      | decode buf rs => exact absurd (hset (.decode buf rs) (by simp)) id
    · simp only [runAll, g2 hl, bind, Except.bind] at hrun
      exact absurd hrun (by simp)

/-- C70: a round never fails for calls which succeed on an empty message: whatever the struct was used for before, and
whatever is in the buffer. -/
theorem C70_possible (S : Schema) {w : World} {m : HMsg} {b : HSlice} {ops : List Op} {u : Msg} (hset : ∀ op ∈ ops, op.IsSetter)
    (hv : ∀ op ∈ ops, op.Valid S) (hw : w.WF m) (hn : m.a.length = S.n) (hb : w.WFs b) (hl : b.len = 0)
    (hrun : runAll S ops (Msg.zero S.n) = .ok u) : ∃ a c w' m', RoundWith w m b ops a c w' m' := by
  have h1 := reset_refines hw hb
  unfold Msg.reset at h1
  have hl' : (w.slice b).len = 0 := (World.slice_len hb).trans hl
  rw [if_neg (by omega)] at h1
  simp only at h1
  obtain ⟨m1, w1, e1, e2, e3, _⟩ := h1
  obtain ⟨a, c, w', m', h⟩ := calls_exist hset hv (cs := []) (by simp) (by intro r hr; simp [records] at hr) e3 (zero_rep S)
    (by
      rw [e2]
      exact empty_rep (List.length_eq_zero_iff.1 hl') (Offsets.clear_inv _) (by rw [Offsets.clear_length]; exact hn) (Offsets.clear_view _))
    hrun
  exact ⟨a, c, w', m', m1, w1, e1, h⟩

/-- C70: the rounds can go on for ever. -/
theorem C70_forever (S : Schema) {w : World} {m : HMsg} {ops : List Op} {u : Msg} (hset : ∀ op ∈ ops, op.IsSetter)
    (hv : ∀ op ∈ ops, op.Valid S) (hw : w.WF m) (hn : m.a.length = S.n) (hrun : runAll S ops (Msg.zero S.n) = .ok u) :
    ∃ (ws : Nat → World) (ms : Nat → HMsg) (a c : Nat → Nat), ws 0 = w ∧ ms 0 = m ∧
      ∀ i, Round (ws i) (ms i) ops (a i) (c i) (ws (i + 1)) (ms (i + 1)) := by
  have hex : ∀ s : { p : World × HMsg // p.1.WF p.2 ∧ p.2.a.length = S.n },
      ∃ q : Nat × Nat × { p : World × HMsg // p.1.WF p.2 ∧ p.2.a.length = S.n },
        Round s.1.1 s.1.2 ops q.1 q.2.1 q.2.2.1.1 q.2.2.1.2 := by
    rintro ⟨⟨w, m⟩, h1, h2⟩
    obtain ⟨a, c, w', m', h⟩ := C70_possible S hset hv h1 h2 (reuse_wf h1) rfl hrun
    obtain ⟨_, _, _, _, hF⟩ := round_follow hv (.refl _) h1 h2 (reuse_wf h1) h
    exact ⟨(a, c, ⟨(w', m'), hF.wf, hF.alen⟩), h⟩
  let next := fun s => (hex s).choose
  let st : Nat → { p : World × HMsg // p.1.WF p.2 ∧ p.2.a.length = S.n } :=
    fun i => Nat.rec ⟨(w, m), hw, hn⟩ (fun _ s => (next s).2.2) i
  refine ⟨fun i => (st i).1.1, fun i => (st i).1.2, fun i => (next (st i)).1, fun i => (next (st i)).2.1, rfl, rfl, fun i => ?_⟩
  exact (hex (st i)).choose_spec

/-- Any calls on one struct, with other code in between which may allocate; `b` counts the maps these calls allocate. -/
inductive MapCalls : World → HMsg → List HCall → Nat → World → HMsg → Prop where
  | done {w m} : MapCalls w m [] 0 w m
  | other {w w1 m cs b w2 m2} : MapCalls w1 m cs b w2 m2 → MapCalls w m cs b w2 m2
  | call {w m c w1 m1 cs b w2 m2} : w.WFs (c.storage m) → c.run w m = .ok (m1, w1) → MapCalls w1 m1 cs b w2 m2 →
      MapCalls w m (c :: cs) (w1.maps.length - w.maps.length + b) w2 m2

theorem storeOffs_one {w : World} {m : HMsg} (hm : m.m = none) (o : Offsets) :
    ((w.storeOffs m o).1.m = none ∧ (w.storeOffs m o).2.maps.length = w.maps.length) ∨
    ((w.storeOffs m o).1.m ≠ none ∧ (w.storeOffs m o).2.maps.length = w.maps.length + 1) := by
  cases ho : o.m <;> simp [World.storeOffs, hm, ho]

theorem HCall.run_one {c : HCall} {w w' : World} {m m' : HMsg} (h : c.run w m = .ok (m', w')) (hm : m.m = none) :
    (m'.m = none ∧ w'.maps.length = w.maps.length) ∨ (m'.m ≠ none ∧ w'.maps.length = w.maps.length + 1) := by
  cases c with
  | set rt f k x => exact (setField_one rt h hm).imp id (fun h => ⟨h.1, h.2.1⟩)
  | setBytes rt f x => exact (setBytes_one rt h hm).imp id (fun h => ⟨h.1, h.2.1⟩)
  | append rt f x => exact (appendBytes_one rt h hm).imp id (fun h => ⟨h.1, h.2.1⟩)
  | reset b =>
    obtain ⟨_, _, h3⟩ := reset_grown h
    exact Or.inl ⟨h3.2.2 hm, h3.1⟩
  | decode rep b =>
    simp only [HCall.run, HMsg.decode, bind, Except.bind] at h
    split at h
    · simp at h
    next r e =>
    split at e
    · simp at e
    next q e' =>
    simp only [pure, Except.pure, Except.ok.injEq] at e
    subst e
    simp only [pure, Except.pure, Except.ok.injEq, Prod.mk.injEq] at h
    obtain ⟨rfl, rfl⟩ := h
    exact storeOffs_one hm _

/-- C70: all calls ever made on one struct variable, `Decode` and `Reset` included, allocate at most one overflow map
together, and none if the struct has one already. -/
theorem C70_one_map {w w' : World} {m m' : HMsg} {cs : List HCall} {b : Nat} (h : MapCalls w m cs b w' m') :
    b ≤ 1 ∧ (m.m ≠ none → b = 0 ∧ m'.m ≠ none) := by
  induction h with
  | done => exact ⟨by omega, fun h => ⟨rfl, h⟩⟩
  | other _ ih => exact ih
  | @call w m c w1 m1 cs b w2 m2 hw hr _ ih =>
    by_cases hm : m.m = none
    · refine ⟨?_, fun h => absurd hm h⟩
      rcases HCall.run_one hr hm with ⟨h1, h2⟩ | ⟨h1, h2⟩
      · have := ih.1; omega
      · have := (ih.2 h1).1; omega
    · obtain ⟨h1, h2⟩ := (HCall.run_grown hw hr).2 (Or.inr hm)
      obtain ⟨h3, h4⟩ := ih.2 (fun h => hm (h2.1 h))
      exact ⟨by omega, fun _ => ⟨by omega, h4⟩⟩

/-! ## Hypotheses met -/

/-- A bool, a string, the string again but shorter, an element of a repeated field. -/
def reuseOps : List Op := [.set Rt.exact 1 .bool true, .set Rt.exact 14 .string [0x61#8, 0x62#8, 0x63#8],
  .set Rt.exact 14 .string [0x61#8], .append Rt.exact 34 [0x08#8, 0x01#8]]

theorem reuseOps_valid : (∀ op ∈ reuseOps, op.Valid testSchema) ∧ ∀ op ∈ reuseOps, op.IsSetter := by
  constructor <;> intro op h <;> simp only [reuseOps, List.mem_cons, List.not_mem_nil, or_false] at h <;>
    rcases h with rfl | rfl | rfl | rfl
  all_goals first | exact trivial | exact ⟨rfl, rfl, by decide⟩

/-- A struct that was never used, and endless rounds: the first one allocates, no other does. -/
example : ∃ (ws : Nat → World) (ms : Nat → HMsg) (a c : Nat → Nat), ws 0 = ⟨[], []⟩ ∧ ms 0 = HMsg.zero 35 ∧
    (∀ i, Round (ws i) (ms i) reuseOps (a i) (c i) (ws (i + 1)) (ms (i + 1))) ∧ a 0 ≠ 0 ∧
    ∀ i, 0 < i → a i = 0 ∧ c i = 0 ∧ ((ws (i + 1)).slice (ms (i + 1)).buf).data =
      [0x08#8, 0x01#8, 0x72#8, 0x01#8, 0x61#8, 0x92#8, 0x02#8, 0x02#8, 0x08#8, 0x01#8] := by
  have hw : (⟨[], []⟩ : World).WF (HMsg.zero 35) := ⟨⟨by decide, by decide⟩, by simp [HMsg.zero]⟩
  have hn : (HMsg.zero 35).a.length = testSchema.n := by decide
  have hrun : ∃ u, runAll testSchema reuseOps (Msg.zero testSchema.n) = .ok u ∧ u.encode.data =
      [0x08#8, 0x01#8, 0x72#8, 0x01#8, 0x61#8, 0x92#8, 0x02#8, 0x02#8, 0x08#8, 0x01#8] := ⟨_, rfl, by decide⟩
  obtain ⟨u, h1, h2⟩ := hrun
  obtain ⟨ws, ms, a, c, e1, e2, h⟩ := C70_forever testSchema reuseOps_valid.2 reuseOps_valid.1 hw hn h1
  have hw' : (ws 0).WF (ms 0) := by rw [e1, e2]; exact hw
  have hn' : (ms 0).a.length = testSchema.n := by rw [e2]; exact hn
  have h0 := C70_round testSchema reuseOps_valid.1 hw' hn' (reuse_wf hw') (h 0)
  refine ⟨ws, ms, a, c, e1, e2, h, ?_, ?_⟩
  · intro ha
    have := h0.1.1 ha reuseOps [] (by simp) u h1
    rw [h2, e2] at this
    revert this
    decide
  · intro i hi
    obtain ⟨s1, s2, s3⟩ := C70_steady testSchema (n := i + 1) (ops := fun _ => reuseOps) hw' hn' reuseOps_valid.1
      (fun _ _ => .refl _) (fun i _ => h i) i hi (by omega)
    refine ⟨s1, s2, ?_⟩
    obtain ⟨v, v1, v2⟩ := h0.2.2.2.2
    rw [h1] at v1
    simp only [Except.ok.injEq] at v1
    rw [s3, v2, ← v1, h2]

/-- Without reuse: the same round with the same too small buffer allocates every time (`C70_round`), here a buffer of
9 bytes for a message of 10. -/
example : ∃ a c w' m', RoundWith ⟨[List.replicate 9 0#8], []⟩ (HMsg.zero 35) ⟨0, 0, 0, 9⟩ reuseOps a c w' m' ∧ a ≠ 0 := by
  have hw : (⟨[List.replicate 9 0#8], []⟩ : World).WF (HMsg.zero 35) := ⟨⟨by decide, by decide⟩, by simp [HMsg.zero]⟩
  have hb : (⟨[List.replicate 9 0#8], []⟩ : World).WFs ⟨0, 0, 0, 9⟩ := ⟨by decide, by decide⟩
  have hrun : ∃ u, runAll testSchema reuseOps (Msg.zero testSchema.n) = .ok u ∧ u.encode.data.length = 10 := ⟨_, rfl, by decide⟩
  obtain ⟨u, h1, h2⟩ := hrun
  obtain ⟨a, c, w', m', h⟩ := C70_possible testSchema reuseOps_valid.2 reuseOps_valid.1 hw (by decide) hb rfl h1
  refine ⟨a, c, w', m', h, fun ha => ?_⟩
  have := (C70_round testSchema reuseOps_valid.1 hw (by decide) hb h).1.1 ha reuseOps [] (by simp) u h1
  rw [h2] at this
  revert this
  decide

/-- `C70_one_map`: a history with `Reset`, setters and other code in between. -/
example : ∃ w' m' b, MapCalls allocWorld (HMsg.zero 35) [.reset ⟨0, 1, 0, 10⟩, .set Rt.exact 1 .bool true,
    .set Rt.exact 2 .bool true] b w' m' ∧ m'.buf.len = 4 := by
  refine ⟨_, _, _, .call (w1 := allocWorld) (m1 := ⟨⟨0, 1, 0, 10⟩, List.replicate 35 0#16, none⟩) ⟨by decide, by decide⟩
    (by simp only [HCall.run]; decide +kernel)
    (.other (w1 := ⟨[List.replicate 12 0xee#8], [[(3, 70000#64)]]⟩)
      (.call (m1 := ⟨⟨0, 1, 2, 10⟩, (List.replicate 35 0#16).set 1 1#16, none⟩)
        (w1 := ⟨[[0xee#8, 0x08#8, 0x01#8] ++ List.replicate 9 0xee#8], [[(3, 70000#64)]]⟩) ⟨by decide, by decide⟩
        (by simp only [HCall.run]; decide +kernel)
        (.call (m1 := ⟨⟨0, 1, 4, 10⟩, ((List.replicate 35 0#16).set 1 1#16).set 2 3#16, none⟩)
          (w1 := ⟨[[0xee#8, 0x08#8, 0x01#8, 0x10#8, 0x01#8] ++ List.replicate 7 0xee#8], [[(3, 70000#64)]]⟩) ⟨by decide, by decide⟩
          (by simp only [HCall.run]; decide +kernel) .done))), rfl⟩

end Zeropb
