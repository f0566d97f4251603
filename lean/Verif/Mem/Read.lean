import Verif.Mem.Refine
import Verif.Proof.DecodeInd
set_option linter.unusedSimpArgs false
set_option linter.unusedVariables false
/-!
# Readers of the heap model refine those of the value model
-/

namespace Zeropb

/-- Loops whose bodies correspond have corresponding results. -/
theorem iterate_map {σ α β : Type} {sh : σ → Res (σ ⊕ α)} {sv : σ → Res (σ ⊕ β)} (g : α → β)
    (h : ∀ s, sv s = (sh s).map (Sum.map id g)) (s : σ) : iterate sv s = (iterate sh s).map g := by
  have hrun : ∀ n s, run sv n s = (run sh n s).map (Except.map g) := by
    intro n
    induction n with
    | zero => intro s; rfl
    | succ n ih =>
      intro s
      simp only [run, h s]
      cases sh s with
      | error e => rfl
      | ok v => cases v with
        | inl s' => exact ih s'
        | inr a => rfl
  by_cases hex : ∃ r, ∃ n, run sh n s = some r
  · obtain ⟨r, n, hr⟩ := hex
    rw [iterate_of_run hr]
    exact iterate_of_run (n := n) (by rw [hrun, hr]; rfl)
  · have hex2 : ¬ ∃ r, ∃ n, run sv n s = some r := by
      rintro ⟨r, n, hr⟩
      rw [hrun] at hr
      cases h2 : run sh n s with
      | none => rw [h2] at hr; simp at hr
      | some r2 => exact hex ⟨r2, n, h2⟩
    unfold iterate
    rw [dif_neg hex, dif_neg hex2]; rfl

theorem getBytes_view {w : World} {m : HMsg} (hw : w.WFs m.buf) (f : Nat) :
    getBytes (w.slice m.buf) (w.offs m) f = (m.getBytes w f).map (Option.map w.slice) := by
  unfold getBytes HMsg.getBytes
  cases hg : (w.offs m).get f with
  | error e => rfl
  | ok p =>
    obtain ⟨off, ok⟩ := p
    simp only [bind, Except.bind]
    cases ok with
    | false => rfl
    | true =>
      simp only [Bool.not_true, Bool.false_eq_true, if_false]
      cases hd : (w.slice m.buf).dropFrom (off.toNat : Int) with
      | error e => rfl
      | ok s =>
        simp only
        rw [World.slice_range hw]
        generalize (uvarint s.data) = uv
        cases m.buf.range _ _ <;> rfl

theorem messages_view {w : World} {m : HMsg} (hw : w.WFs m.buf) (f : Nat) :
    getRepeatedNonPacked (w.slice m.buf) (w.offs m) f = (m.messages w f).map (Option.map w.slice) := by
  unfold getRepeatedNonPacked HMsg.messages
  cases hg : (w.offs m).get f with
  | error e => rfl
  | ok p =>
    obtain ⟨off, ok⟩ := p
    simp only [bind, Except.bind]
    cases ok with
    | false => rfl
    | true =>
      simp only [Bool.not_true, Bool.false_eq_true, if_false]
      rw [World.slice_dropFrom hw]
      cases m.buf.dropFrom _ <;> rfl

theorem findStep_view {w : World} {b : HSlice} (hw : w.WFs b) (f : Nat) (idx : Int) :
    findStep (w.slice b) f idx = (hFindStep w b f idx).map (Sum.map id (Option.map w.slice)) := by
  unfold findStep hFindStep
  rw [World.slice_len hw]
  by_cases hc : idx < (b.len : Int)
  · rw [if_neg (by simpa using hc), if_neg (by simpa using hc)]
    simp only [bind, Except.bind]
    cases hd : (w.slice b).dropFrom idx with
    | error e => rfl
    | ok s =>
      simp only [pure, Except.pure]
      generalize uvarint s.data = uv
      obtain ⟨tag, size⟩ := uv
      simp only
      by_cases hf : tagField tag = f
      · rw [if_pos hf, if_pos hf, World.slice_dropFrom hw]
        cases b.dropFrom (addInt idx size) <;> rfl
      · rw [if_neg hf, if_neg hf]
        cases hd2 : (w.slice b).dropFrom (addInt idx size) with
        | error e => rfl
        | ok s2 =>
          simp only
          cases fieldDataSize (tagType tag) s2.data <;> rfl
  · rw [if_pos hc, if_pos hc]; rfl

theorem findNextField_view {w : World} {it : Option HSlice} (hw : ∀ b, it = some b → w.WFs b) (f : Nat) :
    findNextField (it.map w.slice) f = (hFindNextField w it f).map (fun r => (r.1.map w.slice, r.2.map w.slice)) := by
  cases it with
  | none => rfl
  | some b =>
    have hb := hw b rfl
    unfold findNextField hFindNextField
    simp only [Option.map_some]
    generalize uvarint (w.slice b).data = uv
    obtain ⟨ml, ls⟩ := uv
    simp only [bind, Except.bind]
    rw [World.slice_range hb]
    cases hr : b.range ls (addInt ls (u64ToInt ml)) with
    | error e => rfl
    | ok d =>
      simp only [Except.map]
      rw [iterate_map (Option.map w.slice) (findStep_view hb f)]
      cases iterate (hFindStep w b f) (addInt ls (u64ToInt ml)) <;> rfl

theorem decode_map {rep : Nat → Bool} {buf : Slice} {o o' : Offsets} {err : Option DecErr} (h : decode buf o rep = .ok (o', err))
    (hm : o.m ≠ none) : o'.m ≠ none := by
  refine decode_induction (rep := rep) (m0 := ⟨buf, o⟩) (m := ⟨buf, o'⟩) (buf := buf) (err := err) (fun o => o.m ≠ none)
    (Offsets.clear_map hm) ?_ ?_
  · intro o1 o2 f i h1 _ _ hr
    unfold recordOffset at hr
    split at hr
    · cases hg : o1.get f with
      | error e => rw [hg] at hr; simp [bind, Except.bind] at hr
      | ok r =>
        obtain ⟨x, ok⟩ := r
        rw [hg] at hr
        simp only [bind, Except.bind] at hr
        split at hr
        · exact Offsets.set_map hr h1
        · simp only [pure, Except.pure, Except.ok.injEq] at hr; subst hr; exact h1
    · exact Offsets.set_map hr h1
  · unfold Msg.decode; rw [h]; rfl

/-- `Decode` into struct `m` writes no byte, and no map but that of `m`; its effect on the value of
the struct is that of the value model. -/
theorem decode_refines (rep : Nat → Bool) {w : World} {m : HMsg} (hw : w.WF m) {buf : HSlice} (hb : w.WFs buf) :
    match (w.msg m).decode rep (w.slice buf) with
    | .error e => m.decode rep w buf = .error e
    | .ok (v, err) => ∃ m' w', m.decode rep w buf = .ok (m', w', err) ∧ w'.msg m' = v ∧ w'.WF m' ∧ m'.buf = buf ∧
        w'.arrs = w.arrs ∧ Frame w w' m { m' with buf := m.buf } := by
  unfold Msg.decode HMsg.decode
  cases hd : decode (w.slice buf) (w.msg m).off rep with
  | error e =>
    have : decode (w.slice buf) (w.offs m) rep = .error e := hd
    rw [this]; rfl
  | ok p =>
    obtain ⟨o, err⟩ := p
    have hd' : decode (w.slice buf) (w.offs m) rep = .ok (o, err) := hd
    rw [hd']
    simp only [bind, Except.bind, pure, Except.pure]
    have hom : m.m ≠ none → o.m ≠ none := fun h => decode_map hd' (fun h2 => h (World.offs_map.1 h2))
    obtain ⟨b1, b2, b3, b4, b5⟩ := World.storeOffs_spec hw hom
    refine ⟨_, _, rfl, ?_, ⟨?_, b4⟩, rfl, b3, ?_⟩
    · show (⟨_, _⟩ : Msg) = _
      rw [World.slice_arrs b3]
      congr 1
    · exact ⟨hb.1, by unfold World.arr; rw [b3]; exact hb.2⟩
    · rw [← b2]; exact b5

theorem reset_refines {w : World} {m : HMsg} (hw : w.WF m) {buf : HSlice} (hb : w.WFs buf) :
    match (w.msg m).reset (w.slice buf) with
    | .error e => m.reset w buf = .error e
    | .ok v => ∃ m' w', m.reset w buf = .ok (m', w') ∧ w'.msg m' = v ∧ w'.WF m' ∧ m'.buf = buf ∧
        w'.arrs = w.arrs ∧ Frame w w' m { m' with buf := m.buf } := by
  unfold Msg.reset HMsg.reset
  have hl : (w.slice buf).len = buf.len := World.slice_len hb
  rw [hl]
  by_cases h : buf.len > 0
  · rw [if_pos h, if_pos h]
  · rw [if_neg h, if_neg h]
    have hom : m.m ≠ none → (w.offs m).clear.m ≠ none := fun h => Offsets.clear_map (fun h2 => h (World.offs_map.1 h2))
    obtain ⟨b1, b2, b3, b4, b5⟩ := World.storeOffs_spec hw hom
    refine ⟨_, _, rfl, ?_, ⟨?_, b4⟩, rfl, b3, ?_⟩
    · show (⟨_, _⟩ : Msg) = _
      rw [World.slice_arrs b3]
      congr 1
    · exact ⟨hb.1, by unfold World.arr; rw [b3]; exact hb.2⟩
    · rw [← b2]; exact b5

/-! ## Where views point -/

theorem getBytes_owns {w : World} {m : HMsg} {f : Nat} {v : HSlice} (h : m.getBytes w f = .ok (some v)) :
    ∃ i j, m.buf.range i j = .ok v := by
  unfold HMsg.getBytes at h
  cases hg : (w.offs m).get f with
  | error e => rw [hg] at h; simp [bind, Except.bind] at h
  | ok p =>
    obtain ⟨off, ok⟩ := p
    rw [hg] at h
    simp only [bind, Except.bind] at h
    cases ok with
    | false => simp [pure, Except.pure] at h
    | true =>
      simp only [Bool.not_true, Bool.false_eq_true, if_false] at h
      cases hd : (w.slice m.buf).dropFrom (off.toNat : Int) with
      | error e => rw [hd] at h; simp at h
      | ok s =>
        rw [hd] at h
        simp only at h
        split at h
        · simp at h
        · rename_i v' e
          simp only [pure, Except.pure, Except.ok.injEq, Option.some.injEq] at h
          subst h
          exact ⟨_, _, e⟩

/-- `t` is a tail of what `s` can reach. -/
def HSlice.Tail (s t : HSlice) : Prop := t.arr = s.arr ∧ s.off ≤ t.off ∧ t.off + t.cap = s.off + s.cap

theorem HSlice.Tail.trans {s t u : HSlice} (h : s.Tail t) (h' : t.Tail u) : s.Tail u := by
  obtain ⟨a, b, c⟩ := h
  obtain ⟨a', b', c'⟩ := h'
  exact ⟨a'.trans a, by omega, by omega⟩

theorem HSlice.range_tail {s t : HSlice} {i j : Int} (h : s.range i j = .ok t) : s.Tail t := by
  unfold HSlice.range at h
  split at h
  · simp only [Except.ok.injEq] at h
    subst h
    refine ⟨rfl, ?_, ?_⟩ <;> simp only <;> omega
  · simp at h

theorem HSlice.dropFrom_tail {s t : HSlice} (hl : s.len ≤ s.cap) {i : Int} (h : s.dropFrom i = .ok t) : s.Tail t := by
  unfold HSlice.dropFrom at h
  split at h
  · simp only [Except.ok.injEq] at h
    subst h
    refine ⟨rfl, ?_, ?_⟩ <;> simp only <;> omega
  · simp at h

theorem HSlice.Tail.owns {s t : HSlice} (h : s.Tail t) {i p : Nat} (ho : t.owns i p) : s.owns i p := by
  obtain ⟨a, b, c⟩ := h
  obtain ⟨a', b', c'⟩ := ho
  exact ⟨a.symm.trans a', by omega, by omega⟩

/-- What holds of every way of leaving a loop holds of its result. -/
theorem iterate_post {σ α : Type} {step : σ → Res (σ ⊕ α)} {Q : α → Prop} (h : ∀ s a, step s = .ok (.inr a) → Q a)
    {s : σ} {a : α} (he : iterate step s = .ok a) : Q a := by
  have hrun : ∃ n, run step n s = some (.ok a) := by
    unfold iterate at he
    split at he
    · next hex =>
      obtain ⟨n, hn⟩ := Classical.choose_spec hex
      rw [he] at hn; exact ⟨n, hn⟩
    · simp at he
  obtain ⟨n, hn⟩ := hrun
  clear he
  induction n generalizing s with
  | zero => simp [run] at hn
  | succ n ih =>
    simp only [run] at hn
    cases hs : step s with
    | error e => rw [hs] at hn; simp at hn
    | ok v =>
      cases v with
      | inl s' => rw [hs] at hn; exact ih hn
      | inr b =>
        rw [hs] at hn
        simp only [Option.some.injEq, Except.ok.injEq] at hn
        subst hn
        exact h s b hs

theorem messages_tail {w : World} {m : HMsg} (hw : w.WFs m.buf) {f : Nat} {v : HSlice} (h : m.messages w f = .ok (some v)) :
    m.buf.Tail v ∧ w.WFs v := by
  unfold HMsg.messages at h
  cases hg : (w.offs m).get f with
  | error e => rw [hg] at h; simp [bind, Except.bind] at h
  | ok p =>
    obtain ⟨off, ok⟩ := p
    rw [hg] at h
    simp only [bind, Except.bind] at h
    cases ok with
    | false => simp [pure, Except.pure] at h
    | true =>
      simp only [Bool.not_true, Bool.false_eq_true, if_false] at h
      cases hd : m.buf.dropFrom (off.toNat : Int) with
      | error e => rw [hd] at h; simp at h
      | ok s =>
        rw [hd] at h
        simp only [pure, Except.pure, Except.ok.injEq, Option.some.injEq] at h
        subst h
        exact ⟨HSlice.dropFrom_tail hw.1 hd, HSlice.dropFrom_wf hw hd⟩

theorem hFindNextField_tail {w : World} {b : HSlice} (hw : w.WFs b) {f : Nat} {it : Option HSlice} {v : Option HSlice}
    (h : hFindNextField w (some b) f = .ok (it, v)) :
    (∀ r, it = some r → b.Tail r ∧ w.WFs r) ∧ (∀ d, v = some d → b.Tail d ∧ w.WFs d) := by
  unfold hFindNextField at h
  simp only [bind, Except.bind] at h
  generalize uvarint (w.slice b).data = uv at h
  obtain ⟨ml, ls⟩ := uv
  simp only at h
  cases hr : b.range ls (addInt ls (u64ToInt ml)) with
  | error e => rw [hr] at h; simp at h
  | ok d =>
    rw [hr] at h
    simp only at h
    cases hi : iterate (hFindStep w b f) (addInt ls (u64ToInt ml)) with
    | error e => rw [hi] at h; simp at h
    | ok nx =>
      rw [hi] at h
      simp only [pure, Except.pure, Except.ok.injEq, Prod.mk.injEq] at h
      obtain ⟨h1, h2⟩ := h
      subst h1 h2
      constructor
      · intro r hre
        subst hre
        have : ∀ s a, hFindStep w b f s = .ok (.inr a) → ∀ r, a = some r → ∃ i, b.dropFrom i = .ok r := by
          intro s a hs r ha
          unfold hFindStep at hs
          simp only [bind, Except.bind, pure, Except.pure] at hs
          split at hs
          · simp only [Except.ok.injEq, Sum.inr.injEq] at hs; subst hs; simp at ha
          cases hd : (w.slice b).dropFrom s with
          | error e => rw [hd] at hs; simp at hs
          | ok sl =>
            rw [hd] at hs
            simp only at hs
            split at hs
            · cases hd2 : b.dropFrom (addInt s (uvarint sl.data).2) with
              | error e => rw [hd2] at hs; simp at hs
              | ok r2 =>
                rw [hd2] at hs
                simp only [Except.ok.injEq, Sum.inr.injEq] at hs
                rw [← hs] at ha
                simp only [Option.some.injEq] at ha
                subst ha
                exact ⟨_, hd2⟩
            · cases hd2 : (w.slice b).dropFrom (addInt s (uvarint sl.data).2) with
              | error e => rw [hd2] at hs; simp at hs
              | ok s2 =>
                rw [hd2] at hs
                simp only at hs
                cases hf : fieldDataSize (tagType (uvarint sl.data).1) s2.data with
                | error e => rw [hf] at hs; simp at hs
                | ok sz => rw [hf] at hs; simp at hs
        obtain ⟨i, hi2⟩ := iterate_post this hi r rfl
        exact ⟨HSlice.dropFrom_tail hw.1 hi2, HSlice.dropFrom_wf hw hi2⟩
      · intro d' hd
        simp only [Option.some.injEq] at hd
        subst hd
        exact ⟨HSlice.range_tail hr, HSlice.range_wf hw hr⟩

end Zeropb
