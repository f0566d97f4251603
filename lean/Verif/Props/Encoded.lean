import Verif.Props.Alloc
set_option linter.unusedSimpArgs false
set_option linter.unusedVariables false
/-!
# The slice returned by `Encode` (C58)

`Encode` returns the buffer of the struct itself, not a copy. These theorems say which later calls leave the bytes of
that slice alone.
-/

namespace Zeropb

/-! ## Specification -/

/-- The memory slice `s` can reach has no byte in common with the bytes of `enc`. -/
def HSlice.Off (s enc : HSlice) : Prop := ∀ p, enc.off ≤ p → p < enc.off + enc.len → ¬ s.owns enc.arr p

/-- The call adds a record: it sets a field that the message does not have, or is `AppendTo`. -/
def HCall.Adds (w : World) (m : HMsg) : HCall → Prop
  | .set _ f _ _ | .setBytes _ f _ => ∃ o, (w.offs m).get f = .ok (o, false)
  | .append _ _ _ => True
  | _ => False

/-- The call replaces the buffer. -/
def HCall.Replaces : HCall → Prop
  | .reset _ | .decode _ _ => True
  | _ => False

/-- A history of calls none of which is one that may write into `enc`: each one adds a record, with `enc` not reaching
behind the end of the message, or is made while the struct is in other memory, or is `Reset` or `Decode`. -/
inductive Spares (enc : HSlice) : World → HMsg → List HCall → World → HMsg → Prop where
  | nil {w m} : Spares enc w m [] w m
  | call {w m c w1 m1 cs w2 m2} : w.WFs (c.storage m) → c.run w m = .ok (m1, w1) →
      (c.Replaces ∨ m.buf.Off enc ∨ (c.Adds w m ∧ m.buf.behind.Off enc)) →
      Spares enc w1 m1 cs w2 m2 → Spares enc w m (c :: cs) w2 m2

/-! ## Proof -/

theorem finish_frame (rt : Rt) {w1 w' : World} {m m' : HMsg} {t1 : HSlice} {o : Offsets} {valLen : List Byte} {x : Src}
    (hw : w1.WFs t1)
    (h : (do
        let (b, w) ← (w1.storeOffs m o).2.append rt t1 valLen
        let (b, w) ← w.append rt b (w.src x)
        return ({ (w1.storeOffs m o).1 with buf := b }, w) : Res (HMsg × World)) = .ok (m', w')) :
    SFrame w1 w' t1 m'.buf ∧ w'.WFs m'.buf := by
  simp only [bind, Except.bind] at h
  obtain ⟨s1, s2⟩ := World.storeOffs_arrs w1 m o
  generalize w1.storeOffs m o = r at *
  cases hb : r.2.append rt t1 valLen with
  | error e => rw [hb] at h; simp at h
  | ok p =>
    obtain ⟨t2, w2⟩ := p
    rw [hb] at h
    simp only at h
    have f0 := SFrame.of_arrs s1 t1
    obtain ⟨_, a2, a3, _, _⟩ := World.append_behind rt (f0.wf hw) hb
    cases hc : w2.append rt t2 (w2.src x) with
    | error e => rw [hc] at h; simp at h
    | ok p =>
      obtain ⟨t3, w3⟩ := p
      rw [hc] at h
      simp only [pure, Except.pure, Except.ok.injEq, Prod.mk.injEq] at h
      obtain ⟨rfl, rfl⟩ := h
      obtain ⟨_, b2, b3, _, _⟩ := World.append_behind rt a3 hc
      exact ⟨(f0.trans a2).trans b2, b3⟩

theorem appendField_frame (rt : Rt) {w w' : World} {m m' : HMsg} {f : Nat} {tag valLen : List Byte} {x : Src} (hw : w.WFs m.buf)
    (h : m.appendField rt w f tag valLen x = .ok (m', w')) : SFrame w w' m.buf m'.buf ∧ w'.WFs m'.buf := by
  unfold HMsg.appendField at h
  simp only [bind, Except.bind] at h
  split at h
  · simp at h
  next p e1 =>
  obtain ⟨t1, w1⟩ := p
  obtain ⟨_, a2, a3, _, _⟩ := World.append_behind rt hw e1
  simp only at h
  split at h
  · simp at h
  next o e2 =>
  obtain ⟨b1, b2⟩ := finish_frame rt (m := m) (m' := m') (w' := w') (o := o) (valLen := valLen) (x := x) a3 h
  exact ⟨a2.trans b1, b2⟩

theorem removeField_frame (rt : Rt) {w w' : World} {m m' : HMsg} {off : U64} {tl : Nat} {ol : Int} (hw : w.WFs m.buf)
    (h : m.removeField rt w off tl ol = .ok (m', w')) : SFrame w w' m.buf m'.buf ∧ w'.WFs m'.buf := by
  unfold HMsg.removeField at h
  simp only [bind, Except.bind] at h
  split at h
  · simp at h
  next dst e1 =>
  split at h
  · simp at h
  next src e2 =>
  split at h
  · simp at h
  next b e3 =>
  split at h
  · simp at h
  next o e4 =>
  simp only [pure, Except.pure, Except.ok.injEq, Prod.mk.injEq] at h
  obtain ⟨rfl, rfl⟩ := h
  obtain ⟨_, c2, _⟩ := World.copy_spec hw e1 (w.slice src).data
  obtain ⟨s1, s2⟩ := World.storeOffs_arrs (w.copy dst (w.slice src).data) m o
  have f1 := SFrame.of_arrs s1 b
  have f0 : SFrame w (w.copy dst (w.slice src).data) m.buf b :=
    ⟨c2.grow, c2.size, c2.cells, fun i p ho => Or.inl (HSlice.range_owns e3 ho)⟩
  exact ⟨f0.trans f1, f1.wf (HSlice.range_wf (c2.wf hw) e3)⟩

theorem setSingle_frame (rt : Rt) {w w' : World} {m m' : HMsg} {f typ : Nat} {valLen : List Byte} {x : Src} (hw : w.WFs m.buf)
    (h : m.setSingle rt w f typ valLen x = .ok (m', w')) : SFrame w w' m.buf m'.buf ∧ w'.WFs m'.buf := by
  unfold HMsg.setSingle at h
  simp only [bind, Except.bind] at h
  split at h
  · simp at h
  next tag e1 =>
  split at h
  · simp at h
  next p e2 =>
  obtain ⟨off, ok⟩ := p
  simp only at h
  cases ok with
  | false =>
    simp only [Bool.false_eq_true, if_false] at h
    exact appendField_frame rt hw h
  | true =>
    simp only [if_true] at h
    split at h
    · simp at h
    next ol e3 =>
    split at h
    · split at h
      · simp at h
      next d1 e4 =>
      split at h
      · simp at h
      next d2 e5 =>
      simp only [pure, Except.pure, Except.ok.injEq, Prod.mk.injEq] at h
      obtain ⟨rfl, rfl⟩ := h
      obtain ⟨_, c2, _⟩ := World.copy_spec hw e4 valLen
      obtain ⟨_, d2, _⟩ := World.copy_spec (c2.wf hw) e5 ((w.copy d1 valLen).src x)
      exact ⟨c2.trans d2, d2.wf (c2.wf hw)⟩
    · split at h
      · simp at h
      next p e4 =>
      obtain ⟨m1, w1⟩ := p
      obtain ⟨a1, a2⟩ := removeField_frame rt hw e4
      obtain ⟨b1, b2⟩ := appendField_frame rt a2 h
      exact ⟨a1.trans b1, b2⟩

theorem appendSingle_frame (rt : Rt) {w w' : World} {m m' : HMsg} {f typ : Nat} {valLen : List Byte} {x : Src} (hw : w.WFs m.buf)
    (h : m.appendSingle rt w f typ valLen x = .ok (m', w')) : SFrame w w' m.buf m'.buf ∧ w'.WFs m'.buf := by
  unfold HMsg.appendSingle at h
  simp only [bind, Except.bind] at h
  split at h
  · simp at h
  next tag e1 =>
  split at h
  · simp at h
  next p e2 =>
  obtain ⟨t1, w1⟩ := p
  obtain ⟨_, a2, a3, _, _⟩ := World.append_behind rt hw e2
  simp only at h
  split at h
  · simp at h
  next q e3 =>
  have fin : ∀ o, _ → SFrame w w' m.buf m'.buf ∧ w'.WFs m'.buf := fun o h =>
    let ⟨b1, b2⟩ := finish_frame rt (m := m) (m' := m') (w' := w') (o := o) (valLen := valLen) (x := x) a3 h
    ⟨a2.trans b1, b2⟩
  split at h
  · split at h
    · simp at h
    next o e4 => exact fin o h
  · exact fin _ h

/-- Any call that does not replace the buffer writes only into the memory of the buffer, whatever its argument is, and
leaves a buffer in that memory or in new memory. -/
theorem HCall.run_frame {c : HCall} {w w' : World} {m m' : HMsg} (hw : w.WFs m.buf) (hc : ¬ c.Replaces)
    (h : c.run w m = .ok (m', w')) : SFrame w w' m.buf m'.buf ∧ w'.WFs m'.buf := by
  cases c with
  | set rt f k x =>
    simp only [HCall.run] at h
    cases k <;> simp only [HMsg.setField, bind, Except.bind] at h <;>
      first
      | exact setSingle_frame rt hw h
      | (split at h
         · simp at h
         · exact setSingle_frame rt hw h)
  | setBytes rt f x =>
    simp only [HCall.run, HMsg.setBytes, bind, Except.bind] at h
    split at h
    · simp at h
    · exact setSingle_frame rt hw h
  | append rt f x =>
    simp only [HCall.run, HMsg.appendBytes, bind, Except.bind] at h
    split at h
    · simp at h
    · exact appendSingle_frame rt hw h
  | reset b => exact absurd trivial hc
  | decode rep b => exact absurd trivial hc

theorem HCall.run_replaces {c : HCall} {w w' : World} {m m' : HMsg} (hw : w.WFs (c.storage m)) (hc : c.Replaces)
    (h : c.run w m = .ok (m', w')) : w'.arrs = w.arrs ∧ m'.buf = c.storage m := by
  cases c with
  | reset b => exact ⟨(reset_grown h).1, (reset_grown h).2.1⟩
  | decode rep b =>
    simp only [HCall.run, bind, Except.bind] at h
    split at h
    · simp at h
    next r e =>
    obtain ⟨m1, w1, err⟩ := r
    simp only [pure, Except.pure, Except.ok.injEq, Prod.mk.injEq] at h
    obtain ⟨rfl, rfl⟩ := h
    exact ⟨(decode_grown hw e).1, (decode_grown hw e).2.1⟩
  | set | setBytes | append => exact absurd hc id

theorem HCall.run_appends {c : HCall} {w w' : World} {m m' : HMsg} (hw : w.WFs m.buf) (hc : c.Adds w m)
    (h : c.run w m = .ok (m', w')) : Appends w w' m.buf m'.buf := by
  cases c with
  | set rt f k x => obtain ⟨o, ho⟩ := hc; exact setField_absent rt hw ho h
  | setBytes rt f x => obtain ⟨o, ho⟩ := hc; exact setBytes_absent rt hw ho h
  | append rt f x => exact appendBytes_appends rt hw h
  | reset | decode => exact absurd hc id

theorem HCall.storage_eq {c : HCall} (hc : ¬ c.Replaces) (m : HMsg) : c.storage m = m.buf := by
  cases c <;> first | rfl | exact absurd trivial hc

theorem HCall.not_replaces {c : HCall} {w : World} {m : HMsg} (hc : c.Adds w m) : ¬ c.Replaces := by
  cases c <;> first | exact id | exact absurd hc id

/-! ## C58 -/

/-- C58: the slice that `Encode` returned keeps its bytes through every history of calls that add fields, that are made
while the struct is in other memory, or that replace the buffer. (`enc` may be any slice, so this is also about slices
returned by earlier calls of `Encode` and about buffers given to `Decode`.) -/
theorem C58_history {enc : HSlice} {w w' : World} {m m' : HMsg} {cs : List HCall} (he : w.WFs enc)
    (h : Spares enc w m cs w' m') : (w'.slice enc).data = (w.slice enc).data := by
  induction h with
  | nil => rfl
  | @call w m c w1 m1 cs w2 m2 hw hr hs _ ih =>
    by_cases hc : c.Replaces
    · obtain ⟨a1, _⟩ := HCall.run_replaces hw hc hr
      have f := SFrame.of_arrs a1 enc
      rw [ih (f.wf he), World.slice_arrs a1]
    · rw [HCall.storage_eq hc] at hw
      rcases hs with hs | hs | ⟨hs, ho⟩
      · exact absurd hs hc
      · obtain ⟨f, _⟩ := HCall.run_frame hw hc hr
        rw [ih (f.wf he)]
        exact f.data_eq he hs
      · have f := (HCall.run_appends hw hs hr).behind
        rw [ih (f.wf he)]
        exact f.data_eq he ho

/-- A history of calls that only add fields. -/
inductive AddsOnly : World → HMsg → List HCall → World → HMsg → Prop where
  | nil {w m} : AddsOnly w m [] w m
  | call {w m c w1 m1 cs w2 m2} : c.Adds w m → c.run w m = .ok (m1, w1) → AddsOnly w1 m1 cs w2 m2 →
      AddsOnly w m (c :: cs) w2 m2

theorem HSlice.Off.step {w w' : World} {s s' enc : HSlice} (h : s.Off enc) (f : SFrame w w' s s') (he : w.WFs enc) : s'.Off enc := by
  intro p h1 h2 ho
  have hl := he.cell_lt (i := enc.arr) (p := p) ⟨rfl, h1, by have := he.1; omega⟩
  rcases f.owned _ p ho with h3 | h3
  · exact h p h1 h2 h3
  · omega

/-- C58: as long as only absent fields are set and elements appended, what `Encode` returned stays as it was, even though
later encodings may be in the same memory. -/
theorem C58_adding {w w' : World} {m m' : HMsg} {cs : List HCall} (hw : w.WFs m.buf) (h : AddsOnly w m cs w' m') :
    (w'.slice m.buf).data = (w.slice m.buf).data := by
  refine C58_history (enc := m.buf) (cs := cs) (m := m) (m' := m') hw ?_
  have key : ∀ {enc : HSlice} {w w' : World} {m m' : HMsg}, w.WFs enc → w.WFs m.buf → m.buf.behind.Off enc → AddsOnly w m cs w' m' →
      Spares enc w m cs w' m' := by
    clear h hw
    intro enc w w' m m' he hw ho h
    induction h with
    | nil => exact .nil
    | @call w m c w1 m1 cs w2 m2 ha hr _ ih =>
      have hc := HCall.not_replaces ha
      have f := (HCall.run_appends hw ha hr).behind
      obtain ⟨g, g2⟩ := HCall.run_frame hw hc hr
      refine .call (by rw [HCall.storage_eq hc]; exact hw) hr (Or.inr (Or.inr ⟨ha, ho⟩)) (ih (f.wf he) g2 (ho.step f he))
  refine key hw hw ?_ h
  intro p h1 h2 h3
  have := (HSlice.behind_owns h3).2
  omega

/-- A history of calls in which `Reset` and `Decode` are never given memory of `enc`. -/
inductive Away (enc : HSlice) : World → HMsg → List HCall → World → HMsg → Prop where
  | nil {w m} : Away enc w m [] w m
  | call {w m c w1 m1 cs w2 m2} : c.run w m = .ok (m1, w1) → (c.Replaces → w.WFs (c.storage m) ∧ (c.storage m).Off enc) →
      Away enc w1 m1 cs w2 m2 → Away enc w m (c :: cs) w2 m2

/-- C58: once the struct has been given other memory with `Reset` or `Decode`, no call, whatever its argument, changes
what `Encode` returned before. -/
theorem C58_elsewhere {enc : HSlice} {w w' : World} {m m' : HMsg} {c : HCall} {cs : List HCall} (he : w.WFs enc)
    (hc : c.Replaces) (h : Away enc w m (c :: cs) w' m') : (w'.slice enc).data = (w.slice enc).data := by
  have key : ∀ {w w' : World} {m m' : HMsg}, w.WFs enc → w.WFs m.buf → m.buf.Off enc → Away enc w m cs w' m' →
      Spares enc w m cs w' m' := by
    clear h hc he
    intro w w' m m' he hw ho h
    induction h with
    | nil => exact .nil
    | @call w m c w1 m1 cs w2 m2 hr hb _ ih =>
      by_cases hc : c.Replaces
      · obtain ⟨b1, b2⟩ := hb hc
        obtain ⟨a1, a2⟩ := HCall.run_replaces b1 hc hr
        have f := fun s => SFrame.of_arrs a1 s
        exact .call b1 hr (Or.inl hc) (ih ((f enc).wf he) (by rw [a2]; exact (f enc).wf b1) (by rw [a2]; exact b2))
      · obtain ⟨f, g⟩ := HCall.run_frame hw hc hr
        exact .call (by rw [HCall.storage_eq hc]; exact hw) hr (Or.inr (Or.inl ho)) (ih (f.wf he) g (ho.step f he))
  cases h with
  | @call _ _ _ w1 m1 _ _ _ hr hb ht =>
    obtain ⟨b1, b2⟩ := hb hc
    obtain ⟨a1, a2⟩ := HCall.run_replaces b1 hc hr
    have f := SFrame.of_arrs a1 enc
    exact C58_history he (.call b1 hr (Or.inl hc) (key (f.wf he) (by rw [a2]; exact f.wf b1) (by rw [a2]; exact b2) ht))

/-- C58, refutation of the unrestricted claim: overwriting a field changes the bytes returned by an earlier `Encode`, and
they need not be an encoding of anything afterwards: here `Encode` returned fields 1 and 15; setting field 1 to a longer
value leaves "ab" cut off behind a second length byte. -/
theorem C58_false_set : let w : World := ⟨[[0x08#8, 0x01#8, 0x7a#8, 0x02#8, 0x61#8, 0x62#8]], []⟩
    let m : HMsg := ⟨⟨0, 0, 6, 6⟩, ((List.replicate 35 0#16).set 1 1#16).set 15 3#16, none⟩
    w.WF m ∧ (w.slice m.buf).data = [0x08#8, 0x01#8, 0x7a#8, 0x02#8, 0x61#8, 0x62#8] ∧
    ∃ m' w', m.setField Rt.exact w .uint32 1 300#32 = .ok (m', w') ∧
      (w'.slice m.buf).data = [0x7a#8, 0x02#8, 0x61#8, 0x62#8, 0x08#8, 0x62#8] := by
  refine ⟨⟨⟨by decide, by decide⟩, by simp⟩, by decide +kernel, ⟨⟨1, 0, 7, 7⟩, ((List.replicate 35 0#16).set 1 5#16).set 15 1#16, none⟩,
    ⟨[[0x7a#8, 0x02#8, 0x61#8, 0x62#8, 0x08#8, 0x62#8], [0x7a#8, 0x02#8, 0x61#8, 0x62#8, 0x08#8, 0xac#8, 0x02#8]], []⟩,
    by decide +kernel, by decide +kernel⟩

/-- C58, refutation of the unrestricted claim: reusing the buffer with `Reset(enc[:0])` and building the next message
changes it, too. -/
theorem C58_false_reset : aliasWorld.WF aliasMsg ∧
    ∃ m1 w1 m2 w2, aliasMsg.reset aliasWorld ⟨0, 0, 0, 8⟩ = .ok (m1, w1) ∧
      m1.setField Rt.exact w1 .bool 1 true = .ok (m2, w2) ∧
      (w2.slice aliasMsg.buf).data ≠ (aliasWorld.slice aliasMsg.buf).data :=
  ⟨aliasMsg_wf, ⟨⟨0, 0, 0, 8⟩, List.replicate 35 0#16, none⟩, aliasWorld, ⟨⟨0, 0, 2, 8⟩, (List.replicate 35 0#16).set 1 1#16, none⟩,
    ⟨[[0x08#8, 0x01#8, 0x61#8, 0x62#8, 0x63#8, 0x64#8, 0x08#8, 0x01#8]], []⟩, by decide +kernel, by decide +kernel, by decide +kernel⟩

/-- The hypotheses of `C58_adding` hold of a history that first stays in the memory of the encoding and then moves: fields
2 and 34 are added to a message that has field 1. -/
example : let w : World := ⟨[[0x08#8, 0x01#8, 0xee#8, 0xee#8]], []⟩
    let m : HMsg := ⟨⟨0, 0, 2, 4⟩, (List.replicate 35 0#16).set 1 1#16, none⟩
    w.WFs m.buf ∧ ∃ m' w', AddsOnly w m [.set Rt.exact 2 .int32 5#32, .append Rt.exact 34 (.mem ⟨0, 0, 2, 4⟩)] w' m' ∧
      m'.buf.arr = 3 := by
  refine ⟨⟨by decide, by decide⟩, ⟨⟨3, 0, 9, 9⟩, (((List.replicate 35 0#16).set 1 1#16).set 2 3#16).set 34 6#16, none⟩,
    ⟨[[0x08#8, 0x01#8, 0x10#8, 0x05#8], [0x08#8, 0x01#8, 0x10#8, 0x05#8, 0x92#8, 0x02#8],
      [0x08#8, 0x01#8, 0x10#8, 0x05#8, 0x92#8, 0x02#8, 0x02#8],
      [0x08#8, 0x01#8, 0x10#8, 0x05#8, 0x92#8, 0x02#8, 0x02#8, 0x08#8, 0x01#8]], []⟩, ?_, rfl⟩
  refine .call (w1 := ⟨[[0x08#8, 0x01#8, 0x10#8, 0x05#8]], []⟩)
    (m1 := ⟨⟨0, 0, 4, 4⟩, ((List.replicate 35 0#16).set 1 1#16).set 2 3#16, none⟩) ⟨0#64, by decide +kernel⟩ ?_ ?_
  · simp only [HCall.run]; decide +kernel
  refine .call trivial ?_ .nil
  simp only [HCall.run]; decide +kernel

/-- The hypotheses of `C58_elsewhere`: `Reset` with a second array, then a field is set. -/
example : let w : World := ⟨[[0x08#8, 0x01#8], [0#8, 0#8]], []⟩
    let m : HMsg := ⟨⟨0, 0, 2, 2⟩, (List.replicate 35 0#16).set 1 1#16, none⟩
    w.WFs m.buf ∧ ∃ m' w', Away m.buf w m [.reset ⟨1, 0, 0, 2⟩, .set Rt.exact 1 .bool false] w' m' := by
  refine ⟨⟨by decide, by decide⟩, ⟨⟨1, 0, 2, 2⟩, (List.replicate 35 0#16).set 1 1#16, none⟩,
    ⟨[[0x08#8, 0x01#8], [0x08#8, 0#8]], []⟩, ?_⟩
  refine .call (w1 := ⟨[[0x08#8, 0x01#8], [0#8, 0#8]], []⟩) (m1 := ⟨⟨1, 0, 0, 2⟩, List.replicate 35 0#16, none⟩) ?_ (fun _ => ⟨⟨by decide, by decide⟩, ?_⟩) ?_
  · simp only [HCall.run]; decide +kernel
  · rintro p _ _ ⟨h, _⟩; simp [HCall.storage] at h
  refine .call ?_ (fun h => absurd h id) .nil
  simp only [HCall.run]; decide +kernel

end Zeropb
