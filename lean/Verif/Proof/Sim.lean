import Verif.Proof.Scan
/-!
# `Decode` does not depend on the previous offsets, nor on spare capacity
-/

set_option linter.unusedSimpArgs false
set_option linter.unusedVariables false

namespace Zeropb
open Wire

/-- Two outcomes are the same up to a relation on results. -/
def ResRel {α β : Type} (Q : α → β → Prop) : Res α → Res β → Prop
  | .ok a, .ok b => Q a b
  | .error e, .error e' => e = e'
  | _, _ => False

/-- As `ResRel`, for loop bodies. -/
def StepRel {σ α σ' α' : Type} (R : σ → σ' → Prop) (Q : α → α' → Prop) : Res (σ ⊕ α) → Res (σ' ⊕ α') → Prop :=
  ResRel (fun x y => match x, y with
    | .inl s, .inl s' => R s s'
    | .inr a, .inr b => Q a b
    | _, _ => False)

theorem run_sim {σ α σ' α' : Type} {R : σ → σ' → Prop} {Q : α → α' → Prop} {step : σ → Res (σ ⊕ α)} {step' : σ' → Res (σ' ⊕ α')}
    (h : ∀ s s', R s s' → StepRel R Q (step s) (step' s')) (n : Nat) : ∀ s s', R s s' →
      match run step n s, run step' n s' with
      | none, none => True
      | some r, some r' => ResRel Q r r'
      | _, _ => False := by
  induction n with
  | zero => intro s s' _; trivial
  | succ n ih =>
    intro s s' hR
    have := h s s' hR
    simp only [run]
    cases h1 : step s with
    | error e =>
      cases h2 : step' s' with
      | error e' => rw [h1, h2] at this; exact this
      | ok v => rw [h1, h2] at this; exact this.elim
    | ok v =>
      cases h2 : step' s' with
      | error e' => rw [h1, h2] at this; exact this.elim
      | ok v' =>
        rw [h1, h2] at this
        cases v with
        | inl t => cases v' with
          | inl t' => exact ih t t' this
          | inr b => exact this.elim
        | inr a => cases v' with
          | inl t' => exact this.elim
          | inr b => exact this

theorem iterate_sim {σ α σ' α' : Type} {R : σ → σ' → Prop} {Q : α → α' → Prop} {step : σ → Res (σ ⊕ α)} {step' : σ' → Res (σ' ⊕ α')}
    (h : ∀ s s', R s s' → StepRel R Q (step s) (step' s')) {s : σ} {s' : σ'} (hR : R s s') :
    ResRel Q (iterate step s) (iterate step' s') := by
  by_cases h1 : ∃ r, ∃ n, run step n s = some r
  · obtain ⟨r, n, hr⟩ := h1
    have := run_sim h n s s' hR
    rw [hr] at this
    cases hr' : run step' n s' with
    | none => rw [hr'] at this; exact this.elim
    | some r' =>
      rw [hr'] at this
      rw [iterate_of_run hr, iterate_of_run hr']; exact this
  · have h2 : ¬ ∃ r, ∃ n, run step' n s' = some r := by
      rintro ⟨r', n, hr'⟩
      have := run_sim h n s s' hR
      rw [hr'] at this
      cases hr : run step n s with
      | none => rw [hr] at this; exact this.elim
      | some r => exact h1 ⟨r, n, hr⟩
    have e1 : iterate step s = .error .diverge := by unfold iterate; rw [dif_neg h1]
    have e2 : iterate step' s' = .error .diverge := by unfold iterate; rw [dif_neg h2]
    rw [e1, e2]; exact rfl

/-! ## Offsets up to allocation of the map -/

/-- Equal, except that one map may be nil and the other allocated but empty. -/
def Offsets.Sim (o o' : Offsets) : Prop := o.a = o'.a ∧ o.m.getD [] = o'.m.getD []

theorem Offsets.Sim.mapRead {o o' : Offsets} (h : o.Sim o') (f : Nat) : o.mapRead f = o'.mapRead f := by
  have key : ∀ p : Offsets, p.mapRead f = ((p.m.getD []).find f).getD 0#64 := by
    intro p; unfold Offsets.mapRead; cases p.m <;> rfl
  rw [key, key, h.2]

theorem Offsets.Sim.get {o o' : Offsets} (h : o.Sim o') (f : Nat) : o.get f = o'.get f := by
  unfold Offsets.get Offsets.slot
  rw [h.1, h.mapRead]

theorem Offsets.Sim.set {o o' : Offsets} (h : o.Sim o') (f : Nat) (off : U64) :
    ResRel Offsets.Sim (o.set f off) (o'.set f off) := by
  unfold Offsets.set Offsets.slot
  rw [h.1]
  split
  · cases hs : o'.a[f]? with
    | none => exact rfl
    | some p =>
      simp only [bind, Except.bind]
      refine ⟨rfl, ?_⟩
      have h2 := h.2
      split
      · cases hm : o.m <;> cases hm' : o'.m <;> simp_all [GoMap.del]
      · exact h2
  · cases hs : o'.a[f]? with
    | none => exact rfl
    | some p =>
      simp only [bind, Except.bind]
      refine ⟨rfl, ?_⟩
      simp [h.2]

theorem Offsets.clear_sim {o o' : Offsets} (h : o.a.length = o'.a.length) : o.clear.Sim o'.clear := by
  constructor
  · unfold Offsets.clear
    simp only [List.map_const']
    rw [h]
  · unfold Offsets.clear
    cases o.m <;> cases o'.m <;> rfl

theorem ResRel.bind {α β γ δ : Type} {Q : α → β → Prop} {P : γ → δ → Prop} {r : Res α} {r' : Res β} {g : α → Res γ} {g' : β → Res δ}
    (h : ResRel Q r r') (hg : ∀ a b, Q a b → ResRel P (g a) (g' b)) : ResRel P (r >>= g) (r' >>= g') := by
  cases r with
  | error e => cases r' with
    | error e' => exact h
    | ok b => exact h.elim
  | ok a => cases r' with
    | error e' => exact h.elim
    | ok b => exact hg a b h

theorem recordOffset_sim (rep : Nat → Bool) {o o' : Offsets} (h : o.Sim o') (f : Nat) (idx : Int) :
    ResRel Offsets.Sim (recordOffset rep o f idx) (recordOffset rep o' f idx) := by
  unfold recordOffset
  split
  · rw [h.get]
    cases o'.get f with
    | error e => exact rfl
    | ok p =>
      obtain ⟨v, ok⟩ := p
      cases ok with
      | true => exact h
      | false => exact h.set f _
  · exact h.set f _

/-- Slices with the same contents. -/
theorem dropFrom_data {s s' : Slice} (h : s.data = s'.data) (i : Int) :
    ResRel (fun a b : Slice => a.data = b.data) (s.dropFrom i) (s'.dropFrom i) := by
  unfold Slice.dropFrom
  rw [h]
  split
  · exact rfl
  · exact rfl

theorem decodeStep_sim {buf buf' : Slice} (hb : buf.data = buf'.data) (rep : Nat → Bool) (st st' : Int × Offsets)
    (h : st.1 = st'.1 ∧ st.2.Sim st'.2) :
    StepRel (fun a b : Int × Offsets => a.1 = b.1 ∧ a.2.Sim b.2) (fun a b : Offsets × Option DecErr => a.1.Sim b.1 ∧ a.2 = b.2)
      (decodeStep buf rep st) (decodeStep buf' rep st') := by
  obtain ⟨idx, o⟩ := st
  obtain ⟨idx', o'⟩ := st'
  obtain ⟨h1, h2⟩ := h
  simp only at h1 h2
  subst h1
  simp only [decodeStep]
  rw [hb]
  split
  · exact ⟨h2, rfl⟩
  split
  · exact ⟨h2, rfl⟩
  refine ResRel.bind (dropFrom_data hb idx) ?_
  intro s s' hs
  rw [hs]
  split
  · exact ⟨h2, rfl⟩
  split
  · exact ⟨h2, rfl⟩
  refine ResRel.bind (recordOffset_sim rep h2 _ _) ?_
  intro p p' hp
  refine ResRel.bind (dropFrom_data hb _) ?_
  intro s2 s2' hs2
  rw [hs2]
  refine ResRel.bind (Q := Eq) ?_ ?_
  · cases fieldDataSize (tagType (uvarint s'.data).1) s2'.data <;> exact rfl
  · intro a b hab
    subst hab
    split
    · exact ⟨hp, rfl⟩
    · exact ⟨rfl, hp⟩

/-- `Decode` from any two states of the same size, on slices with the same contents: the same
outcome, the same error, and offsets that cannot be told apart. -/
theorem decode_sim {buf buf' : Slice} (hb : buf.data = buf'.data) (rep : Nat → Bool) {o o' : Offsets} (ha : o.a.length = o'.a.length) :
    ResRel (fun a b : Offsets × Option DecErr => a.1.Sim b.1 ∧ a.2 = b.2) (decode buf o rep) (decode buf' o' rep) := by
  unfold decode
  exact iterate_sim (decodeStep_sim hb rep) ⟨rfl, Offsets.clear_sim ha⟩

/-! ## Accessors -/

theorem Offsets.Sim.getters {buf : Slice} {o o' : Offsets} (h : o.Sim o') (f : Nat) :
    (∀ k : Kind, Msg.get ⟨buf, o⟩ k f = Msg.get ⟨buf, o'⟩ k f) ∧ getBytes buf o f = getBytes buf o' f ∧
      Msg.messages ⟨buf, o⟩ f = Msg.messages ⟨buf, o'⟩ f := by
  have hg := h.get f
  refine ⟨?_, ?_, ?_⟩
  · intro k
    cases k <;>
      simp only [Msg.get, getBool, getInt32, getInt64, getUint32, getUint64, getZigZagInt32, getZigZagInt64,
        getFixedUint32, getFixedUint64, getFixedInt32, getFixedInt64, getFloat32, getFloat64, getString, getBytes, hg]
  · simp only [getBytes, hg]
  · simp only [Msg.messages, getRepeatedNonPacked, hg]

end Zeropb
