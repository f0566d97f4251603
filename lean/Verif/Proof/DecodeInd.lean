import Verif.Model.Message
set_option linter.unusedSimpArgs false
set_option linter.unusedVariables false
/-!
# Induction over the offsets recorded by `Decode`
-/

namespace Zeropb

/-- One round of the loop of `Decode`: what it does to the index. -/
theorem decodeStep_cases {buf : Slice} {rep : Nat → Bool} {idx : Int} {o : Offsets}
    {r : (Int × Offsets) ⊕ (Offsets × Option DecErr)} (he : decodeStep buf rep (idx, o) = .ok r) :
    (∃ e, r = .inr (o, e)) ∨
    ∃ f i o', 0 ≤ i ∧ i < (buf.data.length : Int) ∧ recordOffset rep o f i = .ok o' ∧
      ((∃ j, r = .inl (j, o')) ∨ ∃ e, r = .inr (o', e)) := by
  unfold decodeStep at he
  simp only [bind, Except.bind, pure, Except.pure] at he
  split at he
  · left; exact ⟨_, (Except.ok.inj he).symm⟩
  split at he
  · left; exact ⟨_, (Except.ok.inj he).symm⟩
  cases hd : buf.dropFrom idx with
  | error e => rw [hd] at he; simp at he
  | ok s =>
    rw [hd] at he
    simp only at he
    generalize huv : uvarint s.data = uv at he
    obtain ⟨tag, size⟩ := uv
    simp only at he
    split at he
    · left; exact ⟨_, (Except.ok.inj he).symm⟩
    generalize hi : addInt idx size = i at he
    split at he
    · left; exact ⟨_, (Except.ok.inj he).symm⟩
    next hlt =>
    cases hro : recordOffset rep o (tagField tag) i with
    | error e => rw [hro] at he; simp at he
    | ok o' =>
      rw [hro] at he
      simp only at he
      cases hd2 : buf.dropFrom i with
      | error e => rw [hd2] at he; simp at he
      | ok s2 =>
        rw [hd2] at he
        simp only at he
        cases hsz : fieldDataSize (tagType tag) s2.data with
        | error e => rw [hsz] at he; simp at he
        | ok sz =>
          rw [hsz] at he
          simp only at he
          right
          have h0 : 0 ≤ i := by
            unfold Slice.dropFrom at hd2
            split at hd2
            · next h => exact h.1
            · simp at hd2
          refine ⟨tagField tag, i, o', h0, by omega, hro, ?_⟩
          split at he
          · right; exact ⟨_, (Except.ok.inj he).symm⟩
          · left; exact ⟨_, (Except.ok.inj he).symm⟩

/-- A property of the offsets that is true after `Clear` and preserved by each recorded offset
inside the message holds after any `Decode` that returns. -/
theorem decode_induction {rep : Nat → Bool} {m0 m : Msg} {buf : Slice} {err : Option DecErr}
    (P : Offsets → Prop) (h0 : P m0.off.clear)
    (hstep : ∀ o o' f i, P o → 0 ≤ i → i < (buf.data.length : Int) → recordOffset rep o f i = .ok o' → P o')
    (he : m0.decode rep buf = .ok (m, err)) : P m.off := by
  unfold Msg.decode at he
  cases hd : decode buf m0.off rep with
  | error e => rw [hd] at he; simp [bind, Except.bind] at he
  | ok r =>
    rw [hd] at he
    simp only [bind, Except.bind, pure, Except.pure, Except.ok.injEq, Prod.mk.injEq] at he
    obtain ⟨he1, he2⟩ := he
    subst he1
    show P r.1
    have hrun : ∃ n, run (decodeStep buf rep) n (0, m0.off.clear) = some (.ok r) := by
      unfold decode iterate at hd
      split at hd
      · next hex =>
        obtain ⟨n, hn⟩ := Classical.choose_spec hex
        rw [hd] at hn; exact ⟨n, hn⟩
      · simp at hd
    obtain ⟨n, hn⟩ := hrun
    have key : ∀ n idx o, P o → run (decodeStep buf rep) n (idx, o) = some (.ok r) → P r.1 := by
      intro n
      induction n with
      | zero => intro idx o _ h; simp [run] at h
      | succ n ih =>
        intro idx o ho h
        simp only [run] at h
        cases hs : decodeStep buf rep (idx, o) with
        | error e => rw [hs] at h; simp at h
        | ok q =>
          rw [hs] at h
          rcases decodeStep_cases hs with ⟨e, rfl⟩ | ⟨f, i, o', i1, i2, hro, ⟨j, rfl⟩ | ⟨e, rfl⟩⟩
          · simp only [Option.some.injEq, Except.ok.injEq] at h; subst h; exact ho
          · exact ih j o' (hstep o o' f i ho i1 i2 hro) h
          · simp only [Option.some.injEq, Except.ok.injEq] at h; subst h; exact hstep o o' f i ho i1 i2 hro
    exact key n _ _ h0 hn

end Zeropb
