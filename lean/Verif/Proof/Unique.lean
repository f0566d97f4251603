import Verif.Proof.Msg
/-!
# The wire format is unambiguous
-/

set_option linter.unusedSimpArgs false

namespace Zeropb
open Wire

theorem varint_prefix_unique {v v' : Nat} {p p' r r' : List Byte} (h : IsVarint v p) (h' : IsVarint v' p')
    (he : p ++ r = p' ++ r') : v = v' ∧ p = p' ∧ r = r' := by
  have h1 := uvarint_of_isVarint h r
  have h2 := uvarint_of_isVarint h' r'
  rw [he, h2] at h1
  simp only [Prod.mk.injEq] at h1
  have hl : p'.length = p.length := by omega
  obtain ⟨h3, h4⟩ := List.append_inj he hl.symm
  have := congrArg BitVec.toNat h1.1
  rw [ofNat64_toNat h.lt, ofNat64_toNat h'.lt] at this
  exact ⟨this.symm, h3, h4⟩

theorem payload_prefix_unique {v v' : Val} {p p' r r' : List Byte} (h : IsPayload v p) (h' : IsPayload v' p')
    (hw : v.wireType = v'.wireType) (he : p ++ r = p' ++ r') : v = v' ∧ p = p' ∧ r = r' := by
  cases v with
  | varint u =>
    cases v' with
    | varint u' =>
      obtain ⟨h1, h2, h3⟩ := varint_prefix_unique h h' he
      exact ⟨by rw [BitVec.eq_of_toNat_eq h1], h2, h3⟩
    | _ => simp [Val.wireType] at hw
  | fixed64 u =>
    cases v' with
    | fixed64 u' =>
      have hp : p = _ := h
      have hp' : p' = _ := h'
      obtain ⟨h3, h4⟩ := List.append_inj he (by rw [hp, hp', leBytes_length, leBytes_length])
      have := leBytes_inj 8 u.toNat u'.toNat (by have := u.isLt; omega) (by have := u'.isLt; omega)
        (by rw [← hp, ← hp', h3])
      exact ⟨by rw [BitVec.eq_of_toNat_eq this], h3, h4⟩
    | _ => simp [Val.wireType] at hw
  | fixed32 u =>
    cases v' with
    | fixed32 u' =>
      have hp : p = _ := h
      have hp' : p' = _ := h'
      obtain ⟨h3, h4⟩ := List.append_inj he (by rw [hp, hp', leBytes_length, leBytes_length])
      have := leBytes_inj 4 u.toNat u'.toNat (by have := u.isLt; omega) (by have := u'.isLt; omega)
        (by rw [← hp, ← hp', h3])
      exact ⟨by rw [BitVec.eq_of_toNat_eq this], h3, h4⟩
    | _ => simp [Val.wireType] at hw
  | bytes b =>
    cases v' with
    | bytes b' =>
      obtain ⟨lb, h1, rfl⟩ := h
      obtain ⟨lb', h1', rfl⟩ := h'
      rw [List.append_assoc, List.append_assoc] at he
      obtain ⟨h2, h3, h4⟩ := varint_prefix_unique h1 h1' he
      obtain ⟨h5, h6⟩ := List.append_inj h4 h2
      exact ⟨by rw [h5], by rw [h3, h5], h6⟩
    | _ => simp [Val.wireType] at hw

theorem chunk_prefix_unique {c d : Chunk} {r r' : List Byte} (hc : c.WF) (hd : d.WF)
    (he : c.bytes ++ r = d.bytes ++ r') : c = d ∧ r = r' := by
  rw [Chunk.bytes, Chunk.bytes, List.append_assoc, List.append_assoc] at he
  obtain ⟨h1, h2, h3⟩ := varint_prefix_unique hc.tag hd.tag he
  have hw := wireType_lt c.val
  have hw' := wireType_lt d.val
  unfold Chunk.tagNum at h1
  obtain ⟨h4, h5, h6⟩ := payload_prefix_unique hc.pay hd.pay (by omega) h3
  refine ⟨?_, h6⟩
  obtain ⟨cn, cv, ct, cp⟩ := c
  obtain ⟨dn, dv, dt, dp⟩ := d
  simp only at h1 h2 h4 h5
  subst h4; subst h5; subst h2
  congr 1
  omega

theorem flat_injective {cs ds : List Chunk} (hc : ∀ c ∈ cs, c.WF) (hd : ∀ c ∈ ds, c.WF) (he : flat cs = flat ds) :
    cs = ds := by
  induction cs generalizing ds with
  | nil =>
    cases ds with
    | nil => rfl
    | cons d ds =>
      have := (hd d (by simp)).tag_pos
      have h2 := congrArg List.length he
      simp [Chunk.bytes] at h2; omega
  | cons c cs ih =>
    cases ds with
    | nil =>
      have := (hc c (by simp)).tag_pos
      have h2 : (c.bytes ++ flat cs).length = 0 := by rw [← flat_cons, he]; rfl
      rw [List.length_append, Chunk.bytes_length] at h2; omega
    | cons d ds =>
      rw [flat_cons, flat_cons] at he
      obtain ⟨h1, h2⟩ := chunk_prefix_unique (hc c (by simp)) (hd d (by simp)) he
      rw [h1, ih (fun e he => hc e (by simp [he])) (fun e he => hd e (by simp [he])) h2]

/-- A byte string encodes at most one sequence of records. -/
theorem isMessage_unique {rs rs' : List Record} {bs : List Byte} (h : IsMessage rs bs) (h' : IsMessage rs' bs) :
    rs = rs' := by
  obtain ⟨cs, h1, h2, rfl⟩ := isMessage_iff.1 h
  obtain ⟨ds, h3, h4, rfl⟩ := isMessage_iff.1 h'
  rw [flat_injective h2 h4 (h1.trans h3.symm)]

end Zeropb
