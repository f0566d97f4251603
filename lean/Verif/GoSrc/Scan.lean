import Verif.GoSrc.Offs
import Verif.Mem.Read
import Verif.Proof.Sim
import Verif.Proof.Set
/-!
# The interpreted source of `fieldDataSize`, `FindNextField` and `Decode` computes the model
-/

set_option linter.constructorNameAsVariable false
set_option linter.unusedSimpArgs false

namespace Zeropb.GoSrc

attribute [local congr] bind_head

theorem u64_eq_iff (t : U64) (n : Nat) (h : n < 18446744073709551616) : t = BitVec.ofNat 64 n ↔ t.toNat = n := by
  constructor
  · rintro rfl
    simp [BitVec.toNat_ofNat]; omega
  · intro e
    apply BitVec.eq_of_toNat_eq
    rw [e, BitVec.toNat_ofNat]; omega

/-- zeropb.go:493-511. -/
theorem go_fieldDataSize (rt : Rt) (d : Nat) (t : U64) (b : HSlice) (h : Heap) :
    goCall rt (d + 1) .fieldDataSize [.u64 t, .bytes (.mem b)] h =
    (lift (fieldDataSize t.toNat (h.w.slice b).data) >>= fun n => .ok ([.int n], h)) := by
  rw [goCall, show funcOf .fieldDataSize = some srcFieldDataSize from rfl]
  simp only [fieldDataSize]
  by_cases h0 : t = 0#64
  · rw [if_pos (show t.toNat = wireVarint from (u64_eq_iff t 0 (by omega)).1 h0)]
    gosimp [srcFieldDataSize, eq_true h0]
  have n0 : ¬ t.toNat = wireVarint := mt (u64_eq_iff t 0 (by omega)).2 h0
  rw [if_neg n0]
  by_cases h5 : t = 5#64
  · rw [if_pos (show t.toNat = wireFixed32 from (u64_eq_iff t 5 (by omega)).1 h5)]
    gosimp [srcFieldDataSize, h0, eq_true h5]
  have n5 : ¬ t.toNat = wireFixed32 := mt (u64_eq_iff t 5 (by omega)).2 h5
  rw [if_neg n5]
  by_cases h1 : t = 1#64
  · rw [if_pos (show t.toNat = wireFixed64 from (u64_eq_iff t 1 (by omega)).1 h1)]
    gosimp [srcFieldDataSize, h0, h5, eq_true h1]
  have n1 : ¬ t.toNat = wireFixed64 := mt (u64_eq_iff t 1 (by omega)).2 h1
  rw [if_neg n1]
  by_cases h2 : t = 2#64
  · rw [if_pos (show t.toNat = wireBytes from (u64_eq_iff t 2 (by omega)).1 h2)]
    by_cases hz : (uvarint (h.w.slice b).data).2 = 0
    · gosimp [srcFieldDataSize, h0, h5, h1, eq_true h2, eq_true hz]
    · gosimp [srcFieldDataSize, h0, h5, h1, eq_true h2, hz]
  have n2 : ¬ t.toNat = wireBytes := mt (u64_eq_iff t 2 (by omega)).2 h2
  rw [if_neg n2]
  gosimp [srcFieldDataSize, h0, h5, h1, h2]

theorem u64ToInt_shr (tag : U64) : u64ToInt (tag >>> 3) = (tagField tag : Int) := by
  have h : (tag >>> 3).toNat < 2305843009213693952 := by
    rw [BitVec.toNat_ushiftRight, Nat.shiftRight_eq_div_pow]
    have := tag.isLt
    omega
  have h1 : (-9223372036854775808 : Int) ≤ ((tag >>> 3).toNat : Int) := by omega
  have h2 : ((tag >>> 3).toNat : Int) < 9223372036854775808 := by omega
  exact wrapInt_id h1 h2

/-- One round of a `for` loop. -/
def loopStep (cond : St → M (Val × St)) (body : St → M (Out × St)) (s : St) : M (St ⊕ (Out × St)) := do
  let (v, s) ← cond s
  match v with
  | .bool false => .ok (.inr (.next, s))
  | .bool true => do
    let (o, s) ← inScope body s
    match o with
    | .next => .ok (.inl s)
    | .ret vs => .ok (.inr (.ret vs, s))
  | _ => .error .stuck

theorem loopWhile_eq (cond : St → M (Val × St)) (body : St → M (Out × St)) (s : St) :
    loopWhile cond body s = iterateM (loopStep cond body) s := rfl

/-- An outcome of the model and one of the source. -/
def Rel {α β : Type} (R : α → β → Prop) : Res α → M β → Prop
  | .error e, y => y = .error (.fail e)
  | .ok a, y => ∃ o, y = .ok o ∧ R a o

/-- A round of a loop of the model and one of the source. -/
def StepSim {σ α : Type} (P : σ → Prop) (q : σ → St) (R : α → Out × St → Prop) : Res (σ ⊕ α) → M (St ⊕ (Out × St)) → Prop
  | .error e, y => y = .error (.fail e)
  | .ok (.inl x), y => y = .ok (.inl (q x)) ∧ P x
  | .ok (.inr a), y => ∃ o, y = .ok (.inr o) ∧ R a o

/-- A `for` loop that simulates a loop of the model. -/
theorem loop_sim {σ α : Type} {cond : St → M (Val × St)} {body : St → M (Out × St)} (P : σ → Prop) (q : σ → St)
    (step : σ → Res (σ ⊕ α)) (R : α → Out × St → Prop)
    (h : ∀ x, P x → StepSim P q R (step x) (loopStep cond body (q x))) (x : σ) (hx : P x) :
    Rel R (iterate step x) (loopWhile cond body (q x)) := by
  rw [loopWhile_eq, iterateM]
  have key := iterate_sim (R := fun s y => P y ∧ s = q y) (Q := fun a b => ∃ o, a = some o ∧ R b o)
    (step := fun s => flatStep (loopStep cond body s)) (step' := step) ?_ (s := q x) (s' := x) ⟨hx, rfl⟩
  · generalize iterate (fun s => flatStep (loopStep cond body s)) (q x) = it at key ⊢
    generalize iterate step x = it' at key ⊢
    cases it' with
    | error e =>
      cases it with
      | error e' => have : e' = e := key; rw [this]; rfl
      | ok v => exact key.elim
    | ok a =>
      cases it with
      | error e' => exact key.elim
      | ok v =>
        obtain ⟨o, ho, hr⟩ := key
        rw [ho]
        exact ⟨o, rfl, hr⟩
  · rintro s y ⟨hy, rfl⟩
    have hy' := h y hy
    cases e1 : step y with
    | error e =>
      rw [e1] at hy'
      have hy' : loopStep cond body (q y) = _ := hy'
      simp only [hy']; exact rfl
    | ok v =>
      cases v with
      | inl z =>
        rw [e1] at hy'
        obtain ⟨hy', hz⟩ := hy'
        simp only [hy']; exact ⟨hz, rfl⟩
      | inr a =>
        rw [e1] at hy'
        obtain ⟨o, ho, hr⟩ := hy'
        simp only [ho]; exact ⟨o, rfl, hr⟩

/-- A possibly nil slice. -/
def optBytes : Option HSlice → Val
  | none => .nil
  | some b => .bytes (.mem b)

/-- The variables of `FindNextField` in its loop. -/
def findEnv (b msg : HSlice) (msgLen : U64) (lenSize : Int) (f : Nat) (idx : Int) : List (Id × Val) :=
  [(.idx, .int idx), (.msg, .bytes (.mem msg)), (.lenSize, .int lenSize), (.msgLen, .u64 msgLen), (.buf, .bytes (.mem b)), (.field, .int f)]

/-- How the loop of `FindNextField` ends. -/
def FindR (h : Heap) (b msg : HSlice) (msgLen : U64) (lenSize : Int) (f : Nat) : Option HSlice → Out × St → Prop
  | none, o => ∃ i, o = (.next, ⟨h, findEnv b msg msgLen lenSize f i⟩)
  | some s, o => ∃ i, o = (.ret [.bytes (.mem s), .bytes (.mem msg)], ⟨h, findEnv b msg msgLen lenSize f i⟩)

theorem find_loop (rt : Rt) (d : Nat) (b msg : HSlice) (msgLen : U64) (lenSize : Int) (f : Nat) (h : Heap) (hb : h.w.WFs b) (idx : Int) :
    Rel (FindR h b msg msgLen lenSize f) (iterate (hFindStep h.w b f) idx)
      (loopWhile (eval rt (goCall rt (d + 1)) srcFindNextField_cond1)
        (exec rt (goCall rt (d + 1)) srcFindNextField_loop1) ⟨h, findEnv b msg msgLen lenSize f idx⟩) := by
  refine loop_sim (fun _ => True) (fun idx => ⟨h, findEnv b msg msgLen lenSize f idx⟩) _ _ ?_ idx trivial
  intro idx _
  simp only [hFindStep, loopStep]
  by_cases hc : idx < (b.len : Int)
  · rw [World.slice_dropFrom hb]
    rw [if_neg (by simpa using hc)]
    rcases e1 : b.dropFrom idx with e | s
    · gosimp [findEnv, srcFindNextField_loop1, srcFindNextField_cond1, eq_true hc, e1]
      rfl
    · obtain ⟨tag, size, hu⟩ : ∃ tag size, uvarint (h.w.slice s).data = (tag, size) := ⟨_, _, rfl⟩
      obtain ⟨idx2, hi⟩ : ∃ j, addInt idx size = j := ⟨_, rfl⟩
      simp only [Except.map, bind, Except.bind, hu, hi]
      obtain ⟨id, hid⟩ : ∃ j, u64ToInt (tag >>> 3) = j := ⟨_, rfl⟩
      have hid' : id = (tagField tag : Int) := by rw [← hid, u64ToInt_shr]
      by_cases hf : tagField tag = f
      · have hf' : id = (f : Int) := hid'.trans (Int.ofNat_inj.2 hf)
        rw [if_pos hf]
        rcases e2 : b.dropFrom idx2 with e | t
        · gosimp [findEnv, srcFindNextField_loop1, srcFindNextField_cond1, eq_true hc, e1, hu, hi, hid, eq_true hf', e2]
          rfl
        · gosimp [findEnv, srcFindNextField_loop1, srcFindNextField_cond1, eq_true hc, e1, hu, hi, hid, eq_true hf', e2]
          exact ⟨_, rfl, _, rfl⟩
      · have hf' : ¬ id = (f : Int) := fun e => hf (Int.ofNat_inj.1 (hid'.symm.trans e))
        rw [if_neg hf, World.slice_dropFrom hb]
        rcases e2 : b.dropFrom idx2 with e | t
        · gosimp [findEnv, srcFindNextField_loop1, srcFindNextField_cond1, eq_true hc, e1, hu, hi, hid, hf', e2]
          rfl
        · rcases e3 : fieldDataSize (tagType tag) (h.w.slice t).data with e | n
          · have e3' : fieldDataSize (tag &&& 7#64).toNat (h.w.slice t).data = _ := e3
            gosimp [findEnv, srcFindNextField_loop1, srcFindNextField_cond1, eq_true hc, e1, hu, hi, hid, hf', e2, go_fieldDataSize, e3', Except.map, e3]
            rfl
          · have e3' : fieldDataSize (tag &&& 7#64).toNat (h.w.slice t).data = _ := e3
            obtain ⟨idx3, hi3⟩ : ∃ j, addInt idx2 n = j := ⟨_, rfl⟩
            gosimp [findEnv, srcFindNextField_loop1, srcFindNextField_cond1, eq_true hc, e1, hu, hi, hid, hf', e2, go_fieldDataSize, e3', Except.map, e3, hi3]
            exact ⟨rfl, trivial⟩
  · rw [if_pos hc]
    gosimp [findEnv, srcFindNextField_cond1, hc]
    exact ⟨_, rfl, _, rfl⟩

/-- zeropb.go:472-491. -/
theorem go_FindNextField (rt : Rt) (d : Nat) (b : Option HSlice) (f : Nat) (h : Heap) (hb : ∀ s, b = some s → h.w.WFs s) :
    goCall rt (d + 2) .FindNextField [optBytes b, .int f] h =
    (lift (hFindNextField h.w b f) >>= fun r => .ok ([optBytes r.1, optBytes r.2], h)) := by
  rw [goCall, show funcOf .FindNextField = some srcFindNextField from rfl]
  cases b with
  | none =>
    gosimp [srcFindNextField, hFindNextField, optBytes]
  | some b =>
    obtain ⟨len, size, hu⟩ : ∃ len size, uvarint (h.w.slice b).data = (len, size) := ⟨_, _, rfl⟩
    obtain ⟨l, hl⟩ : ∃ j, u64ToInt len = j := ⟨_, rfl⟩
    obtain ⟨idx, hi⟩ : ∃ j, addInt size l = j := ⟨_, rfl⟩
    simp only [hFindNextField, hu, hl, hi, bind, Except.bind]
    rcases e1 : b.range size idx with e | msg
    · gosimp [srcFindNextField, optBytes, e1, hu, hl, hi]
    · have key := find_loop rt d b msg len size f h (hb b rfl) idx
      simp only [findEnv] at key
      rcases e2 : iterate (hFindStep h.w b f) idx with e | r
      · rw [e2] at key
        have key : loopWhile _ _ _ = _ := key
        gosimp [srcFindNextField, optBytes, hu, hl, hi, e1, key]
      · rw [e2] at key
        obtain ⟨o, ho, hr⟩ := key
        cases r with
        | none =>
          obtain ⟨i, rfl⟩ := hr
          gosimp [srcFindNextField, optBytes, hu, hl, hi, e1, ho, findEnv]
          rfl
        | some r =>
          obtain ⟨i, rfl⟩ := hr
          gosimp [srcFindNextField, optBytes, hu, hl, hi, e1, ho, findEnv]
          rfl

end Zeropb.GoSrc
