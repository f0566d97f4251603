import Verif.Proof.DecodeInd
import Verif.Props.Core
set_option linter.unusedSimpArgs false
set_option linter.unusedVariables false
/-!
# The offset index (C17 – C20)
-/

namespace Zeropb
open Wire

/-! ## C17 -/

/-- A call on an `Offsets`. -/
inductive OffOp where
  | set (f : Nat) (off : U64)
  | clear

/-- Run calls on the model of offsets.go. -/
def runOff : List OffOp → Offsets → Res Offsets
  | [], o => .ok o
  | .set f off :: ops, o => do
    let o' ← o.set f off
    runOff ops o'
  | .clear :: ops, o => runOff ops o.clear

/-- The intended effect: a finite map from field ids to offsets. -/
def specOff : List OffOp → (Nat → Option U64) → (Nat → Option U64)
  | [], s => s
  | .set f off :: ops, s => specOff ops (fun g => if g = f then some off else s g)
  | .clear :: ops, _ => specOff ops (fun _ => none)

/-- What `Get` returns for an entry of the map. -/
def offResult : Option U64 → U64 × Bool
  | none => (0#64, false)
  | some off => (off, true)

theorem runOff_spec (n : Nat) (ops : List OffOp) (hv : ∀ f off, OffOp.set f off ∈ ops → f < n ∧ off ≠ 0#64)
    {o : Offsets} {s : Nat → Option U64} (hi : o.Inv) (ha : o.a.length = n)
    (hs : ∀ f, o.view f = (s f).map BitVec.toNat) :
    ∃ o', runOff ops o = .ok o' ∧ o'.Inv ∧ o'.a.length = n ∧ ∀ f, o'.view f = (specOff ops s f).map BitVec.toNat := by
  induction ops generalizing o s with
  | nil => exact ⟨o, rfl, hi, ha, hs⟩
  | cons op ops ih =>
    have hv' : ∀ f off, OffOp.set f off ∈ ops → f < n ∧ off ≠ 0#64 := fun f off h => hv f off (by simp [h])
    cases op with
    | set f off =>
      obtain ⟨v1, v2⟩ := hv f off (by simp)
      have hpos : 0 < off.toNat := by
        rcases Nat.eq_zero_or_pos off.toNat with h | h
        · exact absurd (BitVec.eq_of_toNat_eq h) v2
        · exact h
      obtain ⟨o', e1, e2, e3, e4, _⟩ := Offsets.set_spec (f := f) hi (by omega) hpos
      have := ih hv' (s := fun g => if g = f then some off else s g) e2 (by omega) (by
        intro g; rw [e4]; by_cases hg : g = f <;> simp [hg, hs])
      simpa only [runOff, e1, bind, Except.bind, specOff] using this
    | clear =>
      exact ih hv' (Offsets.clear_inv o) (by rw [Offsets.clear_length, ha]) (by intro g; rw [Offsets.clear_view]; rfl)

/-- C17: after any sequence of `Set` (of nonzero offsets of any size) and `Clear` calls, `Get`
returns the offset last set since the last `Clear`, or not-present. -/
theorem C17_map (n : Nat) (ops : List OffOp) (hv : ∀ f off, OffOp.set f off ∈ ops → f < n ∧ off ≠ 0#64) :
    ∃ o, runOff ops (Offsets.zero n) = .ok o ∧
      (∀ f, f < n → o.get f = .ok (offResult (specOff ops (fun _ => none) f))) ∧
      (∀ f, n ≤ f → o.get f = .error .indexOutOfRange) := by
  obtain ⟨o, e1, e2, e3, e4⟩ := runOff_spec n ops hv (Offsets.zero_inv n) (Offsets.zero_length n)
    (s := fun _ => none) (by intro f; rw [Offsets.zero_view]; rfl)
  refine ⟨o, e1, ?_, ?_⟩
  · intro f hf
    rw [Offsets.get_eq e2 (by omega), e4]
    cases specOff ops (fun _ => none) f with
    | none => rfl
    | some v => simp [offResult]
  · intro f hf; exact Offsets.get_fail (by omega)

/-- Hypotheses met: an offset that moves into the map and back. -/
example : let ops := [OffOp.set 3 70000#64, .set 4 65535#64, .set 3 65534#64, .set 2 18446744073709551615#64]
    (∀ f off, OffOp.set f off ∈ ops → f < 5 ∧ off ≠ 0#64) ∧
    specOff ops (fun _ => none) 3 = some 65534#64 ∧ specOff ops (fun _ => none) 4 = some 65535#64 ∧
    specOff ops (fun _ => none) 1 = none := by
  refine ⟨?_, rfl, rfl, rfl⟩
  intro f off h
  simp only [List.mem_cons, OffOp.set.injEq, List.not_mem_nil, or_false] at h
  rcases h with ⟨rfl, rfl⟩ | ⟨rfl, rfl⟩ | ⟨rfl, rfl⟩ | ⟨rfl, rfl⟩ <;> exact ⟨by decide, by decide⟩

/-! ## C18 -/

/-- The documented consistency of array and map (offsets.go:21-24). -/
def Consistent (o : Offsets) : Prop :=
  (∀ f, (∃ v, (f, v) ∈ o.m.getD []) ↔ o.a[f]? = some 65535#16) ∧
  (∀ f v w, (f, v) ∈ o.m.getD [] → (f, w) ∈ o.m.getD [] → v = w) ∧
  ∀ f v, (f, v) ∈ o.m.getD [] → 65534 < v.toNat

theorem find_of_mem {m : GoMap} (hn : m.keys.Nodup) {f : Nat} {v : U64} (h : (f, v) ∈ m) : m.find f = some v := by
  induction m with
  | nil => simp at h
  | cons e m ih =>
    obtain ⟨k, w⟩ := e
    simp only [GoMap.keys, List.map_cons, List.nodup_cons] at hn
    simp only [GoMap.find]
    rcases List.mem_cons.1 h with h | h
    · simp only [Prod.mk.injEq] at h; rw [if_pos h.1.symm, h.2]
    · have : k ≠ f := by rintro rfl; exact hn.1 (List.mem_map_of_mem (f := Prod.fst) h)
      rw [if_neg this]; exact ih hn.2 h

theorem mem_of_find {m : GoMap} {f : Nat} {v : U64} (h : m.find f = some v) : (f, v) ∈ m := by
  induction m with
  | nil => simp [GoMap.find] at h
  | cons e m ih =>
    obtain ⟨k, w⟩ := e
    simp only [GoMap.find] at h
    split at h
    · next hk => simp at h; subst hk; subst h; simp
    · exact List.mem_cons_of_mem _ (ih h)

theorem Offsets.mfind_eq (o : Offsets) (f : Nat) : o.mfind f = (o.m.getD []).find f := by
  unfold Offsets.mfind
  cases o.m <;> rfl

theorem Offsets.Inv.consistent {o : Offsets} (h : o.Inv) : Consistent o := by
  have key : ∀ f v, (f, v) ∈ o.m.getD [] ↔ o.mfind f = some v := by
    intro f v
    rw [Offsets.mfind_eq]
    exact ⟨find_of_mem h.nodup, mem_of_find⟩
  refine ⟨?_, ?_, ?_⟩
  · intro f
    rw [show (65535#16) = offsetInMap from rfl, ← h.iff f]
    constructor
    · rintro ⟨v, hv⟩; rw [(key f v).1 hv]; rfl
    · intro hs
      obtain ⟨v, hv⟩ := Option.isSome_iff_exists.1 hs
      exact ⟨v, (key f v).2 hv⟩
  · intro f v w h1 h2
    rw [key] at h1 h2
    rw [h1] at h2; exact Option.some.inj h2
  · intro f v h1
    exact h.large f v ((key f v).1 h1)

theorem Offsets.set_inv {o o' : Offsets} (h : o.Inv) {f : Nat} {off : U64} (he : o.set f off = .ok o') :
    o'.Inv ∧ o'.a.length = o.a.length := by
  rcases Nat.lt_or_ge f o.a.length with hf | hf
  · rcases Nat.eq_zero_or_pos off.toNat with h0 | h0
    · obtain ⟨m', e1, _, e3, e4⟩ := Offsets.set_small h hf (off := off) (by omega)
      rw [e1] at he
      simp only [Except.ok.injEq] at he
      subst he
      have hz : off.setWidth 16 = 0#16 := by
        apply BitVec.eq_of_toNat_eq; simp [h0]
      refine ⟨⟨?_, ?_, e4⟩, by simp⟩
      · intro g
        show (m'.bind (·.find g)).isSome ↔ _
        rw [e3]
        by_cases hg : g = f
        · subst hg; simp [hz, hf, offsetInMap]
        · rw [if_neg hg, h.iff]; simp [List.getElem?_set, Ne.symm hg]
      · intro g v hv
        have : (m'.bind (·.find g)) = some v := hv
        rw [e3] at this
        by_cases hg : g = f
        · simp [hg] at this
        · rw [if_neg hg] at this; exact h.large g v this
    · obtain ⟨o2, e1, e2, e3, _⟩ := Offsets.set_spec h hf h0
      rw [e1] at he
      simp only [Except.ok.injEq] at he
      subst he
      exact ⟨e2, e3⟩
  · rw [Offsets.set_fail off hf] at he; simp at he

theorem recordOffset_inv {rep : Nat → Bool} {o o' : Offsets} (h : o.Inv) {f : Nat} {idx : Int}
    (he : recordOffset rep o f idx = .ok o') : o'.Inv ∧ o'.a.length = o.a.length := by
  unfold recordOffset at he
  split at he
  · cases hg : o.get f with
    | error e => rw [hg] at he; simp [bind, Except.bind] at he
    | ok r =>
      obtain ⟨x, ok⟩ := r
      rw [hg] at he
      simp only [bind, Except.bind] at he
      split at he
      · exact Offsets.set_inv h he
      · simp only [pure, Except.pure, Except.ok.injEq] at he; subst he; exact ⟨h, rfl⟩
  · exact Offsets.set_inv h he

/-- C18: in every reachable message the overflow map and the array are consistent; also after a
`Decode` of any bytes whatever, whether it returned nil or an error. -/
theorem C18_consistent {S : Schema} {m : Msg} :
    (Reach S m → Consistent m.off) ∧
    (∀ (m0 : Msg) (buf : Slice) (err : Option DecErr), m0.decode S.rep buf = .ok (m, err) → Consistent m.off) := by
  constructor
  · intro h
    obtain ⟨rs, ⟨cs, h1, _⟩, _⟩ := h.holds
    exact h1.inv.consistent
  · intro m0 buf err he
    refine (decode_induction (rep := S.rep) Offsets.Inv (Offsets.clear_inv _) ?_ he).consistent
    intro o o' f i ho _ _ hr
    exact (recordOffset_inv ho hr).1

/-- A state with entries in the map: both halves of `Consistent` are at work. -/
example : ∃ o, runOff [.set 3 70000#64, .set 4 5#64] (Offsets.zero 5) = .ok o ∧ Consistent o ∧
    o.m = some [(3, 70000#64)] ∧ o.a = [0#16, 0#16, 0#16, 65535#16, 5#16] := by
  obtain ⟨o, e1, e2, _⟩ := runOff_spec 5 [.set 3 70000#64, .set 4 5#64] (by
    intro f off h
    simp only [List.mem_cons, OffOp.set.injEq, List.not_mem_nil, or_false] at h
    rcases h with ⟨rfl, rfl⟩ | ⟨rfl, rfl⟩ <;> exact ⟨by decide, by decide⟩) (Offsets.zero_inv 5) (Offsets.zero_length 5)
    (s := fun _ => none) (by intro f; rw [Offsets.zero_view]; rfl)
  refine ⟨o, e1, e2.consistent, ?_⟩
  have : runOff [.set 3 70000#64, .set 4 5#64] (Offsets.zero 5) =
    .ok ⟨[0#16, 0#16, 0#16, 65535#16, 5#16], some [(3, 70000#64)]⟩ := rfl
  rw [this] at e1
  simp only [Except.ok.injEq] at e1
  subst e1
  exact ⟨rfl, rfl⟩

/-! ## C19 -/

/-- Histories from the zero struct in which no message was longer than 65535 bytes: `Reset`,
`Decode` of any bytes (valid or not, with or without error), and setters and `AppendTo` on reachable
messages. -/
inductive SmallHistory (S : Schema) : Msg → Prop where
  | zero : SmallHistory S (Msg.zero S.n)
  | reset {m0 m : Msg} {buf : Slice} : SmallHistory S m0 → m0.reset buf = .ok m → SmallHistory S m
  | decode {m0 m : Msg} {buf : Slice} {err : Option DecErr} : SmallHistory S m0 → buf.len ≤ 65535 →
      m0.decode S.rep buf = .ok (m, err) → SmallHistory S m
  | set {m m' : Msg} {rt : Rt} {f : Nat} {k : Kind} {x : k.Ty} : SmallHistory S m → Reach S m →
      S.kind f = some k → S.rep f = false → k.size x < maxLen → m.set rt k f x = .ok m' →
      m'.encode.len ≤ 65535 → SmallHistory S m'
  | append {m m' : Msg} {rt : Rt} {f : Nat} {x : List Byte} : SmallHistory S m → Reach S m →
      S.kind f = some .bytes → S.rep f = true → x.length < maxLen → m.appendRaw rt f x = .ok m' →
      m'.encode.len ≤ 65535 → SmallHistory S m'

theorem Offsets.set_nil {o o' : Offsets} {f : Nat} {off : U64} (hoff : off.toNat ≤ 65534) (hm : o.m = none)
    (he : o.set f off = .ok o') : o'.m = none := by
  unfold Offsets.set at he
  rw [if_pos ((Offsets.small_iff off).2 hoff)] at he
  cases hs : o.slot f with
  | error e => rw [hs] at he; simp [bind, Except.bind] at he
  | ok v =>
    rw [hs] at he
    simp only [bind, Except.bind, pure, Except.pure, Except.ok.injEq] at he
    subst he
    simp [hm]

/-- C19: as long as no message exceeded 65535 bytes, the overflow map was never allocated. -/
theorem C19_no_map {S : Schema} {m : Msg} (h : SmallHistory S m) : m.off.m = none := by
  induction h with
  | zero => rfl
  | reset _ he ih =>
    unfold Msg.reset at he
    split at he
    · simp at he
    · simp only [Except.ok.injEq] at he; subst he; exact Offsets.clear_m _ ih
  | @decode m0 m buf err _ hl he ih =>
    refine decode_induction (rep := S.rep) (fun o => o.m = none) (Offsets.clear_m _ ih) ?_ he
    intro o o' f i ho i1 i2 hr
    have hsmall : (intToU64 i).toNat ≤ 65534 := by
      unfold Slice.len at hl
      obtain ⟨k, rfl⟩ := Int.eq_ofNat_of_zero_le i1
      rw [intToU64_nat, ofNat64_toNat (by omega)]; omega
    unfold recordOffset at hr
    split at hr
    · cases hg : o.get f with
      | error e => rw [hg] at hr; simp [bind, Except.bind] at hr
      | ok r =>
        obtain ⟨x, ok⟩ := r
        rw [hg] at hr
        simp only [bind, Except.bind] at hr
        split at hr
        · exact Offsets.set_nil hsmall ho hr
        · simp only [pure, Except.pure, Except.ok.injEq] at hr; subst hr; exact ho
    · exact Offsets.set_nil hsmall ho hr
  | @set m m' rt f k x _ hreach hk hr hx he hl ih =>
    obtain ⟨rs, h1, h2⟩ := hreach.holds
    rcases h1.set rt hk hr x hx (fun v hv => h2.last hk hv) with ⟨m1, rs', e1, _, _, _, _, _, e7, _⟩ | ⟨e1, _⟩
    · rw [e1] at he
      simp only [Except.ok.injEq] at he
      subst he
      exact e7 hl ih
    · rw [e1] at he; simp at he
  | @append m m' rt f x _ hreach hk hr hx he hl ih =>
    obtain ⟨rs, h1, h2⟩ := hreach.holds
    have hf := S.kind_lt f (by rw [hk]; simp)
    rcases h1.append rt hf hr x hx with ⟨m1, e1, _, _, e4⟩ | ⟨e1, _⟩
    · rw [e1] at he
      simp only [Except.ok.injEq] at he
      subst he
      exact e4 hl ih
    · rw [e1] at he; simp at he

/-- The bound is about offsets: an entry at 65535 or beyond needs the map. -/
theorem C19_sharp {o o' : Offsets} {f : Nat} {off : U64} (hoff : 65534 < off.toNat) (he : o.set f off = .ok o') :
    o'.m ≠ none := by
  unfold Offsets.set at he
  rw [if_neg (by rw [Offsets.small_iff]; omega)] at he
  cases hs : o.slot f with
  | error e => rw [hs] at he; simp [bind, Except.bind] at he
  | ok v =>
    rw [hs] at he
    simp only [bind, Except.bind, pure, Except.pure, Except.ok.injEq] at he
    subst he
    simp

/-- Hypotheses met: `demo` has such a history. -/
example : SmallHistory testSchema demo ∧ demo.encode.len = 9 := by
  refine ⟨?_, rfl⟩
  obtain ⟨m1, h1, h⟩ := Reach.of_bind (S := testSchema) demo_steps
  obtain ⟨m2, h2, h⟩ := Reach.of_bind (S := testSchema) h
  obtain ⟨m3, h3, h⟩ := Reach.of_bind (S := testSchema) h
  have r1 : Reach testSchema m1 := Reach.set Reach.zero rfl rfl (by decide) h1
  have r2 : Reach testSchema m2 := Reach.set r1 rfl rfl (by decide) h2
  have r3 : Reach testSchema m3 := Reach.append r2 rfl rfl (by decide) h3
  have l1 : m1.encode.len ≤ 65535 := by
    have := Except.ok.inj h1; subst this; decide
  have s1 : SmallHistory testSchema m1 := .set .zero Reach.zero rfl rfl (by decide) h1 l1
  have l2 : m2.encode.len ≤ 65535 := by
    have := Except.ok.inj h1; subst this
    have := Except.ok.inj h2; subst this; decide
  have s2 : SmallHistory testSchema m2 := .set s1 r1 rfl rfl (by decide) h2 l2
  have l3 : m3.encode.len ≤ 65535 := by
    have := Except.ok.inj h1; subst this
    have := Except.ok.inj h2; subst this
    have := Except.ok.inj h3; subst this; decide
  have s3 : SmallHistory testSchema m3 := .append s2 r2 rfl rfl (by decide) h3 l3
  exact .set s3 r3 rfl rfl (by decide) h (by decide)

/-! ## C20 -/

/-- `rt` and `rt'` differ at most in the order in which maps are iterated. -/
def SameGrowth (rt rt' : Rt) : Prop := rt.grow = rt'.grow

theorem removeField_buf (rt rt' : Rt) {buf : Slice} {o : Offsets} {offset : U64} {tl : Nat} {ol : Int} {b b' : Slice} {p p' : Offsets}
    (h : removeField rt buf o offset tl ol = .ok (b, p)) (h' : removeField rt' buf o offset tl ol = .ok (b', p')) : b = b' := by
  unfold removeField at h h'
  simp only [bind, Except.bind, pure, Except.pure] at h h'
  split at h
  · simp at h
  rename_i v1 e1
  simp only [e1] at h'
  split at h
  · simp at h
  rename_i v2 e2
  simp only [e2] at h'
  split at h
  · simp at h
  rename_i v3 e3
  simp only [e3] at h'
  split at h
  · simp at h
  split at h'
  · simp at h'
  simp only [Except.ok.injEq, Prod.mk.injEq] at h h'
  rw [← h.1, ← h'.1]

theorem appendField_buf (rt rt' : Rt) (hg : SameGrowth rt rt') {buf : Slice} {o o2 : Offsets} {f : Nat} {tag vl v : List Byte}
    {b b' : Slice} {p p' : Offsets} (h : appendField rt buf o f tag vl v = .ok (b, p))
    (h' : appendField rt' buf o2 f tag vl v = .ok (b', p')) : b = b' := by
  have hga : ∀ s xs, goAppend rt' s xs = goAppend rt s xs := by
    intro s xs; unfold goAppend; rw [show rt'.grow = rt.grow from hg.symm]
  unfold appendField at h h'
  simp only [bind, Except.bind, pure, Except.pure, hga] at h h'
  split at h
  · simp at h
  rename_i v1 e1
  simp only [e1] at h'
  split at h
  · simp at h
  split at h'
  · simp at h'
  split at h
  · simp at h
  rename_i v3 e3
  simp only [e3] at h'
  split at h
  · simp at h
  rename_i v4 e4
  simp only [e4] at h'
  simp only [Except.ok.injEq, Prod.mk.injEq] at h h'
  rw [← h.1, ← h'.1]

theorem setSingle_buf (rt rt' : Rt) (hg : SameGrowth rt rt') {buf : Slice} {o : Offsets} {f typ : Nat} {vl v : List Byte}
    {b b' : Slice} {p p' : Offsets} (h : setSingle rt buf o f typ vl v = .ok (b, p))
    (h' : setSingle rt' buf o f typ vl v = .ok (b', p')) : b = b' := by
  unfold setSingle at h h'
  simp only [bind, Except.bind, pure, Except.pure] at h h'
  split at h
  · simp at h
  next tag e1 =>
  simp only [e1] at h'
  split at h
  · simp at h
  next r e2 =>
  simp only [e2] at h'
  split at h
  · next hok =>
    simp only [hok, if_true] at h'
    split at h
    · simp at h
    next ol e3 =>
    simp only [e3] at h'
    split at h
    · next hl =>
      simp only [hl, if_true] at h'
      rw [h] at h'
      simp only [Except.ok.injEq, Prod.mk.injEq] at h'
      exact h'.1
    · next hl =>
      simp only [hl, if_false] at h'
      split at h
      · simp at h
      next q e4 =>
      split at h'
      · simp at h'
      next q' e5 =>
      have := removeField_buf rt rt' (b := q.1) (b' := q'.1) (p := q.2) (p' := q'.2) e4 e5
      rw [← this] at h'
      exact appendField_buf rt rt' hg h h'
  · next hok =>
    simp only [hok] at h'
    exact appendField_buf rt rt' hg h h'

theorem setField_buf (rt rt' : Rt) (hg : SameGrowth rt rt') {buf : Slice} {o : Offsets} {k : Kind} {f : Nat} {x : k.Ty}
    {b b' : Slice} {p p' : Offsets} (h : Msg.setField rt buf o k f x = .ok (b, p))
    (h' : Msg.setField rt' buf o k f x = .ok (b', p')) : b = b' := by
  have bindCase : ∀ (r : Res (List Byte)) (typ : Nat) (g : List Byte → List Byte × List Byte),
      (r.bind fun val => setSingle rt buf o f typ (g val).1 (g val).2) = .ok (b, p) →
      (r.bind fun val => setSingle rt' buf o f typ (g val).1 (g val).2) = .ok (b', p') → b = b' := by
    intro r typ g h h'
    cases r with
    | error e => simp [Except.bind] at h
    | ok val => exact setSingle_buf rt rt' hg h h'
  cases k
  case bool => exact setSingle_buf rt rt' hg h h'
  case fixed32 => exact setSingle_buf rt rt' hg h h'
  case fixed64 => exact setSingle_buf rt rt' hg h h'
  case sfixed32 => exact setSingle_buf rt rt' hg h h'
  case sfixed64 => exact setSingle_buf rt rt' hg h h'
  case float => exact setSingle_buf rt rt' hg h h'
  case double => exact setSingle_buf rt rt' hg h h'
  case string => exact bindCase _ _ (fun vl => (vl, x)) h h'
  case bytes => exact bindCase _ _ (fun vl => (vl, x)) h h'
  all_goals exact bindCase _ _ (fun v => ([], v)) h h'

/-- C20: the order in which the runtime iterates the overflow map while offsets are adjusted is
irrelevant: the setter returns in one order if and only if in the other, the buffer is the same, the
array is the same, and the map has the same entries. -/
theorem C20_map_order {S : Schema} {m : Msg} (h : Reach S m) (rt rt' : Rt) (hg : SameGrowth rt rt') {f : Nat} {k : Kind}
    (hk : S.kind f = some k) (hr : S.rep f = false) (x : k.Ty) (hx : k.size x < maxLen) :
    (∃ m1 m2, m.set rt k f x = .ok m1 ∧ m.set rt' k f x = .ok m2 ∧ m1.buf = m2.buf ∧ m1.off.a = m2.off.a ∧
      ∀ g v, (g, v) ∈ m1.off.m.getD [] ↔ (g, v) ∈ m2.off.m.getD []) ∨
    (m.set rt k f x = .error .lenOutOfRange ∧ m.set rt' k f x = .error .lenOutOfRange) := by
  obtain ⟨rs, ⟨cs, h1, h2, rfl⟩, hw⟩ := h.holds
  have hf := S.kind_lt f (by rw [hk]; simp)
  have hold : ∀ c, lastChunk f cs = some c → c.val.wireType = k.wt ∧ c.MinTag := by
    intro c hc
    have hmem : c ∈ cs := by
      unfold lastChunk at hc
      exact (List.mem_filter.1 (List.mem_of_getLast? hc)).1
    refine ⟨hw.last hk (v := c.val) ?_, h2 c hmem⟩
    rw [lastVal_records, hc]; rfl
  obtain ⟨new, n1, n2, n3, n4, n5, n6⟩ := set_chunks rt h1 hf hr k x hx hold
  obtain ⟨new', p1, p2, p3, p4, p5, p6⟩ := set_chunks rt' h1 hf hr k x hx hold
  have hnew : new' = new := by
    have ht : new'.tag = new.tag := by
      unfold Chunk.MinTag Chunk.tagNum at n3 p3
      rw [p1, p2] at p3
      rw [n1, n2] at n3
      exact p3.unique n3
    have hp := p4.unique n4
    cases new; cases new'
    simp_all
  subst hnew
  rcases Nat.lt_or_ge (flat (setChunks new' cs)).length maxLen with hlt | hge
  · left
    obtain ⟨m1, a1, a2, a3, _⟩ := n5 hlt
    obtain ⟨m2, b1, b2, b3, _⟩ := p5 hlt
    have hview : ∀ g, m1.off.view g = m2.off.view g := by intro g; rw [a3.view, b3.view]
    obtain ⟨q1, q2⟩ := Offsets.ext_view a3.inv b3.inv (by rw [a3.alen, b3.alen]) hview
    refine ⟨m1, m2, a1, b1, ?_, q1, ?_⟩
    · unfold Msg.set at a1 b1
      simp only [bind, Except.bind, pure, Except.pure] at a1 b1
      split at a1
      · simp at a1
      rename_i r1 s1
      split at b1
      · simp at b1
      rename_i r2 s2
      simp only [Except.ok.injEq] at a1 b1
      subst a1; subst b1
      exact setField_buf rt rt' hg (b := r1.1) (b' := r2.1) (p := r1.2) (p' := r2.2) s1 s2
    · intro g v
      have key : ∀ (o : Offsets), o.Inv → ((g, v) ∈ o.m.getD [] ↔ o.mfind g = some v) := by
        intro o ho
        rw [Offsets.mfind_eq]
        exact ⟨find_of_mem ho.nodup, mem_of_find⟩
      rw [key _ a3.inv, key _ b3.inv, q2]
  · right
    exact ⟨n6 hge, p6 hge⟩

/-- Hypotheses met: reversed and stored order. -/
example : Reach testSchema demo ∧ SameGrowth Rt.exact ⟨fun _ _ => [], List.reverse, fun l => List.reverse_perm l⟩ :=
  ⟨demo_reach, rfl⟩

end Zeropb
