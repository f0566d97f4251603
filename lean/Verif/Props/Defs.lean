import Verif.Proof.Unique
import Verif.Model.TestMessage
/-!
# Vocabulary of the property statements

Observables of the API of a generated message, reachable messages, and the abstract contents of a
message.
-/

namespace Zeropb
open Wire

/-- The iterator of the repeated message field `f` of `m`, advanced again and again by
`FindNextField` (as `Next` does), yields exactly the elements `els`, then stays at its end. -/
def Elems (m : Msg) (f : Nat) (els : List (List Byte)) : Prop :=
  ∃ its : Nat → Option Slice, m.messages f = .ok (its 0) ∧
    (∀ i (hi : i < els.length), ∃ rest, findNextField (its i) f = .ok (its (i + 1), some ⟨els[i], rest⟩)) ∧
    (∀ i, els.length ≤ i → its i = none)

/-- Result of the bytes getter without the capacity: `none` is nil. -/
def bytesOf (m : Msg) (f : Nat) : Res (Option (List Byte)) := do
  let r ← getBytes m.buf m.off f
  return r.map Slice.data

/-- Two structs cannot be told apart by getters, presence of message fields, or iteration. -/
def SameFields (S : Schema) (m m' : Msg) : Prop :=
  ∀ f k, S.kind f = some k →
    (S.rep f = false → m.get k f = m'.get k f ∧ (k = .bytes → bytesOf m f = bytesOf m' f)) ∧
    (S.rep f = true → ∀ els, Elems m f els ↔ Elems m' f els)

/-- The messages a program can hold: the zero struct, and whatever results from any struct of the
right type by `Reset`, by a successful `Decode` of a valid message with shortest tags and declared
types, and from there by any setters and `AppendTo` calls that return. -/
inductive Reach (S : Schema) : Msg → Prop where
  | zero : Reach S (Msg.zero S.n)
  | reset {m0 m : Msg} {buf : Slice} : m0.off.a.length = S.n → m0.reset buf = .ok m → Reach S m
  | decode {m0 m : Msg} {buf : Slice} {rs : List Record} : m0.off.a.length = S.n → buf.len < maxLen → IsMinTagMessage rs buf.data →
      WellTyped S rs → m0.decode S.rep buf = .ok (m, none) → Reach S m
  | set {m m' : Msg} {rt : Rt} {f : Nat} {k : Kind} {x : k.Ty} : Reach S m → S.kind f = some k → S.rep f = false → k.size x < maxLen →
      m.set rt k f x = .ok m' → Reach S m'
  | append {m m' : Msg} {rt : Rt} {f : Nat} {x : List Byte} : Reach S m → S.kind f = some .bytes → S.rep f = true → x.length < maxLen →
      m.appendRaw rt f x = .ok m' → Reach S m'

/-- The messages whose accessors may be called: in addition, anything just decoded from a valid
message, however its tags are encoded. -/
inductive Readable (S : Schema) : Msg → Prop where
  | reach {m : Msg} : Reach S m → Readable S m
  | decode {m0 m : Msg} {buf : Slice} {rs : List Record} : m0.off.a.length = S.n → buf.len < maxLen →
      IsMessage rs buf.data → WellTyped S rs → m0.decode S.rep buf = .ok (m, none) → Readable S m

/-! ## Abstract contents and histories -/

/-- What a message means: the current value of each singular field (if set) and the elements of
each repeated message field. Under the numbers without accessors, all values that were decoded. -/
structure Contents where
  sing : Nat → Option Val
  elems : Nat → List (List Byte)
  rest : Nat → List Val

namespace Contents

/-- The empty message. -/
def empty : Contents := ⟨fun _ => none, fun _ => [], fun _ => []⟩

/-- Assign a singular field. -/
def set (c : Contents) (f : Nat) (v : Val) : Contents := ⟨fun g => if g = f then some v else c.sing g, c.elems, c.rest⟩

/-- Append an element to a repeated field. -/
def append (c : Contents) (f : Nat) (b : List Byte) : Contents :=
  ⟨c.sing, fun g => if g = f then c.elems g ++ [b] else c.elems g, c.rest⟩

/-- The contents of a decoded message: the last value of each singular field, all values of each
repeated field. -/
def ofRecords (rs : List Record) : Contents :=
  ⟨fun f => lastVal f rs, fun f => (allVals f rs).filterMap (fun v => match v with | .bytes b => some b | _ => none), fun f => allVals f rs⟩

end Contents

/-- One call of the API, with the choices the runtime makes for it. -/
inductive Op where
  | set (rt : Rt) (f : Nat) (k : Kind) (x : k.Ty)
  | append (rt : Rt) (f : Nat) (x : List Byte)
  | reset (buf : Slice)
  /-- `rs` are the records encoded in `buf`. -/
  | decode (buf : Slice) (rs : List Record)

namespace Op

/-- The call is one the generated code offers, with a legal argument. -/
def Valid (S : Schema) : Op → Prop
  | set _ f k x => S.kind f = some k ∧ S.rep f = false ∧ k.size x < maxLen
  | append _ f x => S.kind f = some .bytes ∧ S.rep f = true ∧ x.length < maxLen
  | reset buf => buf.len = 0
  | decode buf rs => IsMinTagMessage rs buf.data ∧ WellTyped S rs ∧ buf.len < maxLen

/-- Run the call on the model of the code. -/
noncomputable def run (S : Schema) : Op → Msg → Res Msg
  | set rt f k x, m => m.set rt k f x
  | append rt f x, m => m.appendRaw rt f x
  | reset buf, m => m.reset buf
  | decode buf _, m => do
    let (m', _) ← m.decode S.rep buf
    return m'

/-- The intended effect of the call. -/
def apply : Op → Contents → Contents
  | set _ f k x, c => c.set f (encodeVal k x)
  | append _ f x, c => c.append f x
  | reset _, _ => .empty
  | decode _ rs, _ => .ofRecords rs

/-- Upper bound on the bytes the call can add. -/
def cost : Op → Nat
  | set _ _ k x => 20 + k.size x
  | append _ _ x => 20 + x.length
  | reset _ => 0
  | decode buf _ => buf.len

end Op

/-- Run a history on the code. -/
noncomputable def runAll (S : Schema) : List Op → Msg → Res Msg
  | [], m => .ok m
  | op :: ops, m => do
    let m' ← op.run S m
    runAll S ops m'

/-- Run a history on the abstract contents. -/
def applyAll : List Op → Contents → Contents
  | [], c => c
  | op :: ops, c => applyAll ops (op.apply c)

/-- Every getter, presence test and iterator of `m` gives what `c` says. -/
def Agrees (S : Schema) (m : Msg) (c : Contents) : Prop :=
  ∀ f k, S.kind f = some k →
    (S.rep f = false →
      (∃ x, readVal k (c.sing f) = some x ∧ m.get k f = .ok x) ∧
      (k = .bytes → bytesOf m f = .ok (match c.sing f with | some (.bytes b) => some b | _ => none))) ∧
    (S.rep f = true → Elems m f (c.elems f))

/-! ## Facts about the vocabulary -/

theorem Elems.unique {m f els els'} (h : Elems m f els) (h' : Elems m f els') : els = els' := by
  obtain ⟨its, a1, a2, a3⟩ := h
  obtain ⟨its', b1, b2, b3⟩ := h'
  have h0 : its 0 = its' 0 := by rw [a1] at b1; exact Except.ok.inj b1
  have key : ∀ i, its i = its' i ∧ els.take i = els'.take i := by
    intro i
    induction i with
    | zero => exact ⟨h0, by simp⟩
    | succ i ih =>
      obtain ⟨ih1, ih2⟩ := ih
      rcases Nat.lt_or_ge i els.length with hi | hi
      · obtain ⟨r, hr⟩ := a2 i hi
        rcases Nat.lt_or_ge i els'.length with hi' | hi'
        · obtain ⟨r', hr'⟩ := b2 i hi'
          rw [ih1, hr'] at hr
          simp only [Except.ok.injEq, Prod.mk.injEq, Option.some.injEq, Slice.mk.injEq] at hr
          refine ⟨hr.1.symm, ?_⟩
          rw [List.take_add_one, List.take_add_one, ih2, List.getElem?_eq_getElem hi, List.getElem?_eq_getElem hi', hr.2.1]
        · rw [ih1, b3 i hi'] at hr
          simp [findNextField] at hr
      · rcases Nat.lt_or_ge i els'.length with hi' | hi'
        · obtain ⟨r', hr'⟩ := b2 i hi'
          rw [← ih1, a3 i hi] at hr'
          simp [findNextField] at hr'
        · refine ⟨by rw [a3 _ (by omega), b3 _ (by omega)], ?_⟩
          rw [List.take_of_length_le (by omega), List.take_of_length_le (by omega)]
          rw [List.take_of_length_le (by omega), List.take_of_length_le (by omega)] at ih2
          exact ih2
  have := (key (max els.length els'.length)).2
  rw [List.take_of_length_le (by omega), List.take_of_length_le (by omega)] at this
  exact this

theorem Holds.elems {S m rs} (h : Holds S m rs) {f} {els : List (List Byte)} (hf : f < S.n) (hr : S.rep f = true)
    (hel : allVals f rs = els.map Val.bytes) : Elems m f els := by
  obtain ⟨its, rest, i1, i2, i3⟩ := h.iterate hf hr hel
  exact ⟨its, i1, fun i hi => ⟨rest i, (i2 i hi).1⟩, i3⟩

theorem Holds.bytesOf {S m rs} (h : Holds S m rs) {f} (hf : f < S.n) (hr : S.rep f = false)
    (hl : lastVal f rs = none ∨ ∃ b, lastVal f rs = some (.bytes b)) :
    bytesOf m f = .ok (match lastVal f rs with | some (.bytes b) => some b | _ => none) := by
  unfold Zeropb.bytesOf
  rcases hl with hl | ⟨b, hl⟩
  · rw [h.getBytes_none hf hl, hl]; rfl
  · obtain ⟨A, B, _, hg⟩ := h.getBytes_some hr hl
    rw [hg, hl]; rfl

theorem WellTyped.bytes_cases {S : Schema} {rs : List Record} (h : WellTyped S rs) {f} (hk : S.kind f = some .bytes) :
    lastVal f rs = none ∨ ∃ b, lastVal f rs = some (.bytes b) := by
  cases hl : lastVal f rs with
  | none => exact Or.inl rfl
  | some v =>
    right
    obtain ⟨x, hx⟩ := (h _ (lastVal_mem hl)).2 .bytes hk
    cases v with
    | bytes b => exact ⟨b, rfl⟩
    | _ => simp [decodeVal] at hx

theorem filterMap_bytes (l : List (List Byte)) :
    (l.map Val.bytes).filterMap (fun v => match v with | .bytes b => some b | _ => none) = l := by
  induction l with
  | nil => rfl
  | cons b l ih => simp [ih]

/-- A struct agrees with the contents of the records it holds. -/
theorem Holds.agrees {S m rs} (h : Holds S m rs) (hw : WellTyped S rs) : Agrees S m (.ofRecords rs) := by
  intro f k hk
  have hf := S.kind_lt f (by rw [hk]; simp)
  constructor
  · intro hr
    obtain ⟨x, hx⟩ := hw.read hk
    refine ⟨⟨x, hx, h.get hk hr hx⟩, ?_⟩
    intro hkb
    subst hkb
    exact h.bytesOf hf hr (hw.bytes_cases hk)
  · intro hr
    have := S.rep_bytes f k hr hk
    subst this
    obtain ⟨els, he⟩ := hw.elems hk
    have : (Contents.ofRecords rs).elems f = els := by
      simp only [Contents.ofRecords, he, filterMap_bytes]
    rw [this]
    exact h.elems hf hr he

theorem Agrees.congr {S m} {c c' : Contents} (h : Agrees S m c) (h1 : ∀ f, c.sing f = c'.sing f)
    (h2 : ∀ f, S.rep f = true → c.elems f = c'.elems f) : Agrees S m c' := by
  intro f k hk
  obtain ⟨a, b⟩ := h f k hk
  constructor
  · intro hr; rw [← h1]; exact a hr
  · intro hr; rw [← h2 f hr]; exact b hr

/-- Structs that agree with the same contents look the same. -/
theorem Agrees.same {S m m'} {c : Contents} (h : Agrees S m c) (h' : Agrees S m' c) : SameFields S m m' := by
  intro f k hk
  obtain ⟨a1, a2⟩ := h f k hk
  obtain ⟨b1, b2⟩ := h' f k hk
  constructor
  · intro hr
    obtain ⟨⟨x, hx, hg⟩, hb⟩ := a1 hr
    obtain ⟨⟨x', hx', hg'⟩, hb'⟩ := b1 hr
    rw [hx] at hx'
    simp only [Option.some.injEq] at hx'
    subst hx'
    exact ⟨by rw [hg, hg'], fun hkb => by rw [hb hkb, hb' hkb]⟩
  · intro hr els
    constructor
    · intro he; rw [he.unique (a2 hr)]; exact b2 hr
    · intro he; rw [he.unique (b2 hr)]; exact a2 hr

/-- Reachable messages hold well-typed records with shortest tags. -/
theorem Reach.holds {S m} (h : Reach S m) : ∃ rs, HoldsMin S m rs ∧ WellTyped S rs := by
  induction h with
  | zero => exact ⟨[], HoldsMin.zero S, by intro r hr; simp at hr⟩
  | reset h1 h2 => exact ⟨[], HoldsMin.reset h1 h2, by intro r hr; simp at hr⟩
  | @decode m0 m buf rs h1 h2 h3 h4 h5 =>
    obtain ⟨m', e1, _, e2, _⟩ := decode_holdsMin (m := m0) h1 h2 h3 (fun r hr => (h4 r hr).1)
    rw [e1] at h5
    simp only [Except.ok.injEq, Prod.mk.injEq, and_true] at h5
    subst h5
    exact ⟨rs, e2, h4⟩
  | @set m m' rt f k x _ hk hr hx he ih =>
    obtain ⟨rs, h1, h2⟩ := ih
    rcases h1.set rt hk hr x hx (fun v hv => h2.last hk hv) with ⟨m1, rs', e1, e2, e3, e4, e5, _⟩ | ⟨e1, _⟩
    · rw [e1] at he
      simp only [Except.ok.injEq] at he
      subst he
      exact ⟨rs', e2, h2.set hk x e5⟩
    · rw [e1] at he; simp at he
  | @append m m' rt f x _ hk hr hx he ih =>
    obtain ⟨rs, h1, h2⟩ := ih
    have hf := S.kind_lt f (by rw [hk]; simp)
    rcases h1.append rt hf hr x hx with ⟨m1, e1, e2, _⟩ | ⟨e1, _⟩
    · rw [e1] at he
      simp only [Except.ok.injEq] at he
      subst he
      exact ⟨_, e2, h2.append hf hr x⟩
    · rw [e1] at he; simp at he

theorem Readable.holds {S m} (h : Readable S m) : ∃ rs, Holds S m rs ∧ WellTyped S rs := by
  cases h with
  | reach h => obtain ⟨rs, h1, h2⟩ := h.holds; exact ⟨rs, h1.holds, h2⟩
  | @decode m0 m buf rs h1 h2 h3 h4 h5 =>
    obtain ⟨m', e1, _, e2, _⟩ := decode_holds (m := m0) h1 h2 h3 (fun r hr => (h4 r hr).1)
    rw [e1] at h5
    simp only [Except.ok.injEq, Prod.mk.injEq, and_true] at h5
    subst h5
    exact ⟨rs, e2, h4⟩

/-- The records of a readable message are those its bytes encode. -/
theorem Readable.records {S m} (h : Readable S m) {rs : List Record} (hm : IsMessage rs m.encode.data) :
    Holds S m rs ∧ WellTyped S rs := by
  obtain ⟨rs', h1, h2⟩ := h.holds
  have := isMessage_unique hm h1.isMessage
  subst this
  exact ⟨h1, h2⟩

theorem Reach.records {S m} (h : Reach S m) {rs : List Record} (hm : IsMessage rs m.encode.data) :
    HoldsMin S m rs ∧ WellTyped S rs := by
  obtain ⟨rs', h1, h2⟩ := h.holds
  have := isMessage_unique hm h1.holds.isMessage
  subst this
  exact ⟨h1, h2⟩

end Zeropb
