import Verif.Props.Races
import Verif.Conc.GenAccess
/-!
# C71: which memory the methods access

Every access that a method of a generated type makes to memory, one after the other, as its Go source runs: which bytes of buffers are read, which fields of structs, which maps. A
getter reads its own value and nothing else of the message; the value of a string or of an embedded message is not read at all, only its length. `Decode` reads the tags, the
varints and the lengths, and jumps over everything else. `Encode` reads no byte. None of them writes a byte.
-/

set_option linter.constructorNameAsVariable false

namespace Zeropb.GoSrc.Conc
open Zeropb.Gen Zeropb.GoSrc.G Zeropb.Wire
open Zeropb.GoSrc.E (ScalarField MessageField RepeatedField goName goType iterOf num Compilable programOf decl_get decl_message decl_repeated sub_of Compilable.program Compilable.target Runs
  Conforms Shows C65_program scalar_schema message_schema repeated_schema runs_ran conforms_typed)

/-! ## Specification -/

/-- The bytes are a message, and the last record of field `f` in it is the value `v`: behind `A` is its tag, then its payload, then `B`. -/
structure LastRecord (f : Nat) (v : Wire.Val) (bs A tag pay B : List Byte) : Prop where
  split : bs = A ++ (tag ++ pay) ++ B
  before : ∃ rs, IsMessage rs A
  tag : IsVarint (f * 8 + v.wireType) tag
  payload : IsPayload v pay
  behind : ∃ rs, IsMessage rs B ∧ ∀ r ∈ rs, r.num ≠ f

/-- The first record of field `f`. -/
structure FirstRecord (f : Nat) (v : Wire.Val) (bs A tag pay B : List Byte) : Prop where
  split : bs = A ++ (tag ++ pay) ++ B
  before : ∃ rs, IsMessage rs A ∧ ∀ r ∈ rs, r.num ≠ f
  tag : IsVarint (f * 8 + v.wireType) tag
  payload : IsPayload v pay
  behind : ∃ rs, IsMessage rs B

/-- There is no record of field `f`. -/
def NoRecord (f : Nat) (bs : List Byte) : Prop := ∃ rs, IsMessage rs bs ∧ ∀ r ∈ rs, r.num ≠ f

/-- How a field of a struct is looked up: its entry of the array is read, and, if the value lies behind the first 65535 bytes, the map. -/
def lookedUp (s : GSt) (i f position : Nat) : List Event :=
  .reads (.slot i f) :: if position < 65535 then [] else .reads (.ref i) :: ((s.h.ms i).m.toList.map fun id => .reads (.map id))

/-- The positions of the bytes that are read to find out where the records of a message begin and end, if its first byte is at position `q`: of each record the
tag and, of its payload, a varint, or the length of a string, or nothing. -/
inductive Skims : Nat → List Wire.Record → List Byte → List Nat → Prop
  | nil {q} : Skims q [] [] []
  | cons {q r rs tag pay bs ps} : IsVarint (r.num * 8 + r.val.wireType) tag → IsPayload r.val pay → Skims (q + (tag ++ pay).length) rs bs ps →
      Skims q (r :: rs) (tag ++ pay ++ bs) (List.range' q (tag.length + markLen r.val pay) ++ ps)

/-- The same, but only up to the tag of the first record of field `f`. -/
inductive Seeks (f : Nat) : Nat → List Wire.Record → List Byte → List Nat → Prop
  | nil {q} : Seeks f q [] [] []
  | found {q r rs tag bs} : IsVarint (r.num * 8 + r.val.wireType) tag → r.num = f → Seeks f q (r :: rs) (tag ++ bs) (List.range' q tag.length)
  | skip {q r rs tag pay bs ps} : IsVarint (r.num * 8 + r.val.wireType) tag → IsPayload r.val pay → r.num ≠ f → Seeks f (q + (tag ++ pay).length) rs bs ps →
      Seeks f q (r :: rs) (tag ++ pay ++ bs) (List.range' q (tag.length + markLen r.val pay) ++ ps)

/-- In state `s`, struct `i` of type `m` is what became of a zero struct in a run of the program. -/
def Made (U : Unicode) (fs : List FileDesc) (m : Desc) (i : Nat) (s : GSt) : Prop :=
  ∃ s0 ops, s0.h.ms i = .zero (slotsOf m) ∧ i < s0.next ∧ Runs U (programOf U fs) m i s0 ops s

/-- Bytes that are read, at these positions of array `a`. -/
def inArr (a : Nat) (ps : List Nat) : List (Nat × Nat) := ps.map fun j => (a, j)

/-- No byte of a buffer is written. -/
def WritesNoByte (s : GSt) (es : List Event) : Prop := ∀ a q, a < s.h.w.arrs.length → .writes (.cell a q) ∉ es

/-- What decoding `b` into struct `i` leaves: the bytes in memory are as before, struct `i` refers to `b`, and the other structs and the iterators are as before. -/
structure Points (i : Nat) (b : HSlice) (s s' : GSt) : Prop where
  bytes : s'.h.w.arrs = s.h.w.arrs
  refers : (s'.h.ms i).buf = b
  others : ∀ j, j ≠ i → s'.h.ms j = s.h.ms j
  next : s'.next = s.next
  its : s'.its = s.its

/-! ## Proof: specification and model -/

theorem skims_of {q : Nat} {cs : List Chunk} (h : ∀ c ∈ cs, c.WF) : Skims q (records cs) (flat cs) (marks q cs) := by
  induction cs generalizing q with
  | nil => exact .nil
  | cons c cs ih =>
    have hc := h c (by simp)
    have := ih (q := q + c.bytes.length) fun d hd => h d (by simp [hd])
    exact .cons (r := c.record) hc.tag hc.pay this

theorem Skims.chunks {q : Nat} {rs : List Wire.Record} {bs : List Byte} {ps : List Nat} (h : Skims q rs bs ps) : ∃ cs, (∀ c ∈ cs, Chunk.WF c) ∧ flat cs = bs ∧ ps = marks q cs := by
  induction h with
  | nil => exact ⟨[], by simp, rfl, rfl⟩
  | @cons q r rs tag pay bs ps ht hp _ ih =>
    obtain ⟨cs, h1, h2, h3⟩ := ih
    refine ⟨⟨r.num, r.val, tag, pay⟩ :: cs, ?_, ?_, ?_⟩
    · intro c hc
      rcases List.mem_cons.1 hc with hc | hc
      · rw [hc]; exact ⟨ht, hp⟩
      · exact h1 c hc
    · rw [flat_cons, h2]; rfl
    · rw [h3]; rfl

/-- The bytes decide which positions are read. -/
theorem Skims.unique {q : Nat} {rs rs' : List Wire.Record} {bs : List Byte} {ps ps' : List Nat} (h : Skims q rs bs ps) (h' : Skims q rs' bs ps') : ps = ps' := by
  obtain ⟨cs, a1, a2, a3⟩ := h.chunks
  obtain ⟨cs', b1, b2, b3⟩ := h'.chunks
  rw [a3, b3, flat_injective a1 b1 (a2.trans b2.symm)]

theorem seeks_of {f q : Nat} {cs : List Chunk} (h : ∀ c ∈ cs, c.WF) : Seeks f q (records cs) (flat cs) (seek f q cs) := by
  induction cs generalizing q with
  | nil => exact .nil
  | cons c cs ih =>
    have hc := h c (by simp)
    simp only [seek]
    split
    · next e =>
      have := Seeks.found (f := f) (q := q) (r := c.record) (rs := records cs) (bs := c.pay ++ flat cs) hc.tag e
      simpa [records, flat_cons, Chunk.bytes] using this
    · next e => exact .skip (r := c.record) hc.tag hc.pay e (ih (q := q + c.bytes.length) fun d hd => h d (by simp [hd]))

theorem varint_prefix {v v' : Nat} {tag tag' x x' : List Byte} (h : IsVarint v tag) (h' : IsVarint v' tag') (e : tag ++ x = tag' ++ x') : tag = tag' ∧ x = x' := by
  have : tag = tag' := by rw [← varintRun_of h x, e, varintRun_of h' x']
  subst this
  exact ⟨rfl, List.append_cancel_left e⟩

theorem payload_prefix {v : Wire.Val} {pay pay' x x' : List Byte} (h : IsPayload v pay) (h' : IsPayload v pay') (e : pay ++ x = pay' ++ x') : pay = pay' ∧ x = x' := by
  cases v with
  | varint u => exact varint_prefix h h' e
  | fixed64 u =>
    rw [show pay = _ from h, show pay' = _ from h'] at e ⊢
    exact ⟨rfl, List.append_cancel_left e⟩
  | fixed32 u =>
    rw [show pay = _ from h, show pay' = _ from h'] at e ⊢
    exact ⟨rfl, List.append_cancel_left e⟩
  | bytes bs =>
    obtain ⟨lb, h1, h2⟩ := h
    obtain ⟨lb', h1', h2'⟩ := h'
    subst h2
    subst h2'
    rw [List.append_assoc, List.append_assoc] at e
    obtain ⟨e1, e2⟩ := varint_prefix h1 h1' e
    rw [e1]
    exact ⟨rfl, List.append_cancel_left e2⟩

theorem Seeks.unique {f q : Nat} {rs : List Wire.Record} {bs : List Byte} {ps ps' : List Nat} (h : Seeks f q rs bs ps) (h' : Seeks f q rs bs ps') : ps = ps' := by
  induction h generalizing ps' with
  | nil =>
    generalize e : ([] : List Byte) = bs at h'
    cases h'
    rfl
  | @found q r rs tag bs h1 h2 =>
    generalize e : tag ++ bs = x at h'
    cases h' with
    | found h3 h4 => rw [(varint_prefix h1 h3 e).1]
    | skip _ _ h4 _ => exact absurd h2 h4
  | @skip q r rs tag pay bs ps h1 h2 h3 h4 ih =>
    generalize e : tag ++ pay ++ bs = x at h'
    cases h' with
    | found _ h6 => exact absurd h6 h3
    | skip h5 h6 h7 h8 =>
      rw [List.append_assoc, List.append_assoc] at e
      obtain ⟨e1, e2⟩ := varint_prefix h1 h5 e
      subst e1
      obtain ⟨e3, e4⟩ := payload_prefix h2 h6 e2
      subst e3
      subst e4
      rw [ih h8]

theorem made_tracks {U : Unicode} {fs : List FileDesc} {pkg : Text} (hc : Compilable U fs pkg) {f : FileDesc} (hf : f ∈ fs) {m : Desc} (hm : some m ∈ f.messageType) {i : Nat} {s : GSt}
    (h : Made U fs m i s) : ∃ hv rs c, s.h.w.WF (s.h.ms i) ∧ i < s.next ∧ Tracks (schemaOf m hv) (s.h.w.msg (s.h.ms i)) rs c := by
  obtain ⟨s0, ops, h0, hn, hr⟩ := h
  have hv := hc.valid f hf m hm
  obtain ⟨z1, z2⟩ := start_tracks (S := schemaOf m hv) h0
  obtain ⟨a1, a2, rs, a3⟩ := ran_tracks hc.program hc.closed (decls_implements U m hv) (sub_of (U := U) hf hm) (runs_ran hv hr) z1 hn z2
  exact ⟨hv, rs, _, a1, a2, a3⟩

/-- The chunks of a message around a record. -/
theorem chunks_around {S : Schema} {m : Msg} {rs rs1 rs2 : List Wire.Record} {f : Nat} {v : Wire.Val} {A tag pay B : List Byte} (h : Zeropb.Holds S m rs)
    (hd : m.buf.data = A ++ (tag ++ pay) ++ B) (h1 : IsMessage rs1 A) (ht : IsVarint (f * 8 + v.wireType) tag) (hp : IsPayload v pay) (h2 : IsMessage rs2 B) :
    ∃ cs1 cs2, Rep S.n S.rep m.buf m.off (cs1 ++ ⟨f, v, tag, pay⟩ :: cs2) ∧ flat cs1 = A ∧ flat cs2 = B ∧ records cs1 = rs1 ∧ records cs2 = rs2 ∧ rs = rs1 ++ ⟨f, v⟩ :: rs2 := by
  obtain ⟨cs1, a1, a2, a3⟩ := isMessage_iff.1 h1
  obtain ⟨cs2, b1, b2, b3⟩ := isMessage_iff.1 h2
  have hcw : (⟨f, v, tag, pay⟩ : Chunk).WF := ⟨ht, hp⟩
  obtain ⟨cs, c1, c2⟩ := h
  have hcs : cs = cs1 ++ ⟨f, v, tag, pay⟩ :: cs2 := by
    refine flat_injective c1.wf ?_ ?_
    · intro c hc
      rcases List.mem_append.1 hc with hc | hc
      · exact a2 c hc
      · rcases List.mem_cons.1 hc with hc | hc
        · rw [hc]; exact hcw
        · exact b2 c hc
    · rw [← c1.data, hd]; simp [a1, b1, Chunk.bytes]
  subst hcs
  refine ⟨cs1, cs2, c1, a1, b1, a3, b3, ?_⟩
  rw [← c2, ← a3, ← b3]
  simp [records, Chunk.record]

theorem finding_at {s : GSt} {i f p : Nat} (hi : (s.h.w.offs (s.h.ms i)).Inv) (hp : p < 2 ^ 64) (h : (s.h.w.offs (s.h.ms i)).get f = .ok (BitVec.ofNat 64 p, true)) :
    finding s i f = lookedUp s i f p := by
  unfold finding lookedUp
  have ea : (s.h.w.offs (s.h.ms i)).a = (s.h.ms i).a := rfl
  simp only [Offsets.get, Offsets.slot, ea] at h
  cases hx : (s.h.ms i).a[f]? with
  | none => rw [hx] at h; cases h
  | some x =>
    rw [hx] at h
    simp only [Option.some.injEq]
    by_cases h1 : x = 65535#16
    · subst h1
      simp only [bind, Except.bind, pure, Except.pure, offsetInMap, ne_eq, not_true_eq_false, if_false, Except.ok.injEq, Prod.mk.injEq, and_true] at h
      obtain ⟨u, hu⟩ := Option.isSome_iff_exists.1 ((hi.iff f).2 (by rw [ea, hx]; rfl))
      have hl := hi.large f u hu
      have e : (s.h.w.offs (s.h.ms i)).mapRead f = u := by
        simp only [Offsets.mapRead]
        simp only [Offsets.mfind] at hu
        revert hu
        cases (s.h.w.offs (s.h.ms i)).m with
        | none => simp
        | some mm => intro hu; simp only [Option.bind_some] at hu ⊢; rw [hu]; rfl
      rw [e] at h
      have : u.toNat = p := by rw [h, BitVec.toNat_ofNat, Nat.mod_eq_of_lt hp]
      rw [if_pos rfl, if_neg (by omega)]
      cases (s.h.ms i).m <;> rfl
    · have h1' : ¬ x = offsetInMap := h1
      simp only [bind, Except.bind, pure, Except.pure, ne_eq, h1', not_false_eq_true, if_true, Except.ok.injEq, Prod.mk.injEq] at h
      have : p = x.toNat := by
        have := congrArg BitVec.toNat h.1
        rw [BitVec.toNat_ofNat, Nat.mod_eq_of_lt hp] at this
        rw [← this]
        simp
        omega
      have h2 : x.toNat ≠ 65535 := fun e => h1 (BitVec.eq_of_toNat_eq e)
      have := x.isLt
      rw [if_neg h1, if_pos (by omega)]

theorem finding_absent {s : GSt} {i f : Nat} (h : (s.h.w.offs (s.h.ms i)).get f = .ok (0#64, false)) :
    finding s i f = [.reads (.slot i f)] := by
  unfold finding
  have ea : (s.h.w.offs (s.h.ms i)).a = (s.h.ms i).a := rfl
  simp only [Offsets.get, Offsets.slot, ea] at h
  cases hx : (s.h.ms i).a[f]? with
  | none => rw [hx] at h; cases h
  | some x =>
    rw [hx] at h
    by_cases h1 : x = 65535#16
    · subst h1
      simp [bind, Except.bind, pure, Except.pure, offsetInMap] at h
    · rw [if_neg (by simpa using h1)]

/-- What is left of the events of a program that keeps to what it may access. -/
theorem Prog.Safe.trace {α : Type} {R W : Loc → Prop} {Q : α → GSt → Prop} {p : Prog α} {s : GSt} (h : p.Safe R W Q s) : ∀ l, .writes l ∈ p.trace s → W l := by
  induction p generalizing s with
  | done a => intro l hl; cases hl
  | stop e => intro l hl; cases hl
  | load l k ih =>
    intro l' hl
    rcases List.mem_append.1 hl with hl | hl
    · unfold Event.ofLoad at hl; split at hl <;> simp at hl
    · exact ih _ h.2 l' hl
  | store w k ih =>
    intro l hl
    rcases List.mem_cons.1 hl with hl | hl
    · injection hl with hl; subst hl; exact h.1
    · exact ih h.2 l hl
  | newArr bs k ih =>
    intro l hl
    rcases List.mem_cons.1 hl with hl | hl
    · cases hl
    · exact ih _ h l hl
  | newMap k ih =>
    intro l hl
    rcases List.mem_cons.1 hl with hl | hl
    · cases hl
    · exact ih _ h l hl
  | newStruct m k ih =>
    intro l hl
    rcases List.mem_cons.1 hl with hl | hl
    · cases hl
    · exact ih _ h l hl

/-- All structs there are may be read and decoded into, and all iterators may be used. -/
def reading (s : GSt) : Rights := ⟨fun k => if k < s.next then some 1 else none, fun _ => True⟩

theorem reading_le (s : GSt) : ∀ i lv, (reading s).level i = some lv → lv ≤ 1 ∧ i < s.next := by
  intro k lv e
  simp only [reading] at e
  split at e
  · next e' => cases e; exact ⟨Nat.le_refl _, e'⟩
  · cases e

/-- A call that may not write bytes that were there does not. -/
theorem may_noByte {U : Unicode} {fs : List FileDesc} {pkg : Text} (hc : Compilable U fs pkg) {s : GSt} {t name : Text} {args : List GVal}
    {g g' : Rights} (hg : ∀ i lv, g.level i = some lv → lv ≤ 1 ∧ i < s.next)
    (h : May U fs (fun _ => True) (fun l => ∀ a q, l = .cell a q → s.h.w.arrs.length ≤ a) g t name args g') (rt : Rt) (m d : Nat) :
    WritesNoByte s ((grun (programOf U fs) rt m d t name args).trace s) := by
  have hr : ∀ b, Reaches (fun _ => True) b := fun b q _ _ => trivial
  have hh : Holds (fun _ => True) (fun l => ∀ a q, l = .cell a q → s.h.w.arrs.length ≤ a) g s := by
    refine ⟨⟨fun l hl => ⟨trivial, ?_⟩⟩, ?_, ?_⟩
    · rintro a q rfl
      simp only [Loc.Old, Base.of] at hl
      omega
    · intro i lv e
      obtain ⟨h1, h2⟩ := hg i lv e
      refine ⟨by omega, h2, trivial, fun _ => trivial, trivial, trivial, hr _, fun _ _ => trivial, fun _ => nofun, fun _ _ => nofun, fun _ => nofun, fun _ _ _ => nofun, fun h => by omega⟩
    · exact fun v _ => ⟨trivial, nofun, fun b _ => hr b⟩
  intro a q ha hw
  exact absurd ((h.safe hc hh rt m d).trace _ hw a q rfl) (by omega)

/-- The two ways to run a method have the same result. -/
theorem same_result {U : Unicode} {fs : List FileDesc} {rt : Rt} {d n : Nat} {t name : Text} {args out out' : List GVal} {s s1 s2 : GSt} (h : G.run (programOf U fs) rt d t name args s = .ok (out, s1))
    (h' : ∀ fuel, n < fuel → (grun (programOf U fs) rt fuel d t name args).run s = .ok (out', s2)) : out = out' ∧ s1 = s2 := by
  obtain ⟨N, hN⟩ := to_grun h
  have e := (hN (N + n + 1) (by omega)).symm.trans (h' (N + n + 1) (by omega))
  injection e with e
  injection e with e1 e2
  exact ⟨e1, e2⟩

theorem lastVal_at {f : Nat} {v : Wire.Val} {rs1 rs2 : List Wire.Record} (h : ∀ r ∈ rs2, r.num ≠ f) : lastVal f (rs1 ++ ⟨f, v⟩ :: rs2) = some v := by
  have : rs2.filter (fun r => decide (r.num = f)) = [] := by rw [List.filter_eq_nil_iff]; intro r hr; simpa using h r hr
  simp [lastVal, List.filter_append, this]

theorem bytesRead_cons_buf (i : Nat) (es : List Event) : bytesRead (.reads (.buf i) :: es) = bytesRead es := rfl

theorem bytesRead_cons_wbuf (i : Nat) (es : List Event) : bytesRead (.writes (.buf i) :: es) = bytesRead es := rfl

theorem lookedUp_bytes (s : GSt) (i f q : Nat) : bytesRead (lookedUp s i f q) = [] := by
  unfold lookedUp
  split
  · rfl
  · cases (s.h.ms i).m <;> rfl

theorem lookedUp_length (s : GSt) (i f q : Nat) : (lookedUp s i f q).length ≤ 3 := by
  unfold lookedUp
  split
  · simp
  · cases (s.h.ms i).m <;> simp

theorem hFindNextField_ok {w : World} {b : HSlice} (hb : w.WFs b) (hl : b.len < maxLen) {lb el rest : List Byte} (hlb : IsVarint el.length lb)
    (hd : (w.slice b).data = lb ++ (el ++ rest)) {rs : List Wire.Record} (hr : IsMessage rs rest) (f : Nat) :
    ∃ o q, hFindNextField w (some b) f = .ok (o, some q) ∧ w.WFs q ∧ (w.slice q).data = el := by
  obtain ⟨cs, c1, c2, c3⟩ := isMessage_iff.1 hr
  have hs : w.slice b = ⟨(lb ++ el) ++ flat cs, (w.slice b).spare⟩ := by rw [c1, List.append_assoc, ← hd]
  have hlen : ((lb ++ el) ++ flat cs).length < maxLen := by
    rw [c1, List.append_assoc, ← hd]
    exact (w.slice_len hb).symm ▸ hl
  have h := findNextField_spec (f := f) (sp := (w.slice b).spare) (c := ⟨0, .bytes el, [], lb ++ el⟩) (post := cs) (bs := el) ⟨lb, hlb, rfl⟩ c2 hlen
  have hview := findNextField_view (w := w) (it := some b) (by intro b' e; cases e; exact hb) f
  rw [Option.map_some, hs, h] at hview
  cases hh : hFindNextField w (some b) f with
  | error e => rw [hh] at hview; cases hview
  | ok r =>
    obtain ⟨r1, r2⟩ := r
    rw [hh] at hview
    simp only [Except.map, Except.ok.injEq, Prod.mk.injEq] at hview
    cases r2 with
    | none => cases hview.2
    | some q =>
      refine ⟨r1, q, rfl, ((hFindNextField_tail hb hh).2 q rfl).2, ?_⟩
      have := hview.2
      injection this with this
      rw [← this]

/-! ## Theorems -/

section
variable {U : Unicode} {fs : List FileDesc} {pkg : Text} (hc : Compilable U fs pkg) {f : FileDesc} (hf : f ∈ fs) {m : Desc} (hm : some m ∈ f.messageType)
include hc hf hm

/-- C71: a getter of a scalar field reads the reference to the buffer, looks up the field, and reads the bytes of its own value: all of a number, of a string or
of `bytes` only the length. That is all it accesses. -/
theorem C71_get {i : Nat} {s : GSt} (h : Made U fs m i s) {fd : Field} {k : Kind} (hfd : ScalarField m fd k) {v : Wire.Val} {A tag pay B : List Byte}
    (hl : LastRecord (num fd) v (s.h.w.slice (s.h.ms i).buf).data A tag pay B) (rt : Rt) (d : Nat) :
    ∃ x, G.run (programOf U fs) rt d m.getName (goName U fd) [.ptr m.getName i] s = .ok ([.val x], s) ∧ ∀ fuel,
      Does (grun (programOf U fs) rt fuel d m.getName (goName U fd) [.ptr m.getName i]) s [.val x] s
        (.reads (.buf i) :: (lookedUp s i (num fd) (A ++ tag).length ++ cells (s.h.ms i).buf.arr ((s.h.ms i).buf.off + (A ++ tag).length) (headLen v pay))) := by
  obtain ⟨hv, rs, c, a1, a2, a3⟩ := made_tracks hc hf hm h
  obtain ⟨rs1, h1⟩ := hl.before
  obtain ⟨rs2, h2, h3⟩ := hl.behind
  obtain ⟨cs1, cs2, r1, r2, r3, r4, r5, r6⟩ := chunks_around a3.1.holds hl.split h1 hl.tag hl.payload h2
  obtain ⟨e1, e2⟩ := scalar_schema hv hfd
  obtain ⟨x, hx⟩ := (a3.2.1 ⟨num fd, v⟩ (by rw [r6]; simp)).2 k e1
  have hloc := r1.located_last rfl e2 rfl fun d hd => h3 d.record (by rw [← r5]; exact List.mem_map_of_mem hd)
  rw [r2, r3] at hloc
  obtain ⟨y, hy⟩ := getter_at (s := s) (i := i) a1.1 hloc hl.payload hx
  have hll := hloc.lens
  unfold maxLen at hll
  rw [finding_at r1.inv (by omega) hloc.get] at hy
  have key : ∀ fuel, Does (grun (programOf U fs) rt fuel d m.getName (goName U fd) [.ptr m.getName i]) s [.val y] s
        (.reads (.buf i) :: (lookedUp s i (num fd) (A ++ tag).length ++ cells (s.h.ms i).buf.arr ((s.h.ms i).buf.off + (A ++ tag).length) (headLen v pay))) := by
    intro fuel
    exact does_get (hc.program.method (sub_of hf hm _ (decl_get hv hfd).1) rfl) (pkg_get _) (hy rt fuel (d + 1))
  refine ⟨y, ?_, key⟩
  obtain ⟨s0, ops, h0, hn, hr⟩ := h
  obtain ⟨_, z, g1, _⟩ := (C65_program hc hf hm h0 hn hr).scalar fd k hfd rt d
  obtain ⟨e, _⟩ := same_result (n := 0) g1 fun fuel _ => (key fuel).1
  rw [g1, e]

/-- C71: a getter of a scalar field that the message does not have reads no byte. -/
theorem C71_get_absent {i : Nat} {s : GSt} (h : Made U fs m i s) {fd : Field} {k : Kind} (hfd : ScalarField m fd k)
    (hl : NoRecord (num fd) (s.h.w.slice (s.h.ms i).buf).data) (rt : Rt) (d : Nat) :
    ∃ x, G.run (programOf U fs) rt d m.getName (goName U fd) [.ptr m.getName i] s = .ok ([.val x], s) ∧ ∀ fuel,
      Does (grun (programOf U fs) rt fuel d m.getName (goName U fd) [.ptr m.getName i]) s [.val x] s [.reads (.buf i), .reads (.slot i (num fd))] := by
  obtain ⟨hv, rs, c, a1, a2, a3⟩ := made_tracks hc hf hm h
  obtain ⟨cs, r1, r2⟩ := a3.1.holds
  obtain ⟨e1, e2⟩ := scalar_schema hv hfd
  obtain ⟨rs', h1, h2⟩ := hl
  have hrs : rs' = rs := isMessage_unique h1 a3.1.holds.isMessage
  subst hrs
  have hg := r1.get_none ((schemaOf m hv).kind_lt _ (by rw [e1]; simp)) (fun c hc => h2 c.record (by rw [← r2]; exact List.mem_map_of_mem hc))
  obtain ⟨y, hy⟩ := getter_absent (s := s) (i := i) (b := (s.h.ms i).buf) hg k
  rw [finding_absent hg] at hy
  have key : ∀ fuel, Does (grun (programOf U fs) rt fuel d m.getName (goName U fd) [.ptr m.getName i]) s [.val y] s [.reads (.buf i), .reads (.slot i (num fd))] := by
    intro fuel
    exact does_get (hc.program.method (sub_of hf hm _ (decl_get hv hfd).1) rfl) (pkg_get _) (hy rt fuel (d + 1))
  refine ⟨y, ?_, key⟩
  obtain ⟨s0, ops, h0, hn, hr⟩ := h
  obtain ⟨_, z, g1, _⟩ := (C65_program hc hf hm h0 hn hr).scalar fd k hfd rt d
  obtain ⟨e, _⟩ := same_result (n := 0) g1 fun fuel _ => (key fuel).1
  rw [g1, e]

/-- What the methods that decode have in common. -/
theorem decodes {i : Nat} {s : GSt} (ha : (s.h.ms i).a.length = slotsOf m) (hw : s.h.w.WF (s.h.ms i)) {b : HSlice} (hb : s.h.w.WFs b) (hl : b.len < maxLen)
    {rs : List Wire.Record} (hr : IsMessage rs (s.h.w.slice b).data) (ht : Conforms m rs) :
    ∃ rep ps s', method (programOf U fs) m.getName t!"Decode" = some (G.srcDecode m.getName) ∧ global (programOf U fs) (t!"repeatedFields_" ++ m.getName) = some (.val (.reps rep)) ∧
      Skims b.off rs (s.h.w.slice b).data ps ∧ Points i b s s' ∧ ∀ rt d,
      G.run (programOf U fs) rt d m.getName t!"Decode" [.ptr m.getName i, .val (.bytes (.mem b))] s = .ok ([.val .nil], s') ∧ ∀ fuel, rs.length < fuel →
        ∃ es, Does (goCall rt fuel (d + 3) .Decode [.bytes (.mem b), .offs i, .reps rep]) ((Write.buf i b).apply s) [.nil] s' es ∧
          bytesRead es = inArr b.arr ps ∧ es.length ≤ ps.length + 10 * rs.length + 2 * slotsOf m + 4 * spilled s i + 3 := by
  have hv := hc.valid f hf m hm
  have hi := decls_implements U m hv
  have hsub := sub_of (U := U) hf hm
  obtain ⟨nums, t1, t2⟩ := hi.table
  have hty := (conforms_typed hv).1 ht
  obtain ⟨cs, c1, c2, c3⟩ := isMessage_iff.1 hr
  have hlen : (s.h.w.slice b).len = b.len := World.slice_len hb
  obtain ⟨v, d1, d2, _⟩ := decode_holds (S := schemaOf m hv) (m := s.h.w.msg (s.h.ms i)) ha (by omega) hr (fun r hr => (hty r hr).1)
  have hrf := decode_refines (schemaOf m hv).rep hw hb
  rw [d1] at hrf
  obtain ⟨m', w', h1, _, _, h4, h5, _⟩ := hrf
  have hrun : ∀ rt d, G.run (programOf U fs) rt d m.getName t!"Decode" [.ptr m.getName i, .val (.bytes (.mem b))] s = .ok ([.val .nil], { s with h := s.h.upd i (m', w') }) := by
    intro rt d
    rw [C63_decode hc.program rt d s (hsub _ hi.fixed.2.1) (hsub _ ((t1 _ _).2 ⟨rfl, rfl⟩)) b hb hw, rep_table t2, h1]
    rfl
  have hmeth : method (programOf U fs) m.getName t!"Decode" = some (G.srcDecode m.getName) := hc.program.method (hsub _ hi.fixed.2.1) rfl
  have hglob : global (programOf U fs) (t!"repeatedFields_" ++ m.getName) = some (.val (.reps (schemaOf m hv).rep)) := by
    rw [hc.program.table (hsub _ ((t1 _ _).2 ⟨rfl, rfl⟩)), rep_table t2]
  refine ⟨_, marks b.off cs, { s with h := s.h.upd i (m', w') }, hmeth, hglob, ?_, ⟨?_, ?_, ?_, rfl, rfl⟩, fun rt d => ⟨hrun rt d, ?_⟩⟩
  · have := skims_of (q := b.off) c2
    rwa [c1, c3] at this
  · exact h5
  · simp only [upd_ms]; exact h4
  · intro j hj; simp [Heap.upd, hj]
  have hcl : cs.length = rs.length := by rw [← c3]; simp [records]
  have e1 : (((Write.buf i b).apply s).h.ms i).a = (s.h.ms i).a := by simp only [Write.apply, Heap.put, if_true]
  have e2 : spilled ((Write.buf i b).apply s) i = spilled s i := by unfold spilled; simp only [Write.apply, Heap.put, if_true]
  obtain ⟨s1, _, k⟩ := decode_at (s := (Write.buf i b).apply s) (i := i) rt (d + 1) (schemaOf m hv).rep hl (b := b) (cs := cs) hb (by rw [c1]; rfl) c2
    (by
      intro c hc'
      rw [e1, ha]
      exact (hty c.record (by rw [← c3]; exact List.mem_map_of_mem hc')).1)
  rw [e1, e2, ha, hcl] at k
  obtain ⟨_, es⟩ := same_result (n := rs.length) (hrun rt d) fun fuel hfu => (does_decode (p := programOf U fs) (n := d + 1) (d := d + 2) (rt := rt) (m := fuel) (s := s) (i := i) hmeth
    hglob (b := b) ⟨(k fuel hfu).1, rfl⟩).1
  intro fuel hfu
  refine ⟨_, ⟨?_, rfl⟩, (k fuel hfu).2.1, (k fuel hfu).2.2⟩
  rw [es]
  exact (k fuel hfu).1

/-- C71: `Decode` of a message reads of each record the tag and, of the payload, a varint or the length; it jumps over numbers of fixed size and over strings, bytes and embedded messages,
whatever they contain. It writes no byte, and what it does in the offsets of the struct is bounded by the number of records and of fields. -/
theorem C71_decode {i : Nat} {s : GSt} (ha : (s.h.ms i).a.length = slotsOf m) (hw : s.h.w.WF (s.h.ms i)) (hn : i < s.next) {b : HSlice} (hb : s.h.w.WFs b) (hl : b.len < maxLen)
    {rs : List Wire.Record} (hr : IsMessage rs (s.h.w.slice b).data) (ht : Conforms m rs) :
    ∃ ps s', Skims b.off rs (s.h.w.slice b).data ps ∧ Points i b s s' ∧ ∀ rt d,
      G.run (programOf U fs) rt d m.getName t!"Decode" [.ptr m.getName i, .val (.bytes (.mem b))] s = .ok ([.val .nil], s') ∧ ∀ fuel, rs.length < fuel →
        ∃ es, Does (grun (programOf U fs) rt fuel d m.getName t!"Decode" [.ptr m.getName i, .val (.bytes (.mem b))]) s [.val .nil] s' es ∧
          bytesRead es = inArr b.arr ps ∧ WritesNoByte s es ∧ es.length ≤ ps.length + 10 * rs.length + 2 * slotsOf m + 4 * spilled s i + 5 := by
  obtain ⟨rep, ps, s', k1, k2, k3, kp, k4⟩ := decodes hc hf hm ha hw hb hl hr ht
  refine ⟨ps, s', k3, kp, fun rt d => ⟨(k4 rt d).1, fun fuel hfu => ?_⟩⟩
  obtain ⟨es, h1, h2, h3⟩ := (k4 rt d).2 fuel hfu
  have hd := does_decode (p := programOf U fs) (n := d + 1) (d := d + 2) (rt := rt) (m := fuel) (s := s) (i := i) k1 k2 (b := b) h1
  refine ⟨_, hd, ?_, ?_, ?_⟩
  · exact h2
  · have := may_noByte hc (reading_le s) (May.decode (b := b) (i := i) (lv := 1) (lv' := 1) hf hm (if_pos hn) (Nat.le_refl _) (fun q _ _ => trivial) (Nat.le_refl _) (by omega) (by omega)) rt fuel d
    rwa [show (grun (programOf U fs) rt fuel d m.getName t!"Decode" [.ptr m.getName i, .val (.bytes (.mem b))]).trace s = _ from hd.2] at this
  · simp only [List.length_cons]; omega

/-- C71: the getter of a message field reads the length of the value and then decodes it as `Decode` does: of the bytes of the other fields it reads none. -/
theorem C71_message {i : Nat} {s : GSt} (h : Made U fs m i s) {fd : Field} (hfd : MessageField m fd) {bs A tag pay B : List Byte}
    (hl : LastRecord (num fd) (.bytes bs) (s.h.w.slice (s.h.ms i).buf).data A tag pay B)
    {f' : FileDesc} (hf' : f' ∈ fs) {m' : Desc} (hm' : some m' ∈ f'.messageType) (hg : m'.getName = goType fd)
    {j : Nat} (ha : (s.h.ms j).a.length = slotsOf m') (hw : s.h.w.WF (s.h.ms j)) (hj : j < s.next) {rs : List Wire.Record} (hr : IsMessage rs bs) (ht : Conforms m' rs) :
    ∃ ps s', Skims ((s.h.ms i).buf.off + (A ++ tag).length + (pay.length - bs.length)) rs bs ps ∧ ∀ rt d,
      G.run (programOf U fs) rt d m.getName (goName U fd) [.ptr m.getName i, .ptr (goType fd) j] s = .ok ([.val (.bool true), .val .nil], s') ∧ ∀ fuel, rs.length < fuel →
        ∃ es, Does (grun (programOf U fs) rt fuel d m.getName (goName U fd) [.ptr m.getName i, .ptr (goType fd) j]) s [.val (.bool true), .val .nil] s' es ∧
          bytesRead es = inArr (s.h.ms i).buf.arr (List.range' ((s.h.ms i).buf.off + (A ++ tag).length) (pay.length - bs.length) ++ ps) ∧ WritesNoByte s es ∧
          es.length ≤ pay.length - bs.length + ps.length + 10 * rs.length + 2 * slotsOf m' + 4 * spilled s j + 9 := by
  obtain ⟨hv, rs0, c, a1, a2, a3⟩ := made_tracks hc hf hm h
  obtain ⟨rs1, h1⟩ := hl.before
  obtain ⟨rs2, h2, h3⟩ := hl.behind
  obtain ⟨cs1, cs2, r1, r2, r3, r4, r5, r6⟩ := chunks_around a3.1.holds hl.split h1 hl.tag hl.payload h2
  obtain ⟨e1, e2⟩ := message_schema hv hfd
  have hloc := r1.located_last rfl e2 rfl fun d hd => h3 d.record (by rw [← r5]; exact List.mem_map_of_mem hd)
  rw [r2, r3] at hloc
  have hll : (A ++ tag).length + pay.length + B.length < maxLen := hloc.lens
  have hpl : bs.length ≤ pay.length := by obtain ⟨lb, _, e⟩ := hl.payload; rw [e]; simp
  obtain ⟨t, t1, t2, t3, t4, t5, t6, t7⟩ := atBytes_at (s := s) (i := i) a1.1 hloc hl.payload (fun t => .bytes (.mem t))
  have hget : ∀ rt fuel d, Does (goCall rt fuel (d + 2) .GetBytes [.bytes (.mem (s.h.ms i).buf), .offs i, .const (num fd)]) s [.bytes (.mem t)] s _ :=
    fun rt fuel d => (prog_GetBytes rt fuel d i (num fd) (s.h.ms i).buf) ▸ getP_at hloc ⟨t1, t2⟩
  have hfind : finding s i (num fd) = lookedUp s i (num fd) (A ++ tag).length := finding_at r1.inv (by unfold maxLen at hll; omega) hloc.get
  rw [hfind] at hget
  obtain ⟨rep, ps, s', k1, k2, k3, _, k4⟩ := decodes hc hf' hm' (i := j) (b := t) ha hw t6 (by omega) (by rw [t7]; exact hr) ht
  rw [t7] at k3
  rw [t4] at k3
  rw [hg] at k1 k2 k4
  have hgm := hc.program.method (sub_of (U := U) hf hm _ (decl_message hv hfd).1) rfl
  have key : ∀ rt d fuel, rs.length < fuel → ∃ es, Does (grun (programOf U fs) rt fuel d m.getName (goName U fd) [.ptr m.getName i, .ptr (goType fd) j]) s [.val (.bool true), .val .nil] s' es ∧
      bytesRead es = inArr (s.h.ms i).buf.arr (List.range' ((s.h.ms i).buf.off + (A ++ tag).length) (pay.length - bs.length) ++ ps) ∧
      es.length ≤ pay.length - bs.length + ps.length + 10 * rs.length + 2 * slotsOf m' + 4 * spilled s j + 9 := by
    intro rt d fuel hfu
    obtain ⟨es, g1, g2, g3⟩ := (k4 rt d).2 fuel hfu
    refine ⟨_, does_getMessage (p := programOf U fs) (n := d + 1) (d := d + 2) (rt := rt) (m := fuel) (s := s) (i := i) (j := j) hgm rfl (hget rt fuel (d + 1))
      (does_tail (n := d) k1 k2 (b := t) rfl rfl g1), ?_, ?_⟩
    · simp only [bytesRead_cons_buf, bytesRead_append, lookedUp_bytes, bytesRead_cells, bytesRead_cons_wbuf, g2, inArr, List.nil_append, List.map_append, t3]
    · have := lookedUp_length s i (num fd) (A ++ tag).length
      simp only [List.length_cons, List.length_append, cells_length] at this ⊢
      omega
  refine ⟨ps, s', k3, fun rt d => ⟨?_, fun fuel hfu => ?_⟩⟩
  · obtain ⟨x1, x2, ⟨_, x3⟩, nums, x4⟩ := hc.target hf hm (.inl hfd)
    have hlast : c.sing (num fd) = some (.bytes bs) := by
      rw [← a3.2.2.1 _ e2, r6, lastVal_at h3]
    rcases C63_presence_at hc.program (decls_implements U m hv) (sub_of (U := U) hf hm) a1 a3 (decl_message hv hfd).1 x2 x4 rt d j hw with ⟨y1, _⟩ | ⟨bs', b, y1, y2, y3, y4, y5⟩
    · rw [hlast] at y1; cases y1
    · rw [hlast] at y1
      injection y1 with y1
      injection y1 with y1
      subst y1
      obtain ⟨_, _, s'', _, _, _, _, z⟩ := decodes hc hf' hm' (i := j) (b := b) ha hw y3 (by rw [← World.slice_len y3]; show (s.h.w.slice b).data.length < _; rw [y4]; omega) (by rw [y4]; exact hr) ht
      have z := (z rt d).1
      rw [hg] at z
      rw [z] at y5
      have y5 : G.run (programOf U fs) rt d m.getName (goName U fd) [.ptr m.getName i, .ptr (goType fd) j] s = .ok ([.val (.bool true), .val .nil], s'') := y5
      obtain ⟨_, w⟩ := same_result (n := rs.length) y5 fun fuel hfu => (key rt d fuel hfu).choose_spec.1.1
      rw [y5, w]
  · obtain ⟨es, g1, g2, g3⟩ := key rt d fuel hfu
    refine ⟨es, g1, g2, ?_, g3⟩
    have := may_noByte hc (reading_le s) (May.message (i := i) (j := j) (lv := 1) (lj := 1) hf hm hfd (if_pos a2) (if_pos hj) (Nat.le_refl _)) rt fuel d
    rwa [g1.2] at this

/-- C71: the getter of a message field that the message does not have reads no byte and leaves the other struct alone. -/
theorem C71_message_absent {i : Nat} {s : GSt} (h : Made U fs m i s) {fd : Field} (hfd : MessageField m fd)
    (hl : NoRecord (num fd) (s.h.w.slice (s.h.ms i).buf).data) (j : Nat) (hw : s.h.w.WF (s.h.ms j)) (rt : Rt) (d : Nat) :
    G.run (programOf U fs) rt d m.getName (goName U fd) [.ptr m.getName i, .ptr (goType fd) j] s = .ok ([.val (.bool false), .val .nil], s) ∧ ∀ fuel,
      Does (grun (programOf U fs) rt fuel d m.getName (goName U fd) [.ptr m.getName i, .ptr (goType fd) j]) s [.val (.bool false), .val .nil] s
        [.reads (.buf i), .reads (.slot i (num fd))] := by
  obtain ⟨hv, rs, c, a1, a2, a3⟩ := made_tracks hc hf hm h
  obtain ⟨cs, r1, r2⟩ := a3.1.holds
  obtain ⟨e1, e2⟩ := message_schema hv hfd
  obtain ⟨rs', h1, h2⟩ := hl
  have hrs : rs' = rs := isMessage_unique h1 a3.1.holds.isMessage
  subst hrs
  have hg := r1.get_none ((schemaOf m hv).kind_lt _ (by rw [e1]; simp)) (fun c hc => h2 c.record (by rw [← r2]; exact List.mem_map_of_mem hc))
  have hget : ∀ rt fuel d, Does (goCall rt fuel (d + 2) .GetBytes [.bytes (.mem (s.h.ms i).buf), .offs i, .const (num fd)]) s [.nil] s _ :=
    fun rt fuel d => (prog_GetBytes rt fuel d i (num fd) (s.h.ms i).buf) ▸ getP_absent hg
  rw [show finding s i (num fd) = _ from finding_absent hg] at hget
  refine ⟨?_, fun fuel => does_getMessage (p := programOf U fs) (n := d + 1) (d := d + 2) (rt := rt) (m := fuel) (s := s) (i := i) (j := j)
    (hc.program.method (sub_of (U := U) hf hm _ (decl_message hv hfd).1) rfl) rfl (hget rt fuel (d + 1)) (does_tail_nil rfl)⟩
  obtain ⟨x1, x2, ⟨_, x3⟩, nums, x4⟩ := hc.target hf hm (.inl hfd)
  rcases C63_presence_at hc.program (decls_implements U m hv) (sub_of (U := U) hf hm) a1 a3 (decl_message hv hfd).1 x2 x4 rt d j hw with ⟨_, y⟩ | ⟨bs', b, y1, _⟩
  · exact y
  · rw [← a3.2.2.1 _ e2] at y1
    exact absurd rfl (h2 _ (lastVal_mem y1))

/-- C71: the getter of a repeated message field looks up the field and reads no byte. The iterator begins where the first element does. -/
theorem C71_iterate {i : Nat} {s : GSt} (h : Made U fs m i s) {fd : Field} (hfd : RepeatedField m fd) {v : Wire.Val} {A tag pay B : List Byte}
    (hl : FirstRecord (num fd) v (s.h.w.slice (s.h.ms i).buf).data A tag pay B) :
    ∃ b : HSlice, b.arr = (s.h.ms i).buf.arr ∧ b.off = (s.h.ms i).buf.off + (A ++ tag).length ∧ s.h.w.WFs b ∧ (s.h.w.slice b).data = pay ++ B ∧ ∀ rt d,
      G.run (programOf U fs) rt d m.getName (goName U fd) [.ptr m.getName i] s = .ok ([.val (.bytes (.mem b))], s) ∧ ∀ fuel,
        Does (grun (programOf U fs) rt fuel d m.getName (goName U fd) [.ptr m.getName i]) s [.val (.bytes (.mem b))] s
          (.reads (.buf i) :: lookedUp s i (num fd) (A ++ tag).length) := by
  obtain ⟨hv, rs, c, a1, a2, a3⟩ := made_tracks hc hf hm h
  obtain ⟨rs1, h1, h3⟩ := hl.before
  obtain ⟨rs2, h2⟩ := hl.behind
  obtain ⟨cs1, cs2, r1, r2, r3, r4, r5, r6⟩ := chunks_around a3.1.holds hl.split h1 hl.tag hl.payload h2
  obtain ⟨e1, e2⟩ := repeated_schema hv hfd
  have hloc := r1.located_first rfl e2 rfl fun d hd => h3 d.record (by rw [← r4]; exact List.mem_map_of_mem hd)
  rw [r2, r3] at hloc
  have hll : (A ++ tag).length + pay.length + B.length < maxLen := hloc.lens
  obtain ⟨t, t1, t2, t3, t4⟩ := drop_at a1.1 hloc.data
  have hat : (atRest (s.h.ms i).buf (BitVec.ofNat 64 (A ++ tag).length)).run s = .ok ([.bytes (.mem t)], s) ∧ (atRest (s.h.ms i).buf (BitVec.ofNat 64 (A ++ tag).length)).trace s = [] := by
    unfold atRest
    rw [ofNat64_toNat (by unfold maxLen at hll; omega), lift_bind_of (a := t) (by rw [t1]; rfl)]
    exact ⟨rfl, rfl⟩
  have hget : ∀ rt fuel d, Does (goCall rt fuel (d + 2) .GetRepeatedNonPacked [.bytes (.mem (s.h.ms i).buf), .offs i, .const (num fd)]) s [optVal (some t)] s _ :=
    fun rt fuel d => (prog_GetRepeatedNonPacked rt fuel d i (num fd) (s.h.ms i).buf) ▸ getP_at hloc hat
  have hfind : finding s i (num fd) = lookedUp s i (num fd) (A ++ tag).length := finding_at r1.inv (by unfold maxLen at hll; omega) hloc.get
  rw [hfind, List.append_nil] at hget
  have hit := hc.program.iter (sub_of (U := U) hf hm _ (decl_repeated hv hfd).1)
  have key : ∀ rt d fuel, Does (grun (programOf U fs) rt fuel d m.getName (goName U fd) [.ptr m.getName i]) s [.val (.bytes (.mem t))] s
          (.reads (.buf i) :: lookedUp s i (num fd) (A ++ tag).length) := fun rt d fuel =>
    does_getRepeated (p := programOf U fs) (n := d + 1) (d := d + 2) (rt := rt) (m := fuel) (s := s) (i := i) (hc.program.method (sub_of (U := U) hf hm _ (decl_repeated hv hfd).2.2.1) rfl) hit (hget rt fuel (d + 1))
  refine ⟨t, t2.arr, t2.off, t3, t4, fun rt d => ⟨?_, key rt d⟩⟩
  obtain ⟨s0, ops, h0, hn, hr⟩ := h
  obtain ⟨its, g1, _⟩ := (C65_program hc hf hm h0 hn hr).repeated fd hfd
  obtain ⟨e, _⟩ := same_result (n := 0) (g1 rt d) fun fuel _ => (key rt d fuel).1
  rw [g1, e]

/-- C71: the getter of a repeated message field without elements. -/
theorem C71_iterate_absent {i : Nat} {s : GSt} (h : Made U fs m i s) {fd : Field} (hfd : RepeatedField m fd)
    (hl : NoRecord (num fd) (s.h.w.slice (s.h.ms i).buf).data) (rt : Rt) (d : Nat) :
    G.run (programOf U fs) rt d m.getName (goName U fd) [.ptr m.getName i] s = .ok ([.val .nil], s) ∧ ∀ fuel,
      Does (grun (programOf U fs) rt fuel d m.getName (goName U fd) [.ptr m.getName i]) s [.val .nil] s [.reads (.buf i), .reads (.slot i (num fd))] := by
  obtain ⟨hv, rs, c, a1, a2, a3⟩ := made_tracks hc hf hm h
  obtain ⟨cs, r1, r2⟩ := a3.1.holds
  obtain ⟨e1, e2⟩ := repeated_schema hv hfd
  obtain ⟨rs', h1, h2⟩ := hl
  have hrs : rs' = rs := isMessage_unique h1 a3.1.holds.isMessage
  subst hrs
  have hg := r1.get_none ((schemaOf m hv).kind_lt _ (by rw [e1]; simp)) (fun c hc => h2 c.record (by rw [← r2]; exact List.mem_map_of_mem hc))
  have hget : ∀ rt fuel d, Does (goCall rt fuel (d + 2) .GetRepeatedNonPacked [.bytes (.mem (s.h.ms i).buf), .offs i, .const (num fd)]) s [optVal none] s _ :=
    fun rt fuel d => (prog_GetRepeatedNonPacked rt fuel d i (num fd) (s.h.ms i).buf) ▸ getP_absent hg
  rw [show finding s i (num fd) = _ from finding_absent hg] at hget
  have hit := hc.program.iter (sub_of (U := U) hf hm _ (decl_repeated hv hfd).1)
  have key : ∀ fuel, Does (grun (programOf U fs) rt fuel d m.getName (goName U fd) [.ptr m.getName i]) s [.val .nil] s [.reads (.buf i), .reads (.slot i (num fd))] := fun fuel =>
    does_getRepeated (p := programOf U fs) (n := d + 1) (d := d + 2) (rt := rt) (m := fuel) (s := s) (i := i) (hc.program.method (sub_of (U := U) hf hm _ (decl_repeated hv hfd).2.2.1) rfl) hit (hget rt fuel (d + 1))
  refine ⟨?_, key⟩
  obtain ⟨s0, ops, h0, hn, hr⟩ := h
  obtain ⟨its, g1, _⟩ := (C65_program hc hf hm h0 hn hr).repeated fd hfd
  obtain ⟨e, _⟩ := same_result (n := 0) (g1 rt d) fun fuel _ => (key fuel).1
  rw [g1, e]

/-- C71: `Encode` reads the reference to the buffer and nothing else. -/
theorem C71_encode (i : Nat) (s : GSt) (rt : Rt) (d : Nat) :
    G.run (programOf U fs) rt d m.getName t!"Encode" [.ptr m.getName i] s = .ok ([.val (.bytes (.mem (s.h.ms i).buf))], s) ∧ ∀ fuel,
      Does (grun (programOf U fs) rt fuel d m.getName t!"Encode" [.ptr m.getName i]) s [.val (.bytes (.mem (s.h.ms i).buf))] s [.reads (.buf i)] := by
  have hd := sub_of (U := U) hf hm _ (decls_implements U m (hc.valid f hf m hm)).fixed.1
  exact ⟨C63_encode hc.program rt d s hd, fun fuel => does_encode (hc.program.method hd rfl)⟩

/-- C71: `Next` of an iterator reads the length of the element, then the bytes behind the element up to the tag of the next one, as `Decode` would read them, and decodes the element. The element
is at `b.off + lb.length`, and behind it is `rest`. -/
theorem C71_next {v j : Nat} {s : GSt} {fd : Field} (hfd : RepeatedField m fd) {b : HSlice} (hv : s.its v = some b) (hb : s.h.w.WFs b) (hl : b.len < maxLen)
    {lb el rest : List Byte} (hd : (s.h.w.slice b).data = lb ++ (el ++ rest)) (hlb : IsVarint el.length lb) {rs : List Wire.Record} (hr : IsMessage rs rest)
    {f' : FileDesc} (hf' : f' ∈ fs) {m' : Desc} (hm' : some m' ∈ f'.messageType) (hg : m'.getName = goType fd)
    (ha : (s.h.ms j).a.length = slotsOf m') (hw : s.h.w.WF (s.h.ms j)) (hj : j < s.next) {rs' : List Wire.Record} (hr' : IsMessage rs' el) (ht : Conforms m' rs') :
    ∃ ps qs s', Seeks (num fd) (b.off + lb.length + el.length) rs rest ps ∧ Skims (b.off + lb.length) rs' el qs ∧ ∀ rt d,
      G.run (programOf U fs) rt d (iterOf m fd) t!"Next" [.iter (iterOf m fd) v, .ptr (goType fd) j] s = .ok ([.val (.bool true), .val .nil], s') ∧ ∀ fuel, rs.length < fuel → rs'.length < fuel →
        ∃ es, Does (grun (programOf U fs) rt fuel d (iterOf m fd) t!"Next" [.iter (iterOf m fd) v, .ptr (goType fd) j]) s [.val (.bool true), .val .nil] s' es ∧
          bytesRead es = inArr b.arr (List.range' b.off lb.length ++ ps ++ qs) ∧ WritesNoByte s es ∧
          es.length ≤ lb.length + ps.length + qs.length + 10 * rs'.length + 2 * slotsOf m' + 4 * spilled s j + 7 := by
  have hval := hc.valid f hf m hm
  obtain ⟨cs, c1, c2, c3⟩ := isMessage_iff.1 hr
  have hcl : cs.length = rs.length := by rw [← c3]; simp [records]
  have hlen : b.len = lb.length + (el.length + rest.length) := by rw [← s.h.w.slice_len hb]; show (s.h.w.slice b).data.length = _; rw [hd]; simp
  obtain ⟨o, t, h1, ⟨t1, t2, t3, t4, t5⟩, _⟩ := findNext_at (f := num fd) hl hb hlb (by rw [hd, ← c1]) c2
  rw [hcl] at h1
  obtain ⟨rep, qs, s', k1, k2, k3, _, k4⟩ := decodes hc hf' hm' (s := (Write.iter v o).apply s) (i := j) (b := t) ha hw t4 (by omega) (by rw [← t5] at hr'; exact hr') ht
  have k3 : Skims t.off rs' (s.h.w.slice t).data qs := k3
  rw [t5, t2] at k3
  rw [hg] at k1 k2 k4
  have hseek := seeks_of (f := num fd) (q := b.off + lb.length + el.length) c2
  rw [c1, c3] at hseek
  have hnm := hc.program.method (sub_of (U := U) hf hm _ (decl_repeated hval hfd).2.1) rfl
  have key : ∀ rt d fuel, rs.length < fuel → rs'.length < fuel → ∃ es, Does (grun (programOf U fs) rt fuel d (iterOf m fd) t!"Next" [.iter (iterOf m fd) v, .ptr (goType fd) j]) s
      [.val (.bool true), .val .nil] s' es ∧ bytesRead es = inArr b.arr (List.range' b.off lb.length ++ seek (num fd) (b.off + lb.length + el.length) cs ++ qs) ∧
      es.length ≤ lb.length + (seek (num fd) (b.off + lb.length + el.length) cs).length + qs.length + 10 * rs'.length + 2 * slotsOf m' + 4 * spilled s j + 7 := by
    intro rt d fuel hfu hfu'
    obtain ⟨es, g1, g2, g3⟩ := (k4 rt d).2 fuel hfu'
    refine ⟨_, does_next (p := programOf U fs) (n := d + 1) (d := d + 2) (rt := rt) (m := fuel) (s := s) (v := v) (j := j) hnm (ob := some b) hv rfl (h1 rt (d + 1) fuel hfu)
      (does_tail (n := d) k1 k2 (b := t) rfl rfl g1), ?_, ?_⟩
    · have e : ∀ es, bytesRead (.reads (.iter v) :: es) = bytesRead es := fun _ => rfl
      have e' : ∀ es, bytesRead (.writes (.iter v) :: es) = bytesRead es := fun _ => rfl
      have e'' : ∀ a ps, bytesRead (cellsAt a ps) = inArr a ps := by
        intro a ps
        induction ps with
        | nil => rfl
        | cons p ps ih => exact congrArg ((a, p) :: ·) ih
      simp only [e, e', e'', bytesRead_append, bytesRead_cells, bytesRead_cons_wbuf, bytesRead_cons_buf, g2, inArr, List.map_append, t1, List.append_assoc]
    · simp only [List.length_cons, List.length_append, cells_length, cellsAt, List.length_map]
      have : spilled ((Write.iter v o).apply s) j = spilled s j := rfl
      omega
  refine ⟨_, qs, s', hseek, k3, fun rt d => ⟨?_, fun fuel hfu hfu' => ?_⟩⟩
  · have hi := decls_implements U m' (hc.valid f' hf' m' hm')
    have hsub' := sub_of (U := U) hf' hm'
    obtain ⟨nums, n1, n2⟩ := hi.table
    have x2 := hsub' _ hi.fixed.2.1
    have x4 := hsub' _ ((n1 _ _).2 ⟨rfl, rfl⟩)
    rw [hg] at x2 x4
    have h := C63_next hc.program rt d s (i := v) (j := j) (sub_of (U := U) hf hm _ (decl_repeated hval hfd).2.1) x2 x4 (by rw [hv]; intro b' e; cases e; exact hb) hw
    rw [hv, rep_table n2] at h
    obtain ⟨o', q, g1, g2, g3⟩ := hFindNextField_ok hb hl hlb hd hr (num fd)
    have hty := (conforms_typed (hc.valid f' hf' m' hm')).1 ht
    have hql : (s.h.w.slice q).len < maxLen := by show (s.h.w.slice q).data.length < _; rw [g3]; omega
    obtain ⟨u, d1, _⟩ := decode_holds (S := schemaOf m' (hc.valid f' hf' m' hm')) (m := s.h.w.msg (s.h.ms j)) ha hql (by rw [g3]; exact hr') (fun r hr => (hty r hr).1)
    have hrf := decode_refines (schemaOf m' (hc.valid f' hf' m' hm')).rep hw g2
    rw [d1] at hrf
    obtain ⟨x', w', z, _⟩ := hrf
    have hn : hNext (schemaOf m' (hc.valid f' hf' m' hm')).rep s.h.w (some b) (num fd) (s.h.ms j) = .ok (o', x', w', true, none) := by
      unfold hNext
      rw [g1]
      simp only [bind, Except.bind, z]
      rfl
    rw [hn] at h
    obtain ⟨_, w⟩ := same_result (n := rs.length + rs'.length) h fun fuel hfu => (key rt d fuel (by omega) (by omega)).choose_spec.1.1
    rw [h]
    exact congrArg (fun t => Except.ok ([GVal.val (.bool true), .val .nil], t)) w
  · obtain ⟨es, g1, g2, g3⟩ := key rt d fuel hfu hfu'
    refine ⟨es, g1, g2, ?_, g3⟩
    have := may_noByte hc (reading_le s) (May.next (v := v) (j := j) (lj := 1) hf hm hfd trivial (if_pos hj) (Nat.le_refl _)) rt fuel d
    rwa [g1.2] at this

/-- C71: `Next` at the end. -/
theorem C71_next_end {v j : Nat} {s : GSt} {fd : Field} (hfd : RepeatedField m fd) (hv : s.its v = none) (hw : s.h.w.WF (s.h.ms j)) (rt : Rt) (d : Nat) :
    G.run (programOf U fs) rt d (iterOf m fd) t!"Next" [.iter (iterOf m fd) v, .ptr (goType fd) j] s = .ok ([.val (.bool false), .val .nil], s) ∧ ∀ fuel,
      Does (grun (programOf U fs) rt fuel d (iterOf m fd) t!"Next" [.iter (iterOf m fd) v, .ptr (goType fd) j]) s [.val (.bool false), .val .nil] s [.reads (.iter v), .writes (.iter v)] := by
  have hval := hc.valid f hf m hm
  have hsub := sub_of (U := U) hf hm
  have e : (Write.iter v none).apply s = s := by
    simp only [Write.apply]
    have : (fun u => if u = v then none else s.its u) = s.its := by
      funext u
      split
      · next e => rw [e, hv]
      · rfl
    rw [this]
  have key : ∀ fuel, Does (grun (programOf U fs) rt fuel d (iterOf m fd) t!"Next" [.iter (iterOf m fd) v, .ptr (goType fd) j]) s [.val (.bool false), .val .nil] s [.reads (.iter v), .writes (.iter v)] := by
    intro fuel
    exact does_next (p := programOf U fs) (n := d + 1) (d := d + 2) (rt := rt) (m := fuel) (s := s) (v := v) (j := j) (hc.program.method (hsub _ (decl_repeated hval hfd).2.1) rfl) (ob := none) (o := none) hv rfl
      (by
        have e : goCall rt fuel (d + 2 + 1) .FindNextField [optVal none, .const (num fd)] = .done [.nil, .nil] := prog_FindNil rt fuel (d + 1) (num fd)
        rw [e]; exact does_done _ _) (does_tail_nil (s := (Write.iter v none).apply s) rfl |> fun h => by rw [e] at h ⊢; exact h)
  refine ⟨?_, key⟩
  obtain ⟨x1, x2, _, nums, x4⟩ := hc.target hf hm (.inr hfd)
  have h := C63_next hc.program rt d s (i := v) (j := j) (hsub _ (decl_repeated hval hfd).2.1) x2 x4 (by rw [hv]; nofun) hw
  rw [hv] at h
  obtain ⟨e1, e2⟩ := same_result (n := 0) (h.trans rfl) fun fuel _ => (key fuel).1
  rw [h]
  exact congrArg (fun t => Except.ok ([GVal.val (.bool false), .val .nil], t)) e2

/-- C71: `Reset` with no bytes, `nil` or an empty slice, reads no byte and writes none. -/
theorem C71_reset {i : Nat} {s : GSt} (hw : s.h.w.WF (s.h.ms i)) (hn : i < s.next) {v : Val} {b : HSlice} (hv : (v = .nil ∧ b = ⟨0, 0, 0, 0⟩) ∨ v = .bytes (.mem b) ∧ b.len = 0) :
    ∃ s', ∀ rt d, G.run (programOf U fs) rt d m.getName t!"Reset" [.ptr m.getName i, .val v] s = .ok ([], s') ∧ ∀ fuel,
      ∃ es, Does (grun (programOf U fs) rt fuel d m.getName t!"Reset" [.ptr m.getName i, .val v]) s [] s' es ∧ bytesRead es = [] ∧ WritesNoByte s es ∧
        es.length ≤ 2 * (s.h.ms i).a.length + 4 * spilled s i + 4 := by
  have hd := sub_of (U := U) hf hm _ (decls_implements U m (hc.valid f hf m hm)).fixed.2.2
  have hb0 : ¬ b.len > 0 := by
    rcases hv with ⟨_, rfl⟩ | ⟨_, h⟩
    · exact Nat.lt_irrefl 0
    · omega
  have hrun : ∃ s', ∀ rt d, G.run (programOf U fs) rt d m.getName t!"Reset" [.ptr m.getName i, .val v] s = .ok ([], s') := by
    obtain ⟨r, hr⟩ : ∃ r, HMsg.reset s.h.w (s.h.ms i) b = .ok r := ⟨_, if_neg hb0⟩
    rcases hv with ⟨rfl, rfl⟩ | ⟨rfl, h⟩
    · refine ⟨{ s with h := s.h.upd i r }, fun rt d => ?_⟩
      rw [C63_reset_nil hc.program rt d s hd hw, show HSlice.nil = ⟨0, 0, 0, 0⟩ from rfl, hr]
      rfl
    · refine ⟨{ s with h := s.h.upd i r }, fun rt d => ?_⟩
      rw [C63_reset hc.program rt d s hd b hw, hr]
      rfl
  obtain ⟨s', hrun⟩ := hrun
  refine ⟨s', fun rt d => ⟨hrun rt d, fun fuel => ?_⟩⟩
  have e1 : (((Write.buf i b).apply s).h.ms i).a = (s.h.ms i).a := by simp only [Write.apply, Heap.put, if_true]
  have e2 : spilled ((Write.buf i b).apply s) i = spilled s i := by unfold spilled; simp only [Write.apply, Heap.put, if_true]
  obtain ⟨s1, c1, _, c3, c4⟩ := clear_at rt i ((Write.buf i b).apply s)
  rw [e1, e2] at c4
  have key : ∀ fuel, Does (grun (programOf U fs) rt fuel d m.getName t!"Reset" [.ptr m.getName i, .val v]) s [] s1 _ := fun fuel =>
    does_reset (p := programOf U fs) (n := d + 1) (d := d + 2) (rt := rt) (m := fuel) (hc.program.method hd rfl) hv ⟨by rw [prog_Clear]; exact c1, by rw [prog_Clear]⟩
  obtain ⟨_, e⟩ := same_result (n := 0) (hrun rt d) fun fuel _ => (key fuel).1
  subst e
  refine ⟨_, key fuel, c3, ?_, ?_⟩
  · have hm2 : May U fs (fun _ => True) (fun l => ∀ a q, l = .cell a q → s.h.w.arrs.length ≤ a) (reading s) m.getName t!"Reset" [.ptr m.getName i, .val v] ((reading s).set i 2) ∨
      May U fs (fun _ => True) (fun l => ∀ a q, l = .cell a q → s.h.w.arrs.length ≤ a) (reading s) m.getName t!"Reset" [.ptr m.getName i, .val v] ((reading s).set i 1) := by
      rcases hv with ⟨rfl, rfl⟩ | ⟨rfl, h⟩
      · exact .inl (.resetNil (lv := 1) hf hm (if_pos hn) (Nat.le_refl _))
      · exact .inr (.reset (lv := 1) hf hm (if_pos hn) (Nat.le_refl _) (fun q _ _ => trivial) (Nat.le_refl _) (by omega) (by omega))
    have : WritesNoByte s ((grun (programOf U fs) rt fuel d m.getName t!"Reset" [.ptr m.getName i, .val v]).trace s) := by
      rcases hm2 with h | h
      · exact may_noByte hc (reading_le s) h rt fuel d
      · exact may_noByte hc (reading_le s) h rt fuel d
    rwa [(key fuel).2] at this
  · simp only [List.length_cons]; omega

/-- C71: a getter of a scalar field makes at most 14 accesses and reads at most 10 bytes, however long the message is and however many records it has. -/
theorem C71_get_bound {i : Nat} {s : GSt} (h : Made U fs m i s) {fd : Field} {k : Kind} (hfd : ScalarField m fd k) (rt : Rt) (d : Nat) :
    ∃ x es, G.run (programOf U fs) rt d m.getName (goName U fd) [.ptr m.getName i] s = .ok ([.val x], s) ∧
      (∀ fuel, Does (grun (programOf U fs) rt fuel d m.getName (goName U fd) [.ptr m.getName i]) s [.val x] s es) ∧ es.length ≤ 14 ∧ (bytesRead es).length ≤ 10 ∧ ∀ l, .writes l ∉ es := by
  obtain ⟨hv, rs, c, a1, a2, a3⟩ := made_tracks hc hf hm h
  obtain ⟨cs, r1, r2⟩ := a3.1.holds
  have hdata : (s.h.w.slice (s.h.ms i).buf).data = flat cs := r1.data
  by_cases hp : ∃ c ∈ cs, c.num = num fd
  · obtain ⟨pre, c, post, hcs, hcn, hpost⟩ := exists_last hp
    have hwf := r1.wf
    have hcw := hwf c (by rw [hcs]; simp)
    have hlast : LastRecord (num fd) c.val (s.h.w.slice (s.h.ms i).buf).data (flat pre) c.tag c.pay (flat post) := by
      refine ⟨?_, ⟨records pre, ?_⟩, ?_, hcw.pay, records post, ?_, ?_⟩
      · rw [hdata, hcs]; simp [Chunk.bytes]
      · exact isMessage_iff.2 ⟨pre, rfl, fun d hd => hwf d (by rw [hcs]; simp [hd]), rfl⟩
      · rw [← hcn]; exact hcw.tag
      · exact isMessage_iff.2 ⟨post, rfl, fun d hd => hwf d (by rw [hcs]; simp [hd]), rfl⟩
      · intro r hr
        obtain ⟨d, hd, rfl⟩ := List.mem_map.1 hr
        exact hpost d hd
    obtain ⟨x, x1, x2⟩ := C71_get hc hf hm h hfd hlast rt d
    have hh : headLen c.val c.pay ≤ 10 := by
      have := hcw.pay
      cases hval : c.val with
      | varint u => rw [hval] at this; exact Wire.IsVarint.length_le this
      | fixed64 u => rw [hval] at this; simp only [headLen]; rw [show c.pay = _ from this, leBytes_length]; omega
      | fixed32 u => rw [hval] at this; simp only [headLen]; rw [show c.pay = _ from this, leBytes_length]; omega
      | bytes bs =>
        rw [hval] at this
        obtain ⟨lb, h1, h2⟩ := this
        have := h1.length_le
        simp only [headLen]
        rw [h2, List.length_append]
        omega
    refine ⟨x, _, x1, x2, ?_, ?_, ?_⟩
    · have := lookedUp_length s i (num fd) (flat pre ++ c.tag).length
      simp only [List.length_cons, List.length_append, cells_length] at this ⊢
      omega
    · rw [bytesRead_cons_buf, bytesRead_append, lookedUp_bytes, bytesRead_cells]
      simpa using hh
    · intro l hl
      simp only [List.mem_cons, List.mem_append, cells, List.mem_map, lookedUp] at hl
      rcases hl with hl | (hl | hl) | ⟨_, _, hl⟩
      · cases hl
      · cases hl
      · split at hl
        · cases hl
        · cases hm' : (s.h.ms i).m <;> simp [hm'] at hl
      · cases hl
  · have hno : NoRecord (num fd) (s.h.w.slice (s.h.ms i).buf).data := by
      refine ⟨records cs, isMessage_iff.2 ⟨cs, hdata.symm, r1.wf, rfl⟩, ?_⟩
      intro r hr
      obtain ⟨d, hd, rfl⟩ := List.mem_map.1 hr
      exact fun e => hp ⟨d, hd, e⟩
    obtain ⟨x, x1, x2⟩ := C71_get_absent hc hf hm h hfd hno rt d
    exact ⟨x, _, x1, x2, by simp, Nat.zero_le _, by simp⟩

end

/-! ## The hypotheses are met -/

section
open Zeropb.GoSrc.E (testFile_compilable testFile_has testField)

/-- An encoding of `TestMessage`: string = "hey", int32 = 300, message = {string = "x"}, and two elements of messages, {} and {bool = true}. -/
def skimmed : List Byte := [0x72#8, 0x03#8, 0x68#8, 0x65#8, 0x79#8, 0x10#8, 0xac#8, 0x02#8, 0x8a#8, 0x01#8, 0x03#8, 0x72#8, 0x01#8, 0x78#8,
  0x92#8, 0x02#8, 0x00#8, 0x92#8, 0x02#8, 0x02#8, 0x08#8, 0x01#8]

def skimmedRecords : List Wire.Record := [⟨14, .bytes [0x68#8, 0x65#8, 0x79#8]⟩, ⟨2, .varint 300#64⟩, ⟨17, .bytes [0x72#8, 0x01#8, 0x78#8]⟩, ⟨34, .bytes []⟩, ⟨34, .bytes [0x08#8, 0x01#8]⟩]

/-- Two zero structs, and the message in memory. -/
def skimState : GSt := ⟨⟨⟨[skimmed], []⟩, fun _ => .zero 35⟩, 2, fun _ => none⟩

theorem skim1 (b : Byte) (h : b.toNat < 128) : IsMinVarint b.toNat [b] := ⟨⟨[], b, rfl, nofun, h, by simp, by simp [varintValue]; omega, by omega⟩, .inl rfl⟩

theorem skimmed_min : IsMinTagMessage skimmedRecords skimmed := by
  have t17 : IsMinVarint 138 [0x8a#8, 0x01#8] := ⟨⟨[0x8a#8], 0x01#8, rfl, by decide, by decide, by decide, by decide, by decide⟩, .inr (by decide)⟩
  have t34 : IsMinVarint 274 [0x92#8, 0x02#8] := ⟨⟨[0x92#8], 0x02#8, rfl, by decide, by decide, by decide, by decide, by decide⟩, .inr (by decide)⟩
  have v300 : IsVarint 300 [0xac#8, 0x02#8] := ⟨[0xac#8], 0x02#8, rfl, by decide, by decide, by decide, by decide, by decide⟩
  refine .cons (bs := [0x72#8, 0x03#8, 0x68#8, 0x65#8, 0x79#8]) ⟨[0x72#8], _, rfl, skim1 0x72#8 (by decide), [0x03#8], (skim1 0x03#8 (by decide)).1, rfl⟩ ?_
  refine .cons (bs := [0x10#8, 0xac#8, 0x02#8]) ⟨[0x10#8], _, rfl, skim1 0x10#8 (by decide), v300⟩ ?_
  refine .cons (bs := [0x8a#8, 0x01#8, 0x03#8, 0x72#8, 0x01#8, 0x78#8]) ⟨[0x8a#8, 0x01#8], _, rfl, t17, [0x03#8], (skim1 0x03#8 (by decide)).1, rfl⟩ ?_
  refine .cons (bs := [0x92#8, 0x02#8, 0x00#8]) ⟨[0x92#8, 0x02#8], _, rfl, t34, [0x00#8], (skim1 0x00#8 (by decide)).1, rfl⟩ ?_
  exact .cons (bs := [0x92#8, 0x02#8, 0x02#8, 0x08#8, 0x01#8]) (rest := []) ⟨[0x92#8, 0x02#8], _, rfl, t34, [0x02#8], (skim1 0x02#8 (by decide)).1, rfl⟩ .nil

theorem test_conforms {rs : List Wire.Record} (h : WellTyped testSchema rs) : Conforms testDesc rs := by
  obtain ⟨hv, e⟩ := C51_golden.2.2
  refine (conforms_typed hv).2 ?_
  rw [e]
  exact h

theorem skimmed_conforms : Conforms testDesc skimmedRecords := by
  refine test_conforms ?_
  intro r hr
  simp only [skimmedRecords, List.mem_cons, List.not_mem_nil, or_false] at hr
  rcases hr with rfl | rfl | rfl | rfl | rfl <;> refine ⟨by decide, ?_⟩ <;> intro k hk <;> cases hk <;> exact ⟨_, rfl⟩

theorem t138 : IsVarint 138 [0x8a#8, 0x01#8] := ⟨[0x8a#8], 0x01#8, rfl, by decide, by decide, by decide, by decide, by decide⟩
theorem t274 : IsVarint 274 [0x92#8, 0x02#8] := ⟨[0x92#8], 0x02#8, rfl, by decide, by decide, by decide, by decide, by decide⟩
theorem t300 : IsVarint 300 [0xac#8, 0x02#8] := ⟨[0xac#8], 0x02#8, rfl, by decide, by decide, by decide, by decide, by decide⟩

theorem skims17 : Skims 17 [⟨34, .bytes [0x08#8, 0x01#8]⟩] [0x92#8, 0x02#8, 0x02#8, 0x08#8, 0x01#8] [17, 18, 19] :=
  Skims.cons (r := ⟨34, .bytes [0x08#8, 0x01#8]⟩) (rs := []) (tag := [0x92#8, 0x02#8]) (pay := [0x02#8, 0x08#8, 0x01#8]) (bs := []) (ps := []) t274 ⟨[0x02#8], (skim1 0x02#8 (by decide)).1, rfl⟩ .nil

theorem skims14 : Skims 14 (skimmedRecords.drop 3) (skimmed.drop 14) [14, 15, 16, 17, 18, 19] :=
  Skims.cons (r := ⟨34, .bytes []⟩) (tag := [0x92#8, 0x02#8]) (pay := [0x00#8]) (ps := [17, 18, 19]) t274 ⟨[0x00#8], (skim1 0x00#8 (by decide)).1, rfl⟩ skims17

theorem skims8 : Skims 8 (skimmedRecords.drop 2) (skimmed.drop 8) [8, 9, 10, 14, 15, 16, 17, 18, 19] :=
  Skims.cons (r := ⟨17, .bytes [0x72#8, 0x01#8, 0x78#8]⟩) (tag := [0x8a#8, 0x01#8]) (pay := [0x03#8, 0x72#8, 0x01#8, 0x78#8]) (ps := [14, 15, 16, 17, 18, 19]) t138
    ⟨[0x03#8], (skim1 0x03#8 (by decide)).1, rfl⟩ skims14

theorem skims5 : Skims 5 (skimmedRecords.drop 1) (skimmed.drop 5) [5, 6, 7, 8, 9, 10, 14, 15, 16, 17, 18, 19] :=
  Skims.cons (r := ⟨2, .varint 300#64⟩) (tag := [0x10#8]) (pay := [0xac#8, 0x02#8]) (ps := [8, 9, 10, 14, 15, 16, 17, 18, 19]) (skim1 0x10#8 (by decide)).1 t300 skims8

theorem skimmed_skims : Skims 0 skimmedRecords skimmed [0, 1, 5, 6, 7, 8, 9, 10, 14, 15, 16, 17, 18, 19] :=
  Skims.cons (r := ⟨14, .bytes [0x68#8, 0x65#8, 0x79#8]⟩) (tag := [0x72#8]) (pay := [0x03#8, 0x68#8, 0x65#8, 0x79#8]) (ps := [5, 6, 7, 8, 9, 10, 14, 15, 16, 17, 18, 19]) (skim1 0x72#8 (by decide)).1
    ⟨[0x03#8], (skim1 0x03#8 (by decide)).1, rfl⟩ skims5

/-- The first record, the first two and the first three. -/
theorem skimmed_heads : IsMessage (skimmedRecords.take 1) (skimmed.take 5) ∧ IsMessage (skimmedRecords.take 2) (skimmed.take 8) ∧ IsMessage (skimmedRecords.take 3) (skimmed.take 14) := by
  have a : IsMessage (skimmedRecords.take 1) (skimmed.take 5) :=
    .cons (bs := skimmed.take 5) (rest := []) ⟨[0x72#8], _, rfl, (skim1 0x72#8 (by decide)).1, [0x03#8], (skim1 0x03#8 (by decide)).1, rfl⟩ .nil
  have b : IsMessage [⟨2, .varint 300#64⟩] [0x10#8, 0xac#8, 0x02#8] := .cons (bs := [0x10#8, 0xac#8, 0x02#8]) (rest := []) ⟨[0x10#8], _, rfl, (skim1 0x10#8 (by decide)).1, t300⟩ .nil
  have c : IsMessage [⟨17, .bytes [0x72#8, 0x01#8, 0x78#8]⟩] [0x8a#8, 0x01#8, 0x03#8, 0x72#8, 0x01#8, 0x78#8] :=
    .cons (bs := [0x8a#8, 0x01#8, 0x03#8, 0x72#8, 0x01#8, 0x78#8]) (rest := []) ⟨[0x8a#8, 0x01#8], _, rfl, t138, [0x03#8], (skim1 0x03#8 (by decide)).1, rfl⟩ .nil
  exact ⟨a, a.append b, (a.append b).append c⟩

theorem sub_skims : Skims 11 [⟨14, .bytes [0x78#8]⟩] [0x72#8, 0x01#8, 0x78#8] [11, 12] :=
  Skims.cons (r := ⟨14, .bytes [0x78#8]⟩) (rs := []) (tag := [0x72#8]) (pay := [0x01#8, 0x78#8]) (bs := []) (ps := []) (skim1 0x72#8 (by decide)).1 ⟨[0x01#8], (skim1 0x01#8 (by decide)).1, rfl⟩ .nil

theorem Skims.isMessage {q : Nat} {rs : List Wire.Record} {bs : List Byte} {ps : List Nat} (h : Skims q rs bs ps) : IsMessage rs bs := by
  induction h with
  | nil => exact .nil
  | cons h1 h2 _ ih => exact .cons ⟨_, _, rfl, h1, h2⟩ ih

/-- On golden/test.proto. `Decode` of `skimmed` reads the tags and the lengths and the 300, at positions 0, 1, 5 to 10 and 14 to 19. After that `String()` reads byte 1, `Int32()` reads the
bytes 6 and 7, `Bool()` reads none, `Message(&y)` reads bytes 10, 11 and 12, and `Messages()` reads none. -/
example (rt : Rt) : ∃ s, Made asciiUnicode [testFile] testDesc 0 s ∧
    (∃ es, Does (grun (programOf asciiUnicode [testFile]) rt 6 0 testDesc.getName t!"Decode" [.ptr testDesc.getName 0, .val (.bytes (.mem ⟨0, 0, 22, 22⟩))]) skimState [.val .nil] s es ∧
      bytesRead es = inArr 0 [0, 1, 5, 6, 7, 8, 9, 10, 14, 15, 16, 17, 18, 19]) ∧
    (∃ fd x es, num fd = 14 ∧ ScalarField testDesc fd .string ∧
      Does (grun (programOf asciiUnicode [testFile]) rt 0 0 testDesc.getName (goName asciiUnicode fd) [.ptr testDesc.getName 0]) s [.val x] s es ∧ bytesRead es = inArr 0 [1]) ∧
    (∃ fd x es, num fd = 2 ∧ ScalarField testDesc fd .int32 ∧
      Does (grun (programOf asciiUnicode [testFile]) rt 0 0 testDesc.getName (goName asciiUnicode fd) [.ptr testDesc.getName 0]) s [.val x] s es ∧ bytesRead es = inArr 0 [6, 7]) ∧
    (∃ fd x es, num fd = 1 ∧ ScalarField testDesc fd .bool ∧
      Does (grun (programOf asciiUnicode [testFile]) rt 0 0 testDesc.getName (goName asciiUnicode fd) [.ptr testDesc.getName 0]) s [.val x] s es ∧ bytesRead es = inArr 0 []) ∧
    (∃ fd s' es, num fd = 17 ∧ MessageField testDesc fd ∧
      Does (grun (programOf asciiUnicode [testFile]) rt 2 0 testDesc.getName (goName asciiUnicode fd) [.ptr testDesc.getName 0, .ptr (goType fd) 1]) s [.val (.bool true), .val .nil] s' es ∧
        bytesRead es = inArr 0 [10, 11, 12]) ∧
    ∃ fd b es, num fd = 34 ∧ RepeatedField testDesc fd ∧
      Does (grun (programOf asciiUnicode [testFile]) rt 0 0 testDesc.getName (goName asciiUnicode fd) [.ptr testDesc.getName 0]) s [.val (.bytes (.mem b))] s es ∧ bytesRead es = [] := by
  have hc := testFile_compilable
  obtain ⟨hf, hm⟩ := testFile_has
  have hsl : slotsOf testDesc = 35 := by decide +kernel
  have hslice : skimState.h.w.slice ⟨0, 0, 22, 22⟩ = ⟨skimmed, []⟩ := by decide +kernel
  have hz : skimState.h.w.WF (skimState.h.ms 0) := ⟨⟨by decide, by decide⟩, nofun⟩
  have hwb : skimState.h.w.WFs ⟨0, 0, 22, 22⟩ := ⟨by decide, by decide +kernel⟩
  obtain ⟨ps, s, k1, kp, k2⟩ := C71_decode hc hf hm (i := 0) (s := skimState) (b := ⟨0, 0, 22, 22⟩) (rs := skimmedRecords) (by rw [hsl]; rfl) hz (by decide) hwb (by decide)
    (by rw [hslice]; exact IsMinTagMessage_isMessage skimmed_min) skimmed_conforms
  have hmade : Made asciiUnicode [testFile] testDesc 0 s := by
    refine ⟨skimState, _, by rw [hsl]; rfl, by decide, .call (rt := rt) (d := 0) (.decode (rs := skimmedRecords) hwb (by decide) (by rw [hslice]; exact skimmed_min) skimmed_conforms) (k2 rt 0).1 (.done _)⟩
  have hd : (s.h.w.slice (s.h.ms 0).buf).data = skimmed := by rw [kp.refers, slice_arrs kp.bytes, hslice]
  have e0 : (s.h.ms 0).buf.arr = 0 := by rw [kp.refers]
  have e1 : (s.h.ms 0).buf.off = 0 := by rw [kp.refers]
  obtain ⟨m1, m2, m3⟩ := skimmed_heads
  refine ⟨s, hmade, ?_, ?_, ?_, ?_, ?_, ?_⟩
  · obtain ⟨es, g1, g2, _⟩ := (k2 rt 0).2 6 (by decide)
    refine ⟨es, g1, ?_⟩
    rw [hslice] at k1
    rw [g2, k1.unique skimmed_skims]
  · obtain ⟨fd, i1, i2, i3, i4⟩ := testField (P := fun fd => (getLabel (some fd) = 1 ∨ getLabel (some fd) = 2) ∧ protoKind (getType (some fd)) = some .string ∧ num fd = 14) (by decide +kernel)
    have hl : LastRecord (num fd) (.bytes [0x68#8, 0x65#8, 0x79#8]) (s.h.w.slice (s.h.ms 0).buf).data [] [0x72#8] [0x03#8, 0x68#8, 0x65#8, 0x79#8] (skimmed.drop 5) := by
      rw [hd, i4]
      exact ⟨rfl, ⟨[], .nil⟩, (skim1 0x72#8 (by decide)).1, ⟨[0x03#8], (skim1 0x03#8 (by decide)).1, rfl⟩, _, skims5.isMessage, by decide⟩
    obtain ⟨x, _, g⟩ := C71_get hc hf hm hmade ⟨i1, i2, i3⟩ hl rt 0
    refine ⟨fd, x, _, i4, ⟨i1, i2, i3⟩, g 0, ?_⟩
    rw [bytesRead_cons_buf, bytesRead_append, lookedUp_bytes, bytesRead_cells, e0, e1]
    rfl
  · obtain ⟨fd, i1, i2, i3, i4⟩ := testField (P := fun fd => (getLabel (some fd) = 1 ∨ getLabel (some fd) = 2) ∧ protoKind (getType (some fd)) = some .int32 ∧ num fd = 2) (by decide +kernel)
    have hl : LastRecord (num fd) (.varint 300#64) (s.h.w.slice (s.h.ms 0).buf).data (skimmed.take 5) [0x10#8] [0xac#8, 0x02#8] (skimmed.drop 8) := by
      rw [hd, i4]
      exact ⟨rfl, ⟨_, m1⟩, (skim1 0x10#8 (by decide)).1, t300, _, skims8.isMessage, by decide⟩
    obtain ⟨x, _, g⟩ := C71_get hc hf hm hmade ⟨i1, i2, i3⟩ hl rt 0
    refine ⟨fd, x, _, i4, ⟨i1, i2, i3⟩, g 0, ?_⟩
    rw [bytesRead_cons_buf, bytesRead_append, lookedUp_bytes, bytesRead_cells, e0, e1]
    rfl
  · obtain ⟨fd, i1, i2, i3, i4⟩ := testField (P := fun fd => (getLabel (some fd) = 1 ∨ getLabel (some fd) = 2) ∧ protoKind (getType (some fd)) = some .bool ∧ num fd = 1) (by decide +kernel)
    have hl : NoRecord (num fd) (s.h.w.slice (s.h.ms 0).buf).data := by
      rw [hd, i4]
      exact ⟨_, skimmed_skims.isMessage, by decide⟩
    obtain ⟨x, _, g⟩ := C71_get_absent hc hf hm hmade ⟨i1, i2, i3⟩ hl rt 0
    exact ⟨fd, x, _, i4, ⟨i1, i2, i3⟩, g 0, rfl⟩
  · obtain ⟨fd, i1, i2, i3, i4, i5⟩ := testField (P := fun fd => (getLabel (some fd) = 1 ∨ getLabel (some fd) = 2) ∧ getType (some fd) = 11 ∧ num fd = 17 ∧ testDesc.getName = goType fd) (by decide +kernel)
    have hl : LastRecord (num fd) (.bytes [0x72#8, 0x01#8, 0x78#8]) (s.h.w.slice (s.h.ms 0).buf).data (skimmed.take 8) [0x8a#8, 0x01#8] [0x03#8, 0x72#8, 0x01#8, 0x78#8] (skimmed.drop 14) := by
      rw [hd, i4]
      exact ⟨rfl, ⟨_, m2⟩, t138, ⟨[0x03#8], (skim1 0x03#8 (by decide)).1, rfl⟩, _, skims14.isMessage, by decide⟩
    have h1 : s.h.ms 1 = .zero 35 := kp.others 1 (by decide)
    obtain ⟨ps, s', g0, g⟩ := C71_message hc hf hm hmade ⟨i1, i2, i3⟩ hl hf hm i5 (j := 1) (by rw [h1, hsl]; rfl) (by rw [h1]; exact ⟨⟨by decide, Nat.zero_le _⟩, nofun⟩) (by rw [kp.next]; decide)
      sub_skims.isMessage (test_conforms (by
        intro r hr
        simp only [List.mem_cons, List.not_mem_nil, or_false] at hr
        rcases hr with rfl
        refine ⟨by decide, ?_⟩
        intro k hk
        cases hk
        exact ⟨_, rfl⟩))
    rw [e1] at g0
    obtain ⟨es, g1, g2, _⟩ := (g rt 0).2 2 (by decide)
    refine ⟨fd, s', es, i4, ⟨i1, i2, i3⟩, g1, ?_⟩
    rw [g2, e0, e1, g0.unique sub_skims]
    rfl
  · obtain ⟨fd, i1, i2, i3, i4⟩ := testField (P := fun fd => getLabel (some fd) = 3 ∧ getType (some fd) = 11 ∧ num fd = 34) (by decide +kernel)
    have hl : FirstRecord (num fd) (.bytes []) (s.h.w.slice (s.h.ms 0).buf).data (skimmed.take 14) [0x92#8, 0x02#8] [0x00#8] (skimmed.drop 17) := by
      rw [hd, i4]
      exact ⟨rfl, ⟨_, m3, by decide⟩, t274, ⟨[0x00#8], (skim1 0x00#8 (by decide)).1, rfl⟩, _, skims17.isMessage⟩
    obtain ⟨b, _, _, _, _, g⟩ := C71_iterate hc hf hm hmade ⟨i1, i2, i3⟩ hl
    refine ⟨fd, b, _, i4, ⟨i1, i2, i3⟩, (g rt 0).2 0, ?_⟩
    rw [bytesRead_cons_buf, lookedUp_bytes]

/-- `C71_next`: an iterator over the elements of `skimmed` is at position 16, the length of the first element. `Next` reads it, then the tag of the second, at 17 and 18; at 19 is the length of the second. At
the second, `Next` reads that length, and then the element, at 20 and 21. -/
example (rt : Rt) : ∃ fd, num fd = 34 ∧ RepeatedField testDesc fd ∧
    (∃ s' es, Does (grun (programOf asciiUnicode [testFile]) rt 2 0 (iterOf testDesc fd) t!"Next" [.iter (iterOf testDesc fd) 7, .ptr (goType fd) 1])
      { skimState with its := fun _ => some ⟨0, 16, 6, 6⟩ } [.val (.bool true), .val .nil] s' es ∧ bytesRead es = inArr 0 [16, 17, 18]) ∧
    ∃ s' es, Does (grun (programOf asciiUnicode [testFile]) rt 2 0 (iterOf testDesc fd) t!"Next" [.iter (iterOf testDesc fd) 7, .ptr (goType fd) 1])
      { skimState with its := fun _ => some ⟨0, 19, 3, 3⟩ } [.val (.bool true), .val .nil] s' es ∧ bytesRead es = inArr 0 [19, 20, 21] := by
  have hc := testFile_compilable
  obtain ⟨hf, hm⟩ := testFile_has
  have hsl : slotsOf testDesc = 35 := by decide +kernel
  obtain ⟨fd, i1, i2, i3, i4, i5⟩ := testField (P := fun fd => getLabel (some fd) = 3 ∧ getType (some fd) = 11 ∧ num fd = 34 ∧ testDesc.getName = goType fd) (by decide +kernel)
  have hk : Skims 20 [⟨1, .varint 1#64⟩] [0x08#8, 0x01#8] [20, 21] :=
    Skims.cons (r := ⟨1, .varint 1#64⟩) (rs := []) (tag := [0x08#8]) (pay := [0x01#8]) (bs := []) (ps := []) (skim1 0x08#8 (by decide)).1 (skim1 0x01#8 (by decide)).1 .nil
  have hz : skimState.h.w.WF (skimState.h.ms 1) := ⟨⟨by decide, by decide⟩, nofun⟩
  refine ⟨fd, i4, ⟨i1, i2, i3⟩, ?_, ?_⟩
  · obtain ⟨ps, qs, s', g0, g0', g⟩ := C71_next hc hf hm (v := 7) (j := 1) (s := { skimState with its := fun _ => some ⟨0, 16, 6, 6⟩ }) ⟨i1, i2, i3⟩ (b := ⟨0, 16, 6, 6⟩) rfl ⟨by decide, by decide +kernel⟩ (by decide)
      (lb := [0x00#8]) (el := []) (rest := skimmed.drop 17) (by decide +kernel) (skim1 0x00#8 (by decide)).1 skims17.isMessage hf hm i5 (by rw [hsl]; rfl) hz (by decide) .nil (by intro r hr; cases hr)
    obtain ⟨es, g1, g2, _⟩ := (g rt 0).2 2 (by decide) (by decide)
    refine ⟨s', es, g1, ?_⟩
    have hs : Seeks (num fd) 17 [⟨34, .bytes [0x08#8, 0x01#8]⟩] (skimmed.drop 17) [17, 18] := by
      rw [i4]
      exact Seeks.found (f := 34) (q := 17) (r := ⟨34, .bytes [0x08#8, 0x01#8]⟩) (tag := [0x92#8, 0x02#8]) (bs := [0x02#8, 0x08#8, 0x01#8]) t274 rfl
    rw [g2, g0.unique hs, g0'.unique Skims.nil]
    rfl
  · obtain ⟨ps, qs, s', g0, g0', g⟩ := C71_next hc hf hm (v := 7) (j := 1) (s := { skimState with its := fun _ => some ⟨0, 19, 3, 3⟩ }) ⟨i1, i2, i3⟩ (b := ⟨0, 19, 3, 3⟩) rfl ⟨by decide, by decide +kernel⟩ (by decide)
      (lb := [0x02#8]) (el := [0x08#8, 0x01#8]) (rest := []) (rs := []) (by decide +kernel) (skim1 0x02#8 (by decide)).1 .nil hf hm i5 (by rw [hsl]; rfl) hz (by decide) hk.isMessage (test_conforms (by
        intro r hr
        simp only [List.mem_cons, List.not_mem_nil, or_false] at hr
        rcases hr with rfl
        refine ⟨by decide, ?_⟩
        intro k hk
        cases hk
        exact ⟨_, rfl⟩))
    obtain ⟨es, g1, g2, _⟩ := (g rt 0).2 2 (by decide) (by decide)
    refine ⟨s', es, g1, ?_⟩
    rw [g2, g0.unique Seeks.nil, g0'.unique hk]
    rfl

end

end Zeropb.GoSrc.Conc