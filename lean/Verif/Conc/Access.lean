import Verif.Conc.Cost
import Verif.Mem.Read
import Verif.Props.Source
/-!
# What getters, `Decode` and `FindNextField` access
-/

set_option linter.constructorNameAsVariable false

namespace Zeropb.GoSrc.Conc
open Zeropb.GoSrc.G Zeropb.Wire

/-! ## Slices -/

/-- `t` is the rest of `b` after `n` bytes. -/
structure Behind (b t : HSlice) (n : Nat) : Prop where
  arr : t.arr = b.arr
  off : t.off = b.off + n
  len : t.len + n = b.len

theorem drop_at {w : World} {b : HSlice} (hw : w.WFs b) {P Q : List Byte} (hd : (w.slice b).data = P ++ Q) :
    ∃ t, b.dropFrom (P.length : Int) = .ok t ∧ Behind b t P.length ∧ w.WFs t ∧ (w.slice t).data = Q := by
  have hl : b.len = P.length + Q.length := by rw [← w.slice_len hw, hd, List.length_append]
  have e : b.dropFrom (P.length : Int) = .ok ⟨b.arr, b.off + P.length, b.len - P.length, b.cap - P.length⟩ := by
    unfold HSlice.dropFrom
    rw [if_pos (by omega)]
    rfl
  refine ⟨_, e, ⟨rfl, rfl, ?_⟩, HSlice.dropFrom_wf hw e, ?_⟩
  · show b.len - P.length + P.length = b.len; omega
  have h := w.slice_dropFrom hw (P.length : Int)
  rw [e] at h
  have h2 : w.slice b = ⟨P ++ Q, (w.slice b).spare⟩ := by rw [← hd]
  rw [h2, dropFrom_append] at h
  injection h with h
  rw [← h]

theorem range_at {w : World} {b : HSlice} (hw : w.WFs b) {P M Q : List Byte} (hd : (w.slice b).data = P ++ (M ++ Q)) :
    ∃ t, b.range (P.length : Int) ((P.length + M.length : Nat) : Int) = .ok t ∧ t.arr = b.arr ∧ t.off = b.off + P.length ∧ t.len = M.length ∧ w.WFs t ∧ (w.slice t).data = M := by
  have hl : b.len = P.length + (M.length + Q.length) := by rw [← w.slice_len hw, hd, List.length_append, List.length_append]
  have hc := hw.1
  have e : b.range (P.length : Int) ((P.length + M.length : Nat) : Int) = .ok ⟨b.arr, b.off + P.length, M.length, b.cap - P.length⟩ := by
    unfold HSlice.range
    rw [if_pos (by omega)]
    simp only [Int.toNat_natCast]
    congr 2
    omega
  refine ⟨_, e, rfl, rfl, rfl, HSlice.range_wf hw e, ?_⟩
  have h := w.slice_range hw (P.length : Int) ((P.length + M.length : Nat) : Int)
  rw [e] at h
  have h2 : w.slice b = ⟨P ++ (M ++ Q), (w.slice b).spare⟩ := by rw [← hd]
  rw [h2, range_append] at h
  injection h with h
  rw [← h]

theorem varintRun_of {v : Nat} {vb : List Byte} (h : IsVarint v vb) (rest : List Byte) : varintRun (vb ++ rest) = vb := by
  obtain ⟨init, last, rfl, hi, hl, h⟩ := h
  clear h
  induction init with
  | nil => simp only [List.nil_append, List.cons_append, varintRun]; rw [if_pos hl]
  | cons b init ih =>
    have := hi b (by simp)
    simp only [List.cons_append, varintRun]
    rw [if_neg (by omega), ih fun c hc => hi c (by simp [hc])]

/-- Reading a varint reads its bytes. -/
theorem readVarint_at {s : GSt} {t : HSlice} (hw : s.h.w.WFs t) {v : Nat} {vb rest : List Byte} (hd : (s.h.w.slice t).data = vb ++ rest) (hv : IsVarint v vb) :
    (readVarint (.mem t)).run s = .ok (vb, s) ∧ (readVarint (.mem t)).trace s = cells t.arr t.off vb.length := by
  have e : ((s.h.w.arr t.arr).drop t.off).take (min t.len t.cap) = vb ++ rest := by
    rw [← hd]; simp only [World.slice, World.full, List.take_take]
  have h1 := ends_readRun t.arr t.off (min t.len t.cap) s
  rw [e, varintRun_of hv] at h1
  refine ⟨h1, ?_⟩
  show (readRun t.arr t.off (min t.len t.cap)).trace s = _
  rw [trace_readRun _ _ _ _ (by have := hw.1; have := hw.2; omega), e, varintRun_of hv]

/-- Reading a slice reads its bytes. -/
theorem readSlice_at {s : GSt} {t : HSlice} (hw : s.h.w.WFs t) :
    (readSlice t).run s = .ok ((s.h.w.slice t).data, s) ∧ (readSlice t).trace s = cells t.arr t.off t.len := by
  refine ⟨ends_readSlice t s, ?_⟩
  rw [trace_readSlice, Nat.min_eq_left hw.1]

/-! ## Offsets -/

/-- The reads that find the position of field `f` of struct `i`. -/
def finding (s : GSt) (i f : Nat) : List Event :=
  .reads (.slot i f) :: if (s.h.ms i).a[f]? = some 65535#16 then
    .reads (.ref i) :: match (s.h.ms i).m with
      | none => []
      | some id => [.reads (.map id)]
  else []

theorem find_at {s : GSt} {i f : Nat} {off : U64} {p : Bool} (h : (s.h.w.offs (s.h.ms i)).get f = .ok (off, p)) :
    (find i f).run s = .ok (if p then some off else none, s) ∧ (find i f).trace s = finding s i f := by
  have ea : (s.h.w.offs (s.h.ms i)).a = (s.h.ms i).a := rfl
  simp only [Offsets.get, Offsets.slot, ea] at h
  unfold find finding
  cases hx : (s.h.ms i).a[f]? with
  | none => rw [hx] at h; cases h
  | some x =>
    rw [hx] at h
    have er : (read (.slot i f) s : Option U16) = some x := hx
    simp only [Prog.run, Prog.trace, er, Event.ofLoad]
    by_cases h1 : x = 65535#16
    · subst h1
      simp only [bind, Except.bind, pure, Except.pure, offsetInMap, ne_eq, not_true_eq_false, if_false, if_true, Except.ok.injEq, Prod.mk.injEq] at h ⊢
      obtain ⟨h1, h2⟩ := h
      subst h2
      have e2 : (read (.ref i) s : Option Nat) = (s.h.ms i).m := rfl
      simp only [Prog.run, Prog.trace, Event.ofLoad]
      rw [e2]
      cases hm : (s.h.ms i).m with
      | none =>
        simp only [Offsets.mapRead, World.offs, hm, Option.map_none] at h1
        subst h1
        exact ⟨rfl, rfl⟩
      | some id =>
        simp only [Offsets.mapRead, World.offs, hm, Option.map_some] at h1
        subst h1
        exact ⟨rfl, rfl⟩
    · have h1' : ¬ x = offsetInMap := h1
      simp only [bind, Except.bind, pure, Except.pure, ne_eq, h1', not_false_eq_true, if_true, Except.ok.injEq, Prod.mk.injEq] at h
      obtain ⟨e1, e2⟩ := h
      simp only [h1, if_false, Option.some.injEq]
      by_cases h0 : x = 0#16
      · have : p = false := by rw [← e2, h0]; rfl
        subst this
        simp only [h0, if_true]
        exact ⟨rfl, rfl⟩
      · have : p = true := by rw [← e2]; simp [offsetUnset, h0]
        subst this
        simp only [h0, if_false]
        exact ⟨by rw [← e1]; rfl, rfl⟩

/-! ## Getters -/

/-- The number of bytes at the start of the encoding of a value that its getter looks at: all of a number, the length of a string. -/
def headLen : Wire.Val → List Byte → Nat
  | .bytes bs, pay => pay.length - bs.length
  | _, pay => pay.length

theorem trace_bind_of {α β : Type} {p : Prog α} {f : α → Prog β} {s s1 s2 : GSt} {a : α} {b : β} {es1 es2 : List Event} (h1 : p.run s = .ok (a, s1) ∧ p.trace s = es1)
    (h2 : (f a).run s1 = .ok (b, s2) ∧ (f a).trace s1 = es2) : (p >>= f).run s = .ok (b, s2) ∧ (p >>= f).trace s = es1 ++ es2 := by
  refine ⟨?_, ?_⟩
  · rw [Prog.run_bind, h1.1]; exact h2.1
  · rw [trace_bind h1.1, h1.2, h2.2]

theorem lift_bind_of {α β : Type} {x : M α} {a : α} (hx : x = .ok a) (f : α → Prog β) : (lift x >>= f) = f a := by subst hx; rfl

section
variable {s : GSt} {b : HSlice} {i f : Nat} {A pay B : List Byte}

theorem atVarint_at (hw : s.h.w.WFs b) (hl : Located (s.h.w.slice b) (s.h.w.offs (s.h.ms i)) f A pay B) {u : U64} (hp : IsPayload (.varint u) pay) (k : List Byte → Val) :
    (atVarint b k (BitVec.ofNat 64 A.length)).run s = .ok ([k pay], s) ∧ (atVarint b k (BitVec.ofNat 64 A.length)).trace s = cells b.arr (b.off + A.length) pay.length := by
  have := hl.lens
  unfold atVarint
  rw [ofNat64_toNat (by unfold maxLen at this; omega)]
  obtain ⟨t, h1, h2, h3, h4⟩ := drop_at hw hl.data
  rw [lift_bind_of (a := t) (by rw [h1]; rfl)]
  have := trace_bind_of (f := fun bs => .done [k bs]) (readVarint_at h3 h4 hp) (es2 := []) ⟨rfl, rfl⟩
  rw [h2.arr, h2.off, List.append_nil] at this
  exact this

theorem atFixed_at (hw : s.h.w.WFs b) (hl : Located (s.h.w.slice b) (s.h.w.offs (s.h.ms i)) f A pay B) {n : Nat} (hn : pay.length = n) {k : List Byte → M Val} {v : Val} (hk : k pay = .ok v) :
    (atFixed b (BitVec.ofNat 64 n) k (BitVec.ofNat 64 A.length)).run s = .ok ([v], s) ∧
    (atFixed b (BitVec.ofNat 64 n) k (BitVec.ofNat 64 A.length)).trace s = cells b.arr (b.off + A.length) pay.length := by
  have := hl.lens
  unfold maxLen at this
  unfold atFixed
  rw [BitVec.toNat_add, ofNat64_toNat (by omega), ofNat64_toNat (by omega), Nat.mod_eq_of_lt (by omega), ← hn]
  obtain ⟨t, h1, h2, h3, h5, h4, h6⟩ := range_at hw hl.data
  rw [lift_bind_of (a := t) (by rw [h1]; rfl)]
  have h7 := readSlice_at h4
  rw [h6] at h7
  have := trace_bind_of (f := fun bs => lift (k bs) >>= fun v => .done [v]) h7 (b := [v]) (s2 := s) (es2 := []) (by rw [hk]; exact ⟨rfl, rfl⟩)
  rw [h2, h3, h5, List.append_nil] at this
  exact this

theorem atBytes_at (hw : s.h.w.WFs b) (hl : Located (s.h.w.slice b) (s.h.w.offs (s.h.ms i)) f A pay B) {bs : List Byte} (hp : IsPayload (.bytes bs) pay) (k : HSlice → Val) :
    ∃ t, (atBytes b k (BitVec.ofNat 64 A.length)).run s = .ok ([k t], s) ∧ (atBytes b k (BitVec.ofNat 64 A.length)).trace s = cells b.arr (b.off + A.length) (pay.length - bs.length) ∧
      t.arr = b.arr ∧ t.off = b.off + A.length + (pay.length - bs.length) ∧ t.len = bs.length ∧ s.h.w.WFs t ∧ (s.h.w.slice t).data = bs := by
  obtain ⟨lb, hv, rfl⟩ := hp
  have hll := hl.lens
  unfold maxLen at hll
  simp only [List.length_append] at hll
  obtain ⟨t, h1, h2, h3, h4⟩ := drop_at hw hl.data
  obtain ⟨u, g1, g2, g3, g4, g5, g6⟩ := range_at (P := A ++ lb) (M := bs) (Q := B) hw (by rw [hl.data]; simp only [List.append_assoc])
  have e0 : (BitVec.ofNat 64 A.length).toNat = A.length := ofNat64_toNat (by omega)
  have e1 : (BitVec.ofNat 64 A.length + BitVec.ofNat 64 lb.length).toNat = (A ++ lb).length := by
    rw [BitVec.toNat_add, ofNat64_toNat (by omega), ofNat64_toNat (by omega), Nat.mod_eq_of_lt (by omega), List.length_append]
  have e2 : (BitVec.ofNat 64 A.length + BitVec.ofNat 64 lb.length + BitVec.ofNat 64 bs.length).toNat = (A ++ lb).length + bs.length := by
    rw [BitVec.toNat_add, e1, ofNat64_toNat (by omega), Nat.mod_eq_of_lt (by simp only [List.length_append]; omega)]
  have hu : uvarint lb = (BitVec.ofNat 64 bs.length, (lb.length : Int)) := by have := uvarint_of_isVarint hv []; rwa [List.append_nil] at this
  have hr := readVarint_at (rest := bs ++ B) h3 (by rw [h4]; simp only [List.append_assoc]) hv
  have := trace_bind_of (f := fun x => lift (GoSrc.lift (b.range (BitVec.ofNat 64 A.length + intToU64 (uvarint x).2).toNat
    (BitVec.ofNat 64 A.length + intToU64 (uvarint x).2 + (uvarint x).1).toNat)) >>= fun t => .done [k t]) hr (b := [k u]) (s2 := s) (es2 := []) (by
      rw [hu]
      dsimp only
      rw [intToU64_nat, e1, e2, lift_bind_of (a := u) (by rw [g1]; rfl)]
      exact ⟨rfl, rfl⟩)
  rw [h2.arr, h2.off, List.append_nil] at this
  have en : (lb ++ bs).length - bs.length = lb.length := by simp
  refine ⟨u, ?_, ?_, g2, ?_, g4, g5, g6⟩
  · unfold atBytes; rw [e0, lift_bind_of (a := t) (by rw [h1]; rfl)]; exact this.1
  · unfold atBytes; rw [e0, lift_bind_of (a := t) (by rw [h1]; rfl), en]; exact this.2
  · rw [g3, en, List.length_append, Nat.add_assoc]

theorem getP_at (hl : Located (s.h.w.slice b) (s.h.w.offs (s.h.ms i)) f A pay B) {dflt : Val} {g : U64 → Prog (List Val)} {out : List Val} {es : List Event}
    (hg : (g (BitVec.ofNat 64 A.length)).run s = .ok (out, s) ∧ (g (BitVec.ofNat 64 A.length)).trace s = es) :
    (getP i f dflt g).run s = .ok (out, s) ∧ (getP i f dflt g).trace s = finding s i f ++ es :=
  trace_bind_of (find_at hl.get) hg

theorem getP_absent {dflt : Val} {g : U64 → Prog (List Val)} (h : (s.h.w.offs (s.h.ms i)).get f = .ok (0#64, false)) :
    (getP i f dflt g).run s = .ok ([dflt], s) ∧ (getP i f dflt g).trace s = finding s i f := by
  have := trace_bind_of (f := fun o => match o with | none => .done [dflt] | some off => g off) (find_at h) (b := [dflt]) (s2 := s) (es2 := []) ⟨rfl, rfl⟩
  rwa [List.append_nil] at this

/-- What is accessed by the function that gets the value of a field. -/
theorem getter_at (hw : s.h.w.WFs b) (hl : Located (s.h.w.slice b) (s.h.w.offs (s.h.ms i)) f A pay B) {v : Wire.Val} (hp : IsPayload v pay) {k : Kind} {x : k.Ty} (hk : decodeVal k v = some x) :
    ∃ y, ∀ rt fuel d, (goCall rt fuel (d + 2) (getterOf k) [.bytes (.mem b), .offs i, .const f]).run s = .ok ([y], s) ∧
      (goCall rt fuel (d + 2) (getterOf k) [.bytes (.mem b), .offs i, .const f]).trace s = finding s i f ++ cells b.arr (b.off + A.length) (headLen v pay) := by
  have h4 : ∀ u : U32, pay = leBytes 4 u.toNat → ∃ y, leUint32 pay = .ok y := by
    intro u hu
    subst hu
    exact ⟨_, by have := leUint32_leBytes u []; rwa [List.append_nil] at this⟩
  have h8 : ∀ u : U64, pay = leBytes 8 u.toNat → ∃ y, leUint64 pay = .ok y := by
    intro u hu
    subst hu
    exact ⟨_, by have := leUint64_leBytes u []; rwa [List.append_nil] at this⟩
  cases v with
  | varint u =>
    cases k <;> first | (simp only [decodeVal] at hk; cases hk; done) | skip
    · exact ⟨_, fun rt fuel d => (prog_GetBool rt fuel d i f b) ▸ getP_at hl (atVarint_at hw hl hp _)⟩
    · exact ⟨_, fun rt fuel d => (prog_GetInt32 rt fuel d i f b) ▸ getP_at hl (atVarint_at hw hl hp _)⟩
    · exact ⟨_, fun rt fuel d => (prog_GetInt64 rt fuel d i f b) ▸ getP_at hl (atVarint_at hw hl hp _)⟩
    · exact ⟨_, fun rt fuel d => (prog_GetUint32 rt fuel d i f b) ▸ getP_at hl (atVarint_at hw hl hp _)⟩
    · exact ⟨_, fun rt fuel d => (prog_GetUint64 rt fuel d i f b) ▸ getP_at hl (atVarint_at hw hl hp _)⟩
    · exact ⟨_, fun rt fuel d => (prog_GetZigZagInt32 rt fuel d i f b) ▸ getP_at hl (atVarint_at hw hl hp _)⟩
    · exact ⟨_, fun rt fuel d => (prog_GetZigZagInt64 rt fuel d i f b) ▸ getP_at hl (atVarint_at hw hl hp _)⟩
  | fixed64 u =>
    obtain ⟨y, hy⟩ := h8 u hp
    have hn : pay.length = 8 := by rw [show pay = _ from hp, leBytes_length]
    cases k <;> first | (simp only [decodeVal] at hk; cases hk; done) | skip
    · exact ⟨_, fun rt fuel d => (prog_GetFixedUint64 rt fuel d i f b) ▸ getP_at hl (atFixed_at hw hl hn (by rw [hy]; rfl))⟩
    · exact ⟨_, fun rt fuel d => (prog_GetFixedInt64 rt fuel d i f b) ▸ getP_at hl (atFixed_at hw hl hn (by rw [hy]; rfl))⟩
    · exact ⟨_, fun rt fuel d => (prog_GetFloat64 rt fuel d i f b) ▸ getP_at hl (atFixed_at hw hl hn (by rw [hy]; rfl))⟩
  | fixed32 u =>
    obtain ⟨y, hy⟩ := h4 u hp
    have hn : pay.length = 4 := by rw [show pay = _ from hp, leBytes_length]
    cases k <;> first | (simp only [decodeVal] at hk; cases hk; done) | skip
    · exact ⟨_, fun rt fuel d => (prog_GetFixedUint32 rt fuel d i f b) ▸ getP_at hl (atFixed_at hw hl hn (by rw [hy]; rfl))⟩
    · exact ⟨_, fun rt fuel d => (prog_GetFixedInt32 rt fuel d i f b) ▸ getP_at hl (atFixed_at hw hl hn (by rw [hy]; rfl))⟩
    · exact ⟨_, fun rt fuel d => (prog_GetFloat32 rt fuel d i f b) ▸ getP_at hl (atFixed_at hw hl hn (by rw [hy]; rfl))⟩
  | bytes bs =>
    cases k <;> first | (simp only [decodeVal] at hk; cases hk; done) | skip
    · obtain ⟨t, h1, h2, _⟩ := atBytes_at hw hl hp (fun t => .str (.mem t))
      exact ⟨_, fun rt fuel d => (prog_GetString rt fuel d i f b) ▸ getP_at hl ⟨h1, h2⟩⟩
    · obtain ⟨t, h1, h2, _⟩ := atBytes_at hw hl hp (fun t => .bytes (.mem t))
      exact ⟨_, fun rt fuel d => (prog_GetBytes rt fuel d i f b) ▸ getP_at hl ⟨h1, h2⟩⟩

/-- A field that is absent. -/
theorem getter_absent (h : (s.h.w.offs (s.h.ms i)).get f = .ok (0#64, false)) (k : Kind) :
    ∃ y, ∀ rt fuel d, (goCall rt fuel (d + 2) (getterOf k) [.bytes (.mem b), .offs i, .const f]).run s = .ok ([y], s) ∧
      (goCall rt fuel (d + 2) (getterOf k) [.bytes (.mem b), .offs i, .const f]).trace s = finding s i f := by
  cases k
  · exact ⟨_, fun rt fuel d => (prog_GetBool rt fuel d i f b) ▸ getP_absent h⟩
  · exact ⟨_, fun rt fuel d => (prog_GetInt32 rt fuel d i f b) ▸ getP_absent h⟩
  · exact ⟨_, fun rt fuel d => (prog_GetInt64 rt fuel d i f b) ▸ getP_absent h⟩
  · exact ⟨_, fun rt fuel d => (prog_GetUint32 rt fuel d i f b) ▸ getP_absent h⟩
  · exact ⟨_, fun rt fuel d => (prog_GetUint64 rt fuel d i f b) ▸ getP_absent h⟩
  · exact ⟨_, fun rt fuel d => (prog_GetZigZagInt32 rt fuel d i f b) ▸ getP_absent h⟩
  · exact ⟨_, fun rt fuel d => (prog_GetZigZagInt64 rt fuel d i f b) ▸ getP_absent h⟩
  · exact ⟨_, fun rt fuel d => (prog_GetFixedUint32 rt fuel d i f b) ▸ getP_absent h⟩
  · exact ⟨_, fun rt fuel d => (prog_GetFixedUint64 rt fuel d i f b) ▸ getP_absent h⟩
  · exact ⟨_, fun rt fuel d => (prog_GetFixedInt32 rt fuel d i f b) ▸ getP_absent h⟩
  · exact ⟨_, fun rt fuel d => (prog_GetFixedInt64 rt fuel d i f b) ▸ getP_absent h⟩
  · exact ⟨_, fun rt fuel d => (prog_GetFloat32 rt fuel d i f b) ▸ getP_absent h⟩
  · exact ⟨_, fun rt fuel d => (prog_GetFloat64 rt fuel d i f b) ▸ getP_absent h⟩
  · exact ⟨_, fun rt fuel d => (prog_GetString rt fuel d i f b) ▸ getP_absent h⟩
  · exact ⟨_, fun rt fuel d => (prog_GetBytes rt fuel d i f b) ▸ getP_absent h⟩

end

end Zeropb.GoSrc.Conc
