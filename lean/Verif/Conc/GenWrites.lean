import Verif.Conc.Written
import Verif.Props.SourceGen
/-!
# Setters of generated types: the programs
-/

set_option linter.constructorNameAsVariable false

namespace Zeropb.GoSrc.Conc
open Zeropb.GoSrc.G Zeropb.Wire
open Zeropb.Gen (Text)

/-- The bytes of an argument that is a string or a slice. -/
def argBytes : Val → List (Nat × Nat)
  | .str (.mem t) | .bytes (.mem t) => (List.range' t.off t.len).map fun j => (t.arr, j)
  | _ => []

theorem prog_setter {w : World} {k : Kind} {x : k.Ty} {v : Val} (hv : IsVal w k x v) (hwf : ∀ y, v = .str y ∨ v = .bytes y → World.WFsrc w y) (hx : k.size x < 2 ^ 64) {f : Nat} {tag : List Byte}
    (ht : putUvarint maxVarintLen64 (tagOf f k.wt) = .ok tag) :
    ∃ vl y, (∀ rt fuel d i, goCall rt fuel (d + 3) (setterOf k) [.bufPtr i, .offs i, .const f, v] = setSingleP rt i f k.wt tag (.lit vl) y) ∧ World.WFsrc w y ∧
      IsMinPayload (encodeVal k x) (vl ++ w.src y) ∧ srcBytes y = argBytes v := by
  cases k with
  | bool =>
    cases hv
    refine ⟨[], _, fun rt fuel d i => prog_SetBool rt fuel d i f ht x, trivial, ?_, rfl⟩
    show IsMinPayload (encodeVal .bool x) ([] ++ if x then [1#8] else [0#8])
    cases x <;> exact ⟨⟨[], _, rfl, by simp, by decide, by decide, by decide, by decide⟩, Or.inl rfl⟩
  | int32 =>
    cases hv
    obtain ⟨bs, h1, h2⟩ := putUvarint64 (BitVec.signExtend 64 x)
    exact ⟨[], _, fun rt fuel d i => prog_SetInt32 rt fuel d i f ht h1, trivial, h2, rfl⟩
  | int64 =>
    cases hv
    obtain ⟨bs, h1, h2⟩ := putUvarint64 x
    exact ⟨[], _, fun rt fuel d i => prog_SetInt64 rt fuel d i f ht h1, trivial, h2, rfl⟩
  | uint64 =>
    cases hv
    obtain ⟨bs, h1, h2⟩ := putUvarint64 x
    exact ⟨[], _, fun rt fuel d i => prog_SetUint64 rt fuel d i f ht h1, trivial, h2, rfl⟩
  | uint32 =>
    cases hv
    change U32 at x
    have hx := x.isLt
    obtain ⟨bs, h1, h2, _⟩ := putUvarint32 (x.setWidth 64) (by simp; omega)
    refine ⟨[], _, fun rt fuel d i => prog_SetUint32 rt fuel d i f ht h1, trivial, ?_, rfl⟩
    simp only [List.nil_append, encodeVal, IsMinPayload]
    have : (BitVec.setWidth 64 x).toNat = (BitVec.ofNat 64 x.toNat).toNat := by simp
    rw [← this]; exact h2
  | sint32 =>
    cases hv
    change U32 at x
    have hz := zigzag_lt 32 (by decide) x
    obtain ⟨bs, h1, h2, _⟩ := putUvarint32 (zigzagBits (x.signExtend 64)) (by
      rw [zigzagBits_sign, BitVec.toNat_ofNat, Nat.mod_eq_of_lt (by omega)]; exact hz)
    refine ⟨[], _, fun rt fuel d i => prog_SetZigZagInt32 rt fuel d i f ht (by rw [putVarint_eq]; exact h1), trivial, ?_, rfl⟩
    rw [zigzagBits_sign] at h2; exact h2
  | sint64 =>
    cases hv
    obtain ⟨bs, h1, h2⟩ := putUvarint64 (zigzagBits x)
    refine ⟨[], _, fun rt fuel d i => prog_SetZigZagInt64 rt fuel d i f ht (by rw [putVarint_eq]; exact h1), trivial, ?_, rfl⟩
    rw [zigzagBits_eq] at h2; exact h2
  | fixed32 => cases hv; exact ⟨[], _, fun rt fuel d i => prog_SetFixedUint32 rt fuel d i f ht x, trivial, lePutUint32_eq x, rfl⟩
  | sfixed32 => cases hv; exact ⟨[], _, fun rt fuel d i => prog_SetFixedInt32 rt fuel d i f ht x, trivial, lePutUint32_eq x, rfl⟩
  | float => cases hv; exact ⟨[], _, fun rt fuel d i => prog_SetFloat32 rt fuel d i f ht x, trivial, lePutUint32_eq x, rfl⟩
  | fixed64 => cases hv; exact ⟨[], _, fun rt fuel d i => prog_SetFixedUint64 rt fuel d i f ht x, trivial, lePutUint64_eq x, rfl⟩
  | sfixed64 => cases hv; exact ⟨[], _, fun rt fuel d i => prog_SetFixedInt64 rt fuel d i f ht x, trivial, lePutUint64_eq x, rfl⟩
  | double => cases hv; exact ⟨[], _, fun rt fuel d i => prog_SetFloat64 rt fuel d i f ht x, trivial, lePutUint64_eq x, rfl⟩
  | string =>
    obtain ⟨y, rfl, hy⟩ := hv
    have hw := hwf y (.inl rfl)
    obtain ⟨vl, h1, h2⟩ := putUvarint64 (BitVec.ofNat 64 (strLen y))
    have hl := src_length hw
    refine ⟨vl, y, fun rt fuel d i => prog_SetString rt fuel d i f ht h1, hw, ⟨vl, ?_, by rw [hy]⟩, by cases y <;> rfl⟩
    have hx : List.length x < 2 ^ 64 := hx
    rw [BitVec.toNat_ofNat, ← hl, hy, Nat.mod_eq_of_lt hx] at h2
    exact h2
  | bytes =>
    have hb : ∃ y, CArg v y ∧ World.WFsrc w y ∧ w.src y = x ∧ srcBytes y = argBytes v := by
      rcases hv with ⟨rfl, rfl⟩ | ⟨y, rfl, hy⟩
      · exact ⟨_, CArg.nil, trivial, rfl, rfl⟩
      · exact ⟨y, CArg.bytes y, hwf y (.inr rfl), hy, by cases y <;> rfl⟩
    obtain ⟨y, hc, hw, hy, hb⟩ := hb
    obtain ⟨vl, h1, h2⟩ := putUvarint64 (BitVec.ofNat 64 (strLen y))
    have hl := src_length hw
    refine ⟨vl, y, fun rt fuel d i => prog_SetBytes rt fuel d i f ht hc h1, hw, ⟨vl, ?_, by rw [hy]⟩, hb⟩
    have hx : List.length x < 2 ^ 64 := hx
    rw [BitVec.toNat_ofNat, ← hl, hy, Nat.mod_eq_of_lt hx] at h2
    exact h2

/-! ## Methods -/

/-- After the accesses `es`, the method does what `q` does in state `t`, and nothing else. -/
structure Becomes (P : Prog (List GVal)) (s : GSt) (q : Prog (List Val)) (t : GSt) (es : List Event) : Prop where
  trace : P.trace s = es ++ q.trace t
  inner : ∀ {u s'}, P.run s = .ok (u, s') → u = [] ∧ ∃ v, q.run t = .ok (v, s')
  outer : ∀ {v s'}, q.run t = .ok (v, s') → P.run s = .ok ([], s')

theorem trace_silent {α β : Type} {q : Prog α} {K : α → Prog β} (hK : ∀ a t, (K a).trace t = []) (t : GSt) : (q >>= K).trace t = q.trace t := by
  show (q.bind K).trace t = _
  induction q generalizing t with
  | done a => exact hK a t
  | stop e => rfl
  | load l k ih => exact congrArg (Event.ofLoad l ++ ·) (ih _ _)
  | store w k ih => exact congrArg (_ :: ·) (ih _)
  | newArr bs k ih => exact congrArg (_ :: ·) (ih _ _)
  | newMap k ih => exact congrArg (_ :: ·) (ih _ _)
  | newStruct m k ih => exact congrArg (_ :: ·) (ih _ _)

theorem becomes_bind {q : Prog (List Val)} {K : List Val → Prog (List GVal)} (hK : ∀ rs, K rs = .done []) (t : GSt) : Becomes (q >>= K) t q t [] := by
  refine ⟨?_, ?_, ?_⟩
  · refine trace_silent (fun a t => ?_) t
    rw [hK a]; rfl
  · intro u s' h
    obtain ⟨v, s1, h1, h2, _⟩ := run_bind_ok h
    rw [hK v] at h2
    cases h2
    exact ⟨rfl, v, h1⟩
  · intro v s' h
    rw [Prog.run_bind, h]
    show (K v).run s' = _
    rw [hK v]
    rfl

theorem Becomes.after {P P' : Prog (List GVal)} {s s1 t : GSt} {q : Prog (List Val)} {es fs : List Event} (h : Goes P s P' s1 es) (h' : Becomes P' s1 q t fs) : Becomes P s q t (es ++ fs) := by
  refine ⟨by rw [h.2, h'.trace, List.append_assoc], fun hu => h'.inner (h.1.symm.trans hu), fun hu => h.1.trans (h'.outer hu)⟩

section
variable {p : Program} {rt : Rt} {d n m i : Nat} {msg : Text} {s s' : GSt}

/-- A setter of a scalar field. -/
theorem becomes_set {name goType fn : Text} {f : Nat} {q : Id} (hm : method p msg (t!"Set" ++ name) = some (G.srcSet msg name goType fn f))
    (hg : pkgFunc (t!"Set" ++ fn) = some q) (ht : slots p goType = none) (v : Val) (s : GSt) :
    Becomes (gcallMethod p (goCall rt m (d + 1)) (n + 1) msg (t!"Set" ++ name) [.ptr msg i, .val v]) s (goCall rt m (d + 1) q [.bufPtr i, .offs i, .const f, v]) s [] := by
  rw [gcallMethod, hm]
  have hb : gbindArg p (scalarTy goType) (.val v) = .done (.val v) := by
    unfold scalarTy
    split
    · rfl
    · simp only [gbindArg, ht]; rfl
  have he := geval_setter (p := p) (meth := gcallMethod p (goCall rt m (d + 1)) n) (env := [(t!"m", .ptr msg i), (t!"x", .val v)]) (t := msg)
    (x := t!"x") (conc_WrapOffsets rt m d i) rfl hg f rfl
  simp only [ginvoke, G.srcSet, gbindAll, hb, block, gexec, Prog.bind_done]
  rw [he]
  simp only [bind_assoc', done_bind]
  exact becomes_bind (fun rs => rfl) s

theorem does_readSlots (i : Nat) (s : GSt) : ∀ k n, ∃ xs es, Does (readSlots i k n) s xs s es ∧ OnlyReads es ∧ bytesRead es = [] ∧ es.length = n := by
  intro k n
  induction n generalizing k with
  | zero => exact ⟨_, _, does_done _ _, (fun e he => by cases he), rfl, rfl⟩
  | succ n ih =>
    obtain ⟨xs, es, h1, h2, h3, h5⟩ := ih (k + 1)
    have h4 := h1.then (f := fun rest => .done ((read (.slot i k) s : Option U16).toList ++ rest)) rfl
    exact ⟨_, .reads (.slot i k) :: es, ⟨h4.1, congrArg (_ :: ·) h4.2⟩, h2.cons, h3, congrArg (· + 1) h5⟩

/-- A struct is copied. -/
theorem does_copyStruct (j : Nat) (s : GSt) : ∃ es, Does (copyStruct j) s s.next ⟨s.h.put s.next (s.h.ms j), s.next + 1, s.its⟩ es ∧ (∀ l, .writes l ∉ es) ∧ bytesRead es = [] ∧
    es.length = (s.h.ms j).a.length + 3 := by
  have h0 := to_copyStruct j s
  refine ⟨_, ⟨h0, rfl⟩, ?_, ?_, ?_⟩
  all_goals
    obtain ⟨xs, es, h1, h2, h3, h5⟩ := does_readSlots j s 0 (read (.slots j) s : Nat)
    have ht : (copyStruct j).trace s = .reads (.buf j) :: (readSlots j 0 (read (.slots j) s : Nat) >>= fun a => Prog.load (.ref j) fun (r : Option Nat) =>
      .newStruct ⟨(s.h.ms j).buf, a, r⟩ fun j => .done j).trace s := rfl
    rw [ht, trace_bind h1.1, h1.2]
  · intro l hl
    simp only [List.mem_cons, reduceCtorEq, List.mem_append, false_or] at hl
    rcases hl with hl | hl
    · obtain ⟨_, e⟩ := h2 _ hl
      cases e
    · simp [Prog.trace, Event.ofLoad] at hl
  · show bytesRead (es ++ _) = []
    rw [bytesRead_append, h3]
    rfl
  · rw [List.length_cons, List.length_append, h5]
    rfl

/-- A setter of a message field, and `AppendTo`. -/
theorem becomes_setBuf {mname typ F : Text} {f j : Nat} {q : Id}
    (hm : method p msg mname = some ⟨(t!"m", msg), mname, [(t!"x", .name typ)], [],
      block [.define t!"buf" (.method (.id t!"x") t!"Encode" .noArgs),
        .expr (.pkg F (.args (.addr mbuf) (.args wrap (.args (.num f) (.arg (.id t!"buf"))))))]⟩)
    (he : method p typ t!"Encode" = some (G.srcEncode typ)) (hs : (slots p typ).isSome) (hF : pkgFunc F = some q) (s : GSt) :
    ∃ es, (∀ l, .writes l ∉ es) ∧ bytesRead es = [] ∧ es.length = (s.h.ms j).a.length + 4 ∧
      Becomes (gcallMethod p (goCall rt m (d + 1)) (n + 2) msg mname [.ptr msg i, .struct typ j]) s (goCall rt m (d + 1) q [.bufPtr i, .offs i, .const f, .bytes (.mem (s.h.ms j).buf)])
        ⟨s.h.put s.next (s.h.ms j), s.next + 1, s.its⟩ es := by
  obtain ⟨es, c1, c2, c3, c4⟩ := does_copyStruct j s
  rw [gcallMethod, hm]
  have hb : gbindArg p (.name typ) (.struct typ j) = (copyStruct j >>= fun k => .done (.struct typ k)) := by
    simp only [gbindArg, hs, and_self, if_true]
  have hen : gcallMethod p (goCall rt m (d + 1)) (n + 1) typ t!"Encode" [.ptr typ s.next] =
      .load (.buf s.next) fun (b : HSlice) => .done [.val (.bytes (.mem b))] := by
    rw [gcallMethod, he]; rfl
  have hev : geval p (goCall rt m (d + 1)) (gcallMethod p (goCall rt m (d + 1)) (n + 1)) [(t!"m", .ptr msg i), (t!"x", .struct typ s.next)]
      (.method (.id t!"x") t!"Encode" .noArgs) = .load (.buf s.next) fun (b : HSlice) => .done [.val (.bytes (.mem b))] := by
    simp only [geval]
    exact hen
  have hse := fun b : HSlice => geval_setter (p := p) (meth := gcallMethod p (goCall rt m (d + 1)) (n + 1))
    (env := [(t!"buf", .val (.bytes (.mem b))), (t!"m", .ptr msg i), (t!"x", .struct typ s.next)]) (t := msg)
    (x := t!"buf") (conc_WrapOffsets rt m d i) rfl hF f rfl
  have hx : read (.buf s.next) ⟨s.h.put s.next (s.h.ms j), s.next + 1, s.its⟩ = (s.h.ms j).buf := by simp only [read, Heap.put, if_true]; rfl
  refine ⟨es ++ [.reads (.buf s.next)], ?_, ?_, ?_, ?_⟩
  · intro l hl
    rcases List.mem_append.1 hl with hl | hl
    · exact c2 l hl
    · simp at hl
  · rw [bytesRead_append, c3]; rfl
  · rw [List.length_append, c4]; rfl
  · simp only [ginvoke, gbindAll, hb, bind_assoc', done_bind]
    refine Becomes.after (goes_bind c1) ?_
    rw [block, gexec, gexec, hev]
    rw [← List.append_nil [Event.reads (.buf s.next)]]
    refine Becomes.after (s1 := ⟨s.h.put s.next (s.h.ms j), s.next + 1, s.its⟩) (Goes.buf (i := s.next) _) ?_
    have hx' : ((s.h.put s.next (s.h.ms j)).ms s.next).buf = (s.h.ms j).buf := hx
    simp only [hx', single, lift, done_bind, Prog.bind, block, gexec]
    rw [hse]
    show Becomes ((_ >>= _) >>= _) _ _ _ _
    simp only [bind_assoc', done_bind]
    exact becomes_bind (fun rs => rfl) _

end

end Zeropb.GoSrc.Conc
