import Verif.Props.Accesses
import Verif.Conc.GenWrites
/-!
# C72: which memory the setters write

A setter that replaces a value by one of the same length overwrites the bytes of the old value and writes nothing else: no other byte of the message, no offset. It reads of the message the length of the
old value and nothing else. A setter of a field that the message did not have writes behind the message. A setter that replaces a value by one of another length moves the bytes
behind it to the left and writes the new record behind them; the bytes before the old record are neither read nor written.
-/

set_option linter.constructorNameAsVariable false

namespace Zeropb.GoSrc.Conc
open Zeropb.Gen Zeropb.GoSrc.G Zeropb.Wire
open Zeropb.GoSrc.E (ScalarField MessageField RepeatedField goName goType iterOf num Compilable programOf decl_get decl_message decl_repeated sub_of Compilable.program Compilable.target Runs
  Conforms Shows C65_program scalar_schema message_schema repeated_schema runs_ran conforms_typed)

/-! ## Specification -/

/-- The places of the bytes of a slice. -/
def placesOf (b : HSlice) : List (Nat × Nat) := inArr b.arr (List.range' b.off b.len)

/-- The places in memory of the bytes of an argument: those of a string or of a slice, if they are not constants of the program. -/
def argPlaces : Val → List (Nat × Nat)
  | .str (.mem t) | .bytes (.mem t) => placesOf t
  | _ => []

/-- The call of `name` with `args` assigns the value `v` to field `fd` of struct `i`; the bytes of the argument are at `ps`. -/
inductive Assigns (U : Unicode) (m : Desc) (i : Nat) (s : GSt) (fd : Field) : Text → List GVal → Wire.Val → List (Nat × Nat) → Prop
  /-- `x.SetName(v)` -/
  | scalar {k} {x : Kind.Ty k} {v} : ScalarField m fd k → IsVal s.h.w k x v → (∀ y, v = .str y ∨ v = .bytes y → World.WFsrc s.h.w y) → lenOf k x + 10 < maxLen →
      Assigns U m i s fd (t!"Set" ++ goName U fd) [.ptr m.getName i, .val v] (encodeVal k x) (argPlaces v)
  /-- `x.SetName(y)`, `y` a message -/
  | message {j} : MessageField m fd → s.h.w.WFs (s.h.ms j).buf → (s.h.ms j).buf.len + 10 < maxLen →
      Assigns U m i s fd (t!"Set" ++ goName U fd) [.ptr m.getName i, .struct (goType fd) j] (.bytes (s.h.w.slice (s.h.ms j).buf).data) (placesOf (s.h.ms j).buf)

/-- The accesses that are made to copy a message that is passed by value. -/
def copied (s : GSt) : List GVal → Nat
  | [_, .struct _ j] => (s.h.ms j).a.length + 4
  | _ => 0

/-- Of the bytes that were there, only bytes of the capacity of `b` are written, from `lo` on. -/
def WritesFrom (s : GSt) (b : HSlice) (lo : Nat) (es : List Event) : Prop :=
  ∀ a q, a < s.h.w.arrs.length → .writes (.cell a q) ∈ es → a = b.arr ∧ b.off + lo ≤ q ∧ q < b.off + b.cap

/-! ## Proof -/

theorem argPlaces_eq (v : Val) : argPlaces v = argBytes v := by
  rcases v with _ | _ | _ | _ | _ | _ | _ | (_ | _) | (_ | _) <;> rfl

theorem writesFrom_of {s : GSt} {b : HSlice} {lo : Nat} {es : List Event} (h : FromOn s.h.w.arrs.length b lo (bytesWritten es)) : WritesFrom s b lo es :=
  fun a q ha hw => h a q (mem_bytesWritten.2 hw) ha

theorem size_lt {k : Kind} {x : k.Ty} (h : lenOf k x + 10 < maxLen) : k.size x < 2 ^ 64 := by
  unfold maxLen at h
  cases k <;> simp only [Kind.size, lenOf] at h ⊢ <;> omega

/-- The tags of a message that was made by methods are in shortest form. -/
theorem oldTag_min {S : Schema} {m : Msg} {rs : List Wire.Record} {f : Nat} {v : Wire.Val} {A tag pay B : List Byte} (h : HoldsMin S m rs) (hl : LastRecord f v m.buf.data A tag pay B) :
    IsMinVarint (f * 8 + v.wireType) tag := by
  obtain ⟨rs1, h1⟩ := hl.before
  obtain ⟨rs2, h2, _⟩ := hl.behind
  obtain ⟨cs1, a1, a2, a3⟩ := isMessage_iff.1 h1
  obtain ⟨cs2, b1, b2, b3⟩ := isMessage_iff.1 h2
  obtain ⟨cs, c1, c2, c3⟩ := h
  have hcs : cs = cs1 ++ ⟨f, v, tag, pay⟩ :: cs2 := by
    refine flat_injective c1.wf ?_ ?_
    · intro c hc
      rcases List.mem_append.1 hc with hc | hc
      · exact a2 c hc
      · rcases List.mem_cons.1 hc with hc | hc
        · rw [hc]; exact ⟨hl.tag, hl.payload⟩
        · exact b2 c hc
    · rw [← c1.data, hl.split]; simp [a1, b1, Chunk.bytes]
  exact c2 ⟨f, v, tag, pay⟩ (by rw [hcs]; simp)

section
variable {U : Unicode} {fs : List FileDesc} {pkg : Text} (hc : Compilable U fs pkg) {f : FileDesc} (hf : f ∈ fs) {m : Desc} (hm : some m ∈ f.messageType)
include hc hf hm

theorem num_small {fd : Field} {k : Kind} (h : (schemaOf m (hc.valid f hf m hm)).kind (num fd) = some k) : num fd < 2 ^ 61 :=
  Nat.lt_of_lt_of_le ((schemaOf m (hc.valid f hf m hm)).kind_lt _ (by rw [h]; simp)) (schemaOf m (hc.valid f hf m hm)).n_le

/-- A setter is `setSingle`. -/
theorem assign_becomes {i : Nat} {s : GSt} {fd : Field} {name : Text} {args : List GVal} {v : Wire.Val} {ps : List (Nat × Nat)} (h : Assigns U m i s fd name args v ps) (hi : i < s.next) :
    ∃ tag vl y t, IsMinVarint (num fd * 8 + v.wireType) tag ∧ World.WFsrc s.h.w y ∧ IsMinPayload v (vl ++ s.h.w.src y) ∧ srcBytes y = ps ∧
      (∃ k, (schemaOf m (hc.valid f hf m hm)).kind (num fd) = some k ∧ (schemaOf m (hc.valid f hf m hm)).rep (num fd) = false ∧ k.wt = v.wireType) ∧
      t.h.w = s.h.w ∧ t.h.ms i = s.h.ms i ∧ i < t.next ∧ vl.length + strLen y < maxLen ∧
      ∀ rt d fuel, ∃ es, (∀ l, .writes l ∉ es) ∧ bytesRead es = [] ∧ ((∃ k, ScalarField m fd k) → es = [] ∧ t = s) ∧ es.length = copied s args ∧
        Becomes (grun (programOf U fs) rt fuel d m.getName name args) s (setSingleP rt i (num fd) v.wireType tag (.lit vl) y) t es := by
  have hp := hc.program
  have hv := hc.valid f hf m hm
  have hmin : ∀ {v : Wire.Val} {bs : List Byte}, IsMinPayload v bs → (∀ xs, v = .bytes xs → xs.length + 10 < maxLen) → bs.length < maxLen := by
    intro v bs hb hx
    cases v with
    | varint u => have := Wire.IsVarint.length_le hb.1; unfold maxLen; omega
    | fixed32 u => rw [show bs = _ from hb, leBytes_length]; decide
    | fixed64 u => rw [show bs = _ from hb, leBytes_length]; decide
    | bytes xs =>
      obtain ⟨lb, h1, rfl⟩ := hb
      have := h1.1.length_le
      have := hx xs rfl
      rw [List.length_append]; omega
  cases h with
  | @scalar k x v h1 h2 h3 h4 =>
    obtain ⟨e1, e2⟩ := scalar_schema hv h1
    have hn := num_small hc hf hm e1
    have hwt : k.wt < 8 := by cases k <;> decide
    obtain ⟨tag, t1, t2⟩ := putUvarint64 (tagOf (num fd) k.wt)
    rw [tagOf_toNat hn hwt] at t2
    obtain ⟨vl, y, p1, p2, p3, p4⟩ := prog_setter h2 h3 (size_lt h4) t1
    have hlen := hmin p3 (by
      intro xs e
      cases k <;> simp only [encodeVal, reduceCtorEq, Wire.Val.bytes.injEq] at e
      all_goals (subst e; exact h4))
    rw [List.length_append, src_length p2] at hlen
    refine ⟨tag, vl, y, s, ?_, p2, p3, by rw [p4, argPlaces_eq], ⟨k, e1, e2, (wireType_encodeVal k x).symm⟩, rfl, rfl, hi, hlen, fun rt d fuel => ⟨[], nofun, rfl, fun _ => ⟨rfl, rfl⟩, rfl, ?_⟩⟩
    · rw [wireType_encodeVal]; exact t2
    · rw [wireType_encodeVal, ← p1 rt fuel d i]
      exact becomes_set (d := d + 2) (n := d + 1) (hp.method (sub_of hf hm _ (decl_get hv h1).2) rfl) (pkg_set _) (goType_slots hp _) v s
  | @message j h1 h2 h3 =>
    obtain ⟨e1, e2⟩ := message_schema hv h1
    have hn := num_small hc hf hm e1
    obtain ⟨tag, t1, t2⟩ := putUvarint64 (tagOf (num fd) Kind.bytes.wt)
    rw [tagOf_toNat hn (by decide)] at t2
    obtain ⟨vl, y, p1, p2, p3, p4⟩ := prog_setter (w := s.h.w) (k := .bytes) (x := (s.h.w.slice (s.h.ms j).buf).data) (v := .bytes (.mem (s.h.ms j).buf)) (.inr ⟨_, rfl, rfl⟩)
      (by rintro y (h | h) <;> cases h; exact h2) (by simp only [Kind.size]; rw [show List.length _ = _ from World.slice_len h2]; unfold maxLen at h3; omega) t1
    have hlen := hmin p3 (by
      intro xs e
      cases e
      rw [show List.length _ = _ from World.slice_len h2]; exact h3)
    rw [List.length_append, src_length p2] at hlen
    obtain ⟨c1, _, ⟨n, c2⟩, _⟩ := hc.target hf hm (.inl h1)
    refine ⟨tag, vl, y, ⟨s.h.put s.next (s.h.ms j), s.next + 1, s.its⟩, t2, p2, p3, by rw [p4]; rfl, ⟨.bytes, e1, e2, rfl⟩, rfl, ?_, Nat.lt_succ_of_lt hi, hlen, fun rt d fuel => ?_⟩
    · show (s.h.put s.next (s.h.ms j)).ms i = _
      simp only [Heap.put]
      rw [if_neg (by omega)]
    · obtain ⟨es, b1, b2, b0, b3⟩ := becomes_setBuf (m := fuel) (d := d + 2) (n := d) (rt := rt) (i := i) (j := j) (hp.method (sub_of hf hm _ (decl_message hv h1).2) rfl) (hp.method c1 rfl)
        (by rw [hp.slots c2]; rfl) (F := t!"SetBytes") (q := .SetBytes) rfl s
      refine ⟨es, b1, b2, ?_, b0, ?_⟩
      · rintro ⟨k, _, _, hk⟩
        rw [h1.2.2] at hk
        exact absurd hk (by cases k <;> decide)
      · rw [show Wire.Val.wireType (.bytes (s.h.w.slice (s.h.ms j).buf).data) = Kind.bytes.wt from rfl, ← p1 rt fuel d i]
        exact b3

/-- What a struct that was made by methods is where a setter looks at it. -/
theorem made_located {i : Nat} {s : GSt} (h : Made U fs m i s) {fd : Field} {k : Kind} (e1 : (schemaOf m (hc.valid f hf m hm)).kind (num fd) = some k)
    (e2 : (schemaOf m (hc.valid f hf m hm)).rep (num fd) = false) {v : Wire.Val} {A tag pay B : List Byte}
    (hl : LastRecord (num fd) v (s.h.w.slice (s.h.ms i).buf).data A tag pay B) :
    Located (s.h.w.slice (s.h.ms i).buf) (s.h.w.offs (s.h.ms i)) (num fd) (A ++ tag) pay B ∧ IsMinVarint (num fd * 8 + v.wireType) tag ∧ v.wireType = k.wt := by
  obtain ⟨hv, rs, c, a1, a2, a3⟩ := made_tracks hc hf hm h
  obtain ⟨rs1, h1⟩ := hl.before
  obtain ⟨rs2, h2, h3⟩ := hl.behind
  obtain ⟨cs1, cs2, r1, r2, r3, r4, r5, r6⟩ := chunks_around a3.1.holds hl.split h1 hl.tag hl.payload h2
  have hloc := r1.located_last rfl e2 rfl fun d hd => h3 d.record (by rw [← r5]; exact List.mem_map_of_mem hd)
  rw [r2, r3] at hloc
  refine ⟨hloc, oldTag_min a3.1 hl, a3.2.1.last e1 ?_⟩
  rw [r6]
  exact lastVal_at h3

theorem made_wf {i : Nat} {s : GSt} (h : Made U fs m i s) : s.h.w.WFs (s.h.ms i).buf ∧ i < s.next := by
  obtain ⟨_, _, _, a1, a2, _⟩ := made_tracks hc hf hm h
  exact ⟨a1.1, a2⟩

omit hc hf hm in
theorem runs_append {i : Nat} {s s1 s2 : GSt} {ops ops' : List Zeropb.Op} (h : Runs U (programOf U fs) m i s ops s1) (h' : Runs U (programOf U fs) m i s1 ops' s2) :
    Runs U (programOf U fs) m i s (ops ++ ops') s2 := by
  induction h with
  | done s => exact h'
  | call h1 h2 _ ih => exact .call h1 h2 (ih h')
  | other h1 _ ih => exact .other h1 (ih h')

/-- C72: a setter fails only for lack of address space: as long as the message stays short enough, it does what the theorems below say. -/
theorem C72_succeeds {i : Nat} {s : GSt} (h : Made U fs m i s) {rt : Rt} {name : Text} {args : List GVal} {op : Zeropb.Op} (hcall : E.Calls U m rt i s name args op)
    (hfit : (s.h.ms i).buf.len + op.cost < maxLen) (d : Nat) :
    ∃ s', G.run (programOf U fs) rt d m.getName name args s = .ok (returned op, s') ∧ Made U fs m i s' := by
  have hv := hc.valid f hf m hm
  obtain ⟨s0, ops, h0, hn0, hr⟩ := id h
  obtain ⟨z1, z2⟩ := start_tracks (S := schemaOf m hv) h0
  obtain ⟨a1, a2, rs, a3⟩ := ran_tracks hc.program hc.closed (decls_implements U m hv) (sub_of (U := U) hf hm) (runs_ran hv hr) z1 hn0 z2
  obtain ⟨hval, hfol⟩ := C63_call hc.program hc.closed (decls_implements U m hv) (sub_of (U := U) hf hm) rt d a1 a3.1.off_length a2 (E.calls_issues hv hcall)
  have hl : (s.h.w.msg (s.h.ms i)).encode.len = (s.h.ms i).buf.len := World.slice_len a1.1
  rcases a3.step op hval with ⟨m', rs', e1, _, _⟩ | ⟨_, e2⟩
  · rw [e1] at hfol
    obtain ⟨s1, f1, _⟩ := hfol
    exact ⟨s1, f1, s0, _, h0, hn0, runs_append hr (.call hcall f1 (.done _))⟩
  · rw [hl] at e2; omega

/-- C72: a value is replaced by one of the same length. The bytes of the old value are overwritten, and nothing else is written: no other byte, no offset, nothing of another struct. Of the
message, the length of the old value is read, or the old value if it is a varint, and no other byte. -/
theorem C72_overwrite {i : Nat} {s s' : GSt} (h : Made U fs m i s) {fd : Field} {v v' : Wire.Val} {A tag pay pay' B : List Byte}
    (hl : LastRecord (num fd) v (s.h.w.slice (s.h.ms i).buf).data A tag pay B) {name : Text} {args out : List GVal} {ps : List (Nat × Nat)} (ha : Assigns U m i s fd name args v' ps)
    (hp : IsMinPayload v' pay') (hn : pay'.length = pay.length) {rt : Rt} {d : Nat} (hr : G.run (programOf U fs) rt d m.getName name args s = .ok (out, s')) (fuel : Nat) :
    ∃ es, Does (grun (programOf U fs) rt fuel d m.getName name args) s [] s' es ∧
      bytesWritten es = inArr (s.h.ms i).buf.arr (List.range' ((s.h.ms i).buf.off + (A ++ tag).length) pay.length) ∧
      bytesRead es = inArr (s.h.ms i).buf.arr (List.range' ((s.h.ms i).buf.off + (A ++ tag).length) (markLen v pay)) ++ ps ∧
      (∀ l, .writes l ∈ es → ∃ a q, l = .cell a q) ∧ ((∃ k, ScalarField m fd k) → .allocates ∉ es) := by
  obtain ⟨a1, a2⟩ := made_wf hc hf hm h
  obtain ⟨tag', vl, y, t, b1, b2, b3, b4, ⟨k, e1, e2, e3⟩, t1, t2, t3, b6, b7⟩ := assign_becomes hc hf hm ha a2
  obtain ⟨l1, l2, l3⟩ := made_located hc hf hm h e1 e2 hl
  have hpay : vl.length + strLen y = pay.length := by
    rw [← hn, hp.unique b3, List.length_append, src_length b2]
  obtain ⟨s1, es1, d1, d2, d3, d4⟩ := set_same (s := t) (i := i) (f := num fd) (x := .lit vl) (y := y) (by rw [t1, t2]; exact a1) (by rw [t1, t2]; exact l1) hl.payload trivial (by rw [t1]; exact b2)
    hpay.symm rt tag'
  rw [l3, e3] at d1
  have key : ∀ fuel, ∃ es, (∀ l, .writes l ∉ es) ∧ bytesRead es = [] ∧ ((∃ k, ScalarField m fd k) → es = [] ∧ t = s) ∧
      Does (grun (programOf U fs) rt fuel d m.getName name args) s [] s1 (es ++ es1) := by
    intro fuel
    obtain ⟨es, c1, c2, c3, _, c4⟩ := b7 rt d fuel
    exact ⟨es, c1, c2, c3, c4.outer d1.1, by rw [c4.trace, d1.2]⟩
  obtain ⟨_, e⟩ := same_result (n := 0) hr fun fuel _ => (key fuel).choose_spec.2.2.2.1
  subst e
  obtain ⟨es, c1, c2, c3, c4⟩ := key fuel
  have hw0 : bytesWritten es = [] := by
    rw [List.eq_nil_iff_forall_not_mem]
    rintro ⟨a, q⟩ hx
    exact c1 _ (mem_bytesWritten.1 hx)
  refine ⟨_, c4, ?_, ?_, ?_, ?_⟩
  · rw [bytesWritten_append, hw0, d4, t2]; rfl
  · rw [bytesRead_append, c2, d3, t2, b4]; rfl
  · intro l hl'
    rcases List.mem_append.1 hl' with hl' | hl'
    · exact absurd hl' (c1 l)
    · exact d2.1 l hl'
  · intro hk
    rw [(c3 hk).1]
    exact d2.2

omit hc hf hm in
theorem noWrites_bytes {es : List Event} (h : ∀ l, .writes l ∉ es) : bytesWritten es = [] := by
  rw [List.eq_nil_iff_forall_not_mem]
  rintro ⟨a, q⟩ hx
  exact h _ (mem_bytesWritten.1 hx)

omit hc hf hm in
/-- What a method does that becomes `q`, if it returns. -/
theorem becomes_does {rt : Rt} {d : Nat} {t name : Text} {args out : List GVal} {s s1 s' : GSt} {q : Prog (List Val)} (hr : G.run (programOf U fs) rt d t name args s = .ok (out, s'))
    (hb : ∀ fuel, ∃ es, (∀ l, .writes l ∉ es) ∧ bytesRead es = [] ∧ Becomes (grun (programOf U fs) rt fuel d t name args) s q s1 es) :
    (∃ v, q.run s1 = .ok (v, s')) ∧ ∀ fuel, ∃ es, (∀ l, .writes l ∉ es) ∧ bytesRead es = [] ∧ Does (grun (programOf U fs) rt fuel d t name args) s [] s' (es ++ q.trace s1) := by
  obtain ⟨N, hN⟩ := to_grun hr
  obtain ⟨es, _, _, h3⟩ := hb N
  obtain ⟨_, v, hv⟩ := h3.inner (hN N (Nat.le_refl _))
  refine ⟨⟨v, hv⟩, fun fuel => ?_⟩
  obtain ⟨es, h1, h2, h3⟩ := hb fuel
  exact ⟨es, h1, h2, h3.outer hv, h3.trace⟩

/-- C72: a field that the message did not have is set. Behind the message, tag and value are written; if the capacity of the buffer is large enough, these bytes are the only ones that are written, and no byte of the
message is read. Otherwise the message is copied to a new buffer, and none of its bytes is overwritten. -/
theorem C72_first {i : Nat} {s s' : GSt} (h : Made U fs m i s) {fd : Field} {v' : Wire.Val} {tag' pay' : List Byte}
    (hl : NoRecord (num fd) (s.h.w.slice (s.h.ms i).buf).data) {name : Text} {args out : List GVal} {ps : List (Nat × Nat)} (ha : Assigns U m i s fd name args v' ps)
    (ht : IsMinVarint (num fd * 8 + v'.wireType) tag') (hp : IsMinPayload v' pay') {rt : Rt} {d : Nat}
    (hr : G.run (programOf U fs) rt d m.getName name args s = .ok (out, s')) (fuel : Nat) :
    ∃ es, Does (grun (programOf U fs) rt fuel d m.getName name args) s [] s' es ∧ WritesFrom s (s.h.ms i).buf (s.h.ms i).buf.len es ∧
      ((s.h.ms i).buf.len + (tag' ++ pay').length ≤ (s.h.ms i).buf.cap →
        bytesWritten es = inArr (s.h.ms i).buf.arr (List.range' ((s.h.ms i).buf.off + (s.h.ms i).buf.len) (tag' ++ pay').length) ∧ bytesRead es = ps ∧
        (s'.h.ms i).buf = { (s.h.ms i).buf with len := (s.h.ms i).buf.len + (tag' ++ pay').length }) := by
  obtain ⟨a1, a2⟩ := made_wf hc hf hm h
  obtain ⟨tag, vl, y, t, b1, b2, b3, b4, ⟨k, e1, e2, e3⟩, t1, t2, t3, b6, b7⟩ := assign_becomes hc hf hm ha a2
  have et : tag' = tag := ht.unique b1
  have ep : pay'.length = vl.length + strLen y := by rw [hp.unique b3, List.length_append, src_length b2]
  obtain ⟨hv, rs, c, c1, c2, c3⟩ := made_tracks hc hf hm h
  obtain ⟨cs, r1, r2⟩ := c3.1.holds
  obtain ⟨rs', h1, h2⟩ := hl
  have hrs : rs' = rs := isMessage_unique h1 c3.1.holds.isMessage
  subst hrs
  have hg : (t.h.w.offs (t.h.ms i)).get (num fd) = .ok (0#64, false) := by
    rw [t1, t2]
    exact r1.get_none ((schemaOf m hv).kind_lt _ (by rw [e1]; simp)) (fun c hc => h2 c.record (by rw [← r2]; exact List.mem_map_of_mem hc))
  obtain ⟨⟨u, hu⟩, hd⟩ := becomes_does hr fun fuel => (b7 rt d fuel).imp fun es he => ⟨he.1, he.2.1, he.2.2.2.2⟩
  have hg' : Goes (setSingleP rt i (num fd) v'.wireType tag (.lit vl) y) t (tailP rt i (num fd) tag (.lit vl) y) t (finding t i (num fd)) := by
    unfold setSingleP
    exact goes_bind (a := (none : Option U64)) (find_at hg)
  obtain ⟨w1, w2⟩ := tail_written (x := .lit vl) (hg'.1.symm.trans hu) t3 trivial (by rw [t1]; exact b2)
  rw [t1, t2] at w1
  rw [t2] at w2
  obtain ⟨es, g1, g2, g3⟩ := hd fuel
  have hfw : bytesWritten (finding t i (num fd)) = [] := (onlyReads_finding t i _).written
  have hw : bytesWritten (es ++ (setSingleP rt i (num fd) v'.wireType tag (.lit vl) y).trace t) = bytesWritten ((tailP rt i (num fd) tag (.lit vl) y).trace t) := by
    rw [hg'.2, bytesWritten_append, bytesWritten_append, noWrites_bytes g1, hfw]; rfl
  refine ⟨_, g3, writesFrom_of (by rw [hw]; exact w1), fun hcap => ?_⟩
  rw [List.length_append, et, ep] at hcap ⊢
  obtain ⟨x1, x2, x3⟩ := w2 hcap
  rw [hw]
  refine ⟨x1, ?_, x3⟩
  rw [hg'.2, bytesRead_append, bytesRead_append, g2, bytesRead_finding, x2, b4]
  rfl

/-- C72: an element is appended to a repeated field. It is written behind the message, as in `C72_first`. -/
theorem C72_append {i j : Nat} {s s' : GSt} (h : Made U fs m i s) {fd : Field} (hfd : RepeatedField m fd) (hw : s.h.w.WFs (s.h.ms j).buf) (hlen : (s.h.ms j).buf.len + 10 < maxLen)
    {tag' pay' : List Byte} (ht : IsMinVarint (num fd * 8 + 2) tag') (hp : IsMinPayload (.bytes (s.h.w.slice (s.h.ms j).buf).data) pay') {rt : Rt} {d : Nat} {out : List GVal}
    (hr : G.run (programOf U fs) rt d m.getName (t!"AppendTo" ++ goName U fd) [.ptr m.getName i, .struct (goType fd) j] s = .ok (out, s')) (fuel : Nat) :
    ∃ es, Does (grun (programOf U fs) rt fuel d m.getName (t!"AppendTo" ++ goName U fd) [.ptr m.getName i, .struct (goType fd) j]) s [] s' es ∧
      WritesFrom s (s.h.ms i).buf (s.h.ms i).buf.len es ∧
      ((s.h.ms i).buf.len + (tag' ++ pay').length ≤ (s.h.ms i).buf.cap →
        bytesWritten es = inArr (s.h.ms i).buf.arr (List.range' ((s.h.ms i).buf.off + (s.h.ms i).buf.len) (tag' ++ pay').length) ∧ bytesRead es = placesOf (s.h.ms j).buf ∧
        (s'.h.ms i).buf = { (s.h.ms i).buf with len := (s.h.ms i).buf.len + (tag' ++ pay').length }) := by
  have hv := hc.valid f hf m hm
  obtain ⟨a1, a2⟩ := made_wf hc hf hm h
  obtain ⟨e1, e2⟩ := repeated_schema hv hfd
  have hn := num_small hc hf hm e1
  obtain ⟨tag, t1, t2⟩ := putUvarint64 (tagOf (num fd) 2)
  rw [tagOf_toNat hn (by decide)] at t2
  have et : tag' = tag := ht.unique t2
  obtain ⟨vl, h1, h2⟩ := putUvarint64 (BitVec.ofNat 64 (strLen (.mem (s.h.ms j).buf)))
  have hsl : (s.h.w.slice (s.h.ms j).buf).data.length = (s.h.ms j).buf.len := World.slice_len hw
  have hm3 : IsMinPayload (.bytes (s.h.w.slice (s.h.ms j).buf).data) (vl ++ (s.h.w.slice (s.h.ms j).buf).data) := by
    refine ⟨vl, ?_, rfl⟩
    rw [BitVec.toNat_ofNat, Nat.mod_eq_of_lt (by show (s.h.ms j).buf.len < _; unfold maxLen at hlen; omega)] at h2
    rw [hsl]; exact h2
  have ep : pay'.length = vl.length + strLen (.mem (s.h.ms j).buf) := by rw [hp.unique hm3, List.length_append, hsl]; rfl
  have hp := hc.program
  obtain ⟨c1, _, ⟨n, c2⟩, _⟩ := hc.target hf hm (.inr hfd)
  obtain ⟨⟨u, hu⟩, hd⟩ := becomes_does hr (q := appendSingleP rt i (num fd) tag (.lit vl) (.mem (s.h.ms j).buf)) fun fuel => by
    obtain ⟨es, b1, b2, b0, b3⟩ := becomes_setBuf (m := fuel) (d := d + 2) (n := d) (rt := rt) (i := i) (j := j) (hp.method (sub_of hf hm _ (decl_repeated hv hfd).2.2.2) rfl) (hp.method c1 rfl)
        (by rw [hp.slots c2]; rfl) (F := t!"AppendBytes") (q := .AppendBytes) rfl s
    refine ⟨es, b1, b2, ?_⟩
    rw [← prog_AppendBytes rt fuel d i (num fd) t1 (CArg.bytes _) h1]
    exact b3
  obtain ⟨w1, w2⟩ := append_written (x := .lit vl) hu (Nat.lt_succ_of_lt a2) trivial hw
  have ems : (s.h.put s.next (s.h.ms j)).ms i = s.h.ms i := by simp only [Heap.put]; rw [if_neg (by omega)]
  simp only [ems] at w1 w2
  obtain ⟨es, g1, g2, g3⟩ := hd fuel
  refine ⟨_, g3, writesFrom_of (by rw [bytesWritten_append, noWrites_bytes g1]; exact w1), fun hcap => ?_⟩
  rw [List.length_append, et, ep] at hcap ⊢
  obtain ⟨x1, x2, x3⟩ := w2 hcap
  refine ⟨by rw [bytesWritten_append, noWrites_bytes g1]; exact x1, ?_, x3⟩
  rw [bytesRead_append, g2, x2]
  rfl

/-- C72: a value is replaced by one of another length. No byte before the old record is written. If the capacity of the buffer is large enough, the bytes behind the record are moved and the new record is
written behind them, each byte once; the bytes behind the old record are read, the length of the old value, and the argument. -/
theorem C72_move {i : Nat} {s s' : GSt} (h : Made U fs m i s) {fd : Field} {v v' : Wire.Val} {A tag pay pay' B : List Byte}
    (hl : LastRecord (num fd) v (s.h.w.slice (s.h.ms i).buf).data A tag pay B) {name : Text} {args out : List GVal} {ps : List (Nat × Nat)} (ha : Assigns U m i s fd name args v' ps)
    (hp : IsMinPayload v' pay') (hn : pay'.length ≠ pay.length) {rt : Rt} {d : Nat} (hr : G.run (programOf U fs) rt d m.getName name args s = .ok (out, s')) (fuel : Nat) :
    ∃ es, Does (grun (programOf U fs) rt fuel d m.getName name args) s [] s' es ∧ WritesFrom s (s.h.ms i).buf A.length es ∧
      ((A ++ B ++ tag ++ pay').length ≤ (s.h.ms i).buf.cap →
        bytesWritten es = inArr (s.h.ms i).buf.arr (List.range' ((s.h.ms i).buf.off + A.length) (B ++ tag ++ pay').length) ∧
        bytesRead es = inArr (s.h.ms i).buf.arr (List.range' ((s.h.ms i).buf.off + (A ++ tag).length) (markLen v pay) ++
          List.range' ((s.h.ms i).buf.off + (A ++ tag ++ pay).length) B.length) ++ ps ∧
        (s'.h.ms i).buf = { (s.h.ms i).buf with len := (A ++ B ++ tag ++ pay').length }) := by
  obtain ⟨a1, a2⟩ := made_wf hc hf hm h
  obtain ⟨tag', vl, y, t, b1, b2, b3, b4, ⟨k, e1, e2, e3⟩, t1, t2, t3, b6, b7⟩ := assign_becomes hc hf hm ha a2
  obtain ⟨l1, l2, l3⟩ := made_located hc hf hm h e1 e2 hl
  have et : tag' = tag := by rw [l3, e3] at l2; exact b1.unique l2
  subst et
  have ep : pay'.length = vl.length + strLen y := by rw [hp.unique b3, List.length_append, src_length b2]
  obtain ⟨⟨u, hu⟩, hd⟩ := becomes_does hr fun fuel => (b7 rt d fuel).imp fun es he => ⟨he.1, he.2.1, he.2.2.2.2⟩
  have hwt : v'.wireType = v.wireType := by rw [l3, e3]
  rw [hwt] at hu hd
  obtain ⟨w1, w2⟩ := set_moved (s := t) (i := i) (f := num fd) (x := .lit vl) (y := y) t3 (by rw [t1, t2]; exact a1) (by rw [t1, t2]; exact l1) hl.payload trivial (by rw [t1]; exact b2) b6
    (fun e => hn (ep.trans e.symm)) (by rw [List.length_append]; omega) hu
  rw [t1, t2] at w1
  rw [t2] at w2
  obtain ⟨es, g1, g2, g3⟩ := hd fuel
  have e0 : (A ++ tag').length - tag'.length = A.length := by rw [List.length_append]; omega
  rw [e0] at w1 w2
  have hw : ∀ fs, bytesWritten (es ++ fs) = bytesWritten fs := fun fs => by rw [bytesWritten_append, noWrites_bytes g1]; rfl
  refine ⟨_, g3, writesFrom_of (by rw [hw]; exact w1), fun hcap => ?_⟩
  have e5 : (A ++ tag').length + B.length + (strLen (.lit vl) + strLen y) = (A ++ B ++ tag' ++ pay').length := by simp only [List.length_append, ep, strLen]; omega
  have e6 : B.length + (tag'.length + (strLen (.lit vl) + strLen y)) = (B ++ tag' ++ pay').length := by simp only [List.length_append, ep, strLen]; omega
  rw [e5, e6] at w2
  obtain ⟨x1, x2, x3⟩ := w2 hcap
  refine ⟨by rw [hw]; exact x1, ?_, x3⟩
  rw [bytesRead_append, g2, x2, b4, show srcBytes (.lit vl) = [] from rfl]
  simp only [inArr, List.map_append, List.append_assoc, List.nil_append, List.length_append, Nat.add_assoc]

end

section
open Zeropb.GoSrc.E (testFile_compilable testFile_has testField)

/-- `skimmed`, in a buffer with room for 20 bytes more, and the bytes of "abc" and "hello". -/
def roomState : GSt := ⟨⟨⟨[skimmed ++ List.replicate 20 0#8, [0x61#8, 0x62#8, 0x63#8], [0x68#8, 0x65#8, 0x6c#8, 0x6c#8, 0x6f#8]], []⟩, fun _ => .zero 35⟩, 2, fun _ => none⟩

/-- After `Decode` of `skimmed` into struct 0 of `roomState`. -/
theorem room_decoded : ∃ s, Made asciiUnicode [testFile] testDesc 0 s ∧ s.h.w.arrs = roomState.h.w.arrs ∧ (s.h.ms 0).buf = ⟨0, 0, 22, 42⟩ ∧ (s.h.w.slice (s.h.ms 0).buf).data = skimmed ∧
    s.h.ms 1 = .zero 35 := by
  have hc := testFile_compilable
  obtain ⟨hf, hm⟩ := testFile_has
  have hsl : slotsOf testDesc = 35 := by decide +kernel
  have hslice : roomState.h.w.slice ⟨0, 0, 22, 42⟩ = ⟨skimmed, List.replicate 20 0#8⟩ := by decide +kernel
  have hz : roomState.h.w.WF (roomState.h.ms 0) := ⟨⟨by decide, by decide⟩, nofun⟩
  have hwb : roomState.h.w.WFs ⟨0, 0, 22, 42⟩ := ⟨by decide, by decide +kernel⟩
  obtain ⟨ps, s, k1, kp, k2⟩ := C71_decode hc hf hm (i := 0) (s := roomState) (b := ⟨0, 0, 22, 42⟩) (rs := skimmedRecords) (by rw [hsl]; rfl) hz (by decide) hwb (by decide)
    (by rw [hslice]; exact IsMinTagMessage_isMessage skimmed_min) skimmed_conforms
  refine ⟨s, ⟨roomState, _, by rw [hsl]; rfl, by decide, .call (rt := .exact) (d := 0) (.decode (rs := skimmedRecords) hwb (by decide) (by rw [hslice]; exact skimmed_min) skimmed_conforms)
    (k2 _ 0).1 (.done _)⟩, kp.bytes, kp.refers, ?_, kp.others 1 (by decide)⟩
  rw [kp.refers, slice_arrs kp.bytes, hslice]

/-- The string field of `TestMessage`, and the bool field, and the repeated one. -/
theorem room_string : ∃ fd, num fd = 14 ∧ ScalarField testDesc fd .string := by
  obtain ⟨fd, i1, i2, i3, i4⟩ := testField (P := fun fd => (getLabel (some fd) = 1 ∨ getLabel (some fd) = 2) ∧ protoKind (getType (some fd)) = some .string ∧ num fd = 14) (by decide +kernel)
  exact ⟨fd, i4, i1, i2, i3⟩

theorem room_bool : ∃ fd, num fd = 1 ∧ ScalarField testDesc fd .bool := by
  obtain ⟨fd, i1, i2, i3, i4⟩ := testField (P := fun fd => (getLabel (some fd) = 1 ∨ getLabel (some fd) = 2) ∧ protoKind (getType (some fd)) = some .bool ∧ num fd = 1) (by decide +kernel)
  exact ⟨fd, i4, i1, i2, i3⟩

theorem room_int32 : ∃ fd, num fd = 2 ∧ ScalarField testDesc fd .int32 := by
  obtain ⟨fd, i1, i2, i3, i4⟩ := testField (P := fun fd => (getLabel (some fd) = 1 ∨ getLabel (some fd) = 2) ∧ protoKind (getType (some fd)) = some .int32 ∧ num fd = 2) (by decide +kernel)
  exact ⟨fd, i4, i1, i2, i3⟩

theorem room_repeated : ∃ fd, num fd = 34 ∧ RepeatedField testDesc fd := by
  obtain ⟨fd, i1, i2, i3, i4⟩ := testField (P := fun fd => getLabel (some fd) = 3 ∧ getType (some fd) = 11 ∧ num fd = 34) (by decide +kernel)
  exact ⟨fd, i4, i1, i2, i3⟩

theorem room_last {s : GSt} (h : (s.h.w.slice (s.h.ms 0).buf).data = skimmed) :
    LastRecord 14 (.bytes [0x68#8, 0x65#8, 0x79#8]) (s.h.w.slice (s.h.ms 0).buf).data [] [0x72#8] [0x03#8, 0x68#8, 0x65#8, 0x79#8] (skimmed.drop 5) := by
  rw [h]
  exact ⟨rfl, ⟨[], .nil⟩, (skim1 0x72#8 (by decide)).1, ⟨[0x03#8], (skim1 0x03#8 (by decide)).1, rfl⟩, _, skims5.isMessage, by decide⟩

/-- C72 on golden/test.proto: a struct holds `skimmed`, with string = "hey" at 2, 3 and 4, in a buffer with room.
* `SetString` of "abc" writes the bytes 1 to 4, and reads byte 1, the length, and "abc".
* `SetString` of "hello" writes 24 bytes from 0 on, the other records and the new one, and reads the length, the other records and "hello".
* `SetBool`, of a field that was not there, writes the bytes 22 and 23, and reads nothing.
* `AppendToMessages` of an empty message writes the bytes 22 to 24, and reads nothing. -/
example (rt : Rt) : ∃ s, Made asciiUnicode [testFile] testDesc 0 s ∧
    (∃ fd s' es, num fd = 14 ∧ Does (grun (programOf asciiUnicode [testFile]) rt 0 0 testDesc.getName (t!"Set" ++ goName asciiUnicode fd) [.ptr testDesc.getName 0, .val (.str (.mem ⟨1, 0, 3, 3⟩))]) s [] s' es ∧
      bytesWritten es = inArr 0 [1, 2, 3, 4] ∧ bytesRead es = inArr 0 [1] ++ inArr 1 [0, 1, 2]) ∧
    (∃ fd s' es, num fd = 14 ∧ Does (grun (programOf asciiUnicode [testFile]) rt 0 0 testDesc.getName (t!"Set" ++ goName asciiUnicode fd) [.ptr testDesc.getName 0, .val (.str (.mem ⟨2, 0, 5, 5⟩))]) s [] s' es ∧
      bytesWritten es = inArr 0 (List.range' 0 24) ∧ bytesRead es = inArr 0 (1 :: List.range' 5 17) ++ inArr 2 [0, 1, 2, 3, 4] ∧ (s'.h.ms 0).buf = ⟨0, 0, 24, 42⟩) ∧
    (∃ fd s' es, num fd = 1 ∧ Does (grun (programOf asciiUnicode [testFile]) rt 0 0 testDesc.getName (t!"Set" ++ goName asciiUnicode fd) [.ptr testDesc.getName 0, .val (.bool true)]) s [] s' es ∧
      bytesWritten es = inArr 0 [22, 23] ∧ bytesRead es = [] ∧ (s'.h.ms 0).buf = ⟨0, 0, 24, 42⟩) ∧
    ∃ fd s' es, num fd = 34 ∧ Does (grun (programOf asciiUnicode [testFile]) rt 0 0 testDesc.getName (t!"AppendTo" ++ goName asciiUnicode fd) [.ptr testDesc.getName 0, .struct (goType fd) 1]) s [] s' es ∧
      bytesWritten es = inArr 0 [22, 23, 24] ∧ bytesRead es = [] ∧ (s'.h.ms 0).buf = ⟨0, 0, 25, 42⟩ := by
  have hc := testFile_compilable
  obtain ⟨hf, hm⟩ := testFile_has
  obtain ⟨s, hmade, harr, hbuf, hd, h1⟩ := room_decoded
  have hlast := room_last hd
  have harr3 : s.h.w.arrs.length = 3 := by rw [harr]; rfl
  have hw1 : s.h.w.WFs ⟨1, 0, 3, 3⟩ := ⟨by decide, by unfold World.arr; rw [harr]; decide +kernel⟩
  have hw2 : s.h.w.WFs ⟨2, 0, 5, 5⟩ := ⟨by decide, by unfold World.arr; rw [harr]; decide +kernel⟩
  have hs1 : s.h.w.src (.mem ⟨1, 0, 3, 3⟩) = [0x61#8, 0x62#8, 0x63#8] := by
    show (s.h.w.slice _).data = _; rw [slice_arrs harr]; decide +kernel
  have hs2 : s.h.w.src (.mem ⟨2, 0, 5, 5⟩) = [0x68#8, 0x65#8, 0x6c#8, 0x6c#8, 0x6f#8] := by
    show (s.h.w.slice _).data = _; rw [slice_arrs harr]; decide +kernel
  have ha : ∀ {k n c : Nat}, k ≠ 0 → s.h.w.WFs ⟨k, 0, n, c⟩ → (Val.str (.mem ⟨k, 0, n, c⟩)).Apart s.h.w (s.h.ms 0).buf := by
    intro k n c hk hw y hy
    have : y = .mem ⟨k, 0, n, c⟩ := by rcases hy with hy | hy <;> cases hy; rfl
    subst this
    refine ⟨hw, fun p _ _ ho => ?_⟩
    rw [hbuf] at ho
    exact hk ho.1.symm
  obtain ⟨fd, hn, hfd⟩ := room_string
  obtain ⟨fb, hnb, hfb⟩ := room_bool
  obtain ⟨fr, hnr, hfr⟩ := room_repeated
  rw [← hn] at hlast
  refine ⟨s, hmade, ?_, ?_, ?_, ?_⟩
  · obtain ⟨s', r, _⟩ := C72_succeeds hc hf hm hmade (rt := rt) (.set hfd ⟨_, rfl, hs1⟩ (ha (by decide) hw1) (by decide)) (by rw [hbuf]; show 22 + (20 + _) < maxLen; decide) 0
    obtain ⟨es, g1, g2, g3, _⟩ := C72_overwrite hc hf hm hmade hlast (.scalar (k := .string) hfd ⟨_, rfl, hs1⟩ (fun y hy => apart_wfsrc (ha (by decide) hw1 y hy)) (by decide))
      (pay' := [0x03#8, 0x61#8, 0x62#8, 0x63#8]) ⟨[0x03#8], skim1 0x03#8 (by decide), rfl⟩ rfl r 0
    exact ⟨fd, s', es, hn, g1, by rw [g2, hbuf]; rfl, by rw [g3, hbuf]; rfl⟩
  · obtain ⟨s', r, _⟩ := C72_succeeds hc hf hm hmade (rt := rt) (.set hfd ⟨_, rfl, hs2⟩ (ha (by decide) hw2) (by decide)) (by rw [hbuf]; show 22 + (20 + _) < maxLen; decide) 0
    obtain ⟨es, g1, _, g2⟩ := C72_move hc hf hm hmade hlast (.scalar (k := .string) hfd ⟨_, rfl, hs2⟩ (fun y hy => apart_wfsrc (ha (by decide) hw2 y hy)) (by decide))
      (pay' := [0x05#8, 0x68#8, 0x65#8, 0x6c#8, 0x6c#8, 0x6f#8]) ⟨[0x05#8], skim1 0x05#8 (by decide), rfl⟩ (by decide) r 0
    rw [hbuf] at g2
    obtain ⟨g3, g4, g5⟩ := g2 (by decide)
    exact ⟨fd, s', es, hn, g1, by rw [g3]; rfl, by rw [g4]; rfl, by rw [g5]; rfl⟩
  · have hno : NoRecord (num fb) (s.h.w.slice (s.h.ms 0).buf).data := by
      rw [hd, hnb]
      exact ⟨_, skimmed_skims.isMessage, by decide⟩
    obtain ⟨s', r, _⟩ := C72_succeeds hc hf hm hmade (rt := rt) (.set (k := .bool) (x := true) hfb rfl (fun _ h => by rcases h with h | h <;> cases h) (by decide)) (by rw [hbuf]; show 22 + (20 + _) < maxLen; decide) 0
    obtain ⟨es, g1, _, g2⟩ := C72_first hc hf hm hmade hno (.scalar (k := .bool) (x := true) hfb rfl (fun _ h => by rcases h with h | h <;> cases h) (by decide))
      (tag' := [0x08#8]) (pay' := [0x01#8]) (by rw [hnb]; exact skim1 0x08#8 (by decide)) (skim1 0x01#8 (by decide)) r 0
    rw [hbuf] at g2
    obtain ⟨g3, g4, g5⟩ := g2 (by decide)
    exact ⟨fb, s', es, hnb, g1, by rw [g3]; rfl, by rw [g4]; rfl, by rw [g5]; rfl⟩
  · have hz : (s.h.ms 1).buf = ⟨0, 0, 0, 0⟩ := by rw [h1]; rfl
    have hwz : s.h.w.WFs (s.h.ms 1).buf := by rw [hz]; exact ⟨by decide, Nat.zero_le _⟩
    obtain ⟨s', r, _⟩ := C72_succeeds hc hf hm hmade (rt := rt) (.append hfr (j := 1) ⟨hwz, fun p _ hp => by rw [hz] at hp; exact absurd hp (by simp)⟩ (by rw [hz]; decide))
      (by
        have := World.slice_len hwz
        rw [hz] at this
        simp only [Zeropb.Op.cost, World.src, hz, hbuf]
        unfold maxLen; simp only at this; omega) 0
    obtain ⟨es, g1, _, g2⟩ := C72_append hc hf hm hmade hfr hwz (by rw [hz]; decide) (tag' := [0x92#8, 0x02#8]) (pay' := [0x00#8]) (by
        rw [hnr]; exact ⟨t274, .inr (by decide)⟩) (by
        have : (s.h.w.slice (s.h.ms 1).buf).data = [] := by
          have := World.slice_len hwz
          rw [hz] at this ⊢
          exact List.length_eq_zero_iff.1 this
        rw [this]
        exact ⟨[0x00#8], skim1 0x00#8 (by decide), rfl⟩) r 0
    rw [hbuf] at g2
    obtain ⟨g3, g4, g5⟩ := g2 (by decide)
    exact ⟨fr, s', es, hnr, g1, by rw [g3]; rfl, by rw [g4, hz]; rfl, by rw [g5]; rfl⟩

end

end Zeropb.GoSrc.Conc
