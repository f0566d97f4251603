import Verif.Props.Writes
/-!
# C73: goroutines that share a message, each with fields of its own

Several goroutines use the same struct at the same time, without a lock. Every scalar field belongs to one goroutine or is only read. The goroutines call getters, and setters that replace a value by one of the same
length, as long as they like, and decide from what they have seen what to do next. There is no data race, and each goroutine sees what it sees alone.
-/

set_option linter.constructorNameAsVariable false

namespace Zeropb.GoSrc.Conc
open Zeropb.Gen Zeropb.GoSrc.G Zeropb.Wire
open Zeropb.GoSrc.E (ScalarField MessageField RepeatedField goName goType iterOf num Compilable programOf decl_get decl_message decl_repeated sub_of Compilable.program Compilable.target Runs
  Conforms Shows C65_program scalar_schema message_schema repeated_schema runs_ran conforms_typed)

/-! ## Specification -/

/-- The byte at position `q` of array `a` is a byte of the value of field `f` of struct `i`. -/
def InValue (s : GSt) (i f a q : Nat) : Prop :=
  ∃ v A tag pay B, LastRecord f v (s.h.w.slice (s.h.ms i).buf).data A tag pay B ∧ a = (s.h.ms i).buf.arr ∧
    (s.h.ms i).buf.off + (A ++ tag).length ≤ q ∧ q < (s.h.ms i).buf.off + (A ++ tag).length + pay.length

/-- Who may write: the bytes of the value of field `f` belong to goroutine `mine f`. Nothing else of the memory belongs to anybody. -/
noncomputable def valueOwner (s : GSt) (i : Nat) (mine : Nat → Option Nat) : Owner
  | .cell a q => open Classical in if h : ∃ f, InValue s i f a q then mine h.choose else none
  | _ => none

/-- What goroutine `t` does with struct `i` of type `m`, when it runs alone from `s`: it gets fields that belong to it or to nobody, and it sets fields that belong to it to values of the same length, taken
from other memory. -/
inductive Shares {α : Type} (U : Unicode) (fs : List FileDesc) (m : Desc) (i : Nat) (mine : Nat → Option Nat) (t : Nat) : Client α → GSt → Prop
  | done (a s) : Shares U fs m i mine t (.done a) s
  /-- `x.Name()` -/
  | get {fd k rt d cont s} : ScalarField m fd k → mine (num fd) = none ∨ mine (num fd) = some t →
      (∀ out, G.run (programOf U fs) rt d m.getName (goName U fd) [.ptr m.getName i] s = .ok (out, s) → Shares U fs m i mine t (cont out) s) →
      Shares U fs m i mine t (.call rt d m.getName (goName U fd) [.ptr m.getName i] cont) s
  /-- `x.SetName(y)` -/
  | set {fd k rt d cont s} {x : Kind.Ty k} {y v A tag pay pay' B} : ScalarField m fd k → mine (num fd) = some t → IsVal s.h.w k x y → y.Apart s.h.w (s.h.ms i).buf → lenOf k x + 10 < maxLen →
      LastRecord (num fd) v (s.h.w.slice (s.h.ms i).buf).data A tag pay B → IsMinPayload (encodeVal k x) pay' → pay'.length = pay.length →
      (∀ s1, G.run (programOf U fs) rt d m.getName (t!"Set" ++ goName U fd) [.ptr m.getName i, .val y] s = .ok ([], s1) → Shares U fs m i mine t (cont []) s1) →
      Shares U fs m i mine t (.call rt d m.getName (t!"Set" ++ goName U fd) [.ptr m.getName i, .val y] cont) s

/-- The goroutines of the list, one after the other: the results, and the memory at the end. -/
noncomputable def oneByOne {α : Type} (p : Program) (c : Nat → Client α) : List Nat → GSt → M (List α × GSt)
  | [], s => .ok ([], s)
  | t :: ts, s => do
    let (a, s1) ← (c t).alone p s
    let (as, s2) ← oneByOne p c ts s1
    .ok (a :: as, s2)

/-! ## Proof: where values are -/

/-- A record, as one of the pieces of a message. -/
theorem lastRecord_chunks {f : Nat} {v : Wire.Val} {bs A tag pay B : List Byte} (h : LastRecord f v bs A tag pay B) :
    ∃ c1 c2 : List Chunk, flat c1 = A ∧ flat c2 = B ∧ (∀ c ∈ c1 ++ ⟨f, v, tag, pay⟩ :: c2, Chunk.WF c) ∧ (∀ c ∈ c2, c.num ≠ f) ∧ bs = flat (c1 ++ ⟨f, v, tag, pay⟩ :: c2) := by
  obtain ⟨rs1, h1⟩ := h.before
  obtain ⟨rs2, h2, h3⟩ := h.behind
  obtain ⟨cs1, a1, a2, a3⟩ := isMessage_iff.1 h1
  obtain ⟨cs2, b1, b2, b3⟩ := isMessage_iff.1 h2
  refine ⟨cs1, cs2, a1, b1, ?_, ?_, ?_⟩
  · intro c hc
    rcases List.mem_append.1 hc with hc | hc
    · exact a2 c hc
    · rcases List.mem_cons.1 hc with hc | hc
      · rw [hc]; exact ⟨h.tag, h.payload⟩
      · exact b2 c hc
  · intro c hc
    exact h3 c.record (by rw [← b3]; exact List.mem_map_of_mem hc)
  · rw [h.split]; simp [a1, b1, Chunk.bytes]

theorem chunks_lastRecord {c : Chunk} {c1 c2 : List Chunk} (h : ∀ d ∈ c1 ++ c :: c2, d.WF) (h2 : ∀ d ∈ c2, d.num ≠ c.num) :
    LastRecord c.num c.val (flat (c1 ++ c :: c2)) (flat c1) c.tag c.pay (flat c2) := by
  have hc := h c (by simp)
  refine ⟨by simp [Chunk.bytes], ⟨_, isMessage_iff.2 ⟨c1, rfl, fun d hd => h d (by simp [hd]), rfl⟩⟩, hc.tag, hc.pay, _, isMessage_iff.2 ⟨c2, rfl, fun d hd => h d (by simp [hd]), rfl⟩, ?_⟩
  intro r hr
  obtain ⟨d, hd, rfl⟩ := List.mem_map.1 hr
  exact h2 d hd

/-- Two pieces of a list are the same, or one is before the other. -/
theorem two_pieces {α : Type} {c1 c2 d1 d2 : List α} {c d : α} (h : c1 ++ c :: c2 = d1 ++ d :: d2) :
    (c1 = d1 ∧ c = d ∧ c2 = d2) ∨ (∃ e, d1 = c1 ++ c :: e ∧ c2 = e ++ d :: d2) ∨ ∃ e, c1 = d1 ++ d :: e ∧ d2 = e ++ c :: c2 := by
  rcases List.append_eq_append_iff.1 h with ⟨e, h1, h2⟩ | ⟨e, h1, h2⟩
  · cases e with
    | nil => rw [List.append_nil] at h1; injection h2 with h2 h3; exact .inl ⟨h1.symm, h2, h3⟩
    | cons x e => injection h2 with h2 h3; subst h2; exact .inr (.inl ⟨e, h1, h3⟩)
  · cases e with
    | nil => rw [List.append_nil] at h1; injection h2 with h2 h3; exact .inl ⟨h1, h2.symm, h3.symm⟩
    | cons x e => injection h2 with h2 h3; subst h2; exact .inr (.inr ⟨e, h1, h3⟩)

/-- A byte belongs to the value of at most one field. -/
theorem inValue_unique {s : GSt} {i f g a q : Nat} (h : InValue s i f a q) (h' : InValue s i g a q) : f = g := by
  obtain ⟨v, A, tag, pay, B, l1, _, l3, l4⟩ := h
  obtain ⟨v', A', tag', pay', B', l1', _, l3', l4'⟩ := h'
  obtain ⟨c1, c2, e1, e2, e3, e4, e5⟩ := lastRecord_chunks l1
  obtain ⟨d1, d2, g1, g2, g3, g4, g5⟩ := lastRecord_chunks l1'
  have he := flat_injective e3 g3 (e5.symm.trans g5)
  subst e1; subst g1
  rw [List.length_append] at l3 l4 l3' l4'
  rcases two_pieces he with ⟨_, h, _⟩ | ⟨e, h, _⟩ | ⟨e, h, _⟩
  · injection h
  · rw [h] at l3'
    simp only [flat_append, flat_cons, List.length_append, Chunk.bytes] at l3'
    omega
  · rw [h] at l3
    simp only [flat_append, flat_cons, List.length_append, Chunk.bytes] at l3
    omega

theorem valueOwner_in {s : GSt} {i f a q : Nat} (mine : Nat → Option Nat) (h : InValue s i f a q) : valueOwner s i mine (.cell a q) = mine f := by
  have hex : ∃ f, InValue s i f a q := ⟨f, h⟩
  simp only [valueOwner, dif_pos hex]
  rw [inValue_unique hex.choose_spec h]

theorem valueOwner_out {s : GSt} {i a q : Nat} (mine : Nat → Option Nat) (hw : s.h.w.WFs (s.h.ms i).buf) (h : ¬ (s.h.ms i).buf.owns a q) : valueOwner s i mine (.cell a q) = none := by
  have hex : ¬ ∃ f, InValue s i f a q := by
    rintro ⟨f, v, A, tag, pay, B, l1, l2, l3, l4⟩
    refine h ⟨l2.symm, by omega, ?_⟩
    have := World.slice_len hw
    rw [l1.split] at this
    have hc := hw.1
    simp only [List.length_append] at this l4 l3
    omega
  simp only [valueOwner, dif_neg hex]

theorem valueOwner_old {s : GSt} {i u : Nat} {mine : Nat → Option Nat} (hw : s.h.w.WFs (s.h.ms i).buf) {l : Loc} (h : valueOwner s i mine l = some u) : l.Old (Base.of s) := by
  cases l with
  | cell a q =>
    simp only [valueOwner] at h
    split at h
    · rename_i hex
      obtain ⟨f, v, A, tag, pay, B, l1, l2, l3, l4⟩ := hex
      have := World.slice_len hw
      rw [l1.split] at this
      have h1 := hw.1
      have h2 := hw.2
      simp only [List.length_append] at this l3 l4
      refine Decidable.byContradiction fun hlt => ?_
      have : s.h.w.arr (s.h.ms i).buf.arr = [] := by
        unfold World.arr
        rw [← l2, List.getD_eq_getElem?_getD, List.getElem?_eq_none (Nat.le_of_not_lt hlt)]
        rfl
      rw [this] at h2
      simp only [List.length_nil] at h2
      omega
    · cases h
  | _ => cases h

/-- What of a record does not change when its value is overwritten. -/
def shapeOf (c : Chunk) : Nat × List Byte × Nat := (c.num, c.tag, c.pay.length)

/-- The message of struct `i` has records with these numbers, tags and lengths. -/
def Shaped (i : Nat) (sh : List (Nat × List Byte × Nat)) (s : GSt) : Prop :=
  ∃ cs : List Chunk, (∀ c ∈ cs, c.WF) ∧ (s.h.w.slice (s.h.ms i).buf).data = flat cs ∧ cs.map shapeOf = sh

theorem Shaped.unique {i : Nat} {sh sh' : List (Nat × List Byte × Nat)} {s : GSt} (h : Shaped i sh s) (h' : Shaped i sh' s) : sh = sh' := by
  obtain ⟨cs, a1, a2, rfl⟩ := h
  obtain ⟨ds, b1, b2, rfl⟩ := h'
  rw [flat_injective a1 b1 (a2.symm.trans b2)]

theorem flat_shape {cs ds : List Chunk} (h : cs.map shapeOf = ds.map shapeOf) : (flat cs).length = (flat ds).length := by
  induction cs generalizing ds with
  | nil => cases ds with
    | nil => rfl
    | cons d ds => cases h
  | cons c cs ih => cases ds with
    | nil => cases h
    | cons d ds =>
      simp only [List.map_cons, shapeOf, List.cons.injEq, Prod.mk.injEq] at h
      simp only [flat_cons, List.length_append, Chunk.bytes, h.1.2.1, h.1.2.2]
      rw [ih h.2]

/-- In messages of the same shape, values are at the same places. -/
theorem Shaped.last {i : Nat} {sh : List (Nat × List Byte × Nat)} {s s' : GSt} (h : Shaped i sh s) (h' : Shaped i sh s') {f : Nat} {v : Wire.Val} {A tag pay B : List Byte}
    (hl : LastRecord f v (s.h.w.slice (s.h.ms i).buf).data A tag pay B) :
    ∃ v' A' pay' B', LastRecord f v' (s'.h.w.slice (s'.h.ms i).buf).data A' tag pay' B' ∧ A'.length = A.length ∧ pay'.length = pay.length := by
  obtain ⟨cs, a1, a2, rfl⟩ := h
  obtain ⟨ds, b1, b2, b3⟩ := h'
  obtain ⟨c1, c2, e1, e2, e3, e4, e5⟩ := lastRecord_chunks hl
  have hcs := flat_injective a1 e3 (a2.symm.trans e5)
  rw [hcs, List.map_append, List.map_cons] at b3
  obtain ⟨d1, d2', hd, k1, k2⟩ := List.map_eq_append_iff.1 b3
  obtain ⟨d, d2, rfl, k3, k4⟩ := List.map_eq_cons_iff.1 k2
  simp only [shapeOf, Prod.mk.injEq] at k3
  subst hd
  have := chunks_lastRecord (c := d) (c1 := d1) (c2 := d2) b1 (by
    intro x hx
    have : shapeOf x ∈ c2.map shapeOf := by rw [← k4]; exact List.mem_map_of_mem hx
    obtain ⟨y, hy, hxy⟩ := List.mem_map.1 this
    have : x.num = y.num := by simp only [shapeOf, Prod.mk.injEq] at hxy; exact hxy.1.symm
    rw [this, k3.1]
    exact e4 y hy)
  rw [k3.1, k3.2.1, ← b2] at this
  exact ⟨_, _, _, _, this, by rw [← e1]; exact flat_shape k1, k3.2.2⟩

/-- Struct `i` refers to the same buffer, and its values are where they were. -/
structure Placed (i : Nat) (s0 s : GSt) : Prop where
  struct : s.h.ms i = s0.h.ms i
  shape : ∃ sh, Shaped i sh s0 ∧ Shaped i sh s

theorem Placed.values {i : Nat} {s0 s : GSt} (h : Placed i s0 s) {f a q : Nat} (hv : InValue s i f a q) : InValue s0 i f a q := by
  obtain ⟨v, A, tag, pay, B, l1, l2, l3, l4⟩ := hv
  obtain ⟨sh, h1, h2⟩ := h.shape
  obtain ⟨v', A', pay', B', k1, k2, k3⟩ := h2.last h1 l1
  rw [h.struct] at l2 l3 l4
  simp only [List.length_append] at l3 l4
  exact ⟨v', A', tag, pay', B', k1, l2, by simp only [List.length_append]; omega, by simp only [List.length_append]; omega⟩

theorem Placed.symm {i : Nat} {s0 s : GSt} (h : Placed i s0 s) : Placed i s s0 := ⟨h.struct.symm, let ⟨sh, a, b⟩ := h.shape; ⟨sh, b, a⟩⟩
theorem Placed.trans {i : Nat} {s0 s s1 : GSt} (h : Placed i s0 s) (h' : Placed i s s1) : Placed i s0 s1 := by
  obtain ⟨sh, a, b⟩ := h.shape
  obtain ⟨sh', a', b'⟩ := h'.shape
  rw [a'.unique b] at b'
  exact ⟨h'.struct.trans h.struct, sh, a, b'⟩

/-- A value is overwritten: all values stay where they are. -/
theorem placed_of_data {i f : Nat} {s s1 : GSt} (hs : s1.h.ms i = s.h.ms i) {v v' : Wire.Val} {A tag pay pay' B : List Byte}
    (h : LastRecord f v (s.h.w.slice (s.h.ms i).buf).data A tag pay B) (h' : LastRecord f v' (s1.h.w.slice (s1.h.ms i).buf).data A tag pay' B) (hn : pay'.length = pay.length) : Placed i s s1 := by
  obtain ⟨c1, c2, e1, e2, e3, e4, e5⟩ := lastRecord_chunks h
  obtain ⟨c1', c2', e1', e2', e3', e4', e5'⟩ := lastRecord_chunks h'
  have k1 : c1' = c1 := flat_injective (fun c hc => e3' c (by simp [hc])) (fun c hc => e3 c (by simp [hc])) (e1'.trans e1.symm)
  have k2 : c2' = c2 := flat_injective (fun c hc => e3' c (by simp [hc])) (fun c hc => e3 c (by simp [hc])) (e2'.trans e2.symm)
  subst k1; subst k2
  refine ⟨hs, _, ⟨_, e3, e5, rfl⟩, ⟨_, e3', e5', ?_⟩⟩
  simp [shapeOf, hn]

/-! ## Proof: safety -/

theorem mem_bytesRead {es : List Event} {a q : Nat} : (a, q) ∈ bytesRead es ↔ .reads (.cell a q) ∈ es := by
  unfold bytesRead
  rw [List.mem_filterMap]
  constructor
  · rintro ⟨e, h1, h2⟩
    unfold Event.byteRead at h2
    split at h2
    · injection h2 with h2; injection h2 with h3 h4; subst h3; subst h4; exact h1
    · cases h2
  · exact fun h => ⟨_, h, rfl⟩

/-- A program is safe for what it accesses. -/
theorem safe_of_trace {α : Type} {R W : Loc → Prop} {p : Prog α} {s s' : GSt} {a : α} (h : p.run s = .ok (a, s')) (hs : ∀ j, R (.slots j)) (hr : ∀ l, .reads l ∈ p.trace s → R l)
    (hw : ∀ l, .writes l ∈ p.trace s → W l) : p.Safe R W (fun b t => b = a ∧ t = s') s := by
  induction p generalizing s with
  | done b => cases h; exact ⟨rfl, rfl⟩
  | stop e => cases h
  | load l k ih =>
    refine ⟨?_, ih _ h (fun l' hl => hr l' (List.mem_append_right _ hl)) (fun l' hl => hw l' (List.mem_append_right _ hl))⟩
    have : (∃ j, l = .slots j) ∨ .reads l ∈ Event.ofLoad l := by cases l <;> simp [Event.ofLoad]
    rcases this with ⟨j, rfl⟩ | h
    · exact hs j
    · exact hr l (List.mem_append_left _ h)
  | store w k ih => exact ⟨hw _ (List.mem_cons_self ..), ih h (fun l' hl => hr l' (List.mem_cons_of_mem _ hl)) (fun l' hl => hw l' (List.mem_cons_of_mem _ hl))⟩
  | newArr bs k ih => exact ih _ h (fun l' hl => hr l' (List.mem_cons_of_mem _ hl)) (fun l' hl => hw l' (List.mem_cons_of_mem _ hl))
  | newMap k ih => exact ih _ h (fun l' hl => hr l' (List.mem_cons_of_mem _ hl)) (fun l' hl => hw l' (List.mem_cons_of_mem _ hl))
  | newStruct m k ih => exact ih _ h (fun l' hl => hr l' (List.mem_cons_of_mem _ hl)) (fun l' hl => hw l' (List.mem_cons_of_mem _ hl))

/-- A program that allocates nothing changes what it writes, and nothing else. -/
theorem untouched {α : Type} {p : Prog α} {s s' : GSt} {a : α} (h : p.run s = .ok (a, s')) (hn : .allocates ∉ p.trace s) : SameSize s s' ∧ ∀ l, .writes l ∉ p.trace s → read l s' = read l s := by
  induction p generalizing s with
  | done b => cases h; exact ⟨.refl _, fun _ _ => rfl⟩
  | stop e => cases h
  | load l k ih =>
    obtain ⟨h1, h2⟩ := ih _ h (fun x => hn (List.mem_append_right _ x))
    exact ⟨h1, fun l hl => h2 l fun x => hl (List.mem_append_right _ x)⟩
  | store w k ih =>
    obtain ⟨h1, h2⟩ := ih h (fun x => hn (List.mem_cons_of_mem _ x))
    refine ⟨(w.sameSize s).trans h1, fun l hl => ?_⟩
    rw [h2 l fun x => hl (List.mem_cons_of_mem _ x)]
    exact read_apply_ne (by rintro rfl; exact hl (List.mem_cons_self ..))
  | newArr bs k ih => exact absurd (List.mem_cons_self ..) hn
  | newMap k ih => exact absurd (List.mem_cons_self ..) hn
  | newStruct m k ih => exact absurd (List.mem_cons_self ..) hn

/-- A program does the same in memories that agree where it reads. -/
theorem agree_run {α : Type} {R W : Loc → Prop} {Q : α → GSt → Prop} {p : Prog α} {s u s' : GSt} {a : α} (hs : p.Safe R W Q s) (ha : Agree R s u) (h : p.run s = .ok (a, s')) :
    ∃ u', p.run u = .ok (a, u') ∧ Agree R s' u' := by
  induction p generalizing s u with
  | done b => cases h; exact ⟨u, rfl, ha⟩
  | stop e => cases h
  | load l k ih =>
    have := ha.same l hs.1
    obtain ⟨u', h1, h2⟩ := ih _ hs.2 ha h
    exact ⟨u', by show (k (read l u)).run u = _; rw [this]; exact h1, h2⟩
  | store w k ih => exact ih hs.2 (ha.write w) h
  | newArr bs k ih =>
    obtain ⟨u', h1, h2⟩ := ih _ hs (ha.newArr bs) h
    exact ⟨u', by show (k u.h.w.arrs.length).run _ = _; rw [ha.size.arrs]; exact h1, h2⟩
  | newMap k ih =>
    obtain ⟨u', h1, h2⟩ := ih _ hs ha.newMap h
    exact ⟨u', by show (k u.h.w.maps.length).run _ = _; rw [ha.size.maps]; exact h1, h2⟩
  | newStruct m k ih =>
    obtain ⟨u', h1, h2⟩ := ih _ hs (ha.newStruct m) h
    exact ⟨u', by show (k u.next).run _ = _; rw [ha.size.next]; exact h1, h2⟩

/-- Memories with the same sizes and the same values are the same. -/
theorem gst_ext {s u : GSt} (hz : SameSize s u) (h : ∀ l, read l u = read l s) : u = s := by
  have h1 : u.h.w.arrs = s.h.w.arrs := by
    refine List.ext_getElem? fun a => ?_
    have : u.h.w.arr a = s.h.w.arr a := List.ext_getElem? fun q => h (.cell a q)
    unfold World.arr at this
    simp only [List.getD_eq_getElem?_getD] at this
    by_cases ha : a < s.h.w.arrs.length
    · rw [List.getElem?_eq_getElem ha, List.getElem?_eq_getElem (hz.arrs ▸ ha)] at this ⊢
      exact congrArg some this
    · have := hz.arrs
      rw [List.getElem?_eq_none (by omega), List.getElem?_eq_none (by omega)]
  have h2 : u.h.w.maps = s.h.w.maps := by
    refine List.ext_getElem? fun a => ?_
    have : u.h.w.maps.getD a [] = s.h.w.maps.getD a [] := h (.map a)
    simp only [List.getD_eq_getElem?_getD] at this
    by_cases ha : a < s.h.w.maps.length
    · rw [List.getElem?_eq_getElem ha, List.getElem?_eq_getElem (hz.maps ▸ ha)] at this ⊢
      exact congrArg some this
    · have := hz.maps
      rw [List.getElem?_eq_none (by omega), List.getElem?_eq_none (by omega)]
  have h3 : u.h.ms = s.h.ms := by
    funext i
    have a1 : (u.h.ms i).buf = (s.h.ms i).buf := h (.buf i)
    have a2 : (u.h.ms i).m = (s.h.ms i).m := h (.ref i)
    have a3 : (u.h.ms i).a = (s.h.ms i).a := List.ext_getElem? fun k => h (.slot i k)
    rcases e1 : u.h.ms i with ⟨_, _, _⟩
    rcases e2 : s.h.ms i with ⟨_, _, _⟩
    rw [e1, e2] at a1 a2 a3
    cases a1; cases a2; cases a3
    rfl
  have h4 : u.its = s.its := funext fun v => h (.iter v)
  have h5 := hz.next
  rcases u with ⟨⟨⟨_, _⟩, _⟩, _, _⟩
  rcases s with ⟨⟨⟨_, _⟩, _⟩, _, _⟩
  simp only at h1 h2 h3 h4 h5
  subst h1; subst h2; subst h3; subst h4; subst h5
  rfl

/-- A goroutine makes its accesses up to a given one; the others do nothing meanwhile. -/
theorem advance {α : Type} {b : Base} {c0 : Pool α} {t : Nat} {l : Loc} {z : Bool} {e : Event} (he : (z = true ∧ e = .writes l) ∨ (z = false ∧ e = .reads l)) {p : Prog α} {s : GSt} (h : e ∈ p.trace s) :
    ∀ {ts : List Nat} {c : Pool α}, Moves b c0 ts c → c t = (p, s) →
      ∃ ts' c', Moves b c0 ts' c' ∧ Next (c' t).1 l z ∧ (∀ u, u ≠ t → (c' u).1 = (c u).1) ∧ ((∀ l', .writes l' ∉ p.trace s) → ∀ u, u ≠ t → c' u = c u) := by
  induction p generalizing s with
  | done a => cases h
  | stop x => cases h
  | load l' k ih =>
    intro ts c hmv hct
    have hmem : e ∈ Event.ofLoad l' ∨ e ∈ (k (read l' s)).trace s := List.mem_append.1 h
    by_cases hl : e ∈ Event.ofLoad l'
    · have : e = .reads l' := by cases l' <;> simp [Event.ofLoad] at hl <;> exact hl
      rcases he with ⟨_, h2⟩ | ⟨h1, h2⟩
      · rw [this] at h2; cases h2
      · rw [this] at h2; injection h2 with h2
        subst h1; subst h2
        exact ⟨ts, c, hmv, by rw [hct]; exact .load, fun _ _ => rfl, fun _ _ _ => rfl⟩
    · obtain ⟨ts', c', r1, r2, r3, r4⟩ := ih _ (hmem.resolve_left hl) (hmv.step (.load hct)) (by simp [Pool.set])
      refine ⟨ts', c', r1, r2, fun u hu => by rw [r3 u hu]; simp [Pool.set, hu], fun hw u hu => ?_⟩
      rw [r4 (fun x hx => hw x (List.mem_append_right _ hx)) u hu]; simp [Pool.set, hu]
  | store w k ih =>
    intro ts c hmv hct
    by_cases hl : e = .writes w.loc
    · rcases he with ⟨h1, h2⟩ | ⟨_, h2⟩
      · rw [hl] at h2; injection h2 with h2
        subst h1; subst h2
        exact ⟨ts, c, hmv, by rw [hct]; exact .store, fun _ _ => rfl, fun _ _ _ => rfl⟩
      · rw [hl] at h2; cases h2
    · obtain ⟨ts', c', r1, r2, r3, r4⟩ := ih ((List.mem_cons.1 h).resolve_left hl) (hmv.step (.store hct)) (by simp)
      refine ⟨ts', c', r1, r2, fun u hu => ?_, fun hw => absurd (List.mem_cons_self ..) (hw w.loc)⟩
      rw [r3 u hu]
      simp only [if_neg hu]
      split <;> rfl
  | newArr bs k ih =>
    intro ts c hmv hct
    have hl : e ≠ .allocates := by rcases he with ⟨_, h⟩ | ⟨_, h⟩ <;> rw [h] <;> nofun
    obtain ⟨ts', c', r1, r2, r3, r4⟩ := ih _ ((List.mem_cons.1 h).resolve_left hl) (hmv.step (.newArr hct)) (by simp [Pool.set])
    refine ⟨ts', c', r1, r2, fun u hu => by rw [r3 u hu]; simp [Pool.set, hu], fun hw u hu => ?_⟩
    rw [r4 (fun x hx => hw x (List.mem_cons_of_mem _ hx)) u hu]; simp [Pool.set, hu]
  | newMap k ih =>
    intro ts c hmv hct
    have hl : e ≠ .allocates := by rcases he with ⟨_, h⟩ | ⟨_, h⟩ <;> rw [h] <;> nofun
    obtain ⟨ts', c', r1, r2, r3, r4⟩ := ih _ ((List.mem_cons.1 h).resolve_left hl) (hmv.step (.newMap hct)) (by simp [Pool.set])
    refine ⟨ts', c', r1, r2, fun u hu => by rw [r3 u hu]; simp [Pool.set, hu], fun hw u hu => ?_⟩
    rw [r4 (fun x hx => hw x (List.mem_cons_of_mem _ hx)) u hu]; simp [Pool.set, hu]
  | newStruct m k ih =>
    intro ts c hmv hct
    have hl : e ≠ .allocates := by rcases he with ⟨_, h⟩ | ⟨_, h⟩ <;> rw [h] <;> nofun
    obtain ⟨ts', c', r1, r2, r3, r4⟩ := ih _ ((List.mem_cons.1 h).resolve_left hl) (hmv.step (.newStruct hct)) (by simp [Pool.set])
    refine ⟨ts', c', r1, r2, fun u hu => by rw [r3 u hu]; simp [Pool.set, hu], fun hw u hu => ?_⟩
    rw [r4 (fun x hx => hw x (List.mem_cons_of_mem _ hx)) u hu]; simp [Pool.set, hu]

/-- One goroutine reads a location, and writes nothing; another one writes the location. Then there is a race. -/
theorem races {α : Type} {p : Nat → Prog α} {s : GSt} {l : Loc} (hl : l.Old (Base.of s)) (h0 : .writes l ∈ (p 0).trace s) (h1 : .reads l ∈ (p 1).trace s) (h2 : ∀ l', .writes l' ∉ (p 1).trace s) :
    ∃ ts pool, Moves (Base.of s) (start p s) ts pool ∧ ¬ Raceless (Base.of s) pool := by
  obtain ⟨ts, c, a1, a2, _, a4⟩ := advance (b := Base.of s) (c0 := start p s) (t := 1) (z := false) (.inr ⟨rfl, rfl⟩) h1 .refl rfl
  obtain ⟨ts', c', b1, b2, b3, _⟩ := advance (t := 0) (z := true) (.inl ⟨rfl, rfl⟩) h0 a1 (by rw [a4 h2 0 (by decide)]; rfl)
  refine ⟨ts', c', b1, fun hr => ?_⟩
  have := hr 0 1 l true false (by decide) b2 (by rw [b3 1 (by decide)]; exact a2) hl
  cases this.1

section
variable {U : Unicode} {fs : List FileDesc} {pkg : Text} (hc : Compilable U fs pkg) {f : FileDesc} (hf : f ∈ fs) {m : Desc} (hm : some m ∈ f.messageType)
include hc hf hm

omit hc hf hm in
/-- Only bytes were written: the structs are as before. -/
theorem structs_of_bytes {α : Type} {p : Prog α} {s s' : GSt} {a : α} {es : List Event} (h : Does p s a s' es) (hw : ∀ l, .writes l ∈ es → ∃ a q, l = .cell a q) {i : Nat} (hi : i < s.next) :
    s'.h.ms i = s.h.ms i := by
  have hk := keeps_trace h.1
  rw [h.2] at hk
  have key : ∀ l : Loc, l.Old (Base.of s) → (∀ a q, l ≠ .cell a q) → read l s' = read l s := by
    intro l ho hl
    refine hk.same l ho fun hw' => ?_
    obtain ⟨a, q, e⟩ := hw l hw'
    exact hl a q e
  have h1 : (s'.h.ms i).buf = (s.h.ms i).buf := key (.buf i) hi nofun
  have h2 : (s'.h.ms i).m = (s.h.ms i).m := key (.ref i) hi nofun
  have h3 : (s'.h.ms i).a = (s.h.ms i).a := List.ext_getElem? fun k => key (.slot i k) hi nofun
  rcases e1 : s'.h.ms i with ⟨_, _, _⟩
  rcases e2 : s.h.ms i with ⟨_, _, _⟩
  rw [e1, e2] at h1 h2 h3
  cases h1; cases h2; cases h3
  rfl

omit hc hf hm in
theorem apart_assigns {i : Nat} {s : GSt} {fd : Field} {k : Kind} (hfd : ScalarField m fd k) {x : k.Ty} {y : Val} (hy : IsVal s.h.w k x y)
    (ha : y.Apart s.h.w (s.h.ms i).buf) (hx : lenOf k x + 10 < maxLen) :
    Assigns U m i s fd (t!"Set" ++ goName U fd) [.ptr m.getName i, .val y] (encodeVal k x) (argPlaces y) :=
  .scalar hfd hy (fun z hz => apart_wfsrc (ha z hz)) hx

/-- C73: to replace a value by one of the same length never fails, and the message is as it was but for that value. -/
theorem C73_overwrite {i : Nat} {s : GSt} (h : Made U fs m i s) {fd : Field} {k : Kind} (hfd : ScalarField m fd k) {x : k.Ty} {y : Val} (hy : IsVal s.h.w k x y)
    (ha : y.Apart s.h.w (s.h.ms i).buf) (hx : lenOf k x + 10 < maxLen) {v : Wire.Val} {A tag pay pay' B : List Byte}
    (hl : LastRecord (num fd) v (s.h.w.slice (s.h.ms i).buf).data A tag pay B) (hp : IsMinPayload (encodeVal k x) pay') (hn : pay'.length = pay.length) (rt : Rt) (d : Nat) :
    ∃ s1, G.run (programOf U fs) rt d m.getName (t!"Set" ++ goName U fd) [.ptr m.getName i, .val y] s = .ok ([], s1) ∧ Made U fs m i s1 ∧ s1.h.ms i = s.h.ms i ∧
      LastRecord (num fd) (encodeVal k x) (s1.h.w.slice (s1.h.ms i).buf).data A tag pay' B := by
  have hv := hc.valid f hf m hm
  obtain ⟨e1, e2⟩ := scalar_schema hv hfd
  obtain ⟨l1, l2, l3⟩ := made_located hc hf hm h e1 e2 hl
  have hll := l1.lens
  have hassign := apart_assigns (U := U) hfd hy ha hx
  obtain ⟨s0, ops, h0, hn0, hr⟩ := id h
  obtain ⟨z1, z2⟩ := start_tracks (S := schemaOf m hv) h0
  obtain ⟨a1, a2, rs, a3⟩ := ran_tracks hc.program hc.closed (decls_implements U m hv) (sub_of (U := U) hf hm) (runs_ran hv hr) z1 hn0 z2
  have hcall : E.Calls U m rt i s (t!"Set" ++ goName U fd) [.ptr m.getName i, .val y] (.set rt (num fd) k x) := .set hfd hy ha hx
  obtain ⟨hval, hfol⟩ := C63_call hc.program hc.closed (decls_implements U m hv) (sub_of (U := U) hf hm) rt d a1 a3.1.off_length a2 (E.calls_issues hv hcall)
  obtain ⟨c1, c2, g1, g2, g3, g4, g5⟩ := lastRecord_chunks hl
  obtain ⟨cs, r1, r2, r3⟩ := a3.1
  have hcs : cs = c1 ++ ⟨num fd, v, tag, pay⟩ :: c2 := flat_injective r1.wf g3 (r1.data.symm.trans g5)
  subst hcs
  have hlast : ∀ c, lastChunk (num fd) (c1 ++ ⟨num fd, v, tag, pay⟩ :: c2) = some c → c = ⟨num fd, v, tag, pay⟩ := by
    intro c hc'
    rw [lastChunk_eq (f := num fd) (c := ⟨num fd, v, tag, pay⟩) rfl g4] at hc'
    exact (Option.some.inj hc').symm
  obtain ⟨new, n1, n2, n3, n4, n5, _⟩ := set_chunks rt r1 ((schemaOf m hv).kind_lt _ (by rw [e1]; simp)) e2 k x (by
    have : lenOf k x = k.size x := by cases k <;> rfl
    unfold maxLen at hx ⊢; omega) (by
    intro c hc'
    rw [hlast c hc']
    exact ⟨l3, l2⟩)
  have hnew : new.tag = tag ∧ new.pay = pay' := by
    refine ⟨?_, n4.unique hp⟩
    have : IsMinVarint (new.num * 8 + new.val.wireType) new.tag := n3
    rw [n1, n2, wireType_encodeVal, ← l3] at this
    exact this.unique l2
  have hset : setChunks new (c1 ++ ⟨num fd, v, tag, pay⟩ :: c2) = c1 ++ new :: c2 := by
    unfold setChunks
    rw [n1, splitLast_some (f := num fd) (c := ⟨num fd, v, tag, pay⟩) rfl g4]
    simp only
    rw [if_pos (by rw [hnew.2, hn])]
  rw [hset] at n5
  obtain ⟨m', q1, q2, q3, _⟩ := n5 (by
    simp only [flat_append, flat_cons, List.length_append, Chunk.bytes, hnew.1, hnew.2, hn, g1, g2] at hll ⊢
    omega)
  have q1' : (Zeropb.Op.set rt (num fd) k x).run (schemaOf m hv) (s.h.w.msg (s.h.ms i)) = .ok m' := q1
  rw [q1'] at hfol
  obtain ⟨s1, f1, f2, f3, f4, f5⟩ := hfol
  have f1 : G.run (programOf U fs) rt d m.getName (t!"Set" ++ goName U fd) [.ptr m.getName i, .val y] s = .ok ([], s1) := f1
  obtain ⟨es, d1, _, _, d4, _⟩ := C72_overwrite hc hf hm h hl hassign hp hn f1 0
  have hdata : (s1.h.w.slice (s1.h.ms i).buf).data = flat (c1 ++ new :: c2) := by rw [← q2, ← f2]; rfl
  refine ⟨s1, f1, ⟨s0, _, h0, hn0, runs_append hr (.call hcall f1 (.done _))⟩, structs_of_bytes d1 d4 a2, ?_⟩
  rw [hdata]
  have := chunks_lastRecord (c := new) (c1 := c1) (c2 := c2) (fun d hd => q3.wf d hd) (by rw [n1]; exact g4)
  rw [n1, n2, hnew.1, hnew.2, g1, g2] at this
  exact this

/-- A getter accesses nothing but its own value. -/
theorem get_accesses {i : Nat} {s : GSt} (h : Made U fs m i s) {fd : Field} {k : Kind} (hfd : ScalarField m fd k) (rt : Rt) (d : Nat) :
    ∃ x es, G.run (programOf U fs) rt d m.getName (goName U fd) [.ptr m.getName i] s = .ok ([.val x], s) ∧
      (∀ fuel, Does (grun (programOf U fs) rt fuel d m.getName (goName U fd) [.ptr m.getName i]) s [.val x] s es) ∧ (∀ l, .writes l ∉ es) ∧
      (∀ a q, .reads (.cell a q) ∈ es → InValue s i (num fd) a q) ∧ .reads (.buf i) ∈ es := by
  obtain ⟨hv, rs, c, a1, a2, a3⟩ := made_tracks hc hf hm h
  obtain ⟨cs, r1, r2⟩ := a3.1.holds
  have hdata : (s.h.w.slice (s.h.ms i).buf).data = flat cs := r1.data
  by_cases hp : ∃ c ∈ cs, c.num = num fd
  · obtain ⟨pre, c, post, hcs, hcn, hpost⟩ := exists_last hp
    have hlast := chunks_lastRecord (c := c) (c1 := pre) (c2 := post) (by rw [← hcs]; exact r1.wf) (by rw [hcn]; exact hpost)
    rw [hcn, ← hcs, ← hdata] at hlast
    obtain ⟨x, x1, x2⟩ := C71_get hc hf hm h hfd hlast rt d
    have hh : headLen c.val c.pay ≤ c.pay.length := by
      cases c.val <;> simp only [headLen] <;> omega
    have hnl : ∀ e, e ∈ lookedUp s i (num fd) (flat pre ++ c.tag).length → (∀ l, e ≠ .writes l) ∧ ∀ a q, e ≠ .reads (.cell a q) := by
      intro e he
      simp only [lookedUp, List.mem_cons] at he
      rcases he with he | he
      · subst he; exact ⟨nofun, nofun⟩
      · split at he
        · cases he
        · cases hm' : (s.h.ms i).m <;> simp [hm'] at he
          · subst he; exact ⟨nofun, nofun⟩
          · rcases he with he | he <;> subst he <;> exact ⟨nofun, nofun⟩
    refine ⟨x, _, x1, x2, ?_, ?_, List.mem_cons_self ..⟩
    · intro l hl
      simp only [List.mem_cons, List.mem_append, cells, List.mem_map] at hl
      rcases hl with hl | hl | ⟨_, _, hl⟩
      · cases hl
      · exact (hnl _ hl).1 l rfl
      · cases hl
    · intro a q hl
      simp only [List.mem_cons, List.mem_append, cells, List.mem_map, List.mem_range'_1] at hl
      rcases hl with hl | hl | ⟨p, hp', hl⟩
      · cases hl
      · exact absurd rfl ((hnl _ hl).2 a q)
      · injection hl with hl
        injection hl with h1 h2
        subst h1; subst h2
        exact ⟨_, _, _, _, _, hlast, rfl, hp'.1, by omega⟩
  · have hno : NoRecord (num fd) (s.h.w.slice (s.h.ms i).buf).data := by
      refine ⟨records cs, isMessage_iff.2 ⟨cs, hdata.symm, r1.wf, rfl⟩, ?_⟩
      intro r hr
      obtain ⟨d, hd, rfl⟩ := List.mem_map.1 hr
      exact fun e => hp ⟨d, hd, e⟩
    obtain ⟨x, x1, x2⟩ := C71_get_absent hc hf hm h hfd hno rt d
    exact ⟨x, _, x1, x2, by simp, by simp, by simp⟩

omit hc hf hm in
/-- What a goroutine may read that owns field `f`, or reads it. -/
theorem mayRead_of {i : Nat} {s0 s : GSt} {mine : Nat → Option Nat} {t : Nat} (hp : Placed i s0 s) {es : List Event} {f' : Nat} (hmine : mine f' = none ∨ mine f' = some t)
    (hcell : ∀ a q, .reads (.cell a q) ∈ es → InValue s i f' a q ∨ valueOwner s0 i mine (.cell a q) = none) : ∀ l, .reads l ∈ es → MayRead (Base.of s0) (valueOwner s0 i mine) t l := by
  intro l hl
  cases l with
  | cell a q =>
    rcases hcell a q hl with hv | hv
    · have := valueOwner_in mine (hp.values hv)
      rcases hmine with h1 | h1
      · exact .inr (this.trans h1)
      · exact .inl (.inr (this.trans h1))
    · exact .inr hv
  | _ => exact .inr rfl

theorem Placed.refl {i : Nat} {s : GSt} (h : Made U fs m i s) : Placed i s s := by
  obtain ⟨hv, rs, c, a1, a2, a3⟩ := made_tracks hc hf hm h
  obtain ⟨cs, r1, r2⟩ := a3.1.holds
  exact ⟨rfl, _, ⟨cs, r1.wf, r1.data, rfl⟩, ⟨cs, r1.wf, r1.data, rfl⟩⟩

/-- A goroutine that shares the message ends when it runs alone, access by access, with the same result as method by method; and it uses only what it may. -/
theorem Shares.ends {α : Type} {i : Nat} {mine : Nat → Option Nat} {t : Nat} {s0 : GSt} (h0 : Made U fs m i s0) {c : Client α} {s : GSt} (h : Shares U fs m i mine t c s) (hm1 : Made U fs m i s)
    (hp : Placed i s0 s) :
    ∃ a s', c.alone (programOf U fs) s = .ok (a, s') ∧ Made U fs m i s' ∧ Placed i s0 s' ∧ SameSize s s' ∧ (∀ l, valueOwner s0 i mine l ≠ some t → read l s' = read l s) ∧
      ∀ n, (c.prog (programOf U fs) n).Safe (MayRead (Base.of s0) (valueOwner s0 i mine) t) (MayWrite (Base.of s0) (valueOwner s0 i mine) t) (fun _ _ => True) s ∧
        (c.prog (programOf U fs) n).run s = .ok (a, s') := by
  induction h with
  | done a s => exact ⟨a, s, rfl, hm1, hp, .refl s, fun _ _ => rfl, fun _ => ⟨trivial, rfl⟩⟩
  | @get fd k rt d cont s hfd hmine _ ih =>
    obtain ⟨x, es, g1, g2, g3, g4, _⟩ := get_accesses hc hf hm hm1 hfd rt d
    obtain ⟨a, s', h1, h2, h3, h5, h6, h4⟩ := ih _ g1 hm1 hp
    refine ⟨a, s', ?_, h2, h3, h5, h6, fun n => ⟨?_, ?_⟩⟩
    · simp only [Client.alone, g1]; exact h1
    · refine Prog.safe_bind (Prog.Safe.imp (safe_of_trace (g2 n).1 (fun j => .inr rfl) ?_ ?_) ?_)
      · rw [(g2 n).2]
        exact mayRead_of hp hmine fun a q hl => .inl (g4 a q hl)
      · rw [(g2 n).2]
        exact fun l hl => absurd hl (g3 l)
      · rintro _ _ ⟨rfl, rfl⟩
        exact (h4 n).1
    · exact To.bind (g2 n).1 (h4 n).2
  | @set fd k rt d cont s x y v A tag pay pay' B hfd hmine hy ha hx hl hpay hn _ ih =>
    obtain ⟨s1, g1, g2, g3, g4⟩ := C73_overwrite hc hf hm hm1 hfd hy ha hx hl hpay hn rt d
    have hp1 := hp.trans (placed_of_data g3 hl g4 hn)
    obtain ⟨a, s', h1, h2, h3, h5, h6, h4⟩ := ih _ g1 g2 hp1
    have hin : ∀ a q, (a, q) ∈ inArr (s.h.ms i).buf.arr (List.range' ((s.h.ms i).buf.off + (A ++ tag).length) pay.length) → InValue s i (num fd) a q := by
      intro a q hq
      simp only [inArr, List.mem_map, List.mem_range'_1, Prod.mk.injEq] at hq
      obtain ⟨p, hp', rfl, rfl⟩ := hq
      exact ⟨_, _, _, _, _, hl, rfl, hp'.1, hp'.2⟩
    have hdoes := C72_overwrite hc hf hm hm1 hl (apart_assigns (U := U) hfd hy ha hx) hpay hn g1
    have hwrites : ∀ es : List Event, bytesWritten es = inArr (s.h.ms i).buf.arr (List.range' ((s.h.ms i).buf.off + (A ++ tag).length) pay.length) →
        (∀ l, .writes l ∈ es → ∃ a q, l = .cell a q) → ∀ l, .writes l ∈ es → valueOwner s0 i mine l = some t := by
      intro es d2 d4 l hl'
      obtain ⟨a, q, rfl⟩ := d4 l hl'
      have : (a, q) ∈ bytesWritten es := mem_bytesWritten.2 hl'
      rw [d2] at this
      exact (valueOwner_in mine (hp.values (hin a q this))).trans hmine
    obtain ⟨es0, c1, c2, _, c4, c5⟩ := hdoes 0
    obtain ⟨u1, u2⟩ := untouched c1.1 (by rw [c1.2]; exact c5 ⟨k, hfd⟩)
    refine ⟨a, s', ?_, h2, h3, u1.trans h5, fun l hl' => ?_, fun n => ?_⟩
    · simp only [Client.alone, g1]; exact h1
    · rw [h6 l hl', u2 l]
      rw [c1.2]
      exact fun hw => hl' (hwrites es0 c2 c4 l hw)
    obtain ⟨es, d1, d2, d3, d4, _⟩ := hdoes n
    refine ⟨?_, To.bind d1.1 (h4 n).2⟩
    refine Prog.safe_bind (Prog.Safe.imp (safe_of_trace d1.1 (fun j => .inr rfl) ?_ ?_) ?_)
    · rw [d1.2]
      refine mayRead_of hp (.inr hmine) fun a q hq => ?_
      have : (a, q) ∈ bytesRead es := mem_bytesRead.2 hq
      rw [d3] at this
      rcases List.mem_append.1 this with hq | hq
      · refine .inl (hin a q ?_)
        simp only [inArr, List.mem_map, List.mem_range'_1] at hq ⊢
        obtain ⟨p, hp', e⟩ := hq
        have := markLen_le v pay
        exact ⟨p, ⟨hp'.1, by omega⟩, e⟩
      · refine .inr (valueOwner_out mine (made_wf hc hf hm h0).1 ?_)
        have key : ∀ z : HSlice, (∀ p, z.off ≤ p → p < z.off + z.len → ¬ (s.h.ms i).buf.owns z.arr p) → (a, q) ∈ placesOf z → ¬ (s.h.ms i).buf.owns a q := by
          intro z hz hq
          simp only [placesOf, inArr, List.mem_map, List.mem_range'_1, Prod.mk.injEq] at hq
          obtain ⟨p, hp', rfl, rfl⟩ := hq
          exact hz p hp'.1 hp'.2
        rw [← hp.struct]
        unfold argPlaces at hq
        split at hq
        · exact key _ (ha _ (.inl rfl)).2 hq
        · exact key _ (ha _ (.inr rfl)).2 hq
        · cases hq
    · rw [d1.2]
      exact fun l hl' => .inr (hwrites es d2 d4 l hl')
    · rintro _ _ ⟨rfl, rfl⟩
      exact (h4 n).1

/-- C73: goroutines that share a message do not race, and each one gets the results that it gets alone. -/
theorem C73_shared {α : Type} {i : Nat} {s : GSt} (h : Made U fs m i s) (mine : Nat → Option Nat) (c : Nat → Client α) (hs : ∀ t, Shares U fs m i mine t (c t) s) :
    RunsAsAlone (programOf U fs) (valueOwner s i mine) c s := by
  have hall := fun t => (hs t).ends hc hf hm h h (.refl hc hf hm h)
  obtain ⟨a, hall⟩ := Classical.axiomOfChoice hall
  obtain ⟨s', hall⟩ := Classical.axiomOfChoice hall
  refine ⟨a, s', fun t => (hall t).1, fun _ => 0, fun n _ => ⟨fun t => ((c t).prog (programOf U fs) (n t)).size s, fun ts pool hmv => ?_⟩⟩
  have hsafe := fun t => ((hall t).2.2.2.2.2 (n t)).1
  have hrun := fun t => ((hall t).2.2.2.2.2 (n t)).2
  have hsep := separate (Base.of s) (valueOwner s i mine)
  refine ⟨raceless hsep (fun t l => Or.inl) hsafe hmv, oneMemory hmv, fun t => ?_⟩
  obtain ⟨s1, r1, _, r3, r4⟩ := interleave hsep hsafe hmv t
  have r5 : (pool t).1.run s1 = .ok (a t, s' t) := by rw [← r1.run]; exact hrun t
  dsimp only
  refine ⟨by omega, fun hlt => move_of_size (s := s1) (by omega), fun he => ?_⟩
  obtain ⟨e1, e2⟩ := done_of_size (by omega) r5
  exact ⟨e1, e2 ▸ r3⟩

/-- In memory that agrees with `s` where goroutine `t` may read, it does what it does in `s`. -/
theorem Shares.transfer {α : Type} {i : Nat} {mine : Nat → Option Nat} {t : Nat} {s0 : GSt} (h0 : Made U fs m i s0) {c : Client α} {s : GSt} (h : Shares U fs m i mine t c s) (hm1 : Made U fs m i s)
    (hp : Placed i s0 s) {u : GSt} (hm2 : Made U fs m i u) (hpu : Placed i s0 u) (ha : Agree (MayRead (Base.of s0) (valueOwner s0 i mine) t) s u) : Shares U fs m i mine t c u := by
  induction h generalizing u with
  | done a s => exact .done a u
  | @get fd k rt d cont s hfd hmine _ ih =>
    refine .get hfd hmine fun out hout => ?_
    obtain ⟨x, es, g1, g2, g3, g4, _⟩ := get_accesses hc hf hm hm1 hfd rt d
    obtain ⟨y, fs', k1, k2, _, _⟩ := get_accesses hc hf hm hm2 hfd rt d
    rw [k1] at hout
    injection hout with hout; injection hout with hout _
    obtain ⟨u', r1, _⟩ := agree_run (safe_of_trace (W := MayWrite (Base.of s0) (valueOwner s0 i mine) t) (g2 0).1 (fun j => .inr rfl) (by
      rw [(g2 0).2]
      exact mayRead_of hp hmine fun a q hl => .inl (g4 a q hl)) (by
      rw [(g2 0).2]
      exact fun l hl => absurd hl (g3 l))) ha (g2 0).1
    rw [(k2 0).1] at r1
    injection r1 with r1; injection r1 with r1 _
    rw [r1] at hout
    exact ih out (by rw [← hout]; exact g1) hm1 hp hm2 hpu ha
  | @set fd k rt d cont s x y v A tag pay pay' B hfd hmine hy ha' hx hl hpay hn hcont ih =>
    obtain ⟨sh, z1, z2⟩ := hp.shape
    obtain ⟨sh', z1', z2'⟩ := hpu.shape
    rw [z1'.unique z1] at z2'
    obtain ⟨v2, A2, pay2, B2, l2, _, l4⟩ := z2.last z2' hl
    have hst : u.h.ms i = s.h.ms i := hpu.struct.trans hp.struct.symm
    have hforeign : ∀ z : HSlice, s.h.w.WFs z → (∀ p, z.off ≤ p → p < z.off + z.len → ¬ (s.h.ms i).buf.owns z.arr p) → u.h.w.WFs z ∧ (u.h.w.slice z).data = (s.h.w.slice z).data := by
      intro z hz hown
      refine ⟨⟨hz.1, by rw [ha.size.arr]; exact hz.2⟩, ?_⟩
      have hcell : ∀ p, z.off ≤ p → p < z.off + z.len → (u.h.w.arr z.arr)[p]? = (s.h.w.arr z.arr)[p]? := fun p h1 h2 =>
        ha.same (.cell z.arr p) (.inr (valueOwner_out mine (made_wf hc hf hm h0).1 (by rw [← hp.struct]; exact hown p h1 h2)))
      refine List.ext_getElem? fun p => ?_
      simp only [World.slice, World.full, List.getElem?_take, List.getElem?_drop]
      split
      · split
        · exact hcell _ (by omega) (by omega)
        · rfl
      · rfl
    have hsrc : ∀ z, y = .str z ∨ y = .bytes z → u.h.w.src z = s.h.w.src z ∧ z.Apart u.h.w (u.h.ms i).buf := by
      intro z hz
      have := ha' z hz
      cases z with
      | lit bs => exact ⟨rfl, trivial⟩
      | mem z =>
        obtain ⟨w1, w2⟩ := hforeign z this.1 this.2
        exact ⟨w2, w1, by rw [hst]; exact this.2⟩
    have hyu : IsVal u.h.w k x y := by
      cases k <;> try exact hy
      case string =>
        obtain ⟨z, hz, hzx⟩ := hy
        exact ⟨z, hz, by rw [(hsrc z (.inl hz)).1]; exact hzx⟩
      case bytes =>
        rcases hy with hy | ⟨z, hz, hzx⟩
        · exact .inl hy
        · exact .inr ⟨z, hz, by rw [(hsrc z (.inr hz)).1]; exact hzx⟩
    refine .set hfd hmine hyu (fun z hz => (hsrc z hz).2) hx l2 hpay (hn.trans l4.symm) fun u1 hu1 => ?_
    obtain ⟨s1, g1, g2, g3, g4⟩ := C73_overwrite hc hf hm hm1 hfd hy ha' hx hl hpay hn rt d
    obtain ⟨u1', k1, k2, k3, k4⟩ := C73_overwrite hc hf hm hm2 hfd hyu (fun z hz => (hsrc z hz).2) hx l2 hpay (hn.trans l4.symm) rt d
    rw [k1] at hu1
    injection hu1 with hu1; injection hu1 with _ hu1
    subst hu1
    obtain ⟨a1, s1', _, _, _, _, _, e7⟩ := Shares.ends hc hf hm (c := .call rt d m.getName (t!"Set" ++ goName U fd) [.ptr m.getName i, .val y] Client.done) h0
      (.set hfd hmine hy ha' hx hl hpay hn fun s1 _ => .done _ s1) hm1 hp
    have hrun : ∀ {w w' : GSt} {v A tag pay B}, Made U fs m i w → IsVal w.h.w k x y → y.Apart w.h.w (w.h.ms i).buf → LastRecord (num fd) v (w.h.w.slice (w.h.ms i).buf).data A tag pay B → pay'.length = pay.length →
        G.run (programOf U fs) rt d m.getName (t!"Set" ++ goName U fd) [.ptr m.getName i, .val y] w = .ok ([], w') →
        ((Client.call rt d m.getName (t!"Set" ++ goName U fd) [.ptr m.getName i, .val y] Client.done).prog (programOf U fs) 0).run w = .ok ([], w') := by
      intro w w' v A tag pay B q1 q2 q3 q4 q5 q6
      obtain ⟨es, d1, _⟩ := C72_overwrite hc hf hm q1 q4 (apart_assigns (U := U) hfd q2 q3 hx) hpay q5 q6 0
      exact To.bind d1.1 rfl
    obtain ⟨e7, e8⟩ := e7 0
    rw [hrun hm1 hy ha' hl hn g1] at e8
    obtain ⟨u2, r1, r2⟩ := agree_run e7 ha (hrun hm1 hy ha' hl hn g1)
    rw [hrun hm2 hyu (fun z hz => (hsrc z hz).2) l2 (hn.trans l4.symm) k1] at r1
    injection r1 with r1; injection r1 with _ r1
    subst r1
    exact ih s1 g1 g2 (hp.trans (placed_of_data g3 hl g4 hn)) k2 (hpu.trans (placed_of_data k3 l2 k4 (hn.trans l4.symm))) r2

/-- C73: goroutines that share a message might as well have run one after the other, in any order: if `order` has all those that do anything, then in whatever order their accesses happened, when they
are all done, the results and the memory are those of `order`, and those of any other order of the same goroutines. -/
theorem C73_serial {α : Type} {i : Nat} {s : GSt} (h : Made U fs m i s) (mine : Nat → Option Nat) (c : Nat → Client α) (hs : ∀ t, Shares U fs m i mine t (c t) s) (order : List Nat)
    (hn : order.Nodup) (hidle : ∀ t, t ∉ order → ∃ a, c t = .done a) :
    ∃ (a : Nat → α) (e : GSt), (∀ order' : List Nat, order'.Perm order → oneByOne (programOf U fs) c order' s = .ok (order'.map a, e)) ∧ Made U fs m i e ∧
      ∀ (n : Nat → Nat) (ts : List Nat) (pool : Pool α), Moves (Base.of s) (start (fun t => (c t).prog (programOf U fs) (n t)) s) ts pool → (∀ t, ∃ b, (pool t).1 = .done b) → ∀ t, pool t = (.done (a t), e) := by
  have hall := fun t => (hs t).ends hc hf hm h h (.refl hc hf hm h)
  obtain ⟨a, hall⟩ := Classical.axiomOfChoice hall
  obtain ⟨s', hall⟩ := Classical.axiomOfChoice hall
  have hwf := (made_wf hc hf hm h).1
  have hsepd := separate (Base.of s) (valueOwner s i mine)
  -- one after the other
  have key : ∀ (todo : List Nat) (D : List Nat) (u : GSt), todo.Nodup → (∀ t ∈ todo, t ∉ D) → Made U fs m i u → Placed i s u → SameSize s u →
      (∀ l t, valueOwner s i mine l = some t → t ∈ D → read l u = read l (s' t)) → (∀ l, (∀ t ∈ D, valueOwner s i mine l ≠ some t) → read l u = read l s) →
      ∃ e, oneByOne (programOf U fs) c todo u = .ok (todo.map a, e) ∧ Made U fs m i e ∧ SameSize s e ∧
        (∀ l t, valueOwner s i mine l = some t → t ∈ todo ++ D → read l e = read l (s' t)) ∧ ∀ l, (∀ t ∈ todo ++ D, valueOwner s i mine l ≠ some t) → read l e = read l s := by
    intro todo
    induction todo with
    | nil => intro D u _ _ h1 _ h2 h3 h4; exact ⟨u, rfl, h1, h2, h3, h4⟩
    | cons t todo ih =>
      intro D u hnd hD h1 hpl h2 h3 h4
      rw [List.nodup_cons] at hnd
      have hag : Agree (MayRead (Base.of s) (valueOwner s i mine) t) s u := by
        refine ⟨h2, fun l hl => h4 l fun t' ht' ho => ?_⟩
        rcases hl with (hl | hl) | hl
        · exact hl (valueOwner_old hwf ho)
        · rw [hl] at ho; injection ho with ho; subst ho; exact hD t (by simp) ht'
        · rw [hl] at ho; cases ho
      obtain ⟨a1, u', k1, k2, k3, k4, k5, k6⟩ := ((hs t).transfer hc hf hm h h (.refl hc hf hm h) h1 hpl hag).ends hc hf hm h h1 hpl
      obtain ⟨v1, v2⟩ := (hall t).2.2.2.2.2 0
      obtain ⟨u2, r1, r2⟩ := agree_run v1 hag v2
      rw [(k6 0).2] at r1
      injection r1 with r1; injection r1 with r0 r1
      subst r0; subst r1
      obtain ⟨e, e1, e2, e3, e4, e5⟩ := ih (t :: D) u' hnd.2 (by
          intro x hx hx'
          rcases List.mem_cons.1 hx' with rfl | hx'
          · exact hnd.1 hx
          · exact hD x (by simp [hx]) hx') k2 k3 (h2.trans k4) (by
          intro l x hl hx
          by_cases e : x = t
          · subst e
            exact r2.same l (.inl (.inr hl))
          · rw [k5 l (by rw [hl]; simpa using e)]
            exact h3 l x hl ((List.mem_cons.1 hx).resolve_left e)) (by
          intro l hl
          rw [k5 l (hl t (by simp))]
          exact h4 l fun x hx => hl x (by simp [hx]))
      have hmem : ∀ x, x ∈ t :: todo ++ D ↔ x ∈ todo ++ t :: D := by
        intro x
        simp only [List.mem_append, List.mem_cons]
        constructor
        · rintro ((h | h) | h)
          · exact .inr (.inl h)
          · exact .inl h
          · exact .inr (.inr h)
        · rintro (h | h | h)
          · exact .inl (.inr h)
          · exact .inl (.inl h)
          · exact .inr h
      refine ⟨e, ?_, e2, e3, fun l x hl hx => e4 l x hl ((hmem x).1 hx), fun l hl => e5 l fun x hx => hl x ((hmem x).2 hx)⟩
      simp only [oneByOne, k1, List.map_cons]
      show (oneByOne (programOf U fs) c todo u' >>= _) = _
      rw [e1]
      rfl
  have hstay : ∀ t, t ∉ order → s' t = s := by
    intro t ht
    obtain ⟨b, hb⟩ := hidle t ht
    have := (hall t).1
    rw [hb] at this
    injection this with this; injection this with _ this
    exact this.symm
  -- what the memory is at the end
  have final : ∀ e e' : GSt, SameSize s e → SameSize s e' → (∀ x : GSt, x = e ∨ x = e' → (∀ l t, valueOwner s i mine l = some t → read l x = read l (s' t)) ∧
      ∀ l, valueOwner s i mine l = none → read l x = read l s) → e' = e := by
    intro e e' z1 z2 hx
    obtain ⟨x1, x2⟩ := hx e (.inl rfl)
    obtain ⟨y1, y2⟩ := hx e' (.inr rfl)
    refine gst_ext (z1.symm.trans z2) fun l => ?_
    cases ho : valueOwner s i mine l with
    | none => rw [x2 l ho, y2 l ho]
    | some t => rw [x1 l t ho, y1 l t ho]
  have serial : ∀ order' : List Nat, order'.Perm order → ∃ e, oneByOne (programOf U fs) c order' s = .ok (order'.map a, e) ∧ Made U fs m i e ∧ SameSize s e ∧
      (∀ l t, valueOwner s i mine l = some t → read l e = read l (s' t)) ∧ ∀ l, valueOwner s i mine l = none → read l e = read l s := by
    intro order' hp
    obtain ⟨e, e1, e2, e3, e4, e5⟩ := key order' [] s (hp.nodup_iff.2 hn) (fun _ _ => List.not_mem_nil) h (.refl hc hf hm h) (.refl s) (fun _ _ _ h => absurd h List.not_mem_nil) (fun _ _ => rfl)
    rw [List.append_nil] at e4 e5
    refine ⟨e, e1, e2, e3, fun l t hl => ?_, fun l hl => e5 l fun t _ => by rw [hl]; simp⟩
    by_cases ht : t ∈ order'
    · exact e4 l t hl ht
    · rw [hstay t (fun x => ht (hp.mem_iff.2 x))]
      refine e5 l fun x hx => ?_
      rw [hl]
      intro he
      injection he with he
      exact ht (he ▸ hx)
  obtain ⟨e, e1, e2, e3, e4, e5⟩ := serial order (.refl _)
  refine ⟨a, e, fun order' hp => ?_, e2, fun n ts pool hmv hdone => ?_⟩
  · obtain ⟨e', e1', _, e3', e4', e5'⟩ := serial order' hp
    rw [e1', final e e' e3 e3' (by rintro x (rfl | rfl); exact ⟨e4, e5⟩; exact ⟨e4', e5'⟩)]
  · have hpool : ∀ t, (pool t).1 = .done (a t) ∧ Agree (MayRead (Base.of s) (valueOwner s i mine) t) (s' t) (pool t).2 := by
      intro t
      obtain ⟨s1, r1, _, r3, _⟩ := interleave hsepd (fun t => ((hall t).2.2.2.2.2 (n t)).1) hmv t
      have r5 : (pool t).1.run s1 = .ok (a t, s' t) := by rw [← r1.run]; exact ((hall t).2.2.2.2.2 (n t)).2
      obtain ⟨b, hb⟩ := hdone t
      rw [hb] at r5
      injection r5 with r5; injection r5 with r5 r6
      rw [hb, ← r5, ← r6]
      exact ⟨rfl, r3⟩
    intro t
    refine Prod.ext (hpool t).1 ?_
    have hag := (hpool t).2
    refine final e (pool t).2 e3 ((hall t).2.2.2.1.trans hag.size) ?_
    rintro x (rfl | rfl)
    · exact ⟨e4, e5⟩
    · refine ⟨fun l x hl => ?_, fun l hl => ?_⟩
      · have hold := valueOwner_old hwf hl
        have h1 : read l (pool t).2 = read l (pool x).2 := by
          cases l with
          | cell b q => exact congrArg (·[q]?) ((oneMemory hmv x t).arr b hold)
          | _ => cases hl
        rw [h1]
        exact (hpool x).2.same l (.inl (.inr hl))
      · rw [hag.same l (.inr hl)]
        exact (hall t).2.2.2.2.1 l (by rw [hl]; simp)

omit hc hf hm in
theorem call_trace {α : Type} {p : Program} {rt : Rt} {d n : Nat} {t name : Text} {args out : List GVal} {k : List GVal → Client α} {s s' : GSt} {es : List Event} (h : Does (grun p rt n d t name args) s out s' es)
    (hk : ((k out).prog p n).trace s' = []) : ((Client.call rt d t name args k).prog p n).trace s = es := by
  have : ((Client.call rt d t name args k).prog p n) = (grun p rt n d t name args >>= fun r => (k r).prog p n) := rfl
  rw [this, trace_bind h.1, h.2, hk, List.append_nil]

/-- C73: the fields have to be different. If a goroutine sets a field, even to a value of the same length, while another one gets the same field, there is a data race. -/
theorem C73_fields_needed {i : Nat} {s : GSt} (h : Made U fs m i s) {fd : Field} {k : Kind} (hfd : ScalarField m fd k) {x : k.Ty} {y : Val} (hy : IsVal s.h.w k x y)
    (ha : y.Apart s.h.w (s.h.ms i).buf) (hx : lenOf k x + 10 < maxLen) {v : Wire.Val} {A tag pay pay' B : List Byte}
    (hl : LastRecord (num fd) v (s.h.w.slice (s.h.ms i).buf).data A tag pay B) (hp : IsMinPayload (encodeVal k x) pay') (hn : pay'.length = pay.length) (rt : Rt) (d : Nat)
    (c : Nat → Client (List GVal)) (h0 : c 0 = .call rt d m.getName (t!"Set" ++ goName U fd) [.ptr m.getName i, .val y] .done)
    (h1 : c 1 = .call rt d m.getName (goName U fd) [.ptr m.getName i] .done) (n : Nat → Nat) :
    ∃ ts pool, Moves (Base.of s) (start (fun t => (c t).prog (programOf U fs) (n t)) s) ts pool ∧ ¬ Raceless (Base.of s) pool := by
  obtain ⟨s1, g1, _⟩ := C73_overwrite hc hf hm h hfd hy ha hx hl hp hn rt d
  obtain ⟨es, d1, d2, _⟩ := C72_overwrite hc hf hm h hl (apart_assigns (U := U) hfd hy ha hx) hp hn g1 (n 0)
  obtain ⟨z, _, e2⟩ := C71_get hc hf hm h hfd hl rt d
  obtain ⟨_, fs', _, w2, w3, _⟩ := get_accesses hc hf hm h hfd rt d
  have hpay : 0 < headLen v pay ∧ 0 < pay.length := by
    have := hl.payload
    have hvar : ∀ {n : Nat} {bs : List Byte}, IsVarint n bs → 0 < bs.length := by
      rintro n bs ⟨_, _, rfl, _⟩
      simp
    cases v with
    | varint w => exact ⟨hvar this, hvar this⟩
    | bytes bs =>
      obtain ⟨lb, h1, h2⟩ := this
      have := hvar h1
      simp only [headLen, h2, List.length_append]
      omega
    | fixed32 w => rw [show pay = _ from this]; simp [headLen, leBytes]
    | fixed64 w => rw [show pay = _ from this]; simp [headLen, leBytes]
  have hin : InValue s i (num fd) (s.h.ms i).buf.arr ((s.h.ms i).buf.off + (A ++ tag).length) := ⟨_, _, _, _, _, hl, rfl, Nat.le_refl _, by omega⟩
  refine races (l := .cell (s.h.ms i).buf.arr ((s.h.ms i).buf.off + (A ++ tag).length)) ?_ ?_ ?_ ?_
  · exact valueOwner_old (u := 0) (mine := fun _ => some 0) (made_wf hc hf hm h).1 (valueOwner_in _ hin)
  · rw [h0, call_trace d1 rfl]
    refine mem_bytesWritten.1 ?_
    rw [d2]
    exact List.mem_map.2 ⟨_, List.mem_range'_1.2 ⟨Nat.le_refl _, by omega⟩, rfl⟩
  · rw [h1, call_trace (e2 (n 1)) rfl]
    refine List.mem_cons_of_mem _ (List.mem_append_right _ (List.mem_map.2 ⟨_, List.mem_range'_1.2 ⟨Nat.le_refl _, by omega⟩, rfl⟩))
  · rw [h1, call_trace (w2 (n 1)) rfl]
    exact w3

/-- C73: the lengths have to be the same. If a goroutine sets a field that is not there, or to a value of another length, while another one gets any field, there is a data race. -/
theorem C73_lengths_needed {i : Nat} {s : GSt} (h : Made U fs m i s) {fd : Field} {k : Kind} (hfd : ScalarField m fd k) {x : k.Ty} {y : Val} (hy : IsVal s.h.w k x y)
    (ha : y.Apart s.h.w (s.h.ms i).buf) (hx : lenOf k x + 10 < maxLen) {pay' : List Byte} (hp : IsMinPayload (encodeVal k x) pay')
    (hn : ∀ v A tag pay B, LastRecord (num fd) v (s.h.w.slice (s.h.ms i).buf).data A tag pay B → pay'.length ≠ pay.length) (hfit : (s.h.ms i).buf.len + (20 + k.size x) < maxLen)
    {gd : Field} {k' : Kind} (hgd : ScalarField m gd k') (rt : Rt) (d : Nat)
    (c : Nat → Client (List GVal)) (h0 : c 0 = .call rt d m.getName (t!"Set" ++ goName U fd) [.ptr m.getName i, .val y] .done)
    (h1 : c 1 = .call rt d m.getName (goName U gd) [.ptr m.getName i] .done) (n : Nat → Nat) :
    ∃ ts pool, Moves (Base.of s) (start (fun t => (c t).prog (programOf U fs) (n t)) s) ts pool ∧ ¬ Raceless (Base.of s) pool := by
  have hassign := apart_assigns (U := U) hfd hy ha hx
  have hv := hc.valid f hf m hm
  obtain ⟨e1, e2⟩ := scalar_schema hv hfd
  have hcall : E.Calls U m rt i s (t!"Set" ++ goName U fd) [.ptr m.getName i, .val y] (.set rt (num fd) k x) := .set hfd hy ha hx
  obtain ⟨s1, g1, _⟩ := C72_succeeds hc hf hm h hcall hfit d
  obtain ⟨s0, ops, z0, hn0, hr⟩ := id h
  obtain ⟨z1, z2⟩ := start_tracks (S := schemaOf m hv) z0
  obtain ⟨a1, a2, rs, a3⟩ := ran_tracks hc.program hc.closed (decls_implements U m hv) (sub_of (U := U) hf hm) (runs_ran hv hr) z1 hn0 z2
  obtain ⟨hval, hfol⟩ := C63_call hc.program hc.closed (decls_implements U m hv) (sub_of (U := U) hf hm) rt d a1 a3.1.off_length a2 (E.calls_issues hv hcall)
  obtain ⟨cs, r1, r2, r3⟩ := a3.1
  have hdata : (s.h.w.slice (s.h.ms i).buf).data = flat cs := r1.data
  have hlast : ∀ c, lastChunk (num fd) cs = some c → ∃ pre post, cs = pre ++ c :: post ∧ c.num = num fd ∧ (∀ d ∈ post, d.num ≠ num fd) ∧
      LastRecord (num fd) c.val (s.h.w.slice (s.h.ms i).buf).data (flat pre) c.tag c.pay (flat post) := by
    intro c hc'
    by_cases hex : ∃ c ∈ cs, c.num = num fd
    · obtain ⟨pre, c0, post, hcs, hcn, hpost⟩ := exists_last hex
      rw [hcs, lastChunk_eq hcn hpost] at hc'
      injection hc' with hc'
      subst hc'
      have hlast := chunks_lastRecord (c := c0) (c1 := pre) (c2 := post) (by rw [← hcs]; exact r1.wf) (by rw [hcn]; exact hpost)
      rw [hcn, ← hcs, ← hdata] at hlast
      exact ⟨pre, post, hcs, hcn, hpost, hlast⟩
    · rw [lastChunk_none (fun c hc e => hex ⟨c, hc, e⟩)] at hc'
      cases hc'
  obtain ⟨new, n1, n2, n3, n4, n5, n6⟩ := set_chunks rt r1 ((schemaOf m hv).kind_lt _ (by rw [e1]; simp)) e2 k x (by
    have : lenOf k x = k.size x := by cases k <;> rfl
    unfold maxLen at hx ⊢; omega) (by
    intro c hc'
    obtain ⟨_, _, hcs, _, _, hlr⟩ := hlast c hc'
    exact ⟨(made_located hc hf hm h e1 e2 hlr).2.2, r2 c (by rw [hcs]; simp)⟩)
  have hpay : new.pay = pay' := n4.unique hp
  have hdata1 : (s1.h.w.slice (s1.h.ms i).buf).data = flat (setChunks new cs) ∧ s1.h.w.WFs (s1.h.ms i).buf := by
    by_cases hlen : (flat (setChunks new cs)).length < maxLen
    · obtain ⟨m', q1, q2, _⟩ := n5 hlen
      have q1' : (Zeropb.Op.set rt (num fd) k x).run (schemaOf m hv) (s.h.w.msg (s.h.ms i)) = .ok m' := q1
      rw [q1'] at hfol
      obtain ⟨s2, f1, f2, f3, _⟩ := hfol
      rw [g1] at f1
      injection f1 with f1; injection f1 with _ f1
      subst f1
      exact ⟨by rw [← q2, ← f2]; rfl, f3.1⟩
    · have q1' : (Zeropb.Op.set rt (num fd) k x).run (schemaOf m hv) (s.h.w.msg (s.h.ms i)) = .error .lenOutOfRange := n6 (Nat.le_of_not_lt hlen)
      rw [q1'] at hfol
      rw [show G.run _ _ _ _ _ _ _ = _ from hfol] at g1
      cases g1
  have hlen0 := World.slice_len a1.1
  have hlen1 := World.slice_len hdata1.2
  rw [hdata] at hlen0
  rw [hdata1.1] at hlen1
  have hne : (flat (setChunks new cs)).length ≠ (flat cs).length ∧ ∃ es, Does (grun (programOf U fs) rt (n 0) d m.getName (t!"Set" ++ goName U fd) [.ptr m.getName i, .val y]) s [] s1 es := by
    cases hlc : lastChunk (num fd) cs with
    | some c =>
      obtain ⟨pre, post, hcs, hcn, hpost, hlr⟩ := hlast c hlc
      have hne := hn _ _ _ _ _ hlr
      have htag : new.tag = c.tag := by
        obtain ⟨_, l2, l3⟩ := made_located hc hf hm h e1 e2 hlr
        have : IsMinVarint (new.num * 8 + new.val.wireType) new.tag := n3
        rw [n1, n2, wireType_encodeVal, ← l3] at this
        exact this.unique l2
      obtain ⟨es, d1, _⟩ := C72_move hc hf hm h hlr hassign hp hne g1 (n 0)
      refine ⟨?_, es, d1⟩
      unfold setChunks
      rw [n1, hcs, splitLast_some hcn hpost]
      simp only
      rw [if_neg (by rw [hpay]; exact fun e => hne e.symm)]
      simp only [flat_append, flat_cons, List.length_append, Chunk.bytes, htag, hpay]
      simp only [flat, List.flatMap_nil, List.length_nil]
      omega
    | none =>
      have hno : ∀ c ∈ cs, c.num ≠ num fd := by
        intro c hc' e
        obtain ⟨pre, c0, post, hcs, hcn, hpost⟩ := exists_last ⟨c, hc', e⟩
        rw [hcs, lastChunk_eq hcn hpost] at hlc
        cases hlc
      have hnr : NoRecord (num fd) (s.h.w.slice (s.h.ms i).buf).data := by
        refine ⟨records cs, isMessage_iff.2 ⟨cs, hdata.symm, r1.wf, rfl⟩, ?_⟩
        intro r hr
        obtain ⟨d, hd, rfl⟩ := List.mem_map.1 hr
        exact hno d hd
      have htag : IsMinVarint (new.num * 8 + new.val.wireType) new.tag := n3
      rw [n1, n2] at htag
      obtain ⟨es, d1, _⟩ := C72_first hc hf hm h hnr hassign htag hp g1 (n 0)
      refine ⟨?_, es, d1⟩
      unfold setChunks
      rw [n1, splitLast_none hno]
      obtain ⟨⟨_, _, ht, _⟩, _⟩ := htag
      simp only [flat_append, flat_cons, List.length_append, Chunk.bytes, ht, List.length_cons]
      omega
  obtain ⟨hne, es, hd⟩ := hne
  have hbuf : (s1.h.ms i).buf ≠ (s.h.ms i).buf := by
    intro e
    rw [e] at hlen1
    omega
  obtain ⟨z, fs', _, w2, w3, _, w4⟩ := get_accesses hc hf hm h hgd rt d
  refine races (l := .buf i) a2 ?_ ?_ ?_
  · rw [h0, call_trace hd rfl]
    have hk := keeps_trace hd.1
    rw [hd.2] at hk
    exact Classical.byContradiction fun hw => hbuf (hk.same (.buf i) a2 hw)
  · rw [h1, call_trace (w2 (n 1)) rfl]
    exact w4
  · rw [h1, call_trace (w2 (n 1)) rfl]
    exact w3

end

/-! ## The hypotheses are met -/

section
open Zeropb.GoSrc.E (testFile_compilable testFile_has testField)

theorem room_last_int32 {s : GSt} (h : (s.h.w.slice (s.h.ms 0).buf).data = skimmed) :
    LastRecord 2 (.varint 300#64) (s.h.w.slice (s.h.ms 0).buf).data (skimmed.take 5) [0x10#8] [0xac#8, 0x02#8] (skimmed.drop 8) := by
  rw [h]
  exact ⟨rfl, ⟨_, skimmed_heads.1⟩, (skim1 0x10#8 (by decide)).1, t300, _, skims8.isMessage, by decide⟩

/-- The bytes of an argument in an array of its own. -/
theorem room_arg {s : GSt} (harr : s.h.w.arrs = roomState.h.w.arrs) (hbuf : (s.h.ms 0).buf = ⟨0, 0, 22, 42⟩) {k n : Nat} (hk : k ≠ 0) (hw : roomState.h.w.WFs ⟨k, 0, n, n⟩) :
    (Val.str (.mem ⟨k, 0, n, n⟩)).Apart s.h.w (s.h.ms 0).buf := by
  intro y hy
  have : y = .mem ⟨k, 0, n, n⟩ := by rcases hy with hy | hy <;> cases hy; rfl
  subst this
  refine ⟨⟨hw.1, by unfold World.arr; rw [harr]; exact hw.2⟩, fun p _ _ ho => ?_⟩
  rw [hbuf] at ho
  exact hk ho.1.symm

/-- `C73_shared` and `C73_serial` on golden/test.proto: a struct holds string = "hey" and int32 = 300. Goroutine 0 calls `SetString("abc")`, then `String()`, `Bool()`; goroutine 1, on the same struct,
calls `SetInt32(200)`, then `Bool()`, `Int32()`. -/
example (rt : Rt) : ∃ s fs fi fb, ∃ c : Nat → Client (List GVal), Made asciiUnicode [testFile] testDesc 0 s ∧ num fs = 14 ∧ num fi = 2 ∧ num fb = 1 ∧
    c 0 = .call rt 0 testDesc.getName (t!"Set" ++ goName asciiUnicode fs) [.ptr testDesc.getName 0, .val (.str (.mem ⟨1, 0, 3, 3⟩))] (fun _ =>
      .call rt 0 testDesc.getName (goName asciiUnicode fs) [.ptr testDesc.getName 0] fun x => .call rt 0 testDesc.getName (goName asciiUnicode fb) [.ptr testDesc.getName 0] fun y => .done (x ++ y)) ∧
    c 1 = .call rt 0 testDesc.getName (t!"Set" ++ goName asciiUnicode fi) [.ptr testDesc.getName 0, .val (.i32 200#32)] (fun _ =>
      .call rt 0 testDesc.getName (goName asciiUnicode fb) [.ptr testDesc.getName 0] fun x => .call rt 0 testDesc.getName (goName asciiUnicode fi) [.ptr testDesc.getName 0] fun y => .done (x ++ y)) ∧
    RunsAsAlone (programOf asciiUnicode [testFile]) (valueOwner s 0 fun n => if n = 14 then some 0 else if n = 2 then some 1 else none) c s ∧
    ∃ (a : Nat → List GVal) (e : GSt), oneByOne (programOf asciiUnicode [testFile]) c [0, 1] s = .ok ([a 0, a 1], e) ∧ oneByOne (programOf asciiUnicode [testFile]) c [1, 0] s = .ok ([a 1, a 0], e) ∧
      ∀ (n : Nat → Nat) (ts : List Nat) (pool : Pool (List GVal)), Moves (Base.of s) (start (fun t => (c t).prog (programOf asciiUnicode [testFile]) (n t)) s) ts pool → (∀ t, ∃ b, (pool t).1 = .done b) → ∀ t, pool t = (.done (a t), e) := by
  have hc := testFile_compilable
  obtain ⟨hf, hm⟩ := testFile_has
  obtain ⟨s, hmade, harr, hbuf, hd, h1⟩ := room_decoded
  obtain ⟨fs, hn, hfs⟩ := room_string
  obtain ⟨fi, hni, hfi⟩ := room_int32
  obtain ⟨fb, hnb, hfb⟩ := room_bool
  have hs1 : s.h.w.src (.mem ⟨1, 0, 3, 3⟩) = [0x61#8, 0x62#8, 0x63#8] := by
    show (s.h.w.slice _).data = _; rw [slice_arrs harr]; decide +kernel
  have ha := room_arg harr hbuf (k := 1) (n := 3) (by decide) ⟨by decide, by decide +kernel⟩
  have hl := room_last hd
  have hli := room_last_int32 hd
  rw [← hn] at hl
  rw [← hni] at hli
  have hshare : ∀ t, Shares asciiUnicode [testFile] testDesc 0 (fun n => if n = 14 then some 0 else if n = 2 then some 1 else none) t (match t with
    | 0 => .call rt 0 testDesc.getName (t!"Set" ++ goName asciiUnicode fs) [.ptr testDesc.getName 0, .val (.str (.mem ⟨1, 0, 3, 3⟩))] (fun _ =>
      .call rt 0 testDesc.getName (goName asciiUnicode fs) [.ptr testDesc.getName 0] fun x => .call rt 0 testDesc.getName (goName asciiUnicode fb) [.ptr testDesc.getName 0] fun y => .done (x ++ y))
    | 1 => .call rt 0 testDesc.getName (t!"Set" ++ goName asciiUnicode fi) [.ptr testDesc.getName 0, .val (.i32 200#32)] (fun _ =>
      .call rt 0 testDesc.getName (goName asciiUnicode fb) [.ptr testDesc.getName 0] fun x => .call rt 0 testDesc.getName (goName asciiUnicode fi) [.ptr testDesc.getName 0] fun y => .done (x ++ y))
    | _ + 2 => .done []) s := by
    intro t
    match t with
    | 0 =>
      refine .set (k := .string) hfs (by rw [hn]; rfl) ⟨_, rfl, hs1⟩ ha (by decide) hl (pay' := [0x03#8, 0x61#8, 0x62#8, 0x63#8]) ⟨[0x03#8], skim1 0x03#8 (by decide), rfl⟩ rfl fun s1 _ => ?_
      exact .get hfs (.inr (by rw [hn]; rfl)) fun x _ => .get hfb (.inl (by rw [hnb]; rfl)) fun y _ => .done _ _
    | 1 =>
      refine .set (k := .int32) (x := 200#32) hfi (by rw [hni]; rfl) rfl (fun _ h => by rcases h with h | h <;> cases h) (by decide) hli (pay' := [0xc8#8, 0x01#8])
        ⟨⟨[0xc8#8], 0x01#8, rfl, by decide, by decide, by decide, by decide, by decide⟩, .inr (by decide)⟩ rfl fun s1 _ => ?_
      exact .get hfb (.inl (by rw [hnb]; rfl)) fun x _ => .get hfi (.inr (by rw [hni]; rfl)) fun y _ => .done _ _
    | t + 2 => exact .done _ _
  obtain ⟨a, e, e1, _, e3⟩ := C73_serial hc hf hm hmade _ _ hshare [0, 1] (by decide) (by
    intro t ht
    match t with
    | 0 => simp at ht
    | 1 => simp at ht
    | t + 2 => exact ⟨_, rfl⟩)
  exact ⟨s, fs, fi, fb, _, hmade, hn, hni, hnb, rfl, rfl, C73_shared hc hf hm hmade _ _ hshare, a, e, e1 _ (.refl _), e1 [1, 0] (List.Perm.swap 0 1 []), e3⟩

/-- `C73_fields_needed` and `C73_lengths_needed` on golden/test.proto: `SetString("abc")` races with `String()`, and `SetString("hello")` with `Int32()`. -/
example (rt : Rt) : ∃ s fs fi, Made asciiUnicode [testFile] testDesc 0 s ∧ num fs = 14 ∧ num fi = 2 ∧
    (∀ (c : Nat → Client (List GVal)), c 0 = .call rt 0 testDesc.getName (t!"Set" ++ goName asciiUnicode fs) [.ptr testDesc.getName 0, .val (.str (.mem ⟨1, 0, 3, 3⟩))] .done →
      c 1 = .call rt 0 testDesc.getName (goName asciiUnicode fs) [.ptr testDesc.getName 0] .done → ∀ n : Nat → Nat,
      ∃ ts pool, Moves (Base.of s) (start (fun t => (c t).prog (programOf asciiUnicode [testFile]) (n t)) s) ts pool ∧ ¬ Raceless (Base.of s) pool) ∧
    ∀ (c : Nat → Client (List GVal)), c 0 = .call rt 0 testDesc.getName (t!"Set" ++ goName asciiUnicode fs) [.ptr testDesc.getName 0, .val (.str (.mem ⟨2, 0, 5, 5⟩))] .done →
      c 1 = .call rt 0 testDesc.getName (goName asciiUnicode fi) [.ptr testDesc.getName 0] .done → ∀ n : Nat → Nat,
      ∃ ts pool, Moves (Base.of s) (start (fun t => (c t).prog (programOf asciiUnicode [testFile]) (n t)) s) ts pool ∧ ¬ Raceless (Base.of s) pool := by
  have hc := testFile_compilable
  obtain ⟨hf, hm⟩ := testFile_has
  obtain ⟨s, hmade, harr, hbuf, hd, h1⟩ := room_decoded
  obtain ⟨fs, hn, hfs⟩ := room_string
  obtain ⟨fi, hni, hfi⟩ := room_int32
  have hs1 : s.h.w.src (.mem ⟨1, 0, 3, 3⟩) = [0x61#8, 0x62#8, 0x63#8] := by
    show (s.h.w.slice _).data = _; rw [slice_arrs harr]; decide +kernel
  have hs2 : s.h.w.src (.mem ⟨2, 0, 5, 5⟩) = [0x68#8, 0x65#8, 0x6c#8, 0x6c#8, 0x6f#8] := by
    show (s.h.w.slice _).data = _; rw [slice_arrs harr]; decide +kernel
  have ha1 := room_arg harr hbuf (k := 1) (n := 3) (by decide) ⟨by decide, by decide +kernel⟩
  have ha2 := room_arg harr hbuf (k := 2) (n := 5) (by decide) ⟨by decide, by decide +kernel⟩
  have hl := room_last hd
  rw [← hn] at hl
  refine ⟨s, fs, fi, hmade, hn, hni, fun c h0 h1 n => ?_, fun c h0 h1 n => ?_⟩
  · exact C73_fields_needed hc hf hm hmade (k := .string) hfs ⟨_, rfl, hs1⟩ ha1 (by decide) hl (pay' := [0x03#8, 0x61#8, 0x62#8, 0x63#8]) ⟨[0x03#8], skim1 0x03#8 (by decide), rfl⟩ rfl rt 0 c h0 h1 n
  · refine C73_lengths_needed hc hf hm hmade (k := .string) hfs ⟨_, rfl, hs2⟩ ha2 (by decide) (pay' := [0x05#8, 0x68#8, 0x65#8, 0x6c#8, 0x6c#8, 0x6f#8]) ⟨[0x05#8], skim1 0x05#8 (by decide), rfl⟩ ?_
      (by rw [hbuf]; show 22 + (20 + _) < maxLen; decide) hfi rt 0 c h0 h1 n
    intro v A tag pay B hl'
    obtain ⟨c1, c2, e1, e2, e3, e4, e5⟩ := lastRecord_chunks hl
    obtain ⟨d1, d2, g1, g2, g3, g4, g5⟩ := lastRecord_chunks hl'
    have he := flat_injective e3 g3 (e5.symm.trans g5)
    rcases two_pieces he with ⟨_, h, _⟩ | ⟨e, _, h⟩ | ⟨e, _, h⟩
    · injection h with _ _ _ h
      rw [← h]; decide
    · exact absurd rfl (e4 ⟨num fs, v, tag, pay⟩ (by rw [h]; simp))
    · exact absurd rfl (g4 ⟨num fs, .bytes [0x68#8, 0x65#8, 0x79#8], [0x72#8], [0x03#8, 0x68#8, 0x65#8, 0x79#8]⟩ (by rw [h]; simp))

end

end Zeropb.GoSrc.Conc
