import Verif.Props.Programs
import Verif.Props.Decode
/-!
# C75: programs that decode bytes they know nothing about

The programs of C66, extended. `Decode`, the getters of message fields and `Next` may be given any bytes. If the call returns - with an error or without - the program may go on: it knows nothing
about the struct it decoded into except its type, and uses it only to decode into it again, or to reset it. Structs whose memory is changed by something else, and views of a struct that was changed, may be used again in the same way.
Everything else is as in C66.
-/

set_option linter.constructorNameAsVariable false

namespace Zeropb.GoSrc.E
open Zeropb.Gen Wire Zeropb.GoSrc.G

/-! ## Specification -/

/-- What the program knows, and structs of which it knows only the type. -/
structure Ledger where
  known : Known
  spoiled : Nat → Option Desc

/-- Nothing. -/
def Ledger.nothing : Ledger := ⟨.nothing, fun _ => none⟩

/-- The type of struct `i`, if the program may decode into it. -/
def Ledger.type (k : Ledger) (i : Nat) : Option Desc := match k.known.structs i with
  | some e => some e.type
  | none => k.spoiled i

/-- Struct `i` changes: of the views of it, the program knows only the type any more. -/
def Ledger.spoiling (k : Ledger) (i j : Nat) : Option Desc := match k.known.structs j with
  | some e => if e.view = some i then some e.type else none
  | none => k.spoiled j

/-- Struct `i` is now `e`. -/
def Ledger.gets (k : Ledger) (i : Nat) (e : Entry) : Ledger := ⟨(k.known.drop i).put i e, fun j => if j = i then none else k.spoiling i j⟩

/-- Of struct `i`, the program knows only the type any more, `m`. -/
def Ledger.spoil (k : Ledger) (i : Nat) (m : Desc) : Ledger := ⟨k.known.forget i, fun j => if j = i then some m else k.spoiling i j⟩

/-- Struct `i` is not used any more. -/
def Ledger.forget (k : Ledger) (i : Nat) : Ledger := ⟨k.known.forget i, fun j => if j = i then none else k.spoiling i j⟩

/-- Iterator `v` is now `c`. -/
def Ledger.point (k : Ledger) (v : Nat) (c : Cursor) : Ledger := { k with known := k.known.point v c }

/-- From `s` to `s'`, the program did something that does not concern the structs and iterators of `k`. The memory that spoiled structs refer to may change. -/
structure LeavesAlone (k : Ledger) (s s' : GSt) : Prop where
  known : Undisturbed k.known s s'
  spoiled : ∀ i m, k.spoiled i = some m → s'.h.ms i = s.h.ms i

/-- One step of the program. -/
inductive Does (U : Unicode) (fs : List FileDesc) : GSt → Ledger → GSt → Ledger → Prop
  /-- `var x T` -/
  | new {s k f m} : f ∈ fs → some m ∈ f.messageType →
      Does U fs s k ⟨s.h.put s.next (.zero (slotsOf m)), s.next + 1, s.its⟩ (k.gets s.next ⟨m, none, .empty⟩)
  /-- `x.SetName(v)`, `x.AppendToName(y)` -/
  | set {s k i m c rt d name args op out s'} : k.known.structs i = some ⟨m, none, c⟩ → Calls U m rt i s name args op → Writes op →
      G.run (programOf U fs) rt d m.getName name args s = .ok (out, s') → Does U fs s k s' (k.gets i ⟨m, none, op.apply c⟩)
  /-- `x.Reset(b)`; `x.Decode(b)` with a valid message; with memory that no other struct has -/
  | fill {s k i m rt d name args op out s'} : k.type i = some m → Calls U m rt i s name args op → ¬ Writes op →
      (∀ b, .val (.bytes (.mem b)) ∈ args → k.known.Free s i b) →
      G.run (programOf U fs) rt d m.getName name args s = .ok (out, s') → Does U fs s k s' (k.gets i ⟨m, none, op.apply .empty⟩)
  /-- `x.Decode(b)` with a valid message, with memory of struct `o` -/
  | view {s k i m o eo rt d b rs out s'} : k.type i = some m → k.known.structs o = some eo → eo.view = none → o ≠ i → Within b (s.h.ms o).buf →
      s.h.w.WFs b → b.len < maxLen → IsMinTagMessage rs (s.h.w.slice b).data → Conforms m rs →
      G.run (programOf U fs) rt d m.getName t!"Decode" [.ptr m.getName i, .val (.bytes (.mem b))] s = .ok (out, s') →
      Does U fs s k s' (k.gets i ⟨m, some o, .ofRecords rs⟩)
  /-- `x.Name(y)`, when the field has a value that is a valid message -/
  | message {s k i e fd j m' bs rs rt d out s'} : k.known.structs i = some e → MessageField e.type fd → k.type j = some m' → m'.getName = goType fd →
      j ≠ e.root i → e.contents.sing (num fd) = some (.bytes bs) → IsMinTagMessage rs bs → Conforms m' rs →
      G.run (programOf U fs) rt d e.type.getName (goName U fd) [.ptr e.type.getName i, .ptr (goType fd) j] s = .ok (out, s') →
      Does U fs s k s' (k.gets j ⟨m', some (e.root i), .ofRecords rs⟩)
  /-- `it := x.Name()` -/
  | iterate {s k i e fd rt d o s' v} : k.known.structs i = some e → RepeatedField e.type fd →
      G.run (programOf U fs) rt d e.type.getName (goName U fd) [.ptr e.type.getName i] s = .ok ([.val (optBytes o)], s') →
      Does U fs s k { s' with its := fun u => if u = v then o else s'.its u } (k.point v ⟨e.type, fd, e.root i, e.contents.elems (num fd)⟩)
  /-- `it.Next(y)`, when there is another element and it is a valid message -/
  | next {s k v m fd o bs rest j m' rs rt d out s'} : k.known.iters v = some ⟨m, fd, o, bs :: rest⟩ → k.type j = some m' → m'.getName = goType fd →
      j ≠ o → IsMinTagMessage rs bs → Conforms m' rs →
      G.run (programOf U fs) rt d (iterOf m fd) t!"Next" [.iter (iterOf m fd) v, .ptr (goType fd) j] s = .ok (out, s') →
      Does U fs s k s' ((k.point v ⟨m, fd, o, rest⟩).gets j ⟨m', some o, .ofRecords rs⟩)
  /-- `err := x.Decode(b)`, with any bytes, in any memory -/
  | tryDecode {s k i m rt d b out s'} : k.type i = some m → s.h.w.WFs b →
      G.run (programOf U fs) rt d m.getName t!"Decode" [.ptr m.getName i, .val (.bytes (.mem b))] s = .ok (out, s') → Does U fs s k s' (k.spoil i m)
  /-- `ok, err := x.Name(y)`, whatever the value of the field is -/
  | tryMessage {s k i e fd j m' rt d out s'} : k.known.structs i = some e → MessageField e.type fd → k.type j = some m' → m'.getName = goType fd →
      G.run (programOf U fs) rt d e.type.getName (goName U fd) [.ptr e.type.getName i, .ptr (goType fd) j] s = .ok (out, s') →
      Does U fs s k s' (k.spoil j m')
  /-- `ok, err := it.Next(y)`, when there is another element, whatever it is -/
  | tryNext {s k v m fd o bs rest j m' rt d out s'} : k.known.iters v = some ⟨m, fd, o, bs :: rest⟩ → k.type j = some m' → m'.getName = goType fd →
      G.run (programOf U fs) rt d (iterOf m fd) t!"Next" [.iter (iterOf m fd) v, .ptr (goType fd) j] s = .ok (out, s') →
      Does U fs s k s' ((k.point v ⟨m, fd, o, rest⟩).spoil j m')
  /-- the contents of a struct are not used any more: its memory may be used for other things -/
  | lose {s k i m} : k.type i = some m → Does U fs s k s (k.spoil i m)
  /-- a struct is not used any more -/
  | forget {s k i} : Does U fs s k s (k.forget i)
  /-- anything else -/
  | other {s k s'} : LeavesAlone k s s' → Does U fs s k s' k

/-- A run of the program, from a state in which it knows nothing. -/
inductive Gets (U : Unicode) (fs : List FileDesc) (s0 : GSt) : GSt → Ledger → Prop
  | start : Gets U fs s0 s0 .nothing
  | step {s k s' k'} : Gets U fs s0 s k → Does U fs s k s' k' → Gets U fs s0 s' k'

/-! ## The invariant -/

/-- What holds of every struct, spoiled or not. -/
structure Shape (fs : List FileDesc) (s : GSt) (ty : Nat → Option Desc) : Prop where
  one : ∀ i m, ty i = some m → (∃ f ∈ fs, some m ∈ f.messageType) ∧ i < s.next ∧ s.h.w.WF (s.h.ms i) ∧ (s.h.ms i).a.length = slotsOf m
  maps : ∀ i j mi mj, i ≠ j → ty i = some mi → ty j = some mj → ∀ id, (s.h.ms i).m = some id → (s.h.ms j).m ≠ some id

theorem Shape.sub {fs : List FileDesc} {s : GSt} {ty ty' : Nat → Option Desc} (h : Shape fs s ty) (hs : ∀ i m, ty' i = some m → ty i = some m) : Shape fs s ty' :=
  ⟨fun i m hi => h.one i m (hs i m hi), fun i j mi mj hne hi hj => h.maps i j mi mj hne (hs _ _ hi) (hs _ _ hj)⟩

theorem wf_sized {w w' : World} (hs : Sized w w') {b : HSlice} (h : w.WFs b) : w'.WFs b := by
  obtain ⟨h1, h2, _⟩ := hs
  refine ⟨h.1, ?_⟩
  rcases Nat.lt_or_ge b.arr w.arrs.length with hl | hl
  · rw [h2 _ hl]; exact h.2
  · have : w.arr b.arr = [] := by
      unfold World.arr; rw [List.getD_eq_getElem?_getD, List.getElem?_eq_none hl]; rfl
    have h3 := h.2
    rw [this] at h3
    simp at h3
    omega

theorem Shape.update {fs : List FileDesc} {s s' : GSt} {ty : Nat → Option Desc} (h : Shape fs s ty) (i : Nat) (m : Desc) (hs : Sized s.h.w s'.h.w) (hnext : s.next ≤ s'.next)
    (hms : ∀ j mj, j ≠ i → ty j = some mj → s'.h.ms j = s.h.ms j)
    (hi : (∃ f ∈ fs, some m ∈ f.messageType) ∧ i < s'.next ∧ s'.h.w.WF (s'.h.ms i) ∧ (s'.h.ms i).a.length = slotsOf m)
    (hmap : ∀ id, (s'.h.ms i).m = some id → (∃ m0, ty i = some m0 ∧ (s.h.ms i).m = some id) ∨ s.h.w.maps.length ≤ id)
    {ty' : Nat → Option Desc} (h1 : ∀ j mj, j ≠ i → ty' j = some mj → ty j = some mj) (h2 : ∀ mj, ty' i = some mj → mj = m) : Shape fs s' ty' := by
  have keep : ∀ j mj, j ≠ i → ty j = some mj → s'.h.w.WF (s'.h.ms j) := fun j mj hne hj => by
    obtain ⟨_, _, a3, _⟩ := h.one j mj hj
    rw [hms j mj hne hj]
    exact ⟨wf_sized hs a3.1, fun id hid => Nat.lt_of_lt_of_le (a3.2 id hid) hs.2.2⟩
  have apart : ∀ j mj, j ≠ i → ty j = some mj → ∀ id, (s'.h.ms i).m = some id → (s'.h.ms j).m ≠ some id := fun j mj hne hj id hid he => by
    rw [hms j mj hne hj] at he
    rcases hmap id hid with ⟨m0, a1, a2⟩ | a1
    · exact h.maps i j m0 mj (Ne.symm hne) a1 hj id a2 he
    · have := (h.one j mj hj).2.2.1.2 id he
      omega
  refine ⟨fun j mj hj => ?_, fun j k mj mk hjk hj hk id => ?_⟩
  · by_cases hji : j = i
    · subst hji; rw [h2 mj hj]; exact hi
    · obtain ⟨a1, a2, a3, a4⟩ := h.one j mj (h1 j mj hji hj)
      exact ⟨a1, Nat.lt_of_lt_of_le a2 hnext, keep j mj hji (h1 j mj hji hj), by rw [hms j mj hji (h1 j mj hji hj)]; exact a4⟩
  · by_cases hji : j = i
    · subst hji; exact apart k mk (Ne.symm hjk) (h1 _ _ (Ne.symm hjk) hk) id
    · by_cases hki : k = i
      · subst hki; intro e1 e2; exact apart j mj hji (h1 _ _ hji hj) id e2 e1
      · rw [hms j mj hji (h1 _ _ hji hj), hms k mk hki (h1 _ _ hki hk)]
        exact h.maps j k mj mk hjk (h1 _ _ hji hj) (h1 _ _ hki hk) id

theorem type_gets (k : Ledger) (i : Nat) (e : Entry) (j : Nat) : (k.gets i e).type j = if j = i then some e.type else k.type j := by
  unfold Ledger.type Ledger.gets Ledger.spoiling Known.put Known.drop
  by_cases hj : j = i
  · simp [hj]
  · simp only [hj, if_false]
    cases h : k.known.structs j with
    | none => simp
    | some x => by_cases hx : x.view = some i <;> simp [Option.filter, hx]

theorem type_spoil (k : Ledger) (i : Nat) (m : Desc) (j : Nat) : (k.spoil i m).type j = if j = i then some m else k.type j := by
  unfold Ledger.type Ledger.spoil Ledger.spoiling Known.forget Known.drop
  by_cases hj : j = i
  · simp [hj]
  · simp only [hj, if_false]
    cases h : k.known.structs j with
    | none => simp
    | some x => by_cases hx : x.view = some i <;> simp [Option.filter, hx]

theorem type_forget (k : Ledger) (i j : Nat) : (k.forget i).type j = if j = i then none else k.type j := by
  unfold Ledger.type Ledger.forget Ledger.spoiling Known.forget Known.drop
  by_cases hj : j = i
  · simp [hj]
  · simp only [hj, if_false]
    cases h : k.known.structs j with
    | none => simp
    | some x => by_cases hx : x.view = some i <;> simp [Option.filter, hx]

theorem type_point (k : Ledger) (v : Nat) (c : Cursor) : (k.point v c).type = k.type := rfl

theorem type_known {k : Ledger} {i : Nat} {e : Entry} (h : k.known.structs i = some e) : k.type i = some e.type := by
  unfold Ledger.type; rw [h]

/-! ## `Decode` of anything -/

theorem set_length {o o' : Offsets} {f : Nat} {x : U64} (h : o.set f x = .ok o') : o'.a.length = o.a.length := by
  unfold Offsets.set at h
  split at h
  all_goals
    cases hs : o.slot f with
    | error e => rw [hs] at h; cases h
    | ok v =>
      rw [hs] at h
      simp only [bind, Except.bind, pure, Except.pure, Except.ok.injEq] at h
      subst h
      simp

theorem decode_length {rep : Nat → Bool} {buf : Slice} {o o' : Offsets} {err : Option DecErr} (h : decode buf o rep = .ok (o', err)) : o'.a.length = o.a.length := by
  refine decode_induction (rep := rep) (m0 := ⟨buf, o⟩) (m := ⟨buf, o'⟩) (buf := buf) (err := err) (fun o1 => o1.a.length = o.a.length) (by simp [Offsets.clear]) ?_ ?_
  · intro o1 o2 f i h1 _ _ hr
    unfold recordOffset at hr
    split at hr
    · cases hg : o1.get f with
      | error e => rw [hg] at hr; simp [bind, Except.bind] at hr
      | ok r =>
        obtain ⟨x, ok⟩ := r
        rw [hg] at hr
        simp only [bind, Except.bind] at hr
        split at hr
        · rw [set_length hr]; exact h1
        · simp only [pure, Except.pure, Except.ok.injEq] at hr; subst hr; exact h1
    · rw [set_length hr]; exact h1
  · unfold Msg.decode; rw [h]; rfl

/-- What `Decode` changes, with whatever bytes. -/
structure Decoded (s s' : GSt) (i : Nat) (b : HSlice) : Prop where
  arrs : s'.h.w.arrs = s.h.w.arrs
  next : s.next ≤ s'.next
  its : s'.its = s.its
  others : ∀ j, j ≠ i → j < s.next → s'.h.ms j = s.h.ms j
  wf : s'.h.w.WF (s'.h.ms i)
  slots : (s'.h.ms i).a.length = (s.h.ms i).a.length
  frame : Frame s.h.w s'.h.w (s.h.ms i) { s'.h.ms i with buf := (s.h.ms i).buf }

theorem Decoded.sized {s s' : GSt} {i : Nat} {b : HSlice} (h : Decoded s s' i b) : Sized s.h.w s'.h.w := ⟨h.frame.bytes.grow, h.frame.bytes.size, h.frame.mgrow⟩

section
variable {U : Unicode} {fs : List FileDesc} {pkg : Text} {s : GSt}

theorem decode_eq (hc : Compilable U fs pkg) {m : Desc} (hm : ∃ f ∈ fs, some m ∈ f.messageType) : ∃ rep : Nat → Bool, ∀ (s : GSt) (rt : Rt) (d i : Nat) (b : HSlice), s.h.w.WFs b → s.h.w.WF (s.h.ms i) →
    G.run (programOf U fs) rt d m.getName t!"Decode" [.ptr m.getName i, .val (.bytes (.mem b))] s =
      (lift ((s.h.ms i).decode rep s.h.w b) >>= fun r => .ok ([.val (errVal r.2.2)], { s with h := s.h.upd i (r.1, r.2.1) })) := by
  obtain ⟨f, hf, hm⟩ := hm
  have hv := hc.valid f hf m hm
  have hdi := decls_implements U m hv
  have hsub := sub_of (U := U) hf hm
  obtain ⟨nums, t1, t2⟩ := hdi.table
  exact ⟨_, fun s rt d i b hb hw => C63_decode hc.program rt d s (hsub _ hdi.fixed.2.1) (hsub _ ((t1 _ _).2 ⟨rfl, rfl⟩)) b hb hw⟩

theorem decoded (hc : Compilable U fs pkg) {m : Desc} (hm : ∃ f ∈ fs, some m ∈ f.messageType) {i : Nat} {b : HSlice} (hb : s.h.w.WFs b) (hw : s.h.w.WF (s.h.ms i)) {rt : Rt} {d : Nat} {out : List GVal} {s' : GSt}
    (hr : G.run (programOf U fs) rt d m.getName t!"Decode" [.ptr m.getName i, .val (.bytes (.mem b))] s = .ok (out, s')) : Decoded s s' i b := by
  obtain ⟨rep, he⟩ := decode_eq hc hm
  rw [he s rt d i b hb hw] at hr
  obtain ⟨r, r1, r2⟩ := bind_ok hr
  injection r2 with r2; injection r2 with _ r2; subst r2
  have r1 := lift_ok r1
  have := decode_refines rep hw hb
  cases e : (s.h.w.msg (s.h.ms i)).decode rep (s.h.w.slice b) with
  | error e' => rw [e] at this; simp only at this; rw [this] at r1; cases r1
  | ok v =>
    rw [e] at this
    obtain ⟨m', w', h1, h2, h3, h4, h5, h6⟩ := this
    rw [h1] at r1
    injection r1 with r1; subst r1
    refine ⟨h5, Nat.le_refl _, rfl, fun j hj _ => by simp [Heap.upd, hj], by rw [upd_ms, upd_w]; exact h3, ?_, by rw [upd_ms, upd_w]; exact h6⟩
    rw [upd_ms]
    have : (w'.msg m').off.a.length = (s.h.w.msg (s.h.ms i)).off.a.length := by
      rw [h2]
      unfold Msg.decode at e
      cases ed : decode (s.h.w.slice b) (s.h.w.msg (s.h.ms i)).off rep with
      | error _ => rw [ed] at e; cases e
      | ok p =>
        rw [ed] at e
        simp only [bind, Except.bind, pure, Except.pure, Except.ok.injEq] at e
        rw [← e]
        exact decode_length ed
    exact this

/-! ## A spoiled struct is as good as an empty one -/

/-- `m.Reset(nil)`. -/
def cleared (w : World) (m : HMsg) : HMsg × World := ({ (w.storeOffs m (w.offs m).clear).1 with buf := .nil }, (w.storeOffs m (w.offs m).clear).2)

theorem clear_clear (o : Offsets) : o.clear.clear = o.clear := by
  unfold Offsets.clear
  cases o.m <;> simp

theorem cleared_spec {w : World} {m : HMsg} (hw : w.WF m) : (cleared w m).2.WF (cleared w m).1 ∧ (cleared w m).2.arrs = w.arrs ∧ (cleared w m).2.offs (cleared w m).1 = (w.offs m).clear ∧
    (cleared w m).1.buf = .nil ∧ (cleared w m).1.m = m.m ∧ Frame w (cleared w m).2 m { (cleared w m).1 with buf := m.buf } := by
  have hom : m.m ≠ none → (w.offs m).clear.m ≠ none := fun h => Offsets.clear_map (fun h2 => h (World.offs_map.1 h2))
  obtain ⟨b1, b2, b3, b4, b5⟩ := World.storeOffs_spec hw hom
  refine ⟨⟨⟨Nat.le_refl _, by simp [cleared, HSlice.nil]⟩, b4⟩, b3, b1, rfl, ?_, ?_⟩
  · unfold cleared World.storeOffs World.offs Offsets.clear
    cases h : m.m <;> rfl
  · have : { (cleared w m).1 with buf := m.buf } = (w.storeOffs m (w.offs m).clear).1 := by
      unfold cleared; simp only; rw [← b2]
    rw [this]; exact b5

theorem cleared_decode {w : World} {m : HMsg} (hw : w.WF m) (rep : Nat → Bool) (b : HSlice) : (cleared w m).1.decode rep (cleared w m).2 b = m.decode rep w b := by
  obtain ⟨_, h2, h3, _, h5, _⟩ := cleared_spec hw
  unfold HMsg.decode
  have e : Zeropb.decode ((cleared w m).2.slice b) ((cleared w m).2.offs (cleared w m).1) rep = Zeropb.decode (w.slice b) (w.offs m) rep := by
    rw [h3, World.slice_arrs h2]
    unfold Zeropb.decode
    rw [clear_clear]
  rw [e]
  cases hd : Zeropb.decode (w.slice b) (w.offs m) rep with
  | error _ => rfl
  | ok p =>
    obtain ⟨o, err⟩ := p
    simp only [bind, Except.bind, pure, Except.pure]
    have hom : m.m ≠ none → o.m ≠ none := fun h => decode_map hd (fun h2 => h (World.offs_map.1 h2))
    unfold cleared World.storeOffs World.offs Offsets.clear
    cases hm : m.m with
    | none => cases o.m <;> rfl
    | some id =>
      cases ho : o.m with
      | none => exact absurd ho (hom (by rw [hm]; simp))
      | some mp => simp

theorem cleared_reset {w : World} {m : HMsg} (hw : w.WF m) (b : HSlice) : (cleared w m).1.reset (cleared w m).2 b = m.reset w b := by
  obtain ⟨_, _, h3, _, h5, _⟩ := cleared_spec hw
  unfold HMsg.reset
  rw [h3, clear_clear]
  split
  · rfl
  · unfold cleared World.storeOffs World.offs Offsets.clear
    cases hm : m.m <;> simp

/-- What holds at every moment. -/
structure Sound (U : Unicode) (fs : List FileDesc) (s : GSt) (k : Ledger) : Prop where
  known : Inv U fs s k.known
  shape : Shape fs s k.type

/-- `s1` differs from `s` only in that struct `j`, of type `m`, has known contents, and `Decode` and `Reset` do not notice the difference. -/
structure Ready (U : Unicode) (fs : List FileDesc) (s : GSt) (g : Known) (j : Nat) (m : Desc) (s1 : GSt) (g1 : Known) (e1 : Entry) : Prop where
  inv : Inv U fs s1 g1
  entry : g1.structs j = some e1
  type : e1.type = m
  structs : ∀ x e, x ≠ j → (g1.structs x = some e ↔ g.structs x = some e)
  iters : g1.iters = g.iters
  arrs : s1.h.w.arrs = s.h.w.arrs
  others : ∀ x, x ≠ j → s1.h.ms x = s.h.ms x
  next : s1.next = s.next
  its : s1.its = s.its
  decode : ∀ rt d b it, s.h.w.WFs b → G.run (programOf U fs) rt d m.getName t!"Decode" [.ptr m.getName j, .val (.bytes (.mem b))] { s1 with its := it } =
    G.run (programOf U fs) rt d m.getName t!"Decode" [.ptr m.getName j, .val (.bytes (.mem b))] { s with its := it }
  reset : ∀ rt d b, s.h.w.WFs b → G.run (programOf U fs) rt d m.getName t!"Reset" [.ptr m.getName j, .val (.bytes (.mem b))] s1 =
    G.run (programOf U fs) rt d m.getName t!"Reset" [.ptr m.getName j, .val (.bytes (.mem b))] s
  resetNil : ∀ rt d, G.run (programOf U fs) rt d m.getName t!"Reset" [.ptr m.getName j, .val .nil] s1 =
    G.run (programOf U fs) rt d m.getName t!"Reset" [.ptr m.getName j, .val .nil] s

theorem Sound.ready {k : Ledger} (hc : Compilable U fs pkg) (h : Sound U fs s k) {j : Nat} {m : Desc} (ht : k.type j = some m) : ∃ s1 g1 e1, Ready U fs s k.known j m s1 g1 e1 := by
  cases hk : k.known.structs j with
  | some e =>
    have : e.type = m := by rw [type_known hk] at ht; injection ht
    exact ⟨s, k.known, e, h.known, hk, this, fun _ _ _ => Iff.rfl, rfl, rfl, fun _ _ => rfl, rfl, rfl, fun _ _ _ _ _ => rfl, fun _ _ _ _ => rfl, fun _ _ => rfl⟩
  | none =>
    obtain ⟨⟨f, hf, hm⟩, o2, o3, o4⟩ := h.shape.one j m ht
    have hv := hc.valid f hf m hm
    obtain ⟨c1, c2, c3, c4, c5, c6⟩ := cleared_spec o3
    have hne : ∀ x e, k.known.structs x = some e → x ≠ j := fun x e hx he => by rw [he, hk] at hx; cases hx
    have hview : ∀ x e, k.known.structs x = some e → e.view ≠ some j := fun x e hx he => by
      obtain ⟨eo, q, _⟩ := h.known.views x e j hx he
      exact hne j eo q rfl
    have hover : ∀ v c, k.known.iters v = some c → c.over ≠ j := fun v c hv => by
      obtain ⟨⟨eo, q, _⟩, _⟩ := h.known.iters v c hv
      exact hne _ eo q
    have hdi := decls_implements U m hv
    have hsub := sub_of (U := U) hf hm
    have hmj : ({ s with h := s.h.upd j (cleared s.h.w (s.h.ms j)) } : GSt).h.ms j = (cleared s.h.w (s.h.ms j)).1 := upd_ms ..
    have hother : ∀ x, x ≠ j → ({ s with h := s.h.upd j (cleared s.h.w (s.h.ms j)) } : GSt).h.ms x = s.h.ms x := fun x hx => by simp [Heap.upd, hx]
    have hmsg : ({ s with h := s.h.upd j (cleared s.h.w (s.h.ms j)) } : GSt).h.w.msg (({ s with h := s.h.upd j (cleared s.h.w (s.h.ms j)) } : GSt).h.ms j) = ⟨.empty, (s.h.w.offs (s.h.ms j)).clear⟩ := by
      rw [hmj]
      show (⟨(cleared s.h.w (s.h.ms j)).2.slice (cleared s.h.w (s.h.ms j)).1.buf, (cleared s.h.w (s.h.ms j)).2.offs (cleared s.h.w (s.h.ms j)).1⟩ : Msg) = _
      rw [c3, c4]
      simp [World.slice, World.full, HSlice.nil, Slice.empty]
    refine ⟨{ s with h := s.h.upd j (cleared s.h.w (s.h.ms j)) }, (k.known.drop j).put j ⟨m, none, .empty⟩, ⟨m, none, .empty⟩, ?_, by simp [Known.put], rfl, ?_, ?_, c2, hother, rfl, rfl, ?_, ?_, ?_⟩
    · refine h.known.update (i := j) (e' := ⟨m, none, .empty⟩) ⟨c6.bytes.grow, c6.bytes.size, c6.mgrow⟩ (Nat.le_refl _) (fun x e _ hx => hother x hx) ?_ ?_ (fun _ _ _ => rfl) ⟨f, hf, hm⟩ o2 (by rw [hmj]; exact c1) ?_ ?_ (fun o ho => by cases ho) ?_
      · intro x e _ _ _ a q _
        show World.cell (cleared s.h.w (s.h.ms j)).2 a q = _
        unfold World.cell World.arr; rw [c2]
      · intro x e id hx hxj hid
        exact c6.maps id ((h.known.struct x e hx).2.2.1.2 id hid) (h.shape.maps x j _ m hxj (type_known hx) ht id hid)
      · refine ⟨hv, [], ?_⟩
        rw [hmsg]
        exact ⟨HoldsMin.reset (S := schemaOf m hv) (m := s.h.w.msg (s.h.ms j)) (buf := .empty) o4 rfl, by intro r hr; simp at hr, fun _ _ => rfl, fun _ _ _ => rfl, fun _ _ => rfl⟩
      · intro _ x e _ _ _ a q ho
        rw [hmj, c4] at ho
        exact absurd ho owns_nil
      · intro x e id hx hxj h1
        rw [hmj, c5] at h1
        exact h.shape.maps j x m _ (Ne.symm hxj) ht (type_known hx) id h1
    · intro x e hx
      simp only [Known.put, if_neg hx]
      rw [drop_structs]
      exact ⟨fun h => h.1, fun h => ⟨h, hview x e h⟩⟩
    · funext v
      show (k.known.iters v).filter _ = _
      cases hv : k.known.iters v with
      | none => rfl
      | some c => simp [Option.filter, hover v c hv]
    · intro rt d b it hb
      obtain ⟨rep, he⟩ := decode_eq hc ⟨f, hf, hm⟩
      have hb1 : (cleared s.h.w (s.h.ms j)).2.WFs b := ⟨hb.1, by unfold World.arr; rw [c2]; exact hb.2⟩
      rw [he { s with its := it } rt d j b hb o3, he { s with h := s.h.upd j (cleared s.h.w (s.h.ms j)), its := it } rt d j b hb1 (by rw [upd_ms]; exact c1)]
      simp only [upd_ms, upd_w, upd_upd]
      rw [cleared_decode o3]
    · intro rt d b hb
      rw [C63_reset hc.program rt d s (hsub _ hdi.fixed.2.2) b o3, C63_reset hc.program rt d _ (hsub _ hdi.fixed.2.2) b (by rw [hmj]; exact c1)]
      simp only [upd_ms, upd_w, upd_upd]
      rw [cleared_reset o3]
    · intro rt d
      rw [C63_reset_nil hc.program rt d s (hsub _ hdi.fixed.2.2) o3, C63_reset_nil hc.program rt d _ (hsub _ hdi.fixed.2.2) (by rw [hmj]; exact c1)]
      simp only [upd_ms, upd_w, upd_upd]
      rw [cleared_reset o3]

theorem Ready.gets {g g1 : Known} {j : Nat} {m : Desc} {s1 : GSt} {e1 : Entry} (h : Ready U fs s g j m s1 g1 e1) (e' : Entry) : (g1.drop j).put j e' = (g.drop j).put j e' := by
  have : ∀ x, ((g1.drop j).put j e').structs x = ((g.drop j).put j e').structs x := fun x => by
    simp only [Known.put]
    by_cases hx : x = j
    · simp [hx]
    · simp only [if_neg hx]
      apply Option.ext
      intro e
      rw [drop_structs, drop_structs, h.structs x e hx]
  unfold Known.put Known.drop at this ⊢
  simp only [Known.mk.injEq]
  exact ⟨funext this, by rw [h.iters]⟩

/-- After a successful `Decode` or `Reset` of struct `j`, which is now `e'`. -/
theorem Sound.gets {k : Ledger} (h : Sound U fs s k) {j : Nat} {m : Desc} (ht : k.type j = some m) {b : HSlice} {s' : GSt} (hd : Decoded s s' j b) {e' : Entry} (he : e'.type = m)
    (hi : Inv U fs s' ((k.known.drop j).put j e')) : Sound U fs s' (k.gets j e') := by
  obtain ⟨o1, o2, _, o4⟩ := h.shape.one j m ht
  refine ⟨hi, h.shape.update j m hd.sized hd.next (fun x mx hx hxt => hd.others x hx (h.shape.one x mx hxt).2.1) ⟨o1, Nat.lt_of_lt_of_le o2 hd.next, hd.wf, by rw [hd.slots]; exact o4⟩ ?_ ?_ ?_⟩
  · intro id hid
    rcases hd.frame.mown with h3 | ⟨id', h3, h4⟩
    · exact .inl ⟨m, ht, h3 ▸ hid⟩
    · have : (s'.h.ms j).m = some id' := h3
      rw [this] at hid
      injection hid with hid
      subst hid
      exact .inr h4
  · intro x mx hx; rw [type_gets, if_neg hx]; exact id
  · intro mx hx; rw [type_gets, if_pos rfl] at hx; rw [← he]; injection hx with hx; exact hx.symm

/-- After any `Decode` into struct `j`. -/
theorem Sound.spoil {k : Ledger} (h : Sound U fs s k) {j : Nat} {m : Desc} (ht : k.type j = some m) {b : HSlice} {s' : GSt} (hd : Decoded s s' j b) : Sound U fs s' (k.spoil j m) := by
  obtain ⟨o1, o2, _, o4⟩ := h.shape.one j m ht
  have hcell : ∀ a q, s'.h.w.cell a q = s.h.w.cell a q := by intro a q; unfold World.cell World.arr; rw [hd.arrs]
  have look : ∀ x e, (k.known.forget j).structs x = some e → x ≠ j ∧ k.known.structs x = some e := fun x e hx => by
    simp only [Known.forget] at hx
    by_cases hj : x = j
    · rw [if_pos hj] at hx; cases hx
    · rw [if_neg hj] at hx; exact ⟨hj, (drop_structs.1 hx).1⟩
  refine ⟨(h.known.forget j).other ⟨hd.sized, hd.next, fun x e hx => hd.others x (look x e hx).1 (h.known.struct x e (look x e hx).2).2.1, fun _ _ _ _ a q _ => hcell a q, fun x e id hx hid => ?_, fun _ _ _ => by rw [hd.its]⟩,
    h.shape.update j m hd.sized hd.next (fun x mx hx hxt => hd.others x hx (h.shape.one x mx hxt).2.1) ⟨o1, Nat.lt_of_lt_of_le o2 hd.next, hd.wf, by rw [hd.slots]; exact o4⟩ ?_ ?_ ?_⟩
  · obtain ⟨h1, h2⟩ := look x e hx
    exact hd.frame.maps id ((h.known.struct x e h2).2.2.1.2 id hid) (h.shape.maps x j _ m h1 (type_known h2) ht id hid)
  · intro id hid
    rcases hd.frame.mown with h3 | ⟨id', h3, h4⟩
    · exact .inl ⟨m, ht, h3 ▸ hid⟩
    · have : (s'.h.ms j).m = some id' := h3
      rw [this] at hid
      injection hid with hid
      subst hid
      exact .inr h4
  · intro x mx hx; rw [type_spoil, if_neg hx]; exact id
  · intro mx hx; rw [type_spoil, if_pos rfl] at hx; injection hx with hx; exact hx.symm

/-- Nothing is known of struct `j` any more. -/
theorem Sound.lose {k : Ledger} (h : Sound U fs s k) {j : Nat} {m : Desc} (ht : k.type j = some m) : Sound U fs s (k.spoil j m) :=
  ⟨h.known.forget j, h.shape.sub fun i mi => by
    rw [type_spoil]
    split
    · next e => subst e; rw [ht]; exact id
    · exact id⟩

theorem Sound.other {k : Ledger} (h : Sound U fs s k) {s' : GSt} (ho : LeavesAlone k s s') : Sound U fs s' k := by
  obtain ⟨hu, hsp⟩ := ho
  have hms : ∀ i m, k.type i = some m → s'.h.ms i = s.h.ms i := fun i m hi => by
    unfold Ledger.type at hi
    cases hk : k.known.structs i with
    | some e => exact hu.structs i e hk
    | none => rw [hk] at hi; exact hsp i m hi
  refine ⟨h.known.other hu, fun i m hi => ?_, fun i j mi mj hne hi hj => ?_⟩
  · obtain ⟨o1, o2, o3, o4⟩ := h.shape.one i m hi
    rw [hms i m hi]
    exact ⟨o1, Nat.lt_of_lt_of_le o2 hu.next, ⟨wf_sized hu.sized o3.1, fun id hid => Nat.lt_of_lt_of_le (o3.2 id hid) hu.sized.2.2⟩, o4⟩
  · rw [hms i mi hi, hms j mj hj]
    exact h.shape.maps i j mi mj hne hi hj

/-- A valid message is decoded into struct `j`, from memory of struct `o`. -/
theorem Sound.decodeView {k : Ledger} (hc : Compilable U fs pkg) (h : Sound U fs s k) {j o : Nat} {m : Desc} {eo : Entry} (ht : k.type j = some m) (ho : k.known.structs o = some eo) (hv : eo.view = none) (hne : j ≠ o)
    {b : HSlice} {rs : List Record} (hb : s.h.w.WFs b) (hin : Within b (s.h.ms o).buf) (hl : b.len < maxLen) (hm : IsMinTagMessage rs (s.h.w.slice b).data) (hcf : Conforms m rs) (rt : Rt) (d : Nat) :
    ∃ s', G.run (programOf U fs) rt d m.getName t!"Decode" [.ptr m.getName j, .val (.bytes (.mem b))] s = .ok ([.val .nil], s') ∧ Sound U fs s' (k.gets j ⟨m, some o, .ofRecords rs⟩) := by
  obtain ⟨s1, g1, e1, hr⟩ := h.ready hc ht
  obtain ⟨o1, o2, o3, o4⟩ := h.shape.one j m ht
  have hb1 : s1.h.w.WFs b := ⟨hb.1, by unfold World.arr; rw [hr.arrs]; exact hb.2⟩
  have hm1 : IsMinTagMessage rs (s1.h.w.slice b).data := by rw [World.slice_arrs hr.arrs]; exact hm
  have hcf1 : Conforms e1.type rs := by rw [hr.type]; exact hcf
  obtain ⟨s', r⟩ := hr.inv.decode_ok hc hr.entry hb1 hl hm1 hcf1 rt d
  have hi := (hr.inv.decodeView hc hr.entry ((hr.structs o eo (Ne.symm hne)).2 ho) hv hne hb1 (by rw [hr.others o (Ne.symm hne)]; exact hin) hl hm1 hcf1 r).1
  rw [hr.gets, hr.type] at hi
  rw [hr.type] at r
  have e0 : ({ s1 with its := s.its } : GSt) = s1 := by rw [← hr.its]
  have hq := hr.decode rt d b s.its hb
  rw [e0, r] at hq
  exact ⟨s', hq.symm, h.gets ht (decoded hc o1 hb o3 hq.symm) rfl hi⟩

/-- `Decode` of a valid message, or `Reset`, with memory that no other struct has. -/
theorem Sound.fill {k : Ledger} (hc : Compilable U fs pkg) (h : Sound U fs s k) {j : Nat} {m : Desc} (ht : k.type j = some m) {rt : Rt} {d : Nat} {name : Text} {args : List GVal}
    {op : Zeropb.Op} (hcall : Calls U m rt j s name args op) (hop : ¬ Writes op) {out : List GVal} {s' : GSt} (hfree : ∀ b, .val (.bytes (.mem b)) ∈ args → k.known.Free s j b)
    (hrun : G.run (programOf U fs) rt d m.getName name args s = .ok (out, s')) : Sound U fs s' (k.gets j ⟨m, none, op.apply .empty⟩) ∧ out = returned op := by
  obtain ⟨s1, g1, e1, hr⟩ := h.ready hc ht
  obtain ⟨e1t, e1v, e1c⟩ := e1
  have hty := hr.type
  simp only at hty
  subst hty
  obtain ⟨o1, o2, o3, o4⟩ := h.shape.one j _ ht
  have e0 : ({ s1 with its := s.its } : GSt) = s1 := by rw [← hr.its]
  have hb1 : ∀ {b : HSlice}, s.h.w.WFs b → s1.h.w.WFs b := fun hb => ⟨hb.1, by unfold World.arr; rw [hr.arrs]; exact hb.2⟩
  have free1 : ∀ b, k.known.Free s j b → g1.Free s1 j b := fun b hf x e hx hv hne a q ho => by
    rw [hr.others x hne]
    exact hf x e ((hr.structs x e hne).1 hx) hv hne a q ho
  have key : Calls U e1t rt j s1 name args op ∧ G.run (programOf U fs) rt d e1t.getName name args s1 = .ok (out, s') ∧ op.apply e1c = op.apply .empty := by
    cases hcall with
    | set => exact absurd trivial hop
    | setMessage => exact absurd trivial hop
    | append => exact absurd trivial hop
    | @reset b h1 h2 =>
      refine ⟨?_, (hr.reset rt d b h1).trans hrun, rfl⟩
      rw [← World.slice_arrs hr.arrs]
      exact .reset (hb1 h1) h2
    | resetNil => exact ⟨.resetNil, (hr.resetNil rt d).trans hrun, rfl⟩
    | @decode b rs h1 h2 h3 h4 =>
      refine ⟨?_, by rw [← e0]; exact (hr.decode rt d b s.its h1).trans hrun, rfl⟩
      rw [← World.slice_arrs hr.arrs] at h3 ⊢
      exact .decode (hb1 h1) h2 h3 h4
  obtain ⟨k1, k2, k3⟩ := key
  have hi := hr.inv.fill hc hr.entry k1 hop k2 none (fun _ b hb => free1 b (hfree b hb)) (fun o ho => by cases ho)
  obtain ⟨hout, _, _, _, n1, n2, _⟩ := call_tracks hc hr.inv hr.entry k1 k2
  rw [hr.gets] at hi
  simp only [k3] at hi
  refine ⟨?_, hout⟩
  obtain ⟨f, hf, hm⟩ := o1
  have hv := hc.valid f hf e1t hm
  have hdi := decls_implements U e1t hv
  have hsub := sub_of (U := U) hf hm
  obtain ⟨hval, hf'⟩ := C63_call hc.program hc.closed hdi hsub rt d o3 (S := schemaOf e1t hv) o4 o2 (calls_issues hv hcall)
  obtain ⟨heff, hits⟩ := call_effect hc.program hc.closed hdi hsub o3 o2 (calls_issues hv hcall) hrun
  have hwf := (hi.struct j ⟨e1t, none, op.apply .empty⟩ (by simp [Known.put]))
  obtain ⟨_, w2, w3, hv', rs', w4⟩ := hwf
  have hslots : (s'.h.ms j).a.length = slotsOf e1t := w4.1.off_length
  have hfr : s'.h.w.arrs = s.h.w.arrs ∧ Frame s.h.w s'.h.w (s.h.ms j) { s'.h.ms j with buf := (s.h.ms j).buf } := by
    cases op <;> first | exact ⟨heff.1, heff.2.1⟩ | exact absurd trivial hop
  exact h.gets ht (b := .nil) ⟨hfr.1, by rw [← hr.next]; exact n1, hits, fun x hx hlt => by rw [n2 x hx (by rw [hr.next]; exact hlt), hr.others x hx], w3, by rw [hslots, o4], hfr.2⟩ rfl hi

/-- `x.Name(y)`, when the field has a value: the bytes of the value are decoded. -/
theorem Sound.present {k : Ledger} (hc : Compilable U fs pkg) (h : Sound U fs s k) {i j : Nat} {e : Entry} {fd : Field} {bs : List Byte} {m' : Desc} (hi : k.known.structs i = some e)
    (hfd : MessageField e.type fd) (hj : k.type j = some m') (hs : e.contents.sing (num fd) = some (.bytes bs)) (rt : Rt) (d : Nat) :
    ∃ b, Within b (s.h.ms i).buf ∧ s.h.w.WFs b ∧ b.len < maxLen ∧ (s.h.w.slice b).data = bs ∧ G.run (programOf U fs) rt d e.type.getName (goName U fd) [.ptr e.type.getName i, .ptr (goType fd) j] s =
      (G.run (programOf U fs) rt d (goType fd) t!"Decode" [.ptr (goType fd) j, .val (.bytes (.mem b))] s >>= fun r => .ok (.val (.bool true) :: r.1, r.2)) := by
  rcases (h.known.shows hc hi).message fd hfd rt d j (h.shape.one j m' hj).2.2.1 with ⟨h1, _⟩ | ⟨bs', b, h1, h2, h3, h4, h5⟩
  · rw [hs] at h1; cases h1
  · rw [hs] at h1
    cases h1
    refine ⟨b, h2, h3, ?_, h4, h5⟩
    obtain ⟨_, _, _, hv, rs', ht⟩ := h.known.struct i e hi
    rw [← slice_data_length h3, h4]
    exact (tracks_short ht).1 (num fd) bs (message_schema hv hfd).2 hs

/-- `it.Next(y)`, when there is another element: its bytes are decoded. -/
theorem Sound.more {k : Ledger} (h : Sound U fs s k) {v j o : Nat} {m m' : Desc} {fd : Field} {bs : List Byte} {rest : List (List Byte)}
    (hv : k.known.iters v = some ⟨m, fd, o, bs :: rest⟩) (hj : k.type j = some m') (rt : Rt) (d : Nat) :
    ∃ b it eo, k.known.structs o = some eo ∧ eo.view = none ∧ Within b (s.h.ms o).buf ∧ s.h.w.WFs b ∧ b.len < maxLen ∧ (s.h.w.slice b).data = bs ∧ Sound U fs { s with its := it } (k.point v ⟨m, fd, o, rest⟩) ∧
      G.run (programOf U fs) rt d (iterOf m fd) t!"Next" [.iter (iterOf m fd) v, .ptr (goType fd) j] s =
      (G.run (programOf U fs) rt d (goType fd) t!"Decode" [.ptr (goType fd) j, .val (.bytes (.mem b))] { s with its := it } >>= fun r => .ok (.val (.bool true) :: r.1, r.2)) := by
  obtain ⟨⟨eo, o1, o2⟩, B, w0, its, n, els, b1, b2, b3, b4, b5, b6, b7⟩ := h.known.iters v _ hv
  simp only at b1 b5 b7 o1
  have hn : n < els.length := by
    rcases Nat.lt_or_ge n els.length with hn | hn
    · exact hn
    · rw [List.drop_eq_nil_of_le hn] at b5; cases b5
  have hcons := List.drop_eq_getElem_cons hn
  rw [← b5] at hcons
  injection hcons with c1 c2
  obtain ⟨b, e1, e2, e3, e4⟩ := (b7.1 n v j s b3 b4 (h.shape.one j m' hj).2.2.1 rt d).1 hn
  rw [← c1] at e3
  refine ⟨b, _, eo, o1, o2, e1.trans b1, e2, ?_, e3, ⟨h.known.point ⟨eo, o1, o2⟩ ⟨B, w0, its, n + 1, els, b1, b2, b3, rfl, c2, b6, b7⟩, ⟨h.shape.one, h.shape.maps⟩⟩, e4⟩
  rw [← slice_data_length e2, e3, c1]
  exact b6 _ (List.getElem_mem hn)

theorem Sound.message {k : Ledger} (hc : Compilable U fs pkg) (h : Sound U fs s k) {i j : Nat} {e : Entry} {fd : Field} {bs : List Byte} {m' : Desc} {rs : List Record} (hi : k.known.structs i = some e)
    (hfd : MessageField e.type fd) (hj : k.type j = some m') (hname : m'.getName = goType fd) (hne : j ≠ e.root i) (hs : e.contents.sing (num fd) = some (.bytes bs)) (hm : IsMinTagMessage rs bs)
    (hcf : Conforms m' rs) (rt : Rt) (d : Nat) :
    ∃ s', G.run (programOf U fs) rt d e.type.getName (goName U fd) [.ptr e.type.getName i, .ptr (goType fd) j] s = .ok ([.val (.bool true), .val .nil], s') ∧
      Sound U fs s' (k.gets j ⟨m', some (e.root i), .ofRecords rs⟩) := by
  obtain ⟨b, h2, h3, hl, h4, h5⟩ := h.present hc hi hfd hj hs rt d
  obtain ⟨er, r1, r2, r3⟩ := h.known.root hi
  obtain ⟨s', q1, q2⟩ := h.decodeView hc hj r1 r2 hne h3 (h2.trans r3) hl (by rw [h4]; exact hm) hcf rt d
  rw [h5, ← hname, q1]
  exact ⟨s', rfl, q2⟩

theorem Sound.next {k : Ledger} (hc : Compilable U fs pkg) (h : Sound U fs s k) {v j o : Nat} {m m' : Desc} {fd : Field} {bs : List Byte} {rest : List (List Byte)} {rs : List Record}
    (hv : k.known.iters v = some ⟨m, fd, o, bs :: rest⟩) (hj : k.type j = some m') (hname : m'.getName = goType fd) (hne : j ≠ o) (hm : IsMinTagMessage rs bs) (hcf : Conforms m' rs) (rt : Rt) (d : Nat) :
    ∃ s', G.run (programOf U fs) rt d (iterOf m fd) t!"Next" [.iter (iterOf m fd) v, .ptr (goType fd) j] s = .ok ([.val (.bool true), .val .nil], s') ∧
      Sound U fs s' ((k.point v ⟨m, fd, o, rest⟩).gets j ⟨m', some o, .ofRecords rs⟩) := by
  obtain ⟨b, it, eo, o1, o2, e1, e2, hl, e3, hp, e4⟩ := h.more hv hj rt d
  obtain ⟨s', q1, q2⟩ := hp.decodeView hc (j := j) (o := o) (eo := eo) hj o1 o2 hne e2 e1 hl (by rw [e3]; exact hm) hcf rt d
  rw [e4, ← hname, q1]
  exact ⟨s', rfl, q2⟩

theorem Sound.new {k : Ledger} (hc : Compilable U fs pkg) (h : Sound U fs s k) {f : FileDesc} {m : Desc} (hf : f ∈ fs) (hm : some m ∈ f.messageType) :
    Sound U fs ⟨s.h.put s.next (.zero (slotsOf m)), s.next + 1, s.its⟩ (k.gets s.next ⟨m, none, .empty⟩) := by
  have hz : ((s.h.put s.next (.zero (slotsOf m))).ms s.next) = .zero (slotsOf m) := by simp [Heap.put]
  have hi := h.known.new hc hf hm
  have hd : (k.known.drop s.next) = k.known := by
    have h1 : ∀ j e, k.known.structs j = some e → e.view ≠ some s.next := fun j e hj he => by
      obtain ⟨eo, q, _⟩ := h.known.views j e _ hj he
      exact absurd (h.known.struct _ eo q).2.1 (Nat.lt_irrefl _)
    have h2 : ∀ v c, k.known.iters v = some c → c.over ≠ s.next := fun v c hv he => by
      obtain ⟨⟨eo, q, _⟩, _⟩ := h.known.iters v c hv
      rw [he] at q
      exact absurd (h.known.struct _ eo q).2.1 (Nat.lt_irrefl _)
    unfold Known.drop
    cases hk : k.known with
    | mk st it =>
      rw [hk] at h1 h2
      simp only [Known.mk.injEq]
      refine ⟨funext fun j => ?_, funext fun v => ?_⟩
      · cases hj : st j with
        | none => rfl
        | some e => simp [Option.filter, h1 j e hj]
      · cases hj : it v with
        | none => rfl
        | some c => simp [Option.filter, h2 v c hj]
  have hw : World.WF (s.h.put s.next (.zero (slotsOf m))).w ((s.h.put s.next (.zero (slotsOf m))).ms s.next) := by
    rw [hz]; exact ⟨⟨Nat.le_refl _, by simp [HMsg.zero, HSlice.nil]⟩, fun id h => by cases h⟩
  refine ⟨by show Inv U fs _ ((k.known.drop s.next).put _ _); rw [hd]; exact hi, ?_⟩
  refine h.shape.update s.next m (s' := ⟨s.h.put s.next (.zero (slotsOf m)), s.next + 1, s.its⟩) ⟨Nat.le_refl _, fun _ _ => rfl, Nat.le_refl _⟩ (Nat.le_succ _) (fun j _ hj _ => by simp [Heap.put, hj])
    ⟨⟨f, hf, hm⟩, Nat.lt_succ_self _, hw, by rw [hz]; simp [HMsg.zero]⟩ ?_ ?_ ?_
  · intro id hid
    rw [hz] at hid
    cases hid
  · intro x mx hx; rw [type_gets, if_neg hx]; exact id
  · intro mx hx; rw [type_gets, if_pos rfl] at hx; injection hx with hx; exact hx.symm

theorem Sound.set {k : Ledger} (hc : Compilable U fs pkg) (h : Sound U fs s k) {i : Nat} {m : Desc} {c : Contents} (hi : k.known.structs i = some ⟨m, none, c⟩) {rt : Rt} {d : Nat} {name : Text} {args : List GVal}
    {op : Zeropb.Op} (hcall : Calls U m rt i s name args op) (hop : Writes op) {out : List GVal} {s' : GSt}
    (hr : G.run (programOf U fs) rt d m.getName name args s = .ok (out, s')) : Sound U fs s' (k.gets i ⟨m, none, op.apply c⟩) := by
  obtain ⟨_, a1, a2, a3, a4, a5, ⟨hv, rs, a6⟩, a7, a8⟩ := call_tracks hc h.known (e := ⟨m, none, c⟩) hi hcall hr
  have hfr : Frame s.h.w s'.h.w (s.h.ms i) (s'.h.ms i) := by cases op <;> first | exact a7 | cases hop
  refine ⟨h.known.set hc hi hcall hop hr, h.shape.update i m ⟨hfr.bytes.grow, hfr.bytes.size, hfr.mgrow⟩ a4 (fun j mj hj hjt => a5 j hj (h.shape.one j mj hjt).2.1) ⟨a1, a3, a2, a6.1.off_length⟩ ?_ ?_ ?_⟩
  · intro id hid
    rcases hfr.mown with h3 | ⟨id', h3, h4⟩
    · exact .inl ⟨m, type_known hi, h3 ▸ hid⟩
    · rw [h3] at hid
      injection hid with hid
      subst hid
      exact .inr h4
  · intro x mx hx; rw [type_gets, if_neg hx]; exact id
  · intro mx hx; rw [type_gets, if_pos rfl] at hx; injection hx with hx; exact hx.symm

theorem Sound.step {k : Ledger} (hc : Compilable U fs pkg) (h : Sound U fs s k) {s' : GSt} {k' : Ledger} (hs : Does U fs s k s' k') : Sound U fs s' k' := by
  cases hs with
  | new h1 h2 => exact h.new hc h1 h2
  | set h1 h2 h3 h4 => exact h.set hc h1 h2 h3 h4
  | fill h1 h2 h3 h4 h5 => exact (h.fill hc h1 h2 h3 h4 h5).1
  | @view i m o eo rt d b rs out s' h1 h2 h3 h4 h5 h6 h7 h8 h9 h10 =>
    obtain ⟨s1, r1, r2⟩ := h.decodeView hc h1 h2 h3 (Ne.symm h4) h6 h5 h7 h8 h9 rt d
    rw [r1] at h10
    injection h10 with h10; injection h10 with _ h10; subst h10
    exact r2
  | @message i e fd j m' bs rs rt d out s' h1 h2 h3 h4 h5 h6 h7 h8 h9 =>
    obtain ⟨s1, r1, r2⟩ := h.message hc h1 h2 h3 h4 h5 h6 h7 h8 rt d
    rw [r1] at h9
    injection h9 with h9; injection h9 with _ h9; subst h9
    exact r2
  | @iterate i e fd rt d o s1 v h1 h2 h3 =>
    refine ⟨h.known.iterate hc h1 h2 _ h3, ?_⟩
    obtain ⟨its, i1, _⟩ := (h.known.shows hc h1).repeated fd h2
    rw [i1] at h3
    injection h3 with h3; injection h3 with _ h3; subst h3
    exact ⟨h.shape.one, h.shape.maps⟩
  | @next v m fd o bs rest j m' rs rt d out s' h1 h2 h3 h4 h5 h6 h7 =>
    obtain ⟨s1, r1, r2⟩ := h.next hc h1 h2 h3 h4 h5 h6 rt d
    rw [r1] at h7
    injection h7 with h7; injection h7 with _ h7; subst h7
    exact r2
  | @tryDecode i m rt d b out s' h1 h2 h3 =>
    obtain ⟨o1, _, o3, _⟩ := h.shape.one i m h1
    exact h.spoil h1 (decoded hc o1 h2 o3 h3)
  | @tryMessage i e fd j m' rt d out s' h1 h2 h3 h4 h5 =>
    obtain ⟨o1, _, o3, _⟩ := h.shape.one j m' h3
    rcases (h.known.shows hc h1).message fd h2 rt d j o3 with ⟨_, q⟩ | ⟨bs, b, _, q2, q3, q4, q5⟩
    · rw [q] at h5
      injection h5 with h5; injection h5 with _ h5; subst h5
      exact h.lose h3
    · rw [q5] at h5
      obtain ⟨r, r1, r2⟩ := bind_ok h5
      injection r2 with r2; injection r2 with _ r2; subst r2
      rw [← h4] at r1
      exact h.spoil h3 (decoded hc o1 q3 o3 (out := r.1) r1)
  | @tryNext v m fd o bs rest j m' rt d out s' h1 h2 h3 h4 =>
    obtain ⟨o1, _, o3, _⟩ := h.shape.one j m' h2
    obtain ⟨b, it, eo, _, _, _, e2, hl, e3, hp, e4⟩ := h.more h1 h2 rt d
    rw [e4] at h4
    obtain ⟨r, r1, r2⟩ := bind_ok h4
    injection r2 with r2; injection r2 with _ r2; subst r2
    rw [← h3] at r1
    exact hp.spoil (j := j) h2 (decoded hc (s := { s with its := it }) o1 e2 o3 (out := r.1) r1)
  | lose h1 => exact h.lose h1
  | forget => exact ⟨h.known.forget _, h.shape.sub fun i m => by rw [type_forget]; split <;> simp⟩
  | other h1 => exact h.other h1

theorem gets_sound (hc : Compilable U fs pkg) {s0 : GSt} {k : Ledger} (h : Gets U fs s0 s k) : Sound U fs s k := by
  induction h with
  | start => exact ⟨⟨nofun, nofun, nofun, nofun, nofun⟩, ⟨nofun, nofun⟩⟩
  | step _ hs ih => exact ih.step hc hs

theorem Inv.points {g : Known} (hinv : Inv U fs s g) {v : Nat} {k : Cursor} (hv : g.iters v = some k) : Points (programOf U fs) s v k := by
  obtain ⟨_, B, w0, its, n, els, b1, b2, b3, b4, b5, b6, b7⟩ := hinv.iters v k hv
  refine ⟨fun bs rest hk rt d j hj => ?_, fun hk rt d j hj => ?_⟩
  · rw [hk] at b5
    have hn : n < els.length := by
      rcases Nat.lt_or_ge n els.length with hn | hn
      · exact hn
      · rw [List.drop_eq_nil_of_le hn] at b5; cases b5
    have hcons := List.drop_eq_getElem_cons hn
    rw [← b5] at hcons
    injection hcons with c1 c2
    obtain ⟨b, e1, e2, e3, e4⟩ := (b7.1 n v j s b3 b4 hj rt d).1 hn
    exact ⟨b, its (n + 1), e1.trans b1, e2, by rw [e3, c1], e4⟩
  · rw [hk] at b5
    have hn : els.length ≤ n := by
      rcases Nat.lt_or_ge n els.length with hn | hn
      · rw [List.drop_eq_getElem_cons hn] at b5; cases b5
      · exact hn
    exact (b7.1 n v j s b3 b4 hj rt d).2 hn

/-! ## C75 -/

/-- C75: at every moment of every run, every struct of which the program knows the contents is seen, through the methods of the generated program, as its record of the calls made on it, and
every iterator yields the elements that it has not yielded yet - whatever bytes were decoded into other structs. -/
theorem C75_programs (hc : Compilable U fs pkg) {s0 : GSt} {k : Ledger} (h : Gets U fs s0 s k) :
    (∀ i e, k.known.structs i = some e → Shows U (programOf U fs) e.type i s e.contents) ∧ (∀ v c, k.known.iters v = some c → Points (programOf U fs) s v c) :=
  ⟨fun _ _ hi => (gets_sound hc h).known.shows hc hi, fun _ _ hv => (gets_sound hc h).known.points hv⟩

/-- From a state in which the program knows `k` to `s`, nothing changed of the other structs than `j` and of the iterators, unless they are views of `j` or iterate over a field of `j`. -/
def OnlyChanges (U : Unicode) (p : Program) (k : Ledger) (s : GSt) (j : Nat) : Prop :=
  (∀ i e, k.known.structs i = some e → i ≠ j → e.view ≠ some j → Shows U p e.type i s e.contents) ∧ (∀ v c, k.known.iters v = some c → c.over ≠ j → Points p s v c)

theorem spoil_only (hc : Compilable U fs pkg) {s0 : GSt} {k : Ledger} {j : Nat} {m : Desc} (h : Gets U fs s0 s (k.spoil j m)) : OnlyChanges U (programOf U fs) k s j := by
  refine ⟨fun i e hi hne hv => (C75_programs hc h).1 i e ?_, fun v c hv hne => (C75_programs hc h).2 v c (drop_iters.2 ⟨hv, hne⟩)⟩
  show (if i = j then none else (k.known.drop j).structs i) = _
  rw [if_neg hne]
  exact drop_structs.2 ⟨hi, hv⟩

/-- C75: `x.Decode(b)`, with any bytes, in any memory, returns, if it returns, nil or `io.ErrUnexpectedEOF`, and changes nothing else than `x`. -/
theorem C75_decode (hc : Compilable U fs pkg) {s0 : GSt} {k : Ledger} (h : Gets U fs s0 s k) {j : Nat} {m : Desc} (hj : k.type j = some m) {b : HSlice} (hb : s.h.w.WFs b) {rt : Rt} {d : Nat} {out : List GVal} {s' : GSt}
    (hr : G.run (programOf U fs) rt d m.getName t!"Decode" [.ptr m.getName j, .val (.bytes (.mem b))] s = .ok (out, s')) :
    (out = [.val .nil] ∨ out = [.val .eof]) ∧ OnlyChanges U (programOf U fs) k s' j ∧ s'.h.w.arrs = s.h.w.arrs := by
  obtain ⟨o1, _, o3, _⟩ := (gets_sound hc h).shape.one j m hj
  refine ⟨?_, spoil_only hc (h.step (.tryDecode hj hb hr)), (decoded hc o1 hb o3 hr).arrs⟩
  obtain ⟨rep, he⟩ := decode_eq hc o1
  rw [he s rt d j b hb o3] at hr
  obtain ⟨r, r1, r2⟩ := bind_ok hr
  injection r2 with r2; injection r2 with r2 _
  subst r2
  obtain ⟨r0, r3, r4⟩ := r
  cases r4 with
  | none => exact .inl rfl
  | some e => cases e; exact .inr rfl

/-- C75: `x.Name(y)`, whatever the bytes of the field are, changes nothing else than `y`. -/
theorem C75_getter (hc : Compilable U fs pkg) {s0 : GSt} {k : Ledger} (h : Gets U fs s0 s k) {i j : Nat} {e : Entry} {fd : Field} {m' : Desc} (hi : k.known.structs i = some e) (hfd : MessageField e.type fd)
    (hj : k.type j = some m') (hname : m'.getName = goType fd) {rt : Rt} {d : Nat} {out : List GVal} {s' : GSt}
    (hr : G.run (programOf U fs) rt d e.type.getName (goName U fd) [.ptr e.type.getName i, .ptr (goType fd) j] s = .ok (out, s')) : OnlyChanges U (programOf U fs) k s' j :=
  spoil_only hc (h.step (.tryMessage hi hfd hj hname hr))

/-- C75: `it.Next(y)`, whatever the bytes of the element are, advances the iterator by one element, and changes nothing else than `y`. -/
theorem C75_next (hc : Compilable U fs pkg) {s0 : GSt} {k : Ledger} (h : Gets U fs s0 s k) {v j o : Nat} {m m' : Desc} {fd : Field} {bs : List Byte} {rest : List (List Byte)}
    (hv : k.known.iters v = some ⟨m, fd, o, bs :: rest⟩) (hj : k.type j = some m') (hname : m'.getName = goType fd) {rt : Rt} {d : Nat} {out : List GVal} {s' : GSt}
    (hr : G.run (programOf U fs) rt d (iterOf m fd) t!"Next" [.iter (iterOf m fd) v, .ptr (goType fd) j] s = .ok (out, s')) : OnlyChanges U (programOf U fs) (k.point v ⟨m, fd, o, rest⟩) s' j :=
  spoil_only hc (h.step (.tryNext hv hj hname hr))

/-- C75: a struct into which anything was decoded is as good as a new one: a valid message in memory that no other struct has decodes without an error, and then the struct shows that message. -/
theorem C75_again (hc : Compilable U fs pkg) {s0 : GSt} {k : Ledger} (h : Gets U fs s0 s k) {j : Nat} {m : Desc} (hj : k.type j = some m) {b : HSlice} {rs : List Record} (hb : s.h.w.WFs b) (hl : b.len < maxLen)
    (hm : IsMinTagMessage rs (s.h.w.slice b).data) (hcf : Conforms m rs) (hfree : k.known.Free s j b) (rt : Rt) (d : Nat) :
    ∃ s', G.run (programOf U fs) rt d m.getName t!"Decode" [.ptr m.getName j, .val (.bytes (.mem b))] s = .ok ([.val .nil], s') ∧
      Gets U fs s0 s' (k.gets j ⟨m, none, .ofRecords rs⟩) ∧ Shows U (programOf U fs) m j s' (.ofRecords rs) := by
  have hs := gets_sound hc h
  obtain ⟨s1, g1, e1, hr⟩ := hs.ready hc hj
  have hb1 : s1.h.w.WFs b := ⟨hb.1, by unfold World.arr; rw [hr.arrs]; exact hb.2⟩
  obtain ⟨s', r⟩ := hr.inv.decode_ok hc hr.entry hb1 hl (by rw [World.slice_arrs hr.arrs]; exact hm) (by rw [hr.type]; exact hcf) rt d
  rw [hr.type] at r
  have e0 : ({ s1 with its := s.its } : GSt) = s1 := by rw [← hr.its]
  have hq := hr.decode rt d b s.its hb
  rw [e0, r] at hq
  have hg : Gets U fs s0 s' (k.gets j ⟨m, none, .ofRecords rs⟩) := h.step (.fill (op := .decode (s.h.w.slice b) rs) hj (.decode hb hl hm hcf) (fun h => h) (fun b' hb' => by
    have : b' = b := by simpa using hb'
    rw [this]; exact hfree) hq.symm)
  exact ⟨s', hq.symm, hg, (C75_programs hc hg).1 j ⟨m, none, .ofRecords rs⟩ (by simp [Ledger.gets, Known.put])⟩

/-- C75: likewise `x.Reset(nil)`: it returns, and then the struct is empty. -/
theorem C75_reset (hc : Compilable U fs pkg) {s0 : GSt} {k : Ledger} (h : Gets U fs s0 s k) {j : Nat} {m : Desc} (hj : k.type j = some m) (rt : Rt) (d : Nat) :
    ∃ s', G.run (programOf U fs) rt d m.getName t!"Reset" [.ptr m.getName j, .val .nil] s = .ok ([], s') ∧
      Gets U fs s0 s' (k.gets j ⟨m, none, .empty⟩) ∧ Shows U (programOf U fs) m j s' .empty := by
  have hs := gets_sound hc h
  obtain ⟨⟨f, hf, hm⟩, _, o3, _⟩ := hs.shape.one j m hj
  have hdi := decls_implements U m (hc.valid f hf m hm)
  have hr := C63_reset_nil hc.program rt d s (sub_of (U := U) hf hm _ hdi.fixed.2.2) o3
  have he : (s.h.ms j).reset s.h.w .nil = .ok (cleared s.h.w (s.h.ms j)) := rfl
  rw [he] at hr
  have hg : Gets U fs s0 _ (k.gets j ⟨m, none, .empty⟩) := h.step (.fill (op := .reset .empty) hj .resetNil (fun h => h) (fun b' hb' => by simp at hb') hr)
  exact ⟨_, hr, hg, (C75_programs hc hg).1 j ⟨m, none, .empty⟩ (by simp [Ledger.gets, Known.put])⟩

/-- What the model's `decode` returns, `x.Decode(b)` returns. -/
theorem decode_run (hc : Compilable U fs pkg) {s0 : GSt} {k : Ledger} (h : Gets U fs s0 s k) {j : Nat} {m : Desc} (hj : k.type j = some m) (hv : ValidDesc m) {b : HSlice} (hb : s.h.w.WFs b) {e : Option DecErr} {mv : Msg}
    (rt : Rt) (d : Nat) (hd : (s.h.w.msg (s.h.ms j)).decode (schemaOf m hv).rep (s.h.w.slice b) = .ok (mv, e)) :
    ∃ s', G.run (programOf U fs) rt d m.getName t!"Decode" [.ptr m.getName j, .val (.bytes (.mem b))] s = .ok ([.val (errVal e)], s') ∧ Gets U fs s0 s' (k.spoil j m) := by
  obtain ⟨⟨f, hf, hm⟩, _, o3, _⟩ := (gets_sound hc h).shape.one j m hj
  have hdi := decls_implements U m hv
  have hsub := sub_of (U := U) hf hm
  obtain ⟨nums, t1, t2⟩ := hdi.table
  have hq := C63_decode hc.program rt d s (hsub _ hdi.fixed.2.1) (hsub _ ((t1 _ _).2 ⟨rfl, rfl⟩)) b hb o3
  rw [rep_table t2] at hq
  have := decode_refines (schemaOf m hv).rep o3 hb
  rw [hd] at this
  obtain ⟨m', w', r1, _⟩ := this
  rw [r1] at hq
  exact ⟨_, hq, h.step (.tryDecode hj hb hq)⟩

/-- C75: `x.Decode(b)`, with the first bytes of a valid message, cut inside a record, returns `io.ErrUnexpectedEOF`. -/
theorem C75_truncated (hc : Compilable U fs pkg) {s0 : GSt} {k : Ledger} (h : Gets U fs s0 s k) {j : Nat} {m : Desc} (hj : k.type j = some m) {b : HSlice} (hb : s.h.w.WFs b) {rs : List Record} {r : Record}
    {A B C : List Byte} (hd : (s.h.w.slice b).data = A ++ B) (hA : IsMessage rs A) (hr : IsRecord r (B ++ C)) (hB : B ≠ []) (hC : C ≠ []) (hlt : ∀ r' ∈ rs ++ [r], r'.num < slotsOf m)
    (hlen : (A ++ B ++ C).length + 8 < maxLen) (rt : Rt) (d : Nat) :
    ∃ s', G.run (programOf U fs) rt d m.getName t!"Decode" [.ptr m.getName j, .val (.bytes (.mem b))] s = .ok ([.val .eof], s') ∧ Gets U fs s0 s' (k.spoil j m) := by
  obtain ⟨⟨f, hf, hm⟩, _, _, o4⟩ := (gets_sound hc h).shape.one j m hj
  have hv := hc.valid f hf m hm
  obtain ⟨mv, hmv⟩ := C13_truncated (S := schemaOf m hv) (m0 := s.h.w.msg (s.h.ms j)) o4 (buf := s.h.w.slice b) hd hA hr hB hC hlt hlen
  exact decode_run hc h hj hv hb rt d hmv

/-- C75: what `x.Decode(b)` does with bytes nobody has looked at: they are complete records, followed by nothing, and nil is returned; or by a part of a record, and `io.ErrUnexpectedEOF` is returned; or
by something that is not a part of a record (`Defect`), of which this theorem says nothing. -/
theorem C75_outcome (hc : Compilable U fs pkg) {s0 : GSt} {k : Ledger} (h : Gets U fs s0 s k) {j : Nat} {m : Desc} (hj : k.type j = some m) {b : HSlice} (hb : s.h.w.WFs b) (hl : b.len + 8 < maxLen) (rt : Rt) (d : Nat) :
    ∃ rs A X, (s.h.w.slice b).data = A ++ X ∧ IsMessage rs A ∧ (∀ r ∈ rs, r.num < slotsOf m) ∧
      ((X = [] ∧ ∃ s', G.run (programOf U fs) rt d m.getName t!"Decode" [.ptr m.getName j, .val (.bytes (.mem b))] s = .ok ([.val .nil], s') ∧ Gets U fs s0 s' (k.spoil j m)) ∨
       (CutRecord (slotsOf m) A.length X ∧ ∃ s', G.run (programOf U fs) rt d m.getName t!"Decode" [.ptr m.getName j, .val (.bytes (.mem b))] s = .ok ([.val .eof], s') ∧ Gets U fs s0 s' (k.spoil j m)) ∨
       Defect (slotsOf m) A.length X) := by
  obtain ⟨⟨f, hf, hm⟩, _, o3, o4⟩ := (gets_sound hc h).shape.one j m hj
  have hv := hc.valid f hf m hm
  have go := fun {e mv} => decode_run hc h hj hv hb (e := e) (mv := mv) rt d
  obtain ⟨rs, A, X, c1, c2, c3, c4⟩ := C14_decode_returns (S := schemaOf m hv) (m0 := s.h.w.msg (s.h.ms j)) o4 (buf := s.h.w.slice b) (Nat.lt_of_le_of_lt (Nat.add_le_add_right (Nat.le_of_eq (World.slice_len hb)) 8) hl)
  refine ⟨rs, A, X, c1, c2, c3, ?_⟩
  rcases c4 with ⟨h1, _, h2⟩ | ⟨h1, _, h2⟩ | h1
  · exact .inl ⟨h1, go h2⟩
  · exact .inr (.inl ⟨h1, go h2⟩)
  · exact .inr (.inr h1)

end
/-! ## The hypotheses are met -/

/-- A program that has received a message of two bytes, and its first byte alone. -/
def received : GSt := ⟨⟨⟨[[0x08#8], [0x08#8, 0x01#8]], []⟩, fun _ => .zero 0⟩, 0, fun _ => none⟩

/-- C75, on golden/test.proto: `var x, y TestMessage; x.SetInt32(7); y.Decode([]byte{0x08})` returns `io.ErrUnexpectedEOF`; `x.Int32()` is 7; `y.Decode([]byte{0x08, 0x01})` returns nil; then `y.Bool()` is
true, and `x.Int32()` is 7 still. -/
theorem C75_example (rt : Rt) : ∃ s s1 s2 fi fb k k2, Gets asciiUnicode [testFile] received s k ∧ k.known.structs 0 = some ⟨testDesc, none, Op.apply (.set rt (num fi) .int32 7#32) .empty⟩ ∧
    ScalarField testDesc fi .int32 ∧ ScalarField testDesc fb .bool ∧
    G.run (programOf asciiUnicode [testFile]) rt 0 testDesc.getName t!"Decode" [.ptr testDesc.getName 1, .val (.bytes (.mem ⟨0, 0, 1, 1⟩))] s = .ok ([.val .eof], s1) ∧
    G.run (programOf asciiUnicode [testFile]) rt 0 testDesc.getName t!"Decode" [.ptr testDesc.getName 1, .val (.bytes (.mem ⟨1, 0, 2, 2⟩))] s1 = .ok ([.val .nil], s2) ∧ Gets asciiUnicode [testFile] received s2 k2 ∧
    (∃ v, G.run (programOf asciiUnicode [testFile]) rt 0 testDesc.getName (goName asciiUnicode fb) [.ptr testDesc.getName 1] s2 = .ok ([.val v], s2) ∧ IsVal s2.h.w .bool true v) ∧
    (∃ v, G.run (programOf asciiUnicode [testFile]) rt 0 testDesc.getName (goName asciiUnicode fi) [.ptr testDesc.getName 0] s2 = .ok ([.val v], s2) ∧ IsVal s2.h.w .int32 7#32 v) := by
  have hc := testFile_compilable
  obtain ⟨hf, hm⟩ := testFile_has
  obtain ⟨fi, i1, i2, i3, i4⟩ := testField (P := fun fd => (getLabel (some fd) = 1 ∨ getLabel (some fd) = 2) ∧ protoKind (getType (some fd)) = some .int32 ∧ num fd = 2) (by decide +kernel)
  obtain ⟨fb, b1, b2, b3, b4⟩ := testField (P := fun fd => (getLabel (some fd) = 1 ∨ getLabel (some fd) = 2) ∧ protoKind (getType (some fd)) = some .bool ∧ num fd = 1) (by decide +kernel)
  have hfi : ScalarField testDesc fi .int32 := ⟨i1, i2, i3⟩
  have hfb : ScalarField testDesc fb .bool := ⟨b1, b2, b3⟩
  have r0 := Gets.start (U := asciiUnicode) (fs := [testFile]) (s0 := received)
  obtain ⟨s, k, r1, hms, hgs, hn, hw⟩ : ∃ s k, Gets asciiUnicode [testFile] received s k ∧ (∀ i, i < 2 → s.h.ms i = .zero (slotsOf testDesc)) ∧
      (∀ i, i < 2 → k.known.structs i = some ⟨testDesc, none, .empty⟩) ∧ s.next = 2 ∧ s.h.w = received.h.w := by
    refine ⟨_, _, (r0.step (.new hf hm)).step (.new hf hm), fun i hi => ?_, fun i hi => ?_, rfl, rfl⟩
    · rcases i with _ | _ | i <;> first | rfl | omega
    · rcases i with _ | _ | i <;> first | rfl | omega
  have c : Calls asciiUnicode testDesc rt 0 s (t!"Set" ++ goName asciiUnicode fi) [.ptr testDesc.getName 0, .val (.i32 7#32)] (.set rt (num fi) .int32 7#32) :=
    .set hfi rfl (by intro _ h; rcases h with h | h <;> cases h) (by decide)
  have hk0 := hgs 0 (by decide)
  obtain ⟨s1, q1, q2, q3⟩ := ((C75_programs hc r1).1 0 _ hk0).calls rt 0 _ _ _ c (by rw [hms 0 (by decide)]; show 0 + (20 + Kind.size .int32 7#32) < maxLen; decide)
  have r2 := r1.step (.set hk0 c trivial q1)
  obtain ⟨_, _, _, _, _, _, _, heff, _⟩ := call_tracks hc (gets_sound hc r1).known (e := ⟨testDesc, none, .empty⟩) hk0 c q1
  have hfr : Frame s.h.w s1.h.w (s.h.ms 0) (s1.h.ms 0) := heff
  have hnil : ∀ a q, ¬ (s.h.ms 0).buf.owns a q := fun a q ho => by
    rw [hms 0 (by decide)] at ho
    exact owns_nil ho
  have wf : ∀ b : HSlice, received.h.w.WFs b → s1.h.w.WFs b := fun b hb => wf_sized ⟨hfr.bytes.grow, hfr.bytes.size, hfr.mgrow⟩ (by rw [hw]; exact hb)
  have sl : ∀ b : HSlice, received.h.w.WFs b → s1.h.w.slice b = received.h.w.slice b := fun b hb => by
    rw [← hw] at hb ⊢
    exact hfr.bytes.slice_eq hb fun a q ho => absurd ho (hnil a q)
  have w0 : received.h.w.WFs ⟨0, 0, 1, 1⟩ := ⟨by decide, by decide⟩
  have w1 : received.h.w.WFs ⟨1, 0, 2, 2⟩ := ⟨by decide, by decide⟩
  have v08 : IsVarint 8 [0x08#8] := ⟨[], 0x08#8, rfl, by simp, by decide, by decide, by decide, by decide⟩
  have v01 : IsVarint 1 [0x01#8] := ⟨[], 0x01#8, rfl, by simp, by decide, by decide, by decide, by decide⟩
  have hrec : IsRecord ⟨1, .varint 1#64⟩ ([0x08#8] ++ [0x01#8]) := ⟨[0x08#8], [0x01#8], rfl, v08, v01⟩
  have hn1 : 1 < slotsOf testDesc := by decide +kernel
  have ht1 : (k.gets 0 ⟨testDesc, none, Op.apply (.set rt (num fi) .int32 7#32) .empty⟩).type 1 = some testDesc := by
    rw [type_gets, if_neg (by decide)]; exact type_known (hgs 1 (by decide))
  have hk2 : (k.gets 0 ⟨testDesc, none, Op.apply (.set rt (num fi) .int32 7#32) .empty⟩).known.structs 0 = some ⟨testDesc, none, Op.apply (.set rt (num fi) .int32 7#32) .empty⟩ := by
    simp [Ledger.gets, Known.put]
  obtain ⟨s2, d1, r3⟩ := C75_truncated hc r2 (j := 1) ht1 (b := ⟨0, 0, 1, 1⟩) (wf _ w0) (A := []) (B := [0x08#8]) (C := [0x01#8]) (by rw [sl _ w0]; rfl) .nil hrec (by simp) (by simp)
    (by intro r' hr; simp only [List.nil_append, List.mem_singleton] at hr; subst hr; exact hn1) (by decide) rt 0
  have hk3 : ((k.gets 0 ⟨testDesc, none, Op.apply (.set rt (num fi) .int32 7#32) .empty⟩).spoil 1 testDesc).known.structs 0 = some ⟨testDesc, none, Op.apply (.set rt (num fi) .int32 7#32) .empty⟩ := by
    show (if 0 = 1 then none else ((k.gets 0 ⟨testDesc, none, Op.apply (.set rt (num fi) .int32 7#32) .empty⟩).known.drop 1).structs 0) = _
    rw [if_neg (by decide)]
    exact drop_structs.2 ⟨hk2, nofun⟩
  have hdec := decoded hc ⟨testFile, hf, hm⟩ (wf _ w0) ((gets_sound hc r2).shape.one 1 testDesc ht1).2.2.1 d1
  have hs2 : s2.h.w.slice ⟨1, 0, 2, 2⟩ = received.h.w.slice ⟨1, 0, 2, 2⟩ := by rw [World.slice_arrs hdec.arrs, sl _ w1]
  have hcf : Conforms testDesc [⟨1, .varint 1#64⟩] := by
    intro r hr
    simp only [List.mem_singleton] at hr
    subst hr
    refine ⟨.inr ⟨fb, b1, by rw [b4]; exact Nat.le_refl _⟩, fun fd hfd hnum => ?_⟩
    have hall : ∀ fd ∈ testDesc.field.filterMap id, num fd = 1 → protoKind (getType (some fd)) = some .bool ∧ getType (some fd) ≠ 11 := by decide +kernel
    obtain ⟨a1, a2⟩ := hall fd (List.mem_filterMap.2 ⟨some fd, hfd, rfl⟩) hnum
    refine ⟨fun k hk => ?_, fun hx => ?_⟩
    · have : some k = some Kind.bool := hk.2.2.symm.trans a1
      cases this
      exact ⟨true, by decide⟩
    · rcases hx with hx | hx <;> exact absurd hx.2.2 a2
  obtain ⟨s3, d2, r4, hsh⟩ := C75_again hc r3 (j := 1) (m := testDesc) (by rw [type_spoil, if_pos rfl]) (b := ⟨1, 0, 2, 2⟩) (rs := [⟨1, .varint 1#64⟩]) (wf_sized hdec.sized (wf _ w1)) (by decide)
    (by rw [hs2]; exact .cons (bs := [0x08#8, 0x01#8]) (rest := []) ⟨[0x08#8], [0x01#8], rfl, ⟨v08, by decide⟩, v01⟩ .nil) hcf (fun i e hi hv hne a q ho ho' => by
      have hi0 : i = 0 := by
        simp only [Ledger.spoil, Known.forget, if_neg hne] at hi
        have hi := (drop_structs.1 hi).1
        simp only [Ledger.gets, Known.put] at hi
        by_cases h0 : i = 0
        · exact h0
        · rw [if_neg h0] at hi
          have := ((gets_sound hc r1).known.struct i e (drop_structs.1 hi).1).2.1
          omega
      subst hi0
      rw [hdec.others 0 (by decide) ((gets_sound hc r2).known.struct 0 _ hk2).2.1] at ho'
      rcases hfr.bytes.owned a q ho' with h | h
      · exact hnil a q h
      · have ha : 1 = a := ho.1
        rw [hw, ← ha] at h
        exact absurd h (by decide)) rt 0
  have hk4 : (((k.gets 0 ⟨testDesc, none, Op.apply (.set rt (num fi) .int32 7#32) .empty⟩).spoil 1 testDesc).gets 1 ⟨testDesc, none, .ofRecords [⟨1, .varint 1#64⟩]⟩).known.structs 0 =
      some ⟨testDesc, none, Op.apply (.set rt (num fi) .int32 7#32) .empty⟩ := by
    show (if 0 = 1 then some ⟨testDesc, none, .ofRecords [⟨1, .varint 1#64⟩]⟩ else (((k.gets 0 ⟨testDesc, none, Op.apply (.set rt (num fi) .int32 7#32) .empty⟩).spoil 1 testDesc).known.drop 1).structs 0) = _
    rw [if_neg (by decide)]
    exact drop_structs.2 ⟨hk3, nofun⟩
  refine ⟨s1, s2, s3, fi, fb, _, _, r2, hk2, hfi, hfb, d1, d2, r4, ?_, ?_⟩
  · obtain ⟨x, v, g1, g2, g3⟩ := hsh.scalar fb .bool hfb rt 0
    refine ⟨v, g1, ?_⟩
    rw [b4] at g3
    have : readVal .bool ((Contents.ofRecords [⟨1, .varint 1#64⟩]).sing 1) = some true := by decide
    rw [this] at g3
    cases g3
    exact g2
  · obtain ⟨x, v, g1, g2, g3⟩ := ((C75_programs hc r4).1 0 _ hk4).scalar fi .int32 hfi rt 0
    refine ⟨v, g1, ?_⟩
    have : readVal .int32 ((Op.apply (.set rt (num fi) .int32 7#32) .empty).sing (num fi)) = some 7#32 := by
      simp only [Op.apply, Contents.set, if_true]
      decide
    rw [this] at g3
    cases g3
    exact g2

end Zeropb.GoSrc.E
