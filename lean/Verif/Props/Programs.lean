import Verif.Props.EndToEnd
/-!
# C66: programs with many messages

A program has any number of structs of the generated types and of iterators. Some structs have memory of their own; others are views: they were
filled by a getter, by an iterator or by `Decode` from bytes of another struct, and read its memory. The program may call any method
of any struct, with three rules: it does not set fields of a view, a struct it gives a buffer to does not get memory that another struct has, and it does not
use views of a struct (or iterators over it) after changing the struct. Then every struct is, at every moment, seen as the simple record of the calls made on it.
-/

set_option linter.constructorNameAsVariable false

namespace Zeropb.GoSrc.E
open Zeropb.Gen Wire Zeropb.GoSrc.G

/-! ## Specification -/

/-- What the program knows about a struct: its type, the struct it is a view of (none: it has memory of its own), its contents. -/
structure Entry where
  type : Desc
  view : Option Nat
  contents : Contents

/-- What the program knows about an iterator: the field it goes over, the struct whose memory it reads, the elements that it has not yielded yet. -/
structure Cursor where
  type : Desc
  field : Field
  over : Nat
  rest : List (List Byte)

/-- What the program knows. -/
structure Known where
  structs : Nat → Option Entry
  iters : Nat → Option Cursor

/-- Nothing. -/
def Known.nothing : Known := ⟨fun _ => none, fun _ => none⟩

/-- Struct `i` is now `e`. -/
def Known.put (g : Known) (i : Nat) (e : Entry) : Known := { g with structs := fun j => if j = i then some e else g.structs j }

/-- Struct `i` changes: views of it and iterators over it are not used any more. -/
def Known.drop (g : Known) (i : Nat) : Known :=
  ⟨fun j => (g.structs j).filter (fun e => e.view ≠ some i), fun v => (g.iters v).filter (fun k => k.over ≠ i)⟩

/-- Struct `i` is not used any more. -/
def Known.forget (g : Known) (i : Nat) : Known := { g.drop i with structs := fun j => if j = i then none else (g.drop i).structs j }

/-- Iterator `v` is now `k`. -/
def Known.point (g : Known) (v : Nat) (k : Cursor) : Known := { g with iters := fun u => if u = v then some k else g.iters u }

/-- The memory of `b` is not that of a struct other than `i`. -/
def Known.Free (g : Known) (s : GSt) (i : Nat) (b : HSlice) : Prop :=
  ∀ j e, g.structs j = some e → e.view = none → j ≠ i → ∀ a q, b.owns a q → ¬ (s.h.ms j).buf.owns a q

/-- The struct whose memory struct `i` reads. -/
def Entry.root (e : Entry) (i : Nat) : Nat := e.view.getD i

/-- `SetName` and `AppendToName`, as opposed to `Reset` and `Decode`. -/
def Writes : Zeropb.Op → Prop
  | .set .. | .append .. => True
  | .reset _ | .decode _ _ => False

/-- Arrays do not change their size. -/
def Sized (w w' : World) : Prop :=
  w.arrs.length ≤ w'.arrs.length ∧ (∀ i, i < w.arrs.length → (w'.arr i).length = (w.arr i).length) ∧ w.maps.length ≤ w'.maps.length

/-- From `s` to `s'`, the program did something that does not concern the structs and iterators of `g`: it allocated or wrote other memory, used other
variables. -/
structure Undisturbed (g : Known) (s s' : GSt) : Prop where
  sized : Sized s.h.w s'.h.w
  next : s.next ≤ s'.next
  structs : ∀ i e, g.structs i = some e → s'.h.ms i = s.h.ms i
  bytes : ∀ i e, g.structs i = some e → e.view = none → ∀ a q, (s.h.ms i).buf.owns a q → s'.h.w.cell a q = s.h.w.cell a q
  maps : ∀ i e id, g.structs i = some e → (s.h.ms i).m = some id → s'.h.w.maps.getD id [] = s.h.w.maps.getD id []
  iters : ∀ v k, g.iters v = some k → s'.its v = s.its v

/-- One step of the program: a call that returned, or something that does not concern the messages. -/
inductive Step (U : Unicode) (fs : List FileDesc) : GSt → Known → GSt → Known → Prop
  /-- `var x T` -/
  | new {s g f m} : f ∈ fs → some m ∈ f.messageType →
      Step U fs s g ⟨s.h.put s.next (.zero (slotsOf m)), s.next + 1, s.its⟩ (g.put s.next ⟨m, none, .empty⟩)
  /-- `x.SetName(v)`, `x.AppendToName(y)` -/
  | set {s g i m c rt d name args op out s'} : g.structs i = some ⟨m, none, c⟩ → Calls U m rt i s name args op → Writes op →
      G.run (programOf U fs) rt d m.getName name args s = .ok (out, s') → Step U fs s g s' ((g.drop i).put i ⟨m, none, op.apply c⟩)
  /-- `x.Reset(b)`, `x.Decode(b)`, with memory that no other struct has -/
  | fill {s g i e rt d name args op out s'} : g.structs i = some e → Calls U e.type rt i s name args op → ¬ Writes op →
      (∀ b, .val (.bytes (.mem b)) ∈ args → g.Free s i b) →
      G.run (programOf U fs) rt d e.type.getName name args s = .ok (out, s') → Step U fs s g s' ((g.drop i).put i ⟨e.type, none, op.apply e.contents⟩)
  /-- `x.Decode(b)`, with memory of struct `o` -/
  | view {s g i e o eo rt d b op out s'} : g.structs i = some e → g.structs o = some eo → eo.view = none → o ≠ i → Within b (s.h.ms o).buf →
      Calls U e.type rt i s t!"Decode" [.ptr e.type.getName i, .val (.bytes (.mem b))] op →
      G.run (programOf U fs) rt d e.type.getName t!"Decode" [.ptr e.type.getName i, .val (.bytes (.mem b))] s = .ok (out, s') →
      Step U fs s g s' ((g.drop i).put i ⟨e.type, some o, op.apply e.contents⟩)
  /-- `x.Name(y)`, when the field has a value that is a valid message -/
  | message {s g i e fd j e' bs rs rt d out s'} : g.structs i = some e → MessageField e.type fd → g.structs j = some e' → e'.type.getName = goType fd →
      j ≠ e.root i → e.contents.sing (num fd) = some (.bytes bs) → IsMinTagMessage rs bs → Conforms e'.type rs →
      G.run (programOf U fs) rt d e.type.getName (goName U fd) [.ptr e.type.getName i, .ptr (goType fd) j] s = .ok (out, s') →
      Step U fs s g s' ((g.drop j).put j ⟨e'.type, some (e.root i), .ofRecords rs⟩)
  /-- `it := x.Name()` -/
  | iterate {s g i e fd rt d o s' v} : g.structs i = some e → RepeatedField e.type fd →
      G.run (programOf U fs) rt d e.type.getName (goName U fd) [.ptr e.type.getName i] s = .ok ([.val (optBytes o)], s') →
      Step U fs s g { s' with its := fun u => if u = v then o else s'.its u } (g.point v ⟨e.type, fd, e.root i, e.contents.elems (num fd)⟩)
  /-- `it.Next(y)`, when there is another element and it is a valid message -/
  | next {s g v m fd o bs rest j e' rs rt d out s'} : g.iters v = some ⟨m, fd, o, bs :: rest⟩ → g.structs j = some e' → e'.type.getName = goType fd →
      j ≠ o → IsMinTagMessage rs bs → Conforms e'.type rs →
      G.run (programOf U fs) rt d (iterOf m fd) t!"Next" [.iter (iterOf m fd) v, .ptr (goType fd) j] s = .ok (out, s') →
      Step U fs s g s' (((g.point v ⟨m, fd, o, rest⟩).drop j).put j ⟨e'.type, some o, .ofRecords rs⟩)
  /-- anything else -/
  | other {s g s'} : Undisturbed g s s' → Step U fs s g s' g
  /-- a struct is not used any more: its memory may be used for other things -/
  | forget {s g i} : Step U fs s g s (g.forget i)

/-- A run of the program, from a state in which it knows nothing. -/
inductive Reach (U : Unicode) (fs : List FileDesc) (s0 : GSt) : GSt → Known → Prop
  | start : Reach U fs s0 s0 .nothing
  | step {s g s' g'} : Reach U fs s0 s g → Step U fs s g s' g' → Reach U fs s0 s' g'

/-- Iterator `v` is about to yield the elements `k.rest`. -/
structure Points (p : Program) (s : GSt) (v : Nat) (k : Cursor) : Prop where
  /-- `v.Next(x)` reports true, moves on and decodes the next element into `*x` -/
  more : ∀ bs rest, k.rest = bs :: rest → ∀ rt d j, s.h.w.WF (s.h.ms j) → ∃ b o, Within b (s.h.ms k.over).buf ∧ s.h.w.WFs b ∧ (s.h.w.slice b).data = bs ∧
    G.run p rt d (iterOf k.type k.field) t!"Next" [.iter (iterOf k.type k.field) v, .ptr (goType k.field) j] s =
    (G.run p rt d (goType k.field) t!"Decode" [.ptr (goType k.field) j, .val (.bytes (.mem b))] { s with its := fun u => if u = v then o else s.its u } >>=
      fun r => .ok (.val (.bool true) :: r.1, r.2))
  /-- after the last element it reports false and changes nothing -/
  done : k.rest = [] → ∀ rt d j, s.h.w.WF (s.h.ms j) →
    G.run p rt d (iterOf k.type k.field) t!"Next" [.iter (iterOf k.type k.field) v, .ptr (goType k.field) j] s = .ok ([.val (.bool false), .val .nil], s)

/-! ## What a call touches -/

section
variable {p : Program} {ds mds : List Decl} {S : Schema} {msg : Text}

/-- What the call `op` with `args` on struct `i` changed: setters and appends, as in `Frame`; `Reset` and `Decode` write no byte, and take the buffer they are given. -/
def Effect (s s' : GSt) (i : Nat) (args : List GVal) : Zeropb.Op → Prop
  | .set .. | .append .. => Frame s.h.w s'.h.w (s.h.ms i) (s'.h.ms i)
  | .reset _ | .decode _ _ => s'.h.w.arrs = s.h.w.arrs ∧ Frame s.h.w s'.h.w (s.h.ms i) { s'.h.ms i with buf := (s.h.ms i).buf } ∧
      ((s'.h.ms i).buf = .nil ∨ .val (.bytes (.mem (s'.h.ms i).buf)) ∈ args)

theorem refines_frame {rv : Res (Slice × Offsets)} {rh : Res (HMsg × World)} {w : World} {m m' : HMsg} {w' : World} (hr : Refines rv rh w m) (h : rh = .ok (m', w')) :
    Frame w w' m m' := by
  subst h
  unfold Refines at hr
  cases rv with
  | error e => cases hr
  | ok r =>
    obtain ⟨m1, w1, h1, _, _, h4⟩ := hr
    injection h1 with h1
    injection h1 with h1 h2
    subst h1; subst h2
    exact h4

theorem bind_ok {α β ε : Type} {x : Except ε α} {f : α → Except ε β} {b : β} (h : (x >>= f) = .ok b) : ∃ a, x = .ok a ∧ f a = .ok b := by
  cases x with
  | error e => cases h
  | ok a => exact ⟨a, rfl, h⟩

theorem lift_ok {α : Type} {x : Res α} {a : α} (h : lift x = .ok a) : x = .ok a := by
  cases x with
  | error e => cases h
  | ok b => simp only [lift] at h; injection h with h; rw [h]

theorem call_effect (hp : Package p ds) (hc : Closed ds) (hi : Implements S msg mds) (hsub : ∀ x ∈ mds, x ∈ ds) {rt : Rt} {d : Nat} {i : Nat} {s : GSt}
    (hw : s.h.w.WF (s.h.ms i)) (hn : i < s.next) {name : Text} {args : List GVal} {op : Zeropb.Op} (h : Issues mds msg S rt i s name args op)
    {out : List GVal} {s' : GSt} (hr : G.run p rt d msg name args s = .ok (out, s')) : Effect s s' i args op ∧ s'.its = s.its := by
  cases h with
  | @set name f k x v hd hv ha hl =>
    have ho : ValOk s.h.w v := by
      intro src hs
      have h1 := ha src hs
      refine ⟨apart_wfsrc h1, ?_⟩
      rw [← src_length (apart_wfsrc h1)]
      cases k <;> simp only [IsVal] at hv
      case string =>
        obtain ⟨src', rfl, rfl⟩ := hv
        rcases hs with hs | hs
        · cases hs; exact hl
        · cases hs
      case bytes =>
        rcases hv with ⟨rfl, rfl⟩ | ⟨src', rfl, rfl⟩
        · rcases hs with hs | hs <;> cases hs
        · rcases hs with hs | hs
          · cases hs
          · cases hs; exact hl
      all_goals
        subst hv
        rcases hs with hs | hs <;> cases hs
    rw [C63_set hp rt d s (hsub _ hd) x v hv ho hw] at hr
    obtain ⟨r, r1, r2⟩ := bind_ok hr
    injection r2 with r2; injection r2 with _ r2; subst r2
    refine ⟨?_, rfl⟩
    have := refines_frame (setCall_refines hv ha hw) (lift_ok r1)
    simpa only [Effect, upd_ms, upd_w] using this
  | @setMessage name typ f j hd ha hl =>
    obtain ⟨c1, n, c2⟩ := hc _ _ _ _ (Or.inl (hsub _ hd))
    rw [C63_setMessage hp rt d s (hsub _ hd) c1 c2 hn hw ha.1 hl] at hr
    obtain ⟨r, r1, r2⟩ := bind_ok hr
    injection r2 with r2; injection r2 with _ r2; subst r2
    refine ⟨?_, rfl⟩
    have := refines_frame (setBytes_refines rt hw f ha) (lift_ok r1)
    simpa only [Effect, upd_ms, upd_w] using this
  | @append name typ f j hd ha hl =>
    obtain ⟨c1, n, c2⟩ := hc _ _ _ _ (Or.inr (hsub _ hd))
    rw [C63_appendTo hp rt d s (hsub _ hd) c1 c2 hn hw ha.1 hl] at hr
    obtain ⟨r, r1, r2⟩ := bind_ok hr
    injection r2 with r2; injection r2 with _ r2; subst r2
    refine ⟨?_, rfl⟩
    have := refines_frame (appendBytes_refines rt hw f ha) (lift_ok r1)
    simpa only [Effect, upd_ms, upd_w] using this
  | @reset b hb hl =>
    rw [C63_reset hp rt d s (hsub _ hi.fixed.2.2) b hw] at hr
    obtain ⟨r, r1, r2⟩ := bind_ok hr
    injection r2 with r2; injection r2 with _ r2; subst r2
    refine ⟨?_, rfl⟩
    have := reset_refines hw hb
    have r1 := lift_ok r1
    cases e : (s.h.w.msg (s.h.ms i)).reset (s.h.w.slice b) with
    | error e' => rw [e] at this; simp only at this; rw [this] at r1; cases r1
    | ok v =>
      rw [e] at this
      obtain ⟨m', w', h1, h2, h3, h4, h5, h6⟩ := this
      rw [h1] at r1
      injection r1 with r1; subst r1
      simp only [Effect, upd_ms, upd_w]
      exact ⟨h5, h6, Or.inr (by rw [h4]; simp)⟩
  | resetNil =>
    rw [C63_reset_nil hp rt d s (hsub _ hi.fixed.2.2) hw] at hr
    obtain ⟨r, r1, r2⟩ := bind_ok hr
    injection r2 with r2; injection r2 with _ r2; subst r2
    refine ⟨?_, rfl⟩
    have := reset_refines hw (buf := .nil) ⟨Nat.le_refl _, by simp [HSlice.nil]⟩
    have r1 := lift_ok r1
    cases e : (s.h.w.msg (s.h.ms i)).reset (s.h.w.slice .nil) with
    | error e' => rw [e] at this; simp only at this; rw [this] at r1; cases r1
    | ok v =>
      rw [e] at this
      obtain ⟨m', w', h1, h2, h3, h4, h5, h6⟩ := this
      rw [h1] at r1
      injection r1 with r1; subst r1
      simp only [Effect, upd_ms, upd_w]
      exact ⟨h5, h6, Or.inl h4⟩
  | @decode b rs hb hl hm ht =>
    obtain ⟨nums, t1, t2⟩ := hi.table
    rw [C63_decode hp rt d s (hsub _ hi.fixed.2.1) (hsub _ ((t1 _ _).2 ⟨rfl, rfl⟩)) b hb hw] at hr
    obtain ⟨r, r1, r2⟩ := bind_ok hr
    injection r2 with r2; injection r2 with _ r2; subst r2
    refine ⟨?_, rfl⟩
    have := decode_refines (fun n => decide ((n : Int) ∈ nums)) hw hb
    have r1 := lift_ok r1
    cases e : (s.h.w.msg (s.h.ms i)).decode (fun n => decide ((n : Int) ∈ nums)) (s.h.w.slice b) with
    | error e' => rw [e] at this; simp only at this; rw [this] at r1; cases r1
    | ok v =>
      rw [e] at this
      obtain ⟨m', w', h1, h2, h3, h4, h5, h6⟩ := this
      rw [h1] at r1
      injection r1 with r1; subst r1
      simp only [Effect, upd_ms, upd_w]
      exact ⟨h5, h6, Or.inr (by rw [h4]; simp)⟩

end

/-! ## The invariant -/

/-- What holds at every moment. -/
structure Inv (U : Unicode) (fs : List FileDesc) (s : GSt) (g : Known) : Prop where
  struct : ∀ i e, g.structs i = some e → (∃ f ∈ fs, some e.type ∈ f.messageType) ∧ i < s.next ∧ s.h.w.WF (s.h.ms i) ∧
    ∃ (hv : ValidDesc e.type) (rs : List Record), Tracks (schemaOf e.type hv) (s.h.w.msg (s.h.ms i)) rs e.contents
  bufs : ∀ i j ei ej, i ≠ j → g.structs i = some ei → g.structs j = some ej → ei.view = none → ej.view = none →
    ∀ a q, (s.h.ms i).buf.owns a q → ¬ (s.h.ms j).buf.owns a q
  views : ∀ i e o, g.structs i = some e → e.view = some o → ∃ eo, g.structs o = some eo ∧ eo.view = none ∧ Within (s.h.ms i).buf (s.h.ms o).buf
  maps : ∀ i j ei ej, i ≠ j → g.structs i = some ei → g.structs j = some ej → ∀ id, (s.h.ms i).m = some id → (s.h.ms j).m ≠ some id
  iters : ∀ v k, g.iters v = some k → (∃ eo, g.structs k.over = some eo ∧ eo.view = none) ∧
    ∃ B w0 its n els, Within B (s.h.ms k.over).buf ∧ s.h.w.WFs B ∧ Intact B w0 s.h.w ∧ s.its v = its n ∧ k.rest = els.drop n ∧ (∀ x ∈ els, x.length < maxLen) ∧
      Iterates (programOf U fs) k.type k.field B w0 its els ∧ Finds B w0 (num k.field) its els.length ∧
      (∃ f ∈ fs, some k.type ∈ f.messageType) ∧ RepeatedField k.type k.field

theorem drop_structs {g : Known} {i j : Nat} {e : Entry} : (g.drop i).structs j = some e ↔ g.structs j = some e ∧ e.view ≠ some i := by
  simp only [Known.drop, Option.filter_eq_some_iff, decide_eq_true_eq]

theorem drop_iters {g : Known} {i v : Nat} {k : Cursor} : (g.drop i).iters v = some k ↔ g.iters v = some k ∧ k.over ≠ i := by
  simp only [Known.drop, Option.filter_eq_some_iff, decide_eq_true_eq]

/-- A slice whose cells did not change. -/
theorem keep_slice {w w' : World} {t B : HSlice} (hs : Sized w w') (ht : w.WFs t) (hin : Within t B) (hc : ∀ a q, B.owns a q → w'.cell a q = w.cell a q) :
    w'.WFs t ∧ w'.slice t = w.slice t := by
  obtain ⟨h1, h2, _⟩ := hs
  refine ⟨⟨ht.1, ?_⟩, World.slice_congr fun a q ho => hc a q (hin a q ho)⟩
  rcases Nat.lt_or_ge t.arr w.arrs.length with hl | hl
  · rw [h2 _ hl]; exact ht.2
  · have : w.arr t.arr = [] := by
      unfold World.arr; rw [List.getD_eq_getElem?_getD, List.getElem?_eq_none hl]; rfl
    have h2 := ht.2
    rw [this] at h2
    simp at h2
    omega

/-- A struct whose bytes and map did not change. -/
theorem keep_msg {w w' : World} {m : HMsg} {B : HSlice} (hs : Sized w w') (hw : w.WF m) (hin : Within m.buf B) (hc : ∀ a q, B.owns a q → w'.cell a q = w.cell a q)
    (hm : ∀ id, m.m = some id → w'.maps.getD id [] = w.maps.getD id []) : w'.WF m ∧ w'.msg m = w.msg m := by
  obtain ⟨k1, k2⟩ := keep_slice hs hw.1 hin hc
  refine ⟨⟨k1, fun id e => Nat.lt_of_lt_of_le (hw.2 id e) hs.2.2⟩, ?_⟩
  unfold World.msg
  rw [k2]
  congr 1
  unfold World.offs
  cases hmm : m.m with
  | none => rfl
  | some id => simp only [Option.map_some, Offsets.mk.injEq, true_and, Option.some.injEq]; exact hm id hmm

theorem Within.refl (b : HSlice) : Within b b := fun _ _ h => h
theorem Within.trans {a b c : HSlice} (h : Within a b) (h' : Within b c) : Within a c := fun x q ho => h' x q (h x q ho)

section
variable {U : Unicode} {fs : List FileDesc} {pkg : Text} {s : GSt} {g : Known}

/-- The memory a struct reads is that of a struct with memory of its own. -/
theorem Inv.root (h : Inv U fs s g) {i : Nat} {e : Entry} (hi : g.structs i = some e) :
    ∃ er, g.structs (e.root i) = some er ∧ er.view = none ∧ Within (s.h.ms i).buf (s.h.ms (e.root i)).buf := by
  cases hv : e.view with
  | none => simp only [Entry.root, hv, Option.getD_none]; exact ⟨e, hi, hv, .refl _⟩
  | some o => simp only [Entry.root, hv, Option.getD_some]; exact h.views i e o hi hv

/-- Struct `i` changes to `e'`; everything else that is still known stays as it is. -/
theorem Inv.update (h : Inv U fs s g) {s' : GSt} {i : Nat} {e' : Entry} (hs : Sized s.h.w s'.h.w) (hnext : s.next ≤ s'.next)
    (hms : ∀ j e, g.structs j = some e → j ≠ i → s'.h.ms j = s.h.ms j)
    (hcells : ∀ j e, g.structs j = some e → j ≠ i → e.view = none → ∀ a q, (s.h.ms j).buf.owns a q → s'.h.w.cell a q = s.h.w.cell a q)
    (hmaps : ∀ j e id, g.structs j = some e → j ≠ i → (s.h.ms j).m = some id → s'.h.w.maps.getD id [] = s.h.w.maps.getD id [])
    (hits : ∀ v k, g.iters v = some k → s'.its v = s.its v)
    (htype : ∃ f ∈ fs, some e'.type ∈ f.messageType) (hlt : i < s'.next) (hwf : s'.h.w.WF (s'.h.ms i))
    (htr : ∃ (hv : ValidDesc e'.type) (rs : List Record), Tracks (schemaOf e'.type hv) (s'.h.w.msg (s'.h.ms i)) rs e'.contents)
    (hown : e'.view = none → ∀ j e, g.structs j = some e → j ≠ i → e.view = none → ∀ a q, (s'.h.ms i).buf.owns a q → ¬ (s.h.ms j).buf.owns a q)
    (hview : ∀ o, e'.view = some o → o ≠ i ∧ ∃ eo, g.structs o = some eo ∧ eo.view = none ∧ Within (s'.h.ms i).buf (s.h.ms o).buf)
    (hmap : ∀ j e id, g.structs j = some e → j ≠ i → (s'.h.ms i).m = some id → (s.h.ms j).m ≠ some id) :
    Inv U fs s' ((g.drop i).put i e') := by
  have look : ∀ j e, ((g.drop i).put i e').structs j = some e → (j = i ∧ e = e') ∨ (j ≠ i ∧ g.structs j = some e ∧ e.view ≠ some i) := by
    intro j e hj
    simp only [Known.put] at hj
    split at hj
    · exact Or.inl ⟨by assumption, (Option.some.inj hj).symm⟩
    · exact Or.inr ⟨by assumption, drop_structs.1 hj⟩
  have back : ∀ j e, j ≠ i → g.structs j = some e → e.view ≠ some i → ((g.drop i).put i e').structs j = some e := by
    intro j e hj h1 h2
    simp only [Known.put, if_neg hj]
    exact drop_structs.2 ⟨h1, h2⟩
  have cells : ∀ j e, j ≠ i → g.structs j = some e → e.view ≠ some i → ∀ a q, (s.h.ms (e.root j)).buf.owns a q → s'.h.w.cell a q = s.h.w.cell a q := by
    intro j e hj h1 h2
    obtain ⟨er, r1, r2, _⟩ := h.root h1
    refine hcells _ er r1 ?_ r2
    intro hr
    cases hv : e.view with
    | none => simp only [Entry.root, hv, Option.getD_none] at hr; exact hj hr
    | some o => simp only [Entry.root, hv, Option.getD_some] at hr; rw [hr] at hv; exact h2 hv
  have kept : ∀ j e, j ≠ i → g.structs j = some e → e.view ≠ some i → s'.h.w.WF (s.h.ms j) ∧ s'.h.w.msg (s.h.ms j) = s.h.w.msg (s.h.ms j) := by
    intro j e hj h1 h2
    obtain ⟨_, _, _, r3⟩ := h.root h1
    exact keep_msg hs (h.struct j e h1).2.2.1 r3 (cells j e hj h1 h2) (fun id hid => hmaps j e id h1 hj hid)
  refine ⟨?_, ?_, ?_, ?_, ?_⟩
  · intro j e hj
    rcases look j e hj with ⟨rfl, rfl⟩ | ⟨hj, h1, h2⟩
    · exact ⟨htype, hlt, hwf, htr⟩
    · obtain ⟨a1, a2, _, a4⟩ := h.struct j e h1
      obtain ⟨k1, k2⟩ := kept j e hj h1 h2
      rw [hms j e h1 hj, k2]
      exact ⟨a1, Nat.lt_of_lt_of_le a2 hnext, k1, a4⟩
  · intro j k ej ek hjk hj hk vj vk
    rcases look j ej hj with ⟨rfl, rfl⟩ | ⟨nj, h1, h2⟩
    · rcases look k ek hk with ⟨rfl, rfl⟩ | ⟨nk, h3, h4⟩
      · exact absurd rfl hjk
      · rw [hms k ek h3 nk]; exact hown vj k ek h3 nk vk
    · rcases look k ek hk with ⟨rfl, rfl⟩ | ⟨nk, h3, h4⟩
      · rw [hms j ej h1 nj]
        intro a q o1 o2
        exact hown vk j ej h1 nj vj a q o2 o1
      · rw [hms j ej h1 nj, hms k ek h3 nk]
        exact h.bufs j k ej ek hjk h1 h3 vj vk
  · intro j e o hj ho
    rcases look j e hj with ⟨rfl, rfl⟩ | ⟨hj, h1, h2⟩
    · obtain ⟨o1, eo, o2, o3, o4⟩ := hview o ho
      refine ⟨eo, back o eo o1 o2 (by rw [o3]; intro h; cases h), o3, ?_⟩
      rw [hms o eo o2 o1]; exact o4
    · obtain ⟨eo, o2, o3, o4⟩ := h.views j e o h1 ho
      have o1 : o ≠ i := by intro e1; rw [e1] at ho; exact h2 ho
      refine ⟨eo, back o eo o1 o2 (by rw [o3]; intro h; cases h), o3, ?_⟩
      rw [hms o eo o2 o1, hms j e h1 hj]; exact o4
  · intro j k ej ek hjk hj hk id
    rcases look j ej hj with ⟨rfl, rfl⟩ | ⟨nj, h1, h2⟩
    · rcases look k ek hk with ⟨rfl, rfl⟩ | ⟨nk, h3, h4⟩
      · exact absurd rfl hjk
      · rw [hms k ek h3 nk]; exact hmap k ek id h3 nk
    · rcases look k ek hk with ⟨rfl, rfl⟩ | ⟨nk, h3, h4⟩
      · rw [hms j ej h1 nj]
        intro o1 o2
        exact hmap j ej id h1 nj o2 o1
      · rw [hms j ej h1 nj, hms k ek h3 nk]
        exact h.maps j k ej ek hjk h1 h3 id
  · intro v k hv
    obtain ⟨v1, v2⟩ := drop_iters.1 (show (g.drop i).iters v = some k from hv)
    obtain ⟨⟨eo, o1, o2⟩, B, w0, its, n, els, b1, b2, b3, b4, b5, b5', b6⟩ := h.iters v k v1
    refine ⟨⟨eo, back _ eo v2 o1 (by rw [o2]; intro h; cases h), o2⟩, B, w0, its, n, els, ?_, ?_, ?_, ?_, b5, b5', b6⟩
    · rw [hms _ eo o1 v2]; exact b1
    · exact (keep_slice hs b2 b1 (hcells _ eo o1 v2 o2)).1
    · obtain ⟨k1, k2⟩ := keep_slice hs b2 b1 (hcells _ eo o1 v2 o2)
      exact ⟨k1, k2.trans b3.2⟩
    · rw [hits v k v1]; exact b4

/-- The program knows less. -/
theorem Inv.forget (h : Inv U fs s g) (i : Nat) : Inv U fs s (g.forget i) := by
  have look : ∀ j e, (g.forget i).structs j = some e ↔ j ≠ i ∧ g.structs j = some e ∧ e.view ≠ some i := by
    intro j e
    simp only [Known.forget]
    by_cases hj : j = i
    · rw [if_pos hj]; exact ⟨nofun, fun h => absurd hj h.1⟩
    · rw [if_neg hj]; exact ⟨fun h => ⟨hj, drop_structs.1 h⟩, fun h => drop_structs.2 h.2⟩
  refine ⟨?_, ?_, ?_, ?_, ?_⟩
  · intro j e hj; exact h.struct j e ((look j e).1 hj).2.1
  · intro j k ej ek hjk hj hk; exact h.bufs j k ej ek hjk ((look _ _).1 hj).2.1 ((look _ _).1 hk).2.1
  · intro j e o hj ho
    obtain ⟨_, h1, h2⟩ := (look _ _).1 hj
    obtain ⟨eo, o2, o3, o4⟩ := h.views j e o h1 ho
    refine ⟨eo, (look _ _).2 ⟨?_, o2, by rw [o3]; intro h; cases h⟩, o3, o4⟩
    intro e1; rw [e1] at ho; exact h2 ho
  · intro j k ej ek hjk hj hk; exact h.maps j k ej ek hjk ((look _ _).1 hj).2.1 ((look _ _).1 hk).2.1
  · intro v k hv
    obtain ⟨v1, v2⟩ := drop_iters.1 (show (g.drop i).iters v = some k from hv)
    obtain ⟨⟨eo, o1, o2⟩, rest⟩ := h.iters v k v1
    exact ⟨⟨eo, (look _ _).2 ⟨v2, o1, by rw [o2]; intro h; cases h⟩, o2⟩, rest⟩

/-- Something that does not concern the messages. -/
theorem Inv.other (h : Inv U fs s g) {s' : GSt} (hu : Undisturbed g s s') : Inv U fs s' g := by
  obtain ⟨hs, hnext, hms, hcells, hmaps, hits⟩ := hu
  have cells : ∀ j e, g.structs j = some e → ∀ a q, (s.h.ms (e.root j)).buf.owns a q → s'.h.w.cell a q = s.h.w.cell a q := by
    intro j e h1
    obtain ⟨er, r1, r2, _⟩ := h.root h1
    exact hcells _ er r1 r2
  refine ⟨?_, ?_, ?_, ?_, ?_⟩
  · intro j e hj
    obtain ⟨a1, a2, a3, a4⟩ := h.struct j e hj
    obtain ⟨_, _, _, r3⟩ := h.root hj
    obtain ⟨k1, k2⟩ := keep_msg hs a3 r3 (cells j e hj) (fun id hid => hmaps j e id hj hid)
    rw [hms j e hj, k2]
    exact ⟨a1, Nat.lt_of_lt_of_le a2 hnext, k1, a4⟩
  · intro j k ej ek hjk hj hk; rw [hms _ _ hj, hms _ _ hk]; exact h.bufs j k ej ek hjk hj hk
  · intro j e o hj ho
    obtain ⟨eo, o2, o3, o4⟩ := h.views j e o hj ho
    refine ⟨eo, o2, o3, ?_⟩
    rw [hms _ _ hj, hms _ _ o2]; exact o4
  · intro j k ej ek hjk hj hk; rw [hms _ _ hj, hms _ _ hk]; exact h.maps j k ej ek hjk hj hk
  · intro v k hv
    obtain ⟨⟨eo, o1, o2⟩, B, w0, its, n, els, b1, b2, b3, b4, b5, b5', b6⟩ := h.iters v k hv
    obtain ⟨k1, k2⟩ := keep_slice hs b2 b1 (hcells _ eo o1 o2)
    refine ⟨⟨eo, o1, o2⟩, B, w0, its, n, els, ?_, k1, ⟨k1, k2.trans b3.2⟩, ?_, b5, b5', b6⟩
    · rw [hms _ eo o1]; exact b1
    · rw [hits v k hv]; exact b4

/-- Iterator `v` changes to `k`. -/
theorem Inv.point (h : Inv U fs s g) {v : Nat} {k : Cursor} {o : Option HSlice} (ho : ∃ eo, g.structs k.over = some eo ∧ eo.view = none)
    (hk : ∃ B w0 its n els, Within B (s.h.ms k.over).buf ∧ s.h.w.WFs B ∧ Intact B w0 s.h.w ∧ o = its n ∧ k.rest = els.drop n ∧ (∀ x ∈ els, x.length < maxLen) ∧
      Iterates (programOf U fs) k.type k.field B w0 its els ∧ Finds B w0 (num k.field) its els.length ∧
      (∃ f ∈ fs, some k.type ∈ f.messageType) ∧ RepeatedField k.type k.field) :
    Inv U fs { s with its := fun u => if u = v then o else s.its u } (g.point v k) := by
  refine ⟨h.struct, h.bufs, h.views, h.maps, ?_⟩
  intro u k' hu
  simp only [Known.point] at hu ⊢
  by_cases e : u = v
  · rw [if_pos e] at hu
    injection hu with hu
    subst hu
    simp only [if_pos e]
    exact ⟨ho, hk⟩
  · rw [if_neg e] at hu
    simp only [if_neg e]
    exact h.iters u k' hu


/-- The call of a method. -/
theorem call_tracks (hc : Compilable U fs pkg) (h : Inv U fs s g) {i : Nat} {e : Entry} (hi : g.structs i = some e) {rt : Rt} {d : Nat} {name : Text} {args : List GVal}
    {op : Zeropb.Op} (hcall : Calls U e.type rt i s name args op) {out : List GVal} {s' : GSt}
    (hr : G.run (programOf U fs) rt d e.type.getName name args s = .ok (out, s')) :
    out = returned op ∧ (∃ f ∈ fs, some e.type ∈ f.messageType) ∧ s'.h.w.WF (s'.h.ms i) ∧ i < s'.next ∧ s.next ≤ s'.next ∧ (∀ j, j ≠ i → j < s.next → s'.h.ms j = s.h.ms j) ∧
    (∃ (hv : ValidDesc e.type) (rs : List Record), Tracks (schemaOf e.type hv) (s'.h.w.msg (s'.h.ms i)) rs (op.apply e.contents)) ∧
    Effect s s' i args op ∧ s'.its = s.its := by
  obtain ⟨⟨f, hf, hm⟩, hn, hw, hv, rs, ht⟩ := h.struct i e hi
  have hdi := decls_implements U e.type hv
  have hsub := sub_of (U := U) hf hm
  have hiss := calls_issues hv hcall
  obtain ⟨hval, hf'⟩ := C63_call hc.program hc.closed hdi hsub rt d hw ht.1.off_length hn hiss
  have heff := call_effect hc.program hc.closed hdi hsub hw hn hiss hr
  rcases ht.step op hval with ⟨m', rs', e1, e2, _⟩ | ⟨e1, _⟩
  · rw [e1] at hf'
    obtain ⟨s1, f1, f2, f3, f4, f5⟩ := hf'
    rw [hr] at f1
    injection f1 with f1
    injection f1 with f0 f1
    subst f1
    exact ⟨f0, ⟨f, hf, hm⟩, f3, Nat.lt_of_lt_of_le hn f4, f4, f5, ⟨hv, rs', by rw [f2]; exact e2⟩, heff⟩
  · rw [e1, hr] at hf'
    cases hf'

theorem owns_nil {a q : Nat} : ¬ HSlice.nil.owns a q := by
  rintro ⟨_, _, h⟩; simp [HSlice.nil] at h

/-- A call of `SetName` or `AppendToName`. -/
theorem Inv.set (hc : Compilable U fs pkg) (h : Inv U fs s g) {i : Nat} {m : Desc} {c : Contents} (hi : g.structs i = some ⟨m, none, c⟩) {rt : Rt} {d : Nat} {name : Text} {args : List GVal}
    {op : Zeropb.Op} (hcall : Calls U m rt i s name args op) (hop : Writes op) {out : List GVal} {s' : GSt}
    (hr : G.run (programOf U fs) rt d m.getName name args s = .ok (out, s')) : Inv U fs s' ((g.drop i).put i ⟨m, none, op.apply c⟩) := by
  obtain ⟨_, a1, a2, a3, a4, a5, a6, a7, a8⟩ := call_tracks hc h (e := ⟨m, none, c⟩) hi hcall hr
  have hfr : Frame s.h.w s'.h.w (s.h.ms i) (s'.h.ms i) := by cases op <;> first | exact a7 | cases hop
  refine h.update ⟨hfr.bytes.grow, hfr.bytes.size, hfr.mgrow⟩ a4 (fun j e hj hne => a5 j hne (h.struct j e hj).2.1) ?_ ?_ (fun v k _ => by rw [a8]) a1 a3 a2 a6 ?_ (fun o ho => by cases ho) ?_
  · intro j e hj hne hv a q ho
    exact hfr.bytes.cells a q ((h.struct j e hj).2.2.1.1.cell_lt ho) (h.bufs j i e _ hne hj hi hv rfl a q ho)
  · intro j e id hj hne hid
    exact hfr.maps id ((h.struct j e hj).2.2.1.2 id hid) (h.maps j i e _ hne hj hi id hid)
  · intro _ j e hj hne hv a q ho hoj
    rcases hfr.bytes.owned a q ho with h3 | h3
    · exact h.bufs j i e _ hne hj hi hv rfl a q hoj h3
    · have := (h.struct j e hj).2.2.1.1.cell_lt hoj
      omega
  · intro j e id hj hne h1 h2
    have hid := (h.struct j e hj).2.2.1.2 id h2
    rcases hfr.mown with h3 | ⟨id', h3, h4⟩
    · exact h.maps j i e _ hne hj hi id h2 (h3 ▸ h1)
    · rw [h3] at h1
      simp only [Option.some.injEq] at h1
      omega

/-- A call of `Reset` or `Decode`. -/
theorem Inv.fill (hc : Compilable U fs pkg) (h : Inv U fs s g) {i : Nat} {e : Entry} (hi : g.structs i = some e) {rt : Rt} {d : Nat} {name : Text} {args : List GVal}
    {op : Zeropb.Op} (hcall : Calls U e.type rt i s name args op) (hop : ¬ Writes op) {out : List GVal} {s' : GSt}
    (hr : G.run (programOf U fs) rt d e.type.getName name args s = .ok (out, s')) (v : Option Nat)
    (hown : v = none → ∀ b, .val (.bytes (.mem b)) ∈ args → g.Free s i b)
    (hview : ∀ o, v = some o → o ≠ i ∧ ∃ eo, g.structs o = some eo ∧ eo.view = none ∧ ∀ b, .val (.bytes (.mem b)) ∈ args → Within b (s.h.ms o).buf) :
    Inv U fs s' ((g.drop i).put i ⟨e.type, v, op.apply e.contents⟩) := by
  obtain ⟨_, a1, a2, a3, a4, a5, a6, a7, a8⟩ := call_tracks hc h hi hcall hr
  have hfr : s'.h.w.arrs = s.h.w.arrs ∧ Frame s.h.w s'.h.w (s.h.ms i) { s'.h.ms i with buf := (s.h.ms i).buf } ∧
      ((s'.h.ms i).buf = .nil ∨ .val (.bytes (.mem (s'.h.ms i).buf)) ∈ args) := by
    cases op <;> first | exact a7 | exact absurd trivial hop
  obtain ⟨harr, hfr, hbuf⟩ := hfr
  have hcell : ∀ a q, s'.h.w.cell a q = s.h.w.cell a q := by intro a q; unfold World.cell World.arr; rw [harr]
  refine h.update ⟨hfr.bytes.grow, hfr.bytes.size, hfr.mgrow⟩ a4 (fun j e hj hne => a5 j hne (h.struct j e hj).2.1) (fun _ _ _ _ _ a q _ => hcell a q) ?_ (fun v k _ => by rw [a8]) a1 a3 a2 a6 ?_ ?_ ?_
  · intro j e id hj hne hid
    exact hfr.maps id ((h.struct j e hj).2.2.1.2 id hid) (h.maps j i e _ hne hj hi id hid)
  · intro hv j e hj hne hve a q ho
    rcases hbuf with hb | hb
    · rw [hb] at ho; exact absurd ho owns_nil
    · exact hown hv _ hb j e hj hve hne a q ho
  · intro o ho
    obtain ⟨o1, eo, o2, o3, o4⟩ := hview o ho
    refine ⟨o1, eo, o2, o3, ?_⟩
    rcases hbuf with hb | hb
    · intro a q ho; rw [hb] at ho; exact absurd ho owns_nil
    · exact o4 _ hb
  · intro j e id hj hne h1 h2
    have hid := (h.struct j e hj).2.2.1.2 id h2
    rcases hfr.mown with h3 | ⟨id', h3, h4⟩
    · exact h.maps j i e _ hne hj hi id h2 ((show (s'.h.ms i).m = _ from h3) ▸ h1)
    · rw [show (s'.h.ms i).m = _ from h3] at h1
      simp only [Option.some.injEq] at h1
      omega

/-- A view is made: `Decode` of bytes of struct `o`. -/
theorem Inv.decodeView (hc : Compilable U fs pkg) (h : Inv U fs s g) {i o : Nat} {e eo : Entry} (hi : g.structs i = some e) (ho : g.structs o = some eo) (hv : eo.view = none) (hne : i ≠ o)
    {b : HSlice} {rs : List Record} (hb : s.h.w.WFs b) (hin : Within b (s.h.ms o).buf) (hl : b.len < maxLen) (hm : IsMinTagMessage rs (s.h.w.slice b).data) (hcf : Conforms e.type rs)
    {rt : Rt} {d : Nat} {out : List GVal} {s' : GSt}
    (hr : G.run (programOf U fs) rt d e.type.getName t!"Decode" [.ptr e.type.getName i, .val (.bytes (.mem b))] s = .ok (out, s')) :
    Inv U fs s' ((g.drop i).put i ⟨e.type, some o, .ofRecords rs⟩) ∧ out = [.val .nil] := by
  have hcall : Calls U e.type rt i s t!"Decode" [.ptr e.type.getName i, .val (.bytes (.mem b))] (.decode (s.h.w.slice b) rs) := .decode hb hl hm hcf
  refine ⟨h.fill hc hi hcall (fun hw => hw) hr (some o) (fun h => by cases h) ?_, (call_tracks hc h hi hcall hr).1⟩
  intro o' e'
  injection e' with e'
  subst e'
  refine ⟨Ne.symm hne, eo, ho, hv, ?_⟩
  intro b' hb'
  simp only [List.mem_cons, List.not_mem_nil, or_false, reduceCtorEq, false_or] at hb'
  cases hb'
  exact hin

theorem payload_length {r : Record} {bs data : List Byte} {rs : List Record} (h : IsMinTagMessage rs data) (hr : r ∈ rs) (hv : r.val = .bytes bs) : bs.length ≤ data.length := by
  induction h with
  | nil => cases hr
  | @cons r' rs' d rest h1 _ ih =>
    rw [List.length_append]
    rcases List.mem_cons.1 hr with rfl | hr
    · obtain ⟨tag, pay, rfl, _, h3⟩ := h1
      rw [hv] at h3
      obtain ⟨lb, _, rfl⟩ := h3
      simp only [List.length_append]
      omega
    · have := ih hr
      omega

/-- Values in a message are shorter than any slice can be. -/
theorem tracks_short {S : Schema} {m : Msg} {rs : List Record} {c : Contents} (h : Tracks S m rs c) :
    (∀ f bs, S.rep f = false → c.sing f = some (.bytes bs) → bs.length < maxLen) ∧ (∀ f bs, S.rep f = true → S.kind f = some .bytes → bs ∈ c.elems f → bs.length < maxLen) := by
  obtain ⟨h1, _, h3, h4, _⟩ := h
  have hl : m.buf.data.length < maxLen := by obtain ⟨cs, hr, _⟩ := h1; exact hr.len
  have hm := h1.isMessage
  refine ⟨fun f bs hf hs => ?_, fun f bs hf hk hs => ?_⟩
  · have := h3 f hf
    rw [hs] at this
    simp only [lastVal, Option.map_eq_some_iff] at this
    obtain ⟨r, r1, r2⟩ := this
    have := payload_length hm (List.mem_filter.1 (List.mem_of_getLast? r1)).1 r2
    omega
  · have := h4 f hf hk
    have hb : Wire.Val.bytes bs ∈ allVals f rs := by rw [this]; exact List.mem_map.2 ⟨bs, hs, rfl⟩
    simp only [allVals, List.mem_map] at hb
    obtain ⟨r, r1, r2⟩ := hb
    have := payload_length hm (List.mem_filter.1 r1).1 r2
    omega

theorem Inv.shows (hc : Compilable U fs pkg) (h : Inv U fs s g) {i : Nat} {e : Entry} (hi : g.structs i = some e) : Shows U (programOf U fs) e.type i s e.contents := by
  obtain ⟨⟨f, hf, hm⟩, hn, hw, hv, rs, ht⟩ := h.struct i e hi
  exact shows_of hc hf hm hv hw hn ht

/-- `Decode` of a valid message returns nil. -/
theorem Inv.decode_ok (hc : Compilable U fs pkg) (h : Inv U fs s g) {i : Nat} {e : Entry} (hi : g.structs i = some e)
    {b : HSlice} {rs : List Record} (hb : s.h.w.WFs b) (hl : b.len < maxLen) (hm : IsMinTagMessage rs (s.h.w.slice b).data) (hcf : Conforms e.type rs) (rt : Rt) (d : Nat) :
    ∃ s', G.run (programOf U fs) rt d e.type.getName t!"Decode" [.ptr e.type.getName i, .val (.bytes (.mem b))] s = .ok ([.val .nil], s') := by
  obtain ⟨⟨f, hf, hmt⟩, hn, hw, hv, rs', ht⟩ := h.struct i e hi
  have hiss := calls_issues (U := U) (rt := rt) (i := i) hv (.decode hb hl hm hcf)
  obtain ⟨hval, hf'⟩ := C63_call hc.program hc.closed (decls_implements U e.type hv) (sub_of hf hmt) rt d hw ht.1.off_length hn hiss
  obtain ⟨v, d1, _⟩ := decode_holdsMin (S := schemaOf e.type hv) (m := s.h.w.msg (s.h.ms i)) (buf := s.h.w.slice b) ht.1.off_length hval.2.2 hm (fun r hr => (hval.2.1 r hr).1)
  have hq : Op.run (schemaOf e.type hv) (.decode (s.h.w.slice b) rs) (s.h.w.msg (s.h.ms i)) = .ok v := by simp only [Op.run, d1]; rfl
  rw [hq] at hf'
  obtain ⟨s1, f1, _⟩ := hf'
  exact ⟨s1, f1⟩

theorem slice_data_length {w : World} {b : HSlice} (hb : w.WFs b) : (w.slice b).data.length = b.len := World.slice_len hb

/-- `x.Name(y)`. -/
theorem Inv.message (hc : Compilable U fs pkg) (h : Inv U fs s g) {i j : Nat} {e e' : Entry} {fd : Field} {bs : List Byte} {rs : List Record} (hi : g.structs i = some e)
    (hfd : MessageField e.type fd) (hj : g.structs j = some e') (hname : e'.type.getName = goType fd) (hs : e.contents.sing (num fd) = some (.bytes bs))
    (hm : IsMinTagMessage rs bs) (hcf : Conforms e'.type rs) (rt : Rt) (d : Nat) :
    ∃ s', G.run (programOf U fs) rt d e.type.getName (goName U fd) [.ptr e.type.getName i, .ptr (goType fd) j] s = .ok ([.val (.bool true), .val .nil], s') ∧
      (j ≠ e.root i → Inv U fs s' ((g.drop j).put j ⟨e'.type, some (e.root i), .ofRecords rs⟩)) := by
  rcases (h.shows hc hi).message fd hfd rt d j (h.struct j e' hj).2.2.1 with ⟨h1, _⟩ | ⟨bs', b, h1, h2, h3, h4, h5⟩
  · rw [hs] at h1; cases h1
  · rw [hs] at h1
    cases h1
    have hl : b.len < maxLen := by
      obtain ⟨_, _, _, hv, rs', ht⟩ := h.struct i e hi
      rw [← slice_data_length h3, h4]
      exact (tracks_short ht).1 (num fd) bs (message_schema hv hfd).2 hs
    rw [← h4] at hm
    obtain ⟨s', hr⟩ := h.decode_ok hc hj h3 hl hm hcf rt d
    rw [h5, ← hname, hr]
    refine ⟨s', rfl, fun hne => ?_⟩
    obtain ⟨er, r1, r2, r3⟩ := h.root hi
    exact (h.decodeView hc hj r1 r2 hne h3 (h2.trans r3) hl hm hcf hr).1

/-- `it.Next(y)`. -/
theorem Inv.next (hc : Compilable U fs pkg) (h : Inv U fs s g) {v j o : Nat} {e' : Entry} {m : Desc} {fd : Field} {bs : List Byte} {rest : List (List Byte)} {rs : List Record}
    (hv : g.iters v = some ⟨m, fd, o, bs :: rest⟩) (hj : g.structs j = some e') (hname : e'.type.getName = goType fd)
    (hm : IsMinTagMessage rs bs) (hcf : Conforms e'.type rs) (rt : Rt) (d : Nat) :
    ∃ s', G.run (programOf U fs) rt d (iterOf m fd) t!"Next" [.iter (iterOf m fd) v, .ptr (goType fd) j] s = .ok ([.val (.bool true), .val .nil], s') ∧
      (j ≠ o → Inv U fs s' (((g.point v ⟨m, fd, o, rest⟩).drop j).put j ⟨e'.type, some o, .ofRecords rs⟩)) := by
  obtain ⟨⟨eo, o1, o2⟩, B, w0, its, n, els, b1, b2, b3, b4, b5, b6, b7⟩ := h.iters v _ hv
  simp only at b1 b5 b7 o1
  have hn : n < els.length := by
    rcases Nat.lt_or_ge n els.length with hn | hn
    · exact hn
    · rw [List.drop_eq_nil_of_le hn] at b5; cases b5
  have hcons := List.drop_eq_getElem_cons hn
  rw [← b5] at hcons
  injection hcons with c1 c2
  obtain ⟨b, e1, e2, e3, e4⟩ := (b7.1 n v j s b3 b4 (h.struct j e' hj).2.2.1 rt d).1 hn
  have hp : Inv U fs { s with its := fun u => if u = v then its (n + 1) else s.its u } (g.point v ⟨m, fd, o, rest⟩) :=
    h.point ⟨eo, o1, o2⟩ ⟨B, w0, its, n + 1, els, b1, b2, b3, rfl, c2, b6, b7⟩
  rw [← c1] at e3
  have hl : b.len < maxLen := by
    rw [← slice_data_length e2, e3, c1]
    exact b6 _ (List.getElem_mem hn)
  rw [← e3] at hm
  obtain ⟨s', hr⟩ := hp.decode_ok hc (i := j) (e := e') hj e2 hl hm hcf rt d
  rw [e4, ← hname, hr]
  refine ⟨s', rfl, fun hne => ?_⟩
  exact (hp.decodeView hc (i := j) (e := e') (o := o) (eo := eo) hj o1 o2 hne e2 (e1.trans b1) hl hm hcf hr).1

/-- `it := x.Name()`. -/
theorem Inv.iterate (hc : Compilable U fs pkg) (h : Inv U fs s g) {i : Nat} {e : Entry} {fd : Field} (hi : g.structs i = some e) (hfd : RepeatedField e.type fd) (v : Nat) {rt : Rt} {d : Nat}
    {o : Option HSlice} {s' : GSt} (hr : G.run (programOf U fs) rt d e.type.getName (goName U fd) [.ptr e.type.getName i] s = .ok ([.val (optBytes o)], s')) :
    Inv U fs { s' with its := fun u => if u = v then o else s'.its u } (g.point v ⟨e.type, fd, e.root i, e.contents.elems (num fd)⟩) := by
  obtain ⟨⟨f, hf, hm⟩, hn, hw, hv, rs, ht⟩ := h.struct i e hi
  obtain ⟨its, i1, i2⟩ := iterates_of hc hf hm hv hw ht hfd
  rw [i1] at hr
  injection hr with hr
  injection hr with hr1 hr2
  subst hr2
  have ho : o = its 0 := by
    cases o <;> cases hz : its 0 <;> simp [optBytes, hz] at hr1 ⊢
    exact hr1.symm
  obtain ⟨er, r1, r2, r3⟩ := h.root hi
  refine h.point ⟨er, r1, r2⟩ ⟨(s.h.ms i).buf, s.h.w, its, 0, _, r3, hw.1, ⟨hw.1, rfl⟩, ho, rfl, ?_, i2.1, i2.2, ⟨f, hf, hm⟩, hfd⟩
  intro x hx
  exact (tracks_short ht).2 (num fd) x (repeated_schema hv hfd).2 (repeated_schema hv hfd).1 hx

/-- `var x T`. -/
theorem Inv.new (hc : Compilable U fs pkg) (h : Inv U fs s g) {f : FileDesc} {m : Desc} (hf : f ∈ fs) (hm : some m ∈ f.messageType) :
    Inv U fs ⟨s.h.put s.next (.zero (slotsOf m)), s.next + 1, s.its⟩ (g.put s.next ⟨m, none, .empty⟩) := by
  have hd : g = g.drop s.next := by
    cases g with
    | mk st it =>
      simp only [Known.drop, Known.mk.injEq]
      refine ⟨funext fun j => ?_, funext fun v => ?_⟩
      · cases hj : st j with
        | none => rfl
        | some e =>
          simp only [Option.filter_some]
          rw [if_pos]
          simp only [decide_eq_true_eq]
          intro he
          obtain ⟨eo, o1, _⟩ := h.views j e _ hj he
          have := (h.struct _ eo o1).2.1
          omega
      · cases hv : it v with
        | none => rfl
        | some k =>
          simp only [Option.filter_some]
          rw [if_pos]
          simp only [decide_eq_true_eq]
          intro he
          obtain ⟨⟨eo, o1, _⟩, _⟩ := h.iters v k hv
          have := (h.struct _ eo o1).2.1
          omega
  have hz : ((s.h.put s.next (.zero (slotsOf m))).ms s.next) = .zero (slotsOf m) := by simp [Heap.put]
  have hlt : ∀ j e, g.structs j = some e → (s.h.put s.next (.zero (slotsOf m))).ms j = s.h.ms j := by
    intro j e hj
    have := (h.struct j e hj).2.1
    simp [Heap.put, Nat.ne_of_lt this]
  have hv := hc.valid f hf m hm
  obtain ⟨z1, z2⟩ := start_tracks (S := schemaOf m hv) (i := s.next) (s := ⟨s.h.put s.next (.zero (slotsOf m)), s.next + 1, s.its⟩) hz
  have := h.update (s' := ⟨s.h.put s.next (.zero (slotsOf m)), s.next + 1, s.its⟩) (i := s.next) (e' := ⟨m, none, .empty⟩) ⟨Nat.le_refl _, fun _ _ => rfl, Nat.le_refl _⟩ (Nat.le_succ _) (fun j e hj _ => hlt j e hj) (fun _ _ _ _ _ _ _ _ => rfl)
    (fun _ _ _ _ _ _ => rfl) (fun _ _ _ => rfl) ⟨f, hf, hm⟩ (Nat.lt_succ_self _) z1 ⟨hv, [], z2⟩ ?_ (fun o ho => by cases ho) ?_
  · rw [← hd] at this; exact this
  · intro _ j e _ _ _ a q ho
    simp only [hz] at ho
    exact absurd ho owns_nil
  · intro j e id _ _ h1
    simp only [hz] at h1
    cases h1

theorem Inv.step (hc : Compilable U fs pkg) (h : Inv U fs s g) {s' : GSt} {g' : Known} (hs : Step U fs s g s' g') : Inv U fs s' g' := by
  cases hs with
  | new h1 h2 => exact h.new hc h1 h2
  | set h1 h2 h3 h4 => exact h.set hc h1 h2 h3 h4
  | fill h1 h2 h3 h4 h5 => exact h.fill hc h1 h2 h3 h5 none (fun _ => h4) (fun o ho => by cases ho)
  | view h1 h2 h3 h4 h5 h6 h7 =>
    cases h6 with
    | decode a1 a2 a3 a4 => exact (h.decodeView hc h1 h2 h3 (Ne.symm h4) a1 h5 a2 a3 a4 h7).1
  | @message i e fd j e' bs rs rt d out s' h1 h2 h3 h4 h5 h6 h7 h8 h9 =>
    obtain ⟨s1, r1, r2⟩ := h.message hc h1 h2 h3 h4 h6 h7 h8 rt d
    rw [r1] at h9
    injection h9 with h9; injection h9 with _ h9; subst h9
    exact r2 h5
  | iterate h1 h2 h3 => exact h.iterate hc h1 h2 _ h3
  | @next v m fd o bs rest j e' rs rt d out s' h1 h2 h3 h4 h5 h6 h7 =>
    obtain ⟨s1, r1, r2⟩ := h.next hc h1 h2 h3 h5 h6 rt d
    rw [r1] at h7
    injection h7 with h7; injection h7 with _ h7; subst h7
    exact r2 h4
  | other h1 => exact h.other h1
  | forget => exact h.forget _

theorem reach_inv (hc : Compilable U fs pkg) {s0 : GSt} (h : Reach U fs s0 s g) : Inv U fs s g := by
  induction h with
  | start => exact ⟨nofun, nofun, nofun, nofun, nofun⟩
  | step _ hs ih => exact ih.step hc hs

/-! ## C66 -/

/-- C66: at every moment of every run, every struct is seen, through the methods of the generated program, as its record of the calls made on it, and
every iterator yields the elements that it has not yielded yet. -/
theorem C66_programs (hc : Compilable U fs pkg) {s0 : GSt} (h : Reach U fs s0 s g) :
    (∀ i e, g.structs i = some e → Shows U (programOf U fs) e.type i s e.contents) ∧ (∀ v k, g.iters v = some k → Points (programOf U fs) s v k) := by
  have hinv := reach_inv hc h
  refine ⟨fun i e hi => hinv.shows hc hi, fun v k hv => ?_⟩
  obtain ⟨_, B, w0, its, n, els, b1, b2, b3, b4, b5, b6, b7⟩ := hinv.iters v k hv
  refine ⟨fun bs rest hk rt d j hj => ?_, fun hk rt d j hj => ?_⟩
  · rw [hk] at b5
    have hn : n < els.length := by
      rcases Nat.lt_or_ge n els.length with hn | hn
      · exact hn
      · rw [List.drop_eq_nil_of_le hn] at b5; cases b5
    have hcons := List.drop_eq_getElem_cons hn
    rw [← b5] at hcons
    injection hcons with c1 c2
    obtain ⟨b, e1, e2, e3, e4⟩ := (b7.1 n v j s b3 b4 hj rt d).1 hn
    exact ⟨b, its (n + 1), e1.trans b1, e2, by rw [e3, c1], e4⟩
  · rw [hk] at b5
    have hn : els.length ≤ n := by
      rcases Nat.lt_or_ge n els.length with hn | hn
      · rw [List.drop_eq_getElem_cons hn] at b5; cases b5
      · exact hn
    exact (b7.1 n v j s b3 b4 hj rt d).2 hn

/-- C66: a getter of a message field whose value is a valid message reports presence and a nil error. -/
theorem C66_message (hc : Compilable U fs pkg) {s0 : GSt} (h : Reach U fs s0 s g) {i j : Nat} {e e' : Entry} {fd : Field} {bs : List Byte} {rs : List Record} (hi : g.structs i = some e)
    (hfd : MessageField e.type fd) (hj : g.structs j = some e') (hname : e'.type.getName = goType fd) (hs : e.contents.sing (num fd) = some (.bytes bs))
    (hm : IsMinTagMessage rs bs) (hcf : Conforms e'.type rs) (rt : Rt) (d : Nat) :
    ∃ s', G.run (programOf U fs) rt d e.type.getName (goName U fd) [.ptr e.type.getName i, .ptr (goType fd) j] s = .ok ([.val (.bool true), .val .nil], s') := by
  obtain ⟨s', h1, _⟩ := (reach_inv hc h).message hc hi hfd hj hname hs hm hcf rt d
  exact ⟨s', h1⟩

/-- C66: an iterator that has not come to its end, and whose next element is a valid message, reports another element and a nil error. -/
theorem C66_next (hc : Compilable U fs pkg) {s0 : GSt} (h : Reach U fs s0 s g) {v j o : Nat} {e' : Entry} {m : Desc} {fd : Field} {bs : List Byte} {rest : List (List Byte)} {rs : List Record}
    (hv : g.iters v = some ⟨m, fd, o, bs :: rest⟩) (hj : g.structs j = some e') (hname : e'.type.getName = goType fd)
    (hm : IsMinTagMessage rs bs) (hcf : Conforms e'.type rs) (rt : Rt) (d : Nat) :
    ∃ s', G.run (programOf U fs) rt d (iterOf m fd) t!"Next" [.iter (iterOf m fd) v, .ptr (goType fd) j] s = .ok ([.val (.bool true), .val .nil], s') := by
  obtain ⟨s', h1, _⟩ := (reach_inv hc h).next hc hv hj hname hm hcf rt d
  exact ⟨s', h1⟩

/-- The struct `j` may be given to a setter of struct `i`, unless it reads the memory of struct `i`. -/
theorem Inv.apart (h : Inv U fs s g) {i j : Nat} {e e' : Entry} (hi : g.structs i = some e) (hv : e.view = none) (hj : g.structs j = some e') (hne : e'.root j ≠ i) :
    (Src.mem (s.h.ms j).buf).Apart s.h.w (s.h.ms i).buf := by
  obtain ⟨er, r1, r2, r3⟩ := h.root hj
  have hw := (h.struct j e' hj).2.2.1.1
  refine ⟨hw, fun q h1 h2 ho => ?_⟩
  exact h.bufs _ i er e hne r1 hi r2 hv _ q (r3 _ q ⟨rfl, h1, by have := hw.1; omega⟩) ho

theorem src_mem (w : World) (b : HSlice) : w.src (.mem b) = (w.slice b).data := rfl

/-- The bytes that `Encode` returns. -/
def Encoded (p : Program) (m : Desc) (i : Nat) (s : GSt) (bs : List Byte) : Prop :=
  ∃ b, (∀ rt d, G.run p rt d m.getName t!"Encode" [.ptr m.getName i] s = .ok ([.val (.bytes (.mem b))], s)) ∧ (s.h.w.slice b).data = bs

/-- C66: `x.SetName(y)`, with `x` and `y` any two structs of the program, of the right types, unless `y` is a view of `x`: it returns, if the message does not grow too long, and
then the field holds the bytes that `y.Encode()` returned. -/
theorem C66_compose (hc : Compilable U fs pkg) {s0 : GSt} (h : Reach U fs s0 s g) {i j : Nat} {m : Desc} {c : Contents} {e' : Entry} {fd : Field} (hi : g.structs i = some ⟨m, none, c⟩)
    (hfd : MessageField m fd) (hj : g.structs j = some e') (hne : e'.root j ≠ i) (hlen : (s.h.ms i).buf.len + 20 + (s.h.ms j).buf.len < maxLen) (rt : Rt) (d : Nat) :
    ∃ s' bs, Encoded (programOf U fs) e'.type j s bs ∧
      G.run (programOf U fs) rt d m.getName (t!"Set" ++ goName U fd) [.ptr m.getName i, .struct (goType fd) j] s = .ok ([], s') ∧
      Reach U fs s0 s' ((g.drop i).put i ⟨m, none, c.set (num fd) (.bytes bs)⟩) := by
  have hinv := reach_inv hc h
  have hap := hinv.apart hi rfl hj hne
  have hcall : Calls U m rt i s (t!"Set" ++ goName U fd) [.ptr m.getName i, .struct (goType fd) j] (.set rt (num fd) .bytes (s.h.w.src (.mem (s.h.ms j).buf))) :=
    .setMessage hfd hap (by omega)
  have hl : (s.h.w.src (.mem (s.h.ms j).buf)).length = (s.h.ms j).buf.len := slice_data_length hap.1
  obtain ⟨s', r1, _⟩ := (hinv.shows hc hi).calls rt d _ _ _ hcall (by
    show (s.h.ms i).buf.len + (20 + Kind.size .bytes _) < maxLen
    simp only [Kind.size]
    omega)
  obtain ⟨⟨f, hf, hm⟩, _⟩ := hinv.struct j e' hj
  refine ⟨s', s.h.w.src (.mem (s.h.ms j).buf), ⟨(s.h.ms j).buf, fun rt d => C63_encode hc.program rt d s (sub_of hf hm _ (by simp [messageDecls])), rfl⟩, r1,
    .step h (.set hi hcall trivial r1)⟩

/-- C66: `x.AppendToName(y)`, likewise. -/
theorem C66_append (hc : Compilable U fs pkg) {s0 : GSt} (h : Reach U fs s0 s g) {i j : Nat} {m : Desc} {c : Contents} {e' : Entry} {fd : Field} (hi : g.structs i = some ⟨m, none, c⟩)
    (hfd : RepeatedField m fd) (hj : g.structs j = some e') (hne : e'.root j ≠ i) (hlen : (s.h.ms i).buf.len + 20 + (s.h.ms j).buf.len < maxLen) (rt : Rt) (d : Nat) :
    ∃ s' bs, Encoded (programOf U fs) e'.type j s bs ∧
      G.run (programOf U fs) rt d m.getName (t!"AppendTo" ++ goName U fd) [.ptr m.getName i, .struct (goType fd) j] s = .ok ([], s') ∧
      Reach U fs s0 s' ((g.drop i).put i ⟨m, none, c.append (num fd) bs⟩) := by
  have hinv := reach_inv hc h
  have hap := hinv.apart hi rfl hj hne
  have hcall : Calls U m rt i s (t!"AppendTo" ++ goName U fd) [.ptr m.getName i, .struct (goType fd) j] (.append rt (num fd) (s.h.w.src (.mem (s.h.ms j).buf))) :=
    .append hfd hap (by omega)
  have hl : (s.h.w.src (.mem (s.h.ms j).buf)).length = (s.h.ms j).buf.len := slice_data_length hap.1
  obtain ⟨s', r1, _⟩ := (hinv.shows hc hi).calls rt d _ _ _ hcall (by
    show (s.h.ms i).buf.len + (20 + (s.h.w.src (.mem (s.h.ms j).buf)).length) < maxLen
    omega)
  obtain ⟨⟨f, hf, hm⟩, _⟩ := hinv.struct j e' hj
  refine ⟨s', s.h.w.src (.mem (s.h.ms j).buf), ⟨(s.h.ms j).buf, fun rt d => C63_encode hc.program rt d s (sub_of hf hm _ (by simp [messageDecls])), rfl⟩, r1,
    .step h (.set hi hcall trivial r1)⟩

/-- Two records agree on the fields of a message type. -/
def SameFields (m : Desc) (c c' : Contents) : Prop :=
  (∀ fd, (∃ k, ScalarField m fd k) ∨ MessageField m fd → c.sing (num fd) = c'.sing (num fd)) ∧
  (∀ fd, RepeatedField m fd → c.elems (num fd) = c'.elems (num fd))

/-- C66: a struct stored in a field and read back into another struct `k` comes back field by field. -/
theorem C66_roundtrip (hc : Compilable U fs pkg) {s0 : GSt} (h : Reach U fs s0 s g) {i j k : Nat} {m : Desc} {c : Contents} {e' ek : Entry} {fd : Field} (hi : g.structs i = some ⟨m, none, c⟩)
    (hfd : MessageField m fd) (hj : g.structs j = some e') (hne : e'.root j ≠ i) (hk : g.structs k = some ek) (hki : ek.root k ≠ i) (hkk : k ≠ i)
    (hname : ek.type.getName = goType fd) (htype : e'.type = ek.type)
    (hlen : (s.h.ms i).buf.len + 20 + (s.h.ms j).buf.len < maxLen) (rt : Rt) (d : Nat) :
    ∃ s1 s2 c', G.run (programOf U fs) rt d m.getName (t!"Set" ++ goName U fd) [.ptr m.getName i, .struct (goType fd) j] s = .ok ([], s1) ∧
      G.run (programOf U fs) rt d m.getName (goName U fd) [.ptr m.getName i, .ptr (goType fd) k] s1 = .ok ([.val (.bool true), .val .nil], s2) ∧
      Shows U (programOf U fs) ek.type k s2 c' ∧ SameFields ek.type c' e'.contents ∧
      ∃ bs, Encoded (programOf U fs) e'.type j s bs ∧ Shows U (programOf U fs) m i s2 (c.set (num fd) (.bytes bs)) := by
  obtain ⟨s1, bs, ⟨b, b1, b2⟩, r1, r2⟩ := C66_compose hc h hi hfd hj hne hlen rt d
  obtain ⟨b', rs, e1, e2, e3, e4, e5, e6⟩ := (C66_programs hc h).1 j e' hj |>.encode
  have : b' = b := by
    have h1 := b1 rt d
    rw [e1 rt d] at h1
    cases h1; rfl
  subst this
  rw [b2] at e3
  have hk1 : ((g.drop i).put i ⟨m, none, c.set (num fd) (.bytes bs)⟩).structs k = some ek := by
    simp only [Known.put, if_neg hkk]
    refine drop_structs.2 ⟨hk, fun hv => hki ?_⟩
    simp [Entry.root, hv]
  have hi1 : ((g.drop i).put i ⟨m, none, c.set (num fd) (.bytes bs)⟩).structs i = some ⟨m, none, c.set (num fd) (.bytes bs)⟩ := by simp [Known.put]
  have hs : (c.set (num fd) (.bytes bs)).sing (num fd) = some (.bytes bs) := by simp [Contents.set]
  rw [htype] at e4 e5 e6
  obtain ⟨s2, q1⟩ := C66_message hc r2 hi1 hfd hk1 hname hs e3 e4 rt d
  have r3 := Reach.step r2 (.message hi1 hfd hk1 hname (by simpa [Entry.root] using hkk) hs e3 e4 q1)
  refine ⟨s1, s2, .ofRecords rs, r1, q1, (C66_programs hc r3).1 k ⟨ek.type, some i, .ofRecords rs⟩ (by simp [Known.put, Entry.root]), ⟨?_, ?_⟩, bs, ⟨b', b1, b2⟩,
    (C66_programs hc r3).1 i ⟨m, none, c.set (num fd) (.bytes bs)⟩ (by
      have : ∀ e, (((g.drop i).put i ⟨m, none, c.set (num fd) (.bytes bs)⟩).drop k).structs i = some e ↔ _ := fun e => drop_structs
      show (if i = k then _ else (((g.drop i).put i ⟨m, none, c.set (num fd) (.bytes bs)⟩).drop k).structs i) = _
      rw [if_neg (Ne.symm hkk)]
      exact (this _).2 ⟨hi1, nofun⟩)⟩
  · intro fd' hfd'
    exact e5 fd' hfd'
  · intro fd' hfd'
    have := e6 fd' hfd'
    simp only [Contents.ofRecords, this, filterMap_bytes]

/-- C66: a struct appended to a repeated field that had no elements comes back from an iterator, field by field, as its only element. -/
theorem C66_append_iterate (hc : Compilable U fs pkg) {s0 : GSt} (h : Reach U fs s0 s g) {i j k : Nat} {m : Desc} {c : Contents} {e' ek : Entry} {fd : Field} (hi : g.structs i = some ⟨m, none, c⟩)
    (hfd : RepeatedField m fd) (hnil : c.elems (num fd) = []) (hj : g.structs j = some e') (hne : e'.root j ≠ i) (hk : g.structs k = some ek) (hki : ek.root k ≠ i) (hkk : k ≠ i)
    (hname : ek.type.getName = goType fd) (htype : e'.type = ek.type)
    (hlen : (s.h.ms i).buf.len + 20 + (s.h.ms j).buf.len < maxLen) (rt : Rt) (d v : Nat) :
    ∃ s1 s2 o c', G.run (programOf U fs) rt d m.getName (t!"AppendTo" ++ goName U fd) [.ptr m.getName i, .struct (goType fd) j] s = .ok ([], s1) ∧
      G.run (programOf U fs) rt d m.getName (goName U fd) [.ptr m.getName i] s1 = .ok ([.val (optBytes o)], s1) ∧
      G.run (programOf U fs) rt d (iterOf m fd) t!"Next" [.iter (iterOf m fd) v, .ptr (goType fd) k] { s1 with its := fun u => if u = v then o else s1.its u } =
        .ok ([.val (.bool true), .val .nil], s2) ∧
      Shows U (programOf U fs) ek.type k s2 c' ∧ SameFields ek.type c' e'.contents ∧
      ∀ l, s2.h.w.WF (s2.h.ms l) → G.run (programOf U fs) rt d (iterOf m fd) t!"Next" [.iter (iterOf m fd) v, .ptr (goType fd) l] s2 = .ok ([.val (.bool false), .val .nil], s2) := by
  obtain ⟨s1, bs, ⟨b, b1, b2⟩, r1, r2⟩ := C66_append hc h hi hfd hj hne hlen rt d
  obtain ⟨b', rs, e1, e2, e3, e4, e5, e6⟩ := (C66_programs hc h).1 j e' hj |>.encode
  have : b' = b := by
    have h1 := b1 rt d
    rw [e1 rt d] at h1
    cases h1; rfl
  subst this
  rw [b2] at e3
  have hk1 : ((g.drop i).put i ⟨m, none, c.append (num fd) bs⟩).structs k = some ek := by
    simp only [Known.put, if_neg hkk]
    refine drop_structs.2 ⟨hk, fun hv => hki ?_⟩
    simp [Entry.root, hv]
  have hi1 : ((g.drop i).put i ⟨m, none, c.append (num fd) bs⟩).structs i = some ⟨m, none, c.append (num fd) bs⟩ := by simp [Known.put]
  have hs : (c.append (num fd) bs).elems (num fd) = [bs] := by simp [Contents.append, hnil]
  rw [htype] at e4 e5 e6
  obtain ⟨its, t1, _⟩ := ((C66_programs hc r2).1 i _ hi1).repeated fd hfd
  have r3 := Reach.step r2 (.iterate (v := v) hi1 hfd (t1 rt d))
  simp only [hs] at r3
  have hv3 : (((g.drop i).put i ⟨m, none, c.append (num fd) bs⟩).point v ⟨m, fd, i, [bs]⟩).iters v = some ⟨m, fd, i, [bs]⟩ := by simp [Known.point]
  obtain ⟨s2, q1⟩ := C66_next hc r3 hv3 hk1 hname e3 e4 rt d
  have r4 := Reach.step r3 (.next hv3 hk1 hname hkk e3 e4 q1)
  have hr := C66_programs hc r4
  refine ⟨s1, s2, its 0, .ofRecords rs, r1, t1 rt d, q1, hr.1 k ⟨ek.type, some i, .ofRecords rs⟩ (by simp [Known.put]), ⟨?_, ?_⟩, ?_⟩
  · intro fd' hfd'
    exact e5 fd' hfd'
  · intro fd' hfd'
    have := e6 fd' hfd'
    simp only [Contents.ofRecords, this, filterMap_bytes]
  · intro l hl
    refine (hr.2 v ⟨m, fd, i, []⟩ ?_).done rfl rt d l hl
    refine drop_iters.2 ⟨?_, Ne.symm hkk⟩
    simp [Known.point]

end

/-! ## The hypotheses are met -/

/-- A program that has not done anything yet. -/
def nothingYet : GSt := ⟨⟨⟨[], []⟩, fun _ => .zero 0⟩, 0, fun _ => none⟩

theorem testFile_has : testFile ∈ [testFile] ∧ some testDesc ∈ testFile.messageType := ⟨by simp, by rw [C51_golden.2.1]; simp⟩

theorem testField {P : Field → Prop} [DecidablePred P] (h : ∃ fd ∈ testDesc.field.filterMap id, P fd) : ∃ fd, some fd ∈ testDesc.field ∧ P fd := by
  obtain ⟨fd, h1, h2⟩ := h
  obtain ⟨o, ho, e⟩ := List.mem_filterMap.1 h1
  subst e
  exact ⟨fd, ho, h2⟩

/-- `C66`, on golden/test.proto: `var x, y, z TestMessage; y.SetInt32(7); x.SetMessage(y); x.Message(&z)`; then `z.Int32()` is 7. -/
example (rt : Rt) : ∃ s s1 s2 fi fm g, Reach asciiUnicode [testFile] nothingYet s g ∧ ScalarField testDesc fi .int32 ∧ MessageField testDesc fm ∧
    G.run (programOf asciiUnicode [testFile]) rt 0 testDesc.getName (t!"Set" ++ goName asciiUnicode fm) [.ptr testDesc.getName 0, .struct (goType fm) 1] s = .ok ([], s1) ∧
    G.run (programOf asciiUnicode [testFile]) rt 0 testDesc.getName (goName asciiUnicode fm) [.ptr testDesc.getName 0, .ptr (goType fm) 2] s1 = .ok ([.val (.bool true), .val .nil], s2) ∧
    ∃ v, G.run (programOf asciiUnicode [testFile]) rt 0 testDesc.getName (goName asciiUnicode fi) [.ptr testDesc.getName 2] s2 = .ok ([.val v], s2) ∧ IsVal s2.h.w .int32 7#32 v := by
  have hc := testFile_compilable
  obtain ⟨hf, hm⟩ := testFile_has
  obtain ⟨fi, i1, i2, i3, i4⟩ := testField (P := fun fd => (getLabel (some fd) = 1 ∨ getLabel (some fd) = 2) ∧ protoKind (getType (some fd)) = some .int32 ∧ num fd = 2) (by decide +kernel)
  obtain ⟨fm, m1, m2, m3, m4⟩ := testField (P := fun fd => (getLabel (some fd) = 1 ∨ getLabel (some fd) = 2) ∧ getType (some fd) = 11 ∧ testDesc.getName = goType fd) (by decide +kernel)
  have hfi : ScalarField testDesc fi .int32 := ⟨i1, i2, i3⟩
  have hfm : MessageField testDesc fm := ⟨m1, m2, m3⟩
  have r0 := Reach.start (U := asciiUnicode) (fs := [testFile]) (s0 := nothingYet)
  obtain ⟨s, g, r1, hms, hgs, hn⟩ : ∃ s g, Reach asciiUnicode [testFile] nothingYet s g ∧ (∀ k, k < 3 → s.h.ms k = .zero (slotsOf testDesc)) ∧
      (∀ k, k < 3 → g.structs k = some ⟨testDesc, none, .empty⟩) ∧ s.next = 3 := by
    refine ⟨_, _, ((r0.step (.new hf hm)).step (.new hf hm)).step (.new hf hm), fun k hk => ?_, fun k hk => ?_, rfl⟩
    · rcases k with _ | _ | _ | k <;> first | rfl | omega
    · rcases k with _ | _ | _ | k <;> first | rfl | omega
  have c : Calls asciiUnicode testDesc rt 1 s (t!"Set" ++ goName asciiUnicode fi) [.ptr testDesc.getName 1, .val (.i32 7#32)] (.set rt (num fi) .int32 7#32) :=
    .set hfi rfl (by intro _ h; rcases h with h | h <;> cases h) (by decide)
  obtain ⟨s1, q1, q2, q3⟩ := ((C66_programs hc r1).1 1 _ (hgs 1 (by decide))).calls rt 0 _ _ _ c (by rw [hms 1 (by decide)]; show 0 + (20 + Kind.size .int32 7#32) < maxLen; decide)
  have r2 := r1.step (.set (hgs 1 (by decide)) c trivial q1)
  have hmx : (100 : Nat) < maxLen := by decide
  have hl0 : (s1.h.ms 0).buf.len = 0 := by rw [q2 0 (by decide) (by omega), hms 0 (by decide)]; rfl
  have hl1 : (s1.h.ms 1).buf.len ≤ 20 := by
    rw [hms 1 (by decide)] at q3
    exact q3
  have hg1 : ∀ k, k ≠ 1 → k < 3 → ((g.drop 1).put 1 ⟨testDesc, none, Op.apply (.set rt (num fi) .int32 7#32) .empty⟩).structs k = some ⟨testDesc, none, .empty⟩ := by
    intro k h1 h2
    simp only [Known.put, if_neg h1]
    exact drop_structs.2 ⟨hgs k h2, nofun⟩
  obtain ⟨s2, s3, c', p1, p2, p3, p4, _⟩ := C66_roundtrip hc r2 (i := 0) (j := 1) (k := 2) (e' := ⟨testDesc, none, Op.apply (.set rt (num fi) .int32 7#32) .empty⟩) (fd := fm) (hg1 0 (by decide) (by decide)) hfm (by simp [Known.put]) (by simp [Entry.root])
    (hg1 2 (by decide) (by decide)) (by decide) (by decide) m4 rfl (by omega) rt 0
  refine ⟨s1, s2, s3, fi, fm, _, r2, hfi, hfm, p1, p2, ?_⟩
  obtain ⟨x, v, g1, g2, g3⟩ := p3.scalar fi .int32 hfi rt 0
  refine ⟨v, g1, ?_⟩
  rw [p4.1 fi (Or.inl ⟨_, hfi⟩)] at g3
  have : readVal .int32 ((Op.apply (.set rt (num fi) .int32 7#32) .empty).sing (num fi)) = some 7#32 := by
    simp only [Op.apply, Contents.set, if_true]
    decide
  rw [this] at g3
  cases g3
  exact g2

/-- One array with two messages of two bytes, and two zero structs. -/
def sharedState : GSt := ⟨⟨⟨[[0x08#8, 0x01#8, 0x08#8, 0x01#8]], []⟩, fun _ => .zero 35⟩, 2, fun _ => none⟩

/-- C66: the rule about memory that another struct has is needed. `x.Decode(b[:2]); y.Decode(b[2:])`, with `b` of four bytes: `y.Bool()` is true;
after `x.SetInt32(0)` it is false, because `x` may write behind its two bytes, where `y` reads. -/
theorem C66_shared : ∃ s1 s2 s3, 
    G.run testPackage Rt.exact 0 t!"TestMessage" t!"Decode" [.ptr t!"TestMessage" 0, .val (.bytes (.mem ⟨0, 0, 2, 4⟩))] sharedState = .ok ([.val .nil], s1) ∧
    G.run testPackage Rt.exact 0 t!"TestMessage" t!"Decode" [.ptr t!"TestMessage" 1, .val (.bytes (.mem ⟨0, 2, 2, 2⟩))] s1 = .ok ([.val .nil], s2) ∧
    G.run testPackage Rt.exact 0 t!"TestMessage" t!"Bool" [.ptr t!"TestMessage" 1] s2 = .ok ([.val (.bool true)], s2) ∧
    G.run testPackage Rt.exact 0 t!"TestMessage" t!"SetInt32" [.ptr t!"TestMessage" 0, .val (.i32 0#32)] s2 = .ok ([], s3) ∧
    G.run testPackage Rt.exact 0 t!"TestMessage" t!"Bool" [.ptr t!"TestMessage" 1] s3 = .ok ([.val (.bool false)], s3) := by
  obtain ⟨nums, t1, t2⟩ := test_implements.table
  have ht := test_sub _ ((t1 _ _).2 ⟨rfl, rfl⟩)
  have hdec := test_sub _ test_implements.fixed.2.1
  have hrep := rep_table t2
  let w0 : World := sharedState.h.w
  let ma : HMsg := ⟨⟨0, 0, 2, 4⟩, (List.replicate 35 0#16).set 1 1#16, none⟩
  let mb : HMsg := ⟨⟨0, 2, 2, 2⟩, (List.replicate 35 0#16).set 1 1#16, none⟩
  let ma' : HMsg := ⟨⟨0, 0, 4, 4⟩, ((List.replicate 35 0#16).set 1 1#16).set 2 3#16, none⟩
  let w1 : World := ⟨[[0x08#8, 0x01#8, 0x10#8, 0x00#8]], []⟩
  let s1 : GSt := { sharedState with h := sharedState.h.upd 0 (ma, w0) }
  let s2 : GSt := { s1 with h := s1.h.upd 1 (mb, w0) }
  let s3 : GSt := { s2 with h := s2.h.upd 0 (ma', w1) }
  have hz : w0.WF (.zero 35) := ⟨⟨by decide, by decide⟩, by simp [HMsg.zero]⟩
  have e1 : (HMsg.zero 35).decode testSchema.rep w0 ⟨0, 0, 2, 4⟩ = .ok (ma, w0, none) := by
    have hd : Zeropb.decode (w0.slice ⟨0, 0, 2, 4⟩) (w0.offs (.zero 35)) testSchema.rep = .ok (⟨(List.replicate 35 0#16).set 1 1#16, none⟩, none) :=
      iterate_of_run (n := 5) (by decide +kernel)
    simp only [HMsg.decode, hd]
    rfl
  have e2 : (HMsg.zero 35).decode testSchema.rep w0 ⟨0, 2, 2, 2⟩ = .ok (mb, w0, none) := by
    have hd : Zeropb.decode (w0.slice ⟨0, 2, 2, 2⟩) (w0.offs (.zero 35)) testSchema.rep = .ok (⟨(List.replicate 35 0#16).set 1 1#16, none⟩, none) :=
      iterate_of_run (n := 5) (by decide +kernel)
    simp only [HMsg.decode, hd]
    rfl
  have e3 : (setCall Rt.exact .int32 2 0#32 (.i32 0#32)).run w0 ma = .ok (ma', w1) := by decide +kernel
  refine ⟨s1, s2, s3, ?_, ?_, ?_, ?_, ?_⟩
  · rw [C63_decode testPackage_ok _ _ _ hdec ht _ ⟨by decide, by decide⟩ hz, hrep]
    show (lift ((HMsg.zero 35).decode testSchema.rep w0 ⟨0, 0, 2, 4⟩) >>= _) = _
    rw [e1]; rfl
  · rw [C63_decode testPackage_ok Rt.exact 0 (i := 1) s1 hdec ht ⟨0, 2, 2, 2⟩ ⟨by decide, by decide⟩ hz, hrep]
    show (lift ((HMsg.zero 35).decode testSchema.rep w0 ⟨0, 2, 2, 2⟩) >>= _) = _
    rw [e2]; rfl
  · have h := C63_get (msg := t!"TestMessage") testPackage_ok Rt.exact 0 (i := 1) s2 (k := .bool) (name := t!"Bool") (f := 1) (test_sub _ (by decide +kernel)) ⟨by decide, by decide⟩
    have : (s2.h.w.msg (s2.h.ms 1)).get .bool 1 = .ok true := by decide +kernel
    rw [this] at h
    obtain ⟨v, h1, h2⟩ := h
    rw [h1, h2]
  · have h := C63_set (msg := t!"TestMessage") testPackage_ok Rt.exact 0 (i := 0) s2 (k := .int32) (name := t!"Int32") (f := 2) (test_sub _ (by decide +kernel)) 0#32 (.i32 0#32) rfl
      (by intro s hs; rcases hs with hs | hs <;> cases hs) ⟨⟨by decide, by decide⟩, fun id h => by cases h⟩
    refine Eq.trans h ?_
    show (lift ((setCall Rt.exact .int32 2 0#32 (.i32 0#32)).run w0 ma) >>= _) = _
    rw [e3]; rfl
  · have h := C63_get (msg := t!"TestMessage") testPackage_ok Rt.exact 0 (i := 1) s3 (k := .bool) (name := t!"Bool") (f := 1) (test_sub _ (by decide +kernel)) ⟨by decide, by decide⟩
    have : (s3.h.w.msg (s3.h.ms 1)).get .bool 1 = .ok false := by decide +kernel
    rw [this] at h
    obtain ⟨v, h1, h2⟩ := h
    rw [h1, h2]

end Zeropb.GoSrc.E
