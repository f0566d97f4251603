import Verif.Props.Untrusted
import Verif.Conc.GenHalt
import Verif.Conc.GenSimFail
/-!
# C76: programs that recover from panics

Bytes that come from elsewhere may make `Decode`, the getters of message fields and `Next` panic. A program may recover: the memory is then as it was at the moment of the panic, in the middle of
the call. This is the memory that the access-by-access interpreter (`Conc/Gen`) has when it stops.
-/

set_option linter.constructorNameAsVariable false

namespace Zeropb.GoSrc.E
open Zeropb.Gen Wire Zeropb.GoSrc.G

/-! ## Specification -/

/-- The call, alone, panics, with memory `s'` at that moment. `fuel` is the number of rounds after which the interpreter gives up on a loop: it is enough. -/
def Panics (p : Program) (rt : Rt) (d : Nat) (t name : Text) (args : List GVal) (s s' : GSt) : Prop :=
  ∃ e, Conc.Ev fun fuel => (Conc.grun p rt fuel d t name args).halt s = some (.fail e, s')

/-- One step of the program. -/
inductive Goes (U : Unicode) (fs : List FileDesc) : GSt → Ledger → GSt → Ledger → Prop
  /-- as in C75 -/
  | does {s k s' k'} : Does U fs s k s' k' → Goes U fs s k s' k'
  /-- `x.Decode(b)` panics, and the program recovers -/
  | decode {s k i m rt d b s'} : k.type i = some m → s.h.w.WFs b →
      Panics (programOf U fs) rt d m.getName t!"Decode" [.ptr m.getName i, .val (.bytes (.mem b))] s s' → Goes U fs s k s' (k.spoil i m)
  /-- `x.Name(y)` panics, and the program recovers -/
  | message {s k i e fd j m' rt d s'} : k.known.structs i = some e → MessageField e.type fd → k.type j = some m' → m'.getName = goType fd →
      Panics (programOf U fs) rt d e.type.getName (goName U fd) [.ptr e.type.getName i, .ptr (goType fd) j] s s' → Goes U fs s k s' (k.spoil j m')
  /-- `it.Next(y)` panics, when there is another element, and the program recovers: the iterator is past that element -/
  | next {s k v m fd o bs rest j m' rt d s'} : k.known.iters v = some ⟨m, fd, o, bs :: rest⟩ → k.type j = some m' → m'.getName = goType fd →
      Panics (programOf U fs) rt d (iterOf m fd) t!"Next" [.iter (iterOf m fd) v, .ptr (goType fd) j] s s' →
      Goes U fs s k s' ((k.point v ⟨m, fd, o, rest⟩).spoil j m')

/-- A run of the program, from a state in which it knows nothing. -/
inductive Comes (U : Unicode) (fs : List FileDesc) (s0 : GSt) : GSt → Ledger → Prop
  | start : Comes U fs s0 s0 .nothing
  | step {s k s' k'} : Comes U fs s0 s k → Goes U fs s k s' k' → Comes U fs s0 s' k'

/-! ## What has changed when `Decode` panics -/

/-- What has changed. -/
structure Fallen (s s' : GSt) (i : Nat) (b : HSlice) : Prop where
  sized : Sized s.h.w s'.h.w
  cells : ∀ a q, a < s.h.w.arrs.length → s'.h.w.cell a q = s.h.w.cell a q
  next : s.next ≤ s'.next
  its : s'.its = s.its
  others : ∀ j, j ≠ i → j < s.next → s'.h.ms j = s.h.ms j
  wf : s'.h.w.WF (s'.h.ms i)
  slots : (s'.h.ms i).a.length = (s.h.ms i).a.length
  buf : (s'.h.ms i).buf = b
  maps : ∀ id, id < s.h.w.maps.length → (s.h.ms i).m ≠ some id → s'.h.w.maps.getD id [] = s.h.w.maps.getD id []
  mown : ∀ id, (s'.h.ms i).m = some id → (s.h.ms i).m = some id ∨ s.h.w.maps.length ≤ id

/-- `Decode` may write what it allocates, and the struct. -/
def mayWrite (s : GSt) (i : Nat) : Conc.Loc → Prop
  | .cell a _ => s.h.w.arrs.length ≤ a
  | .map id => (s.h.ms i).m = some id ∨ s.h.w.maps.length ≤ id
  | _ => True

theorem hmsg_ext {x y : HMsg} (h1 : x.buf = y.buf) (h2 : ∀ k : Nat, x.a[k]? = y.a[k]?) (h3 : x.m = y.m) : x = y := by
  cases x; cases y
  simp only at h1 h3
  subst h1 h3
  congr 1
  exact List.ext_getElem? h2

theorem fallen {p : Program} {msg : Text} {rep : Nat → Bool} (hm : method p msg t!"Decode" = some (G.srcDecode msg)) (hg : global p (t!"repeatedFields_" ++ msg) = some (.val (.reps rep)))
    {s s' : GSt} {i : Nat} {b : HSlice} (hi : i < s.next) (hw : s.h.w.WF (s.h.ms i)) (hb : s.h.w.WFs b) {rt : Rt} {fuel d n : Nat} {e : Stop}
    (h : (Conc.gcallMethod p (Conc.goCall rt fuel (d + 1)) (n + 1) msg t!"Decode" [.ptr msg i, .val (.bytes (.mem b))]).halt s = some (e, s')) : Fallen s s' i b := by
  have hfresh : Conc.Fresh (fun _ => True) (mayWrite s i) s := ⟨fun l hl => ⟨trivial, by
    cases l <;> simp only [Conc.Loc.Old, Conc.Base.of, mayWrite] at hl ⊢
    · omega
    · exact .inr (by omega)⟩⟩
  have hhas : Conc.Has (fun _ => True) (mayWrite s i) 1 s i :=
    ⟨trivial, fun _ => trivial, trivial, trivial, fun _ _ _ => trivial, fun _ _ => trivial, fun _ => trivial, fun _ _ => trivial, fun _ => trivial, fun id _ hid => .inl hid, fun h => absurd h (by decide)⟩
  obtain ⟨z1, z2, z3⟩ := (Conc.gsafez_decode hfresh hhas hm hg (rt := rt) (m := fuel) (d := d) (n := n) (b := b) (fun _ _ _ => trivial)).halt h
  have zs := (Conc.Write.buf i b).sameSize s
  have same := z2.same
  have e1 : ∀ k, k ≠ i → ((Conc.Write.buf i b).apply s).h.ms k = s.h.ms k := fun k hk => by simp [Conc.Write.apply, Heap.put, hk]
  have e2 : ((Conc.Write.buf i b).apply s).h.ms i = { s.h.ms i with buf := b } := by simp [Conc.Write.apply, Heap.put]
  have cells : ∀ a q, a < s.h.w.arrs.length → s'.h.w.cell a q = s.h.w.cell a q := fun a q ha =>
    same (.cell a q) ha (fun hx => by have := hx.1; simp only [mayWrite] at this; omega)
  have size : Sized s.h.w s'.h.w := by
    refine ⟨z2.arrs, fun a ha => ?_, z2.maps⟩
    have hc := fun q => cells a q ha
    unfold World.cell at hc
    rw [List.ext_getElem? hc]
  have hbuf : (s'.h.ms i).buf = b := by
    have := same (.buf i) hi (fun hx => by have := hx.2; simp [Conc.On] at this)
    simp only [Conc.read, e2] at this
    exact this
  refine ⟨size, cells, z2.next, ?_, fun k hk hlt => ?_, ⟨?_, fun id hid => ?_⟩, ?_, hbuf, fun id hid hne => ?_, fun id hid => ?_⟩
  · funext v
    exact same (.iter v) trivial (fun hx => hx.2)
  · rw [← e1 k hk]
    exact hmsg_ext (same (.buf k) hlt (fun hx => by have := hx.2; simp [Conc.On] at this)) (fun x => same (.slot k x) hlt (fun hx => hk hx.2.1)) (same (.ref k) hlt (fun hx => hk hx.2.1))
  · rw [hbuf]; exact wf_sized size hb
  · rcases z3 id hid with h1 | h1
    · rw [e2] at h1
      exact Nat.lt_of_lt_of_le (hw.2 id h1) size.2.2
    · exact h1
  · have := same (.slots i) hi (fun hx => hx.2)
    simp only [Conc.read, e2] at this
    exact this
  · refine same (.map id) hid (fun hx => ?_)
    rcases hx.1 with h1 | h1
    · exact hne h1
    · omega
  · exact z1.wmap id (Nat.le_refl _) hid

section
variable {U : Unicode} {fs : List FileDesc} {pkg : Text} {s : GSt}

/-- After a `Decode` into struct `j` that panicked. -/
theorem Sound.fall {k : Ledger} (h : Sound U fs s k) {j : Nat} {m : Desc} (ht : k.type j = some m) {b : HSlice} {s' : GSt} (hd : Fallen s s' j b) : Sound U fs s' (k.spoil j m) := by
  obtain ⟨o1, o2, _, o4⟩ := h.shape.one j m ht
  have look : ∀ x e, (k.known.forget j).structs x = some e → x ≠ j ∧ k.known.structs x = some e := fun x e hx => by
    simp only [Known.forget] at hx
    by_cases hj : x = j
    · rw [if_pos hj] at hx; cases hx
    · rw [if_neg hj] at hx; exact ⟨hj, (drop_structs.1 hx).1⟩
  refine ⟨(h.known.forget j).other ⟨hd.sized, hd.next, fun x e hx => hd.others x (look x e hx).1 (h.known.struct x e (look x e hx).2).2.1,
      fun x e hx _ a q ho => hd.cells a q ((h.known.struct x e (look x e hx).2).2.2.1.1.cell_lt ho), fun x e id hx hid => ?_, fun _ _ _ => by rw [hd.its]⟩,
    h.shape.update j m hd.sized hd.next (fun x mx hx hxt => hd.others x hx (h.shape.one x mx hxt).2.1) ⟨o1, Nat.lt_of_lt_of_le o2 hd.next, hd.wf, by rw [hd.slots]; exact o4⟩ ?_ ?_ ?_⟩
  · obtain ⟨h1, h2⟩ := look x e hx
    exact hd.maps id ((h.known.struct x e h2).2.2.1.2 id hid) (h.shape.maps x j _ m h1 (type_known h2) ht id hid)
  · intro id hid
    rcases hd.mown id hid with h3 | h3
    · exact .inl ⟨m, ht, h3⟩
    · exact .inr h3
  · intro x mx hx; rw [type_spoil, if_neg hx]; exact id
  · intro mx hx; rw [type_spoil, if_pos rfl] at hx; injection hx with hx; exact hx.symm

/-- `Decode` and its table, in the program. -/
theorem decode_there (hc : Compilable U fs pkg) {m : Desc} (hm : ∃ f ∈ fs, some m ∈ f.messageType) : method (programOf U fs) m.getName t!"Decode" = some (G.srcDecode m.getName) ∧
    ∃ rep : Nat → Bool, global (programOf U fs) (t!"repeatedFields_" ++ m.getName) = some (.val (.reps rep)) := by
  obtain ⟨f, hf, hm⟩ := hm
  have hv := hc.valid f hf m hm
  have hdi := decls_implements U m hv
  have hsub := sub_of (U := U) hf hm
  obtain ⟨nums, t1, t2⟩ := hdi.table
  exact ⟨hc.program.method (hsub _ hdi.fixed.2.1) rfl, _, hc.program.table (hsub _ ((t1 _ _).2 ⟨rfl, rfl⟩))⟩

/-- `Decode` into struct `j` panics, at whatever depth. -/
theorem Sound.falls {k : Ledger} (hc : Compilable U fs pkg) (h : Sound U fs s k) {j : Nat} {m : Desc} (ht : k.type j = some m) {b : HSlice} (hb : s.h.w.WFs b) {s' : GSt} {rt : Rt} {fuel d n : Nat} {e : Stop}
    (hh : (Conc.gcallMethod (programOf U fs) (Conc.goCall rt fuel (d + 1)) (n + 1) m.getName t!"Decode" [.ptr m.getName j, .val (.bytes (.mem b))]).halt s = some (e, s')) : Fallen s s' j b := by
  obtain ⟨o1, o2, o3, o4⟩ := h.shape.one j m ht
  obtain ⟨d1, rep, d2⟩ := decode_there hc o1
  exact fallen d1 d2 o2 o3 hb hh

/-- `x.Name(y)` panics: it is `Decode` that panics, with a value of the field. -/
theorem Sound.message_panics {k : Ledger} (hc : Compilable U fs pkg) (h : Sound U fs s k) {i j : Nat} {e : Entry} {fd : Field} {m' : Desc} (hi : k.known.structs i = some e)
    (hfd : MessageField e.type fd) (hj : k.type j = some m') (hname : m'.getName = goType fd) {rt : Rt} {d : Nat} {s' : GSt}
    (hp : Panics (programOf U fs) rt d e.type.getName (goName U fd) [.ptr e.type.getName i, .ptr (goType fd) j] s s') : ∃ b, s.h.w.WFs b ∧ Fallen s s' j b := by
  obtain ⟨⟨f, hf, hm⟩, hn, hw, hv, rs, ht⟩ := h.known.struct i e hi
  have hdi := decls_implements U e.type hv
  have hsub := sub_of (U := U) hf hm
  have hd := (decl_message (U := U) hv hfd).1
  obtain ⟨x, hev⟩ := hp
  have hok : ∃ o, (s.h.ms i).getBytes s.h.w (num fd) = .ok o := by
    obtain ⟨g, e1, e2, e3, _⟩ := hdi.message_only _ _ _ _ (Or.inl hd)
    have : num fd = g := by omega
    subst this
    obtain ⟨⟨x, r1, _⟩, hb⟩ := (ht.agrees (num fd) _ e2).1 e3
    have hb := hb rfl
    unfold bytesOf at hb
    have hv : getBytes (s.h.w.msg (s.h.ms i)).buf (s.h.w.msg (s.h.ms i)).off (num fd) = _ := getBytes_view hw.1 (num fd)
    rw [hv] at hb
    cases hg : (s.h.ms i).getBytes s.h.w (num fd) with
    | error e => rw [hg] at hb; cases hb
    | ok o => exact ⟨o, rfl⟩
  obtain ⟨o, hg⟩ := hok
  have hcall := go_GetBytes rt (d + 1) i (num fd) s.h hw.1
  rw [hg] at hcall
  have hend := Conc.ends_goCall rt (d + 3) .GetBytes [.bytes (.mem (s.h.ms i).buf), .offs i, .const (num fd)] s _ _ hcall
  obtain ⟨fuel, hfu⟩ := hev.and hend
  obtain ⟨f1, f2⟩ := hfu fuel (Nat.le_refl _)
  have f2 : _ = Except.ok (_, s) := f2
  have f3 := Conc.halt_getMessage (hc.program.method (hsub _ hd) rfl) f2 f1
  cases o with
  | none => exact absurd f3 (Conc.halt_tail_nil rfl)
  | some b =>
    have hb : s.h.w.WFs b := by
      obtain ⟨_, _, hrg⟩ := getBytes_owns hg
      exact HSlice.range_wf hw.1 hrg
    have f4 := Conc.halt_tail (b := b) (j := j) (typ := goType fd) rfl rfl f3
    rw [← hname] at f4
    exact ⟨b, hb, h.falls hc hj hb f4⟩

/-- `it.Next(y)` panics, when there is another element: it is `Decode` that panics, after the iterator has moved on. -/
theorem Sound.next_panics {k : Ledger} (hc : Compilable U fs pkg) (h : Sound U fs s k) {v j o : Nat} {m m' : Desc} {fd : Field} {bs : List Byte} {rest : List (List Byte)}
    (hv : k.known.iters v = some ⟨m, fd, o, bs :: rest⟩) (hj : k.type j = some m') (hname : m'.getName = goType fd) {rt : Rt} {d : Nat} {s' : GSt}
    (hp : Panics (programOf U fs) rt d (iterOf m fd) t!"Next" [.iter (iterOf m fd) v, .ptr (goType fd) j] s s') :
    ∃ b it, s.h.w.WFs b ∧ Sound U fs { s with its := it } (k.point v ⟨m, fd, o, rest⟩) ∧ Fallen { s with its := it } s' j b := by
  obtain ⟨⟨eo, o1, o2⟩, B, w0, its, n, els, b1, b2, b3, b4, b5, b6, b7⟩ := h.known.iters v _ hv
  simp only at b1 b5 b7 o1
  have hn : n < els.length := by
    rcases Nat.lt_or_ge n els.length with hn | hn
    · exact hn
    · rw [List.drop_eq_nil_of_le hn] at b5; cases b5
  have hcons := List.drop_eq_getElem_cons hn
  rw [← b5] at hcons
  injection hcons with c1 c2
  obtain ⟨g1, b, g2, g3⟩ := b7.2.1 n hn s.h.w b3
  obtain ⟨⟨f, hf, hm⟩, hfd⟩ := b7.2.2
  rw [← b4] at g1 g3
  have hs1 : Sound U fs { s with its := fun u => if u = v then its (n + 1) else s.its u } (k.point v ⟨m, fd, o, rest⟩) :=
    ⟨h.known.point ⟨eo, o1, o2⟩ ⟨B, w0, its, n + 1, els, b1, b2, b3, rfl, c2, b6, b7⟩, ⟨h.shape.one, h.shape.maps⟩⟩
  have hval := hc.valid f hf m hm
  have hd := sub_of (U := U) hf hm _ (decl_repeated (U := U) hval hfd).2.1
  obtain ⟨x, hev⟩ := hp
  have hcall := go_FindNextField rt (d + 1) (s.its v) (num fd) s.h g1
  rw [g3] at hcall
  have hend := Conc.ends_goCall rt (d + 3) .FindNextField [Conc.optVal (s.its v), .const (num fd)] s [Conc.optVal (its (n + 1)), .bytes (.mem b)] s.h (by
    refine Eq.trans ?_ (hcall.trans ?_)
    · cases s.its v <;> rfl
    · cases its (n + 1) <;> rfl)
  obtain ⟨fuel, hfu⟩ := hev.and hend
  obtain ⟨f1, f2⟩ := hfu fuel (Nat.le_refl _)
  have f2 : _ = Except.ok (_, s) := f2
  have f3 := Conc.halt_next (hc.program.method hd rfl) f2 f1
  have f4 := Conc.halt_tail (b := b) (j := j) (typ := goType fd) rfl rfl f3
  rw [← hname] at f4
  exact ⟨b, _, g2, hs1, hs1.falls hc (by rw [type_point]; exact hj) g2 f4⟩

theorem Sound.go {k : Ledger} (hc : Compilable U fs pkg) (h : Sound U fs s k) {s' : GSt} {k' : Ledger} (hs : Goes U fs s k s' k') : Sound U fs s' k' := by
  cases hs with
  | does h1 => exact h.step hc h1
  | decode h1 h2 h3 =>
    obtain ⟨e, fuel, h3⟩ := h3
    exact h.fall h1 (h.falls hc h1 h2 (h3 fuel (Nat.le_refl _)))
  | message h1 h2 h3 h4 h5 =>
    obtain ⟨b, _, h6⟩ := h.message_panics hc h1 h2 h3 h4 h5
    exact h.fall h3 h6
  | next h1 h2 h3 h4 =>
    obtain ⟨b, it, _, h5, h6⟩ := h.next_panics hc h1 h2 h3 h4
    exact h5.fall (by rw [type_point]; exact h2) h6

theorem comes_sound (hc : Compilable U fs pkg) {s0 : GSt} {k : Ledger} (h : Comes U fs s0 s k) : Sound U fs s k := by
  induction h with
  | start => exact gets_sound hc (s0 := s0) .start
  | step _ hs ih => exact ih.go hc hs

/-- A call that panics, in the sense of `GoSrc/GenSem`. -/
theorem panics_of {p : Program} {rt : Rt} {d : Nat} {t name : Text} {args : List GVal} {x : Fail} (hx : x ≠ .diverge) (h : G.run p rt d t name args s = .error (.fail x)) :
    ∃ s', Panics p rt d t name args s s' := by
  obtain ⟨s', h⟩ := Conc.fl_grun hx h
  exact ⟨s', x, h⟩

/-! ## C76 -/

/-- C76: at every moment of every run, however many panics the program has recovered from, every struct of which the program knows the contents is seen, through the methods of the generated program,
as its record of the calls made on it, and every iterator yields the elements that it has not yielded yet. -/
theorem C76_programs (hc : Compilable U fs pkg) {s0 : GSt} {k : Ledger} (h : Comes U fs s0 s k) :
    (∀ i e, k.known.structs i = some e → Shows U (programOf U fs) e.type i s e.contents) ∧ (∀ v c, k.known.iters v = some c → Points (programOf U fs) s v c) :=
  ⟨fun _ _ hi => (comes_sound hc h).known.shows hc hi, fun _ _ hv => (comes_sound hc h).known.points hv⟩

theorem spoiled_only (hc : Compilable U fs pkg) {s0 : GSt} {k : Ledger} {j : Nat} {m : Desc} (h : Comes U fs s0 s (k.spoil j m)) : OnlyChanges U (programOf U fs) k s j := by
  refine ⟨fun i e hi hne hv => (C76_programs hc h).1 i e ?_, fun v c hv hne => (C76_programs hc h).2 v c (drop_iters.2 ⟨hv, hne⟩)⟩
  show (if i = j then none else (k.known.drop j).structs i) = _
  rw [if_neg hne]
  exact drop_structs.2 ⟨hi, hv⟩

/-- C76: an `x.Decode(b)` that panics has changed nothing else than `x`, nor any byte. -/
theorem C76_decode (hc : Compilable U fs pkg) {s0 : GSt} {k : Ledger} (h : Comes U fs s0 s k) {j : Nat} {m : Desc} (hj : k.type j = some m) {b : HSlice} (hb : s.h.w.WFs b) {rt : Rt} {d : Nat} {s' : GSt}
    (hp : Panics (programOf U fs) rt d m.getName t!"Decode" [.ptr m.getName j, .val (.bytes (.mem b))] s s') :
    OnlyChanges U (programOf U fs) k s' j ∧ ∀ a q, a < s.h.w.arrs.length → s'.h.w.cell a q = s.h.w.cell a q := by
  refine ⟨spoiled_only hc (h.step (.decode hj hb hp)), ?_⟩
  obtain ⟨e, fuel, h3⟩ := hp
  exact ((comes_sound hc h).falls hc hj hb (h3 fuel (Nat.le_refl _))).cells

/-- C76: likewise an `x.Name(y)` that panics: it has changed nothing else than `y`. -/
theorem C76_getter (hc : Compilable U fs pkg) {s0 : GSt} {k : Ledger} (h : Comes U fs s0 s k) {i j : Nat} {e : Entry} {fd : Field} {m' : Desc} (hi : k.known.structs i = some e) (hfd : MessageField e.type fd)
    (hj : k.type j = some m') (hname : m'.getName = goType fd) {rt : Rt} {d : Nat} {s' : GSt}
    (hp : Panics (programOf U fs) rt d e.type.getName (goName U fd) [.ptr e.type.getName i, .ptr (goType fd) j] s s') :
    OnlyChanges U (programOf U fs) k s' j ∧ ∀ a q, a < s.h.w.arrs.length → s'.h.w.cell a q = s.h.w.cell a q := by
  refine ⟨spoiled_only hc (h.step (.message hi hfd hj hname hp)), ?_⟩
  obtain ⟨b, _, hf⟩ := (comes_sound hc h).message_panics hc hi hfd hj hname hp
  exact hf.cells

/-- C76: likewise an `it.Next(y)` that panics, when there is another element: the iterator is past that element, so that the loop may go on with the one after it, and nothing else than `y` has changed. -/
theorem C76_next (hc : Compilable U fs pkg) {s0 : GSt} {k : Ledger} (h : Comes U fs s0 s k) {v j o : Nat} {m m' : Desc} {fd : Field} {bs : List Byte} {rest : List (List Byte)}
    (hv : k.known.iters v = some ⟨m, fd, o, bs :: rest⟩) (hj : k.type j = some m') (hname : m'.getName = goType fd) {rt : Rt} {d : Nat} {s' : GSt}
    (hp : Panics (programOf U fs) rt d (iterOf m fd) t!"Next" [.iter (iterOf m fd) v, .ptr (goType fd) j] s s') :
    OnlyChanges U (programOf U fs) (k.point v ⟨m, fd, o, rest⟩) s' j ∧ ∀ a q, a < s.h.w.arrs.length → s'.h.w.cell a q = s.h.w.cell a q := by
  refine ⟨spoiled_only hc (h.step (.next hv hj hname hp)), ?_⟩
  obtain ⟨b, it, _, _, hf⟩ := (comes_sound hc h).next_panics hc hv hj hname hp
  exact hf.cells

/-- C76: a struct in the middle of whose `Decode` there was a panic is as good as a new one: a valid message in memory that no other struct has decodes without an error, and then the struct shows that
message. -/
theorem C76_again (hc : Compilable U fs pkg) {s0 : GSt} {k : Ledger} (h : Comes U fs s0 s k) {j : Nat} {m : Desc} (hj : k.type j = some m) {b : HSlice} {rs : List Record} (hb : s.h.w.WFs b) (hl : b.len < maxLen)
    (hm : IsMinTagMessage rs (s.h.w.slice b).data) (hcf : Conforms m rs) (hfree : k.known.Free s j b) (rt : Rt) (d : Nat) :
    ∃ s', G.run (programOf U fs) rt d m.getName t!"Decode" [.ptr m.getName j, .val (.bytes (.mem b))] s = .ok ([.val .nil], s') ∧
      Comes U fs s0 s' (k.gets j ⟨m, none, .ofRecords rs⟩) ∧ Shows U (programOf U fs) m j s' (.ofRecords rs) := by
  have hs := comes_sound hc h
  obtain ⟨s1, g1, e1, hr⟩ := hs.ready hc hj
  have hb1 : s1.h.w.WFs b := ⟨hb.1, by unfold World.arr; rw [hr.arrs]; exact hb.2⟩
  obtain ⟨s', r⟩ := hr.inv.decode_ok hc hr.entry hb1 hl (by rw [World.slice_arrs hr.arrs]; exact hm) (by rw [hr.type]; exact hcf) rt d
  rw [hr.type] at r
  have e0 : ({ s1 with its := s.its } : GSt) = s1 := by rw [← hr.its]
  have hq := hr.decode rt d b s.its hb
  rw [e0, r] at hq
  have hg : Comes U fs s0 s' (k.gets j ⟨m, none, .ofRecords rs⟩) := h.step (.does (.fill (op := .decode (s.h.w.slice b) rs) hj (.decode hb hl hm hcf) (fun h => h) (fun b' hb' => by
    have : b' = b := by simpa using hb'
    rw [this]; exact hfree) hq.symm))
  exact ⟨s', hq.symm, hg, (C76_programs hc hg).1 j ⟨m, none, .ofRecords rs⟩ (by simp [Ledger.gets, Known.put])⟩

/-- C76: likewise `x.Reset(nil)`: it returns, and then the struct is empty. -/
theorem C76_reset (hc : Compilable U fs pkg) {s0 : GSt} {k : Ledger} (h : Comes U fs s0 s k) {j : Nat} {m : Desc} (hj : k.type j = some m) (rt : Rt) (d : Nat) :
    ∃ s', G.run (programOf U fs) rt d m.getName t!"Reset" [.ptr m.getName j, .val .nil] s = .ok ([], s') ∧
      Comes U fs s0 s' (k.gets j ⟨m, none, .empty⟩) ∧ Shows U (programOf U fs) m j s' .empty := by
  have hs := comes_sound hc h
  obtain ⟨⟨f, hf, hm⟩, _, o3, _⟩ := hs.shape.one j m hj
  have hdi := decls_implements U m (hc.valid f hf m hm)
  have hr := C63_reset_nil hc.program rt d s (sub_of (U := U) hf hm _ hdi.fixed.2.2) o3
  have he : (s.h.ms j).reset s.h.w .nil = .ok (cleared s.h.w (s.h.ms j)) := rfl
  rw [he] at hr
  have hg : Comes U fs s0 _ (k.gets j ⟨m, none, .empty⟩) := h.step (.does (.fill (op := .reset .empty) hj .resetNil (fun h => h) (fun b' hb' => by simp at hb') hr))
  exact ⟨_, hr, hg, (C76_programs hc hg).1 j ⟨m, none, .empty⟩ (by simp [Ledger.gets, Known.put])⟩

/-- C76: a call that panics does not return, and panics in one way only. -/
theorem C76_panics {p : Program} {rt : Rt} {d : Nat} {t name : Text} {args : List GVal} {s' : GSt} (h : Panics p rt d t name args s s') :
    (∀ r, G.run p rt d t name args s ≠ .ok r) ∧ ∀ s'', Panics p rt d t name args s s'' → s'' = s' := by
  obtain ⟨e, h⟩ := h
  refine ⟨fun r hr => ?_, fun s'' ⟨e', h'⟩ => ?_⟩
  · obtain ⟨n, hn⟩ := h.and (Conc.to_grun (out := r.1) (s' := r.2) hr)
    obtain ⟨h1, h2⟩ := hn n (Nat.le_refl _)
    rw [Conc.Prog.halt_run h1] at h2
    cases h2
  · obtain ⟨n, hn⟩ := h.and h'
    obtain ⟨h1, h2⟩ := hn n (Nat.le_refl _)
    rw [h1] at h2
    injection h2 with h2; injection h2 with _ h2; exact h2.symm

/-- C76: `x.Decode(b)`, on any bytes: it returns, or it panics, or it never ends (C14), and the first two are steps of the program. -/
theorem C76_decode_outcome (hc : Compilable U fs pkg) {s0 : GSt} {k : Ledger} (h : Comes U fs s0 s k) {j : Nat} {m : Desc} (hj : k.type j = some m) {b : HSlice} (hb : s.h.w.WFs b) (rt : Rt) (d : Nat) :
    (∃ out s', G.run (programOf U fs) rt d m.getName t!"Decode" [.ptr m.getName j, .val (.bytes (.mem b))] s = .ok (out, s') ∧ Comes U fs s0 s' (k.spoil j m)) ∨
    (∃ s', Panics (programOf U fs) rt d m.getName t!"Decode" [.ptr m.getName j, .val (.bytes (.mem b))] s s' ∧ Comes U fs s0 s' (k.spoil j m)) ∨
    G.run (programOf U fs) rt d m.getName t!"Decode" [.ptr m.getName j, .val (.bytes (.mem b))] s = .error (.fail .diverge) := by
  obtain ⟨o1, _, o3, _⟩ := (comes_sound hc h).shape.one j m hj
  obtain ⟨rep, he⟩ := decode_eq hc o1
  have he := he s rt d j b hb o3
  cases hd : (s.h.ms j).decode rep s.h.w b with
  | ok r =>
    rw [hd] at he
    exact .inl ⟨_, _, he, h.step (.does (.tryDecode hj hb he))⟩
  | error x =>
    rw [hd] at he
    by_cases hx : x = .diverge
    · subst hx; exact .inr (.inr he)
    · obtain ⟨s', hp⟩ := panics_of hx he
      exact .inr (.inl ⟨s', hp, h.step (.decode hj hb hp)⟩)

/-- C76: likewise `x.Name(y)`, whatever the bytes of the field are. -/
theorem C76_getter_outcome (hc : Compilable U fs pkg) {s0 : GSt} {k : Ledger} (h : Comes U fs s0 s k) {i j : Nat} {e : Entry} {fd : Field} {m' : Desc} (hi : k.known.structs i = some e) (hfd : MessageField e.type fd)
    (hj : k.type j = some m') (hname : m'.getName = goType fd) (rt : Rt) (d : Nat) :
    (∃ out s', G.run (programOf U fs) rt d e.type.getName (goName U fd) [.ptr e.type.getName i, .ptr (goType fd) j] s = .ok (out, s') ∧ Comes U fs s0 s' (k.spoil j m')) ∨
    (∃ s', Panics (programOf U fs) rt d e.type.getName (goName U fd) [.ptr e.type.getName i, .ptr (goType fd) j] s s' ∧ Comes U fs s0 s' (k.spoil j m')) ∨
    G.run (programOf U fs) rt d e.type.getName (goName U fd) [.ptr e.type.getName i, .ptr (goType fd) j] s = .error (.fail .diverge) := by
  have hs := comes_sound hc h
  obtain ⟨o1, _, o3, _⟩ := hs.shape.one j m' hj
  rcases (hs.known.shows hc hi).message fd hfd rt d j o3 with ⟨_, q⟩ | ⟨bs, b, _, q2, q3, q4, q5⟩
  · exact .inl ⟨_, _, q, h.step (.does (.tryMessage hi hfd hj hname q))⟩
  · obtain ⟨rep, he⟩ := decode_eq hc o1
    have he := he s rt d j b q3 o3
    rw [hname] at he
    rw [he] at q5
    cases hd : (s.h.ms j).decode rep s.h.w b with
    | ok r =>
      rw [hd] at q5
      exact .inl ⟨_, _, q5, h.step (.does (.tryMessage hi hfd hj hname q5))⟩
    | error x =>
      rw [hd] at q5
      by_cases hx : x = .diverge
      · subst hx; exact .inr (.inr q5)
      · obtain ⟨s', hp⟩ := panics_of hx q5
        exact .inr (.inl ⟨s', hp, h.step (.message hi hfd hj hname hp)⟩)

/-- C76: likewise `it.Next(y)`, whatever the bytes of the element are. -/
theorem C76_next_outcome (hc : Compilable U fs pkg) {s0 : GSt} {k : Ledger} (h : Comes U fs s0 s k) {v j o : Nat} {m m' : Desc} {fd : Field} {bs : List Byte} {rest : List (List Byte)}
    (hv : k.known.iters v = some ⟨m, fd, o, bs :: rest⟩) (hj : k.type j = some m') (hname : m'.getName = goType fd) (rt : Rt) (d : Nat) :
    (∃ out s', G.run (programOf U fs) rt d (iterOf m fd) t!"Next" [.iter (iterOf m fd) v, .ptr (goType fd) j] s = .ok (out, s') ∧ Comes U fs s0 s' ((k.point v ⟨m, fd, o, rest⟩).spoil j m')) ∨
    (∃ s', Panics (programOf U fs) rt d (iterOf m fd) t!"Next" [.iter (iterOf m fd) v, .ptr (goType fd) j] s s' ∧ Comes U fs s0 s' ((k.point v ⟨m, fd, o, rest⟩).spoil j m')) ∨
    G.run (programOf U fs) rt d (iterOf m fd) t!"Next" [.iter (iterOf m fd) v, .ptr (goType fd) j] s = .error (.fail .diverge) := by
  have hs := comes_sound hc h
  obtain ⟨o1, _, o3, _⟩ := hs.shape.one j m' hj
  obtain ⟨b, it, eo, _, _, _, e2, hl, e3, hp, q5⟩ := hs.more hv hj rt d
  obtain ⟨rep, he⟩ := decode_eq hc o1
  have he := he { s with its := it } rt d j b e2 o3
  rw [hname] at he
  rw [he] at q5
  cases hd : (s.h.ms j).decode rep s.h.w b with
  | ok r =>
    simp only [hd] at q5
    exact .inl ⟨_, _, q5, h.step (.does (.tryNext hv hj hname q5))⟩
  | error x =>
    simp only [hd] at q5
    by_cases hx : x = .diverge
    · subst hx; exact .inr (.inr q5)
    · obtain ⟨s', hp⟩ := panics_of hx q5
      exact .inr (.inl ⟨s', hp, h.step (.next hv hj hname hp)⟩)

/-- With a number outside the table, `Decode` panics. -/
theorem Sound.unknown {k : Ledger} (hc : Compilable U fs pkg) (h : Sound U fs s k) {j : Nat} {m : Desc} (hj : k.type j = some m) {b : HSlice} (hb : s.h.w.WFs b) (hl : b.len < maxLen)
    {rs : List Record} (hm : IsMessage rs (s.h.w.slice b).data) (hex : ∃ r ∈ rs, slotsOf m ≤ r.num) (rt : Rt) (d : Nat) :
    G.run (programOf U fs) rt d m.getName t!"Decode" [.ptr m.getName j, .val (.bytes (.mem b))] s = .error (.fail .indexOutOfRange) := by
  obtain ⟨⟨f, hf, hmf⟩, _, o3, o4⟩ := h.shape.one j m hj
  have hv := hc.valid f hf m hmf
  have hdi := decls_implements U m hv
  have hsub := sub_of (U := U) hf hmf
  obtain ⟨nums, t1, t2⟩ := hdi.table
  have hq := C63_decode hc.program rt d s (hsub _ hdi.fixed.2.1) (hsub _ ((t1 _ _).2 ⟨rfl, rfl⟩)) b hb o3
  rw [rep_table t2] at hq
  have hx := C29_false_unknown_panics (S := schemaOf m hv) (m0 := s.h.w.msg (s.h.ms j)) o4 (buf := s.h.w.slice b) (Nat.lt_of_le_of_lt (Nat.le_of_eq (World.slice_len hb)) hl) hm hex
  have := decode_refines (schemaOf m hv).rep o3 hb
  rw [hx] at this
  simp only at this
  rw [this] at hq
  exact hq

/-- C76: `x.Decode(b)` with a valid message in which there is a field with a number larger than those of the type - of a newer version of the type, perhaps - panics; the program may recover from that. -/
theorem C76_unknown (hc : Compilable U fs pkg) {s0 : GSt} {k : Ledger} (h : Comes U fs s0 s k) {j : Nat} {m : Desc} (hj : k.type j = some m) {b : HSlice} (hb : s.h.w.WFs b) (hl : b.len < maxLen)
    {rs : List Record} (hm : IsMessage rs (s.h.w.slice b).data) (hex : ∃ r ∈ rs, slotsOf m ≤ r.num) (rt : Rt) (d : Nat) :
    ∃ s', Panics (programOf U fs) rt d m.getName t!"Decode" [.ptr m.getName j, .val (.bytes (.mem b))] s s' ∧ Comes U fs s0 s' (k.spoil j m) := by
  obtain ⟨s', hp⟩ := panics_of (by decide) ((comes_sound hc h).unknown hc hj hb hl hm hex rt d)
  exact ⟨s', hp, h.step (.decode hj hb hp)⟩

/-- C76: likewise `x.Name(y)`, if there is such a field in the message inside. -/
theorem C76_unknown_field (hc : Compilable U fs pkg) {s0 : GSt} {k : Ledger} (h : Comes U fs s0 s k) {i j : Nat} {e : Entry} {fd : Field} {m' : Desc} {bs : List Byte} (hi : k.known.structs i = some e)
    (hfd : MessageField e.type fd) (hj : k.type j = some m') (hname : m'.getName = goType fd) (hs : e.contents.sing (num fd) = some (.bytes bs))
    {rs : List Record} (hm : IsMessage rs bs) (hex : ∃ r ∈ rs, slotsOf m' ≤ r.num) (rt : Rt) (d : Nat) :
    ∃ s', Panics (programOf U fs) rt d e.type.getName (goName U fd) [.ptr e.type.getName i, .ptr (goType fd) j] s s' ∧ Comes U fs s0 s' (k.spoil j m') := by
  have hso := comes_sound hc h
  obtain ⟨b, _, h2, h3, h4, h5⟩ := hso.present hc hi hfd hj hs rt d
  have := hso.unknown hc hj h2 h3 (by rw [h4]; exact hm) hex rt d
  rw [hname] at this
  rw [this] at h5
  obtain ⟨s', hp⟩ := panics_of (by decide) h5
  exact ⟨s', hp, h.step (.message hi hfd hj hname hp)⟩

/-- C76: likewise `it.Next(y)`, if there is such a field in the next element. -/
theorem C76_unknown_element (hc : Compilable U fs pkg) {s0 : GSt} {k : Ledger} (h : Comes U fs s0 s k) {v j o : Nat} {m m' : Desc} {fd : Field} {bs : List Byte} {rest : List (List Byte)}
    (hv : k.known.iters v = some ⟨m, fd, o, bs :: rest⟩) (hj : k.type j = some m') (hname : m'.getName = goType fd) {rs : List Record} (hm : IsMessage rs bs) (hex : ∃ r ∈ rs, slotsOf m' ≤ r.num) (rt : Rt) (d : Nat) :
    ∃ s', Panics (programOf U fs) rt d (iterOf m fd) t!"Next" [.iter (iterOf m fd) v, .ptr (goType fd) j] s s' ∧ Comes U fs s0 s' ((k.point v ⟨m, fd, o, rest⟩).spoil j m') := by
  have hso := comes_sound hc h
  obtain ⟨b, it, eo, _, _, _, h2, h3, h4, h5, h6⟩ := hso.more hv hj rt d
  have := h5.unknown hc (j := j) (by rw [type_point]; exact hj) h2 h3 (by show IsMessage rs (s.h.w.slice b).data; rw [h4]; exact hm) hex rt d
  rw [hname] at this
  rw [this] at h6
  obtain ⟨s', hp⟩ := panics_of (by decide) h6
  exact ⟨s', hp, h.step (.next hv hj hname hp)⟩

end

/-! ## The hypotheses are met -/

/-- A program that has received a message of five bytes, of which the last three are field 100, and a message of two bytes. -/
def received2 : GSt := ⟨⟨⟨[[0x08#8, 0x01#8, 0xA0#8, 0x06#8, 0x01#8], [0x08#8, 0x01#8]], []⟩, fun _ => .zero 0⟩, 0, fun _ => none⟩

/-- C76, on golden/test.proto: `var x, y TestMessage; x.SetInt32(7); y.Decode([]byte{0x08, 0x01, 0xA0, 0x06, 0x01})` panics, and the program recovers; `y.Decode([]byte{0x08, 0x01})` returns nil; then
`y.Bool()` is true, and `x.Int32()` is 7 still. -/
theorem C76_example (rt : Rt) : ∃ s s1 s2 fi fb k k2, Comes asciiUnicode [testFile] received2 s k ∧ k.known.structs 0 = some ⟨testDesc, none, Op.apply (.set rt (num fi) .int32 7#32) .empty⟩ ∧
    ScalarField testDesc fi .int32 ∧ ScalarField testDesc fb .bool ∧
    Panics (programOf asciiUnicode [testFile]) rt 0 testDesc.getName t!"Decode" [.ptr testDesc.getName 1, .val (.bytes (.mem ⟨0, 0, 5, 5⟩))] s s1 ∧
    G.run (programOf asciiUnicode [testFile]) rt 0 testDesc.getName t!"Decode" [.ptr testDesc.getName 1, .val (.bytes (.mem ⟨1, 0, 2, 2⟩))] s1 = .ok ([.val .nil], s2) ∧ Comes asciiUnicode [testFile] received2 s2 k2 ∧
    (∃ v, G.run (programOf asciiUnicode [testFile]) rt 0 testDesc.getName (goName asciiUnicode fb) [.ptr testDesc.getName 1] s2 = .ok ([.val v], s2) ∧ IsVal s2.h.w .bool true v) ∧
    (∃ v, G.run (programOf asciiUnicode [testFile]) rt 0 testDesc.getName (goName asciiUnicode fi) [.ptr testDesc.getName 0] s2 = .ok ([.val v], s2) ∧ IsVal s2.h.w .int32 7#32 v) := by
  have hc := testFile_compilable
  obtain ⟨hf, hm⟩ := testFile_has
  obtain ⟨fi, i1, i2, i3, i4⟩ := testField (P := fun fd => (getLabel (some fd) = 1 ∨ getLabel (some fd) = 2) ∧ protoKind (getType (some fd)) = some .int32 ∧ num fd = 2) (by decide +kernel)
  obtain ⟨fb, b1, b2, b3, b4⟩ := testField (P := fun fd => (getLabel (some fd) = 1 ∨ getLabel (some fd) = 2) ∧ protoKind (getType (some fd)) = some .bool ∧ num fd = 1) (by decide +kernel)
  have hfi : ScalarField testDesc fi .int32 := ⟨i1, i2, i3⟩
  have hfb : ScalarField testDesc fb .bool := ⟨b1, b2, b3⟩
  have r0 := Comes.start (U := asciiUnicode) (fs := [testFile]) (s0 := received2)
  obtain ⟨s, k, r1, hms, hgs, hn, hw⟩ : ∃ s k, Comes asciiUnicode [testFile] received2 s k ∧ (∀ i, i < 2 → s.h.ms i = .zero (slotsOf testDesc)) ∧
      (∀ i, i < 2 → k.known.structs i = some ⟨testDesc, none, .empty⟩) ∧ s.next = 2 ∧ s.h.w = received2.h.w := by
    refine ⟨_, _, (r0.step (.does (.new hf hm))).step (.does (.new hf hm)), fun i hi => ?_, fun i hi => ?_, rfl, rfl⟩
    · rcases i with _ | _ | i <;> first | rfl | omega
    · rcases i with _ | _ | i <;> first | rfl | omega
  have c : Calls asciiUnicode testDesc rt 0 s (t!"Set" ++ goName asciiUnicode fi) [.ptr testDesc.getName 0, .val (.i32 7#32)] (.set rt (num fi) .int32 7#32) :=
    .set hfi rfl (by intro _ h; rcases h with h | h <;> cases h) (by decide)
  have hk0 := hgs 0 (by decide)
  obtain ⟨s1, q1, q2, q3⟩ := ((C76_programs hc r1).1 0 _ hk0).calls rt 0 _ _ _ c (by rw [hms 0 (by decide)]; show 0 + (20 + Kind.size .int32 7#32) < maxLen; decide)
  have r2 := r1.step (.does (.set hk0 c trivial q1))
  obtain ⟨_, _, _, _, _, _, _, heff, _⟩ := call_tracks hc (comes_sound hc r1).known (e := ⟨testDesc, none, .empty⟩) hk0 c q1
  have hfr : Frame s.h.w s1.h.w (s.h.ms 0) (s1.h.ms 0) := heff
  have hnil : ∀ a q, ¬ (s.h.ms 0).buf.owns a q := fun a q ho => by
    rw [hms 0 (by decide)] at ho
    exact owns_nil ho
  have wf : ∀ b : HSlice, received2.h.w.WFs b → s1.h.w.WFs b := fun b hb => wf_sized ⟨hfr.bytes.grow, hfr.bytes.size, hfr.mgrow⟩ (by rw [hw]; exact hb)
  have sl : ∀ b : HSlice, received2.h.w.WFs b → s1.h.w.slice b = received2.h.w.slice b := fun b hb => by
    rw [← hw] at hb ⊢
    exact hfr.bytes.slice_eq hb fun a q ho => absurd ho (hnil a q)
  have w0 : received2.h.w.WFs ⟨0, 0, 5, 5⟩ := ⟨by decide, by decide⟩
  have w1 : received2.h.w.WFs ⟨1, 0, 2, 2⟩ := ⟨by decide, by decide⟩
  have v08 : IsVarint 8 [0x08#8] := ⟨[], 0x08#8, rfl, by simp, by decide, by decide, by decide, by decide⟩
  have v01 : IsVarint 1 [0x01#8] := ⟨[], 0x01#8, rfl, by simp, by decide, by decide, by decide, by decide⟩
  have v800 : IsVarint 800 [0xA0#8, 0x06#8] := ⟨[0xA0#8], 0x06#8, rfl, by decide, by decide, by decide, by decide, by decide⟩
  have hrec : IsMessage [⟨1, .varint 1#64⟩, ⟨100, .varint 1#64⟩] [0x08#8, 0x01#8, 0xA0#8, 0x06#8, 0x01#8] :=
    .cons (bs := [0x08#8, 0x01#8]) (rest := [0xA0#8, 0x06#8, 0x01#8]) ⟨[0x08#8], [0x01#8], rfl, v08, v01⟩
      (.cons (bs := [0xA0#8, 0x06#8, 0x01#8]) (rest := []) ⟨[0xA0#8, 0x06#8], [0x01#8], rfl, v800, v01⟩ .nil)
  have hn1 : slotsOf testDesc ≤ 100 := by decide +kernel
  have ht1 : (k.gets 0 ⟨testDesc, none, Op.apply (.set rt (num fi) .int32 7#32) .empty⟩).type 1 = some testDesc := by
    rw [type_gets, if_neg (by decide)]; exact type_known (hgs 1 (by decide))
  have hk2 : (k.gets 0 ⟨testDesc, none, Op.apply (.set rt (num fi) .int32 7#32) .empty⟩).known.structs 0 = some ⟨testDesc, none, Op.apply (.set rt (num fi) .int32 7#32) .empty⟩ := by
    simp [Ledger.gets, Known.put]
  obtain ⟨s2, d1, r3⟩ := C76_unknown hc r2 (j := 1) ht1 (b := ⟨0, 0, 5, 5⟩) (wf _ w0) (by decide) (rs := [⟨1, .varint 1#64⟩, ⟨100, .varint 1#64⟩]) (by rw [sl _ w0]; exact hrec) ⟨⟨100, .varint 1#64⟩, by simp, hn1⟩ rt 0
  have hk3 : ((k.gets 0 ⟨testDesc, none, Op.apply (.set rt (num fi) .int32 7#32) .empty⟩).spoil 1 testDesc).known.structs 0 = some ⟨testDesc, none, Op.apply (.set rt (num fi) .int32 7#32) .empty⟩ := by
    show (if 0 = 1 then none else ((k.gets 0 ⟨testDesc, none, Op.apply (.set rt (num fi) .int32 7#32) .empty⟩).known.drop 1).structs 0) = _
    rw [if_neg (by decide)]
    exact drop_structs.2 ⟨hk2, nofun⟩
  have hdec : Fallen s1 s2 1 ⟨0, 0, 5, 5⟩ := by
    obtain ⟨e, fuel, h3⟩ := d1
    exact (comes_sound hc r2).falls hc ht1 (wf _ w0) (h3 fuel (Nat.le_refl _))
  have hs2 : s2.h.w.slice ⟨1, 0, 2, 2⟩ = received2.h.w.slice ⟨1, 0, 2, 2⟩ := by
    rw [← sl _ w1]
    have hlt : 1 < s1.h.w.arrs.length := Nat.lt_of_lt_of_le (by rw [hw]; decide) hfr.bytes.grow
    have := fun q => hdec.cells 1 q hlt
    unfold World.cell at this
    have := List.ext_getElem? this
    unfold World.slice World.full
    rw [show s2.h.w.arr 1 = s1.h.w.arr 1 from this]
  have hcf : Conforms testDesc [⟨1, .varint 1#64⟩] := by
    intro r hr
    simp only [List.mem_singleton] at hr
    subst hr
    refine ⟨.inr ⟨fb, b1, by rw [b4]; exact Nat.le_refl _⟩, fun fd hfd hnum => ?_⟩
    have hall : ∀ fd ∈ testDesc.field.filterMap id, num fd = 1 → protoKind (getType (some fd)) = some .bool ∧ getType (some fd) ≠ 11 := by decide +kernel
    obtain ⟨a1, a2⟩ := hall fd (List.mem_filterMap.2 ⟨some fd, hfd, rfl⟩) hnum
    refine ⟨fun k hk => ?_, fun hx => ?_⟩
    · have : some k = some Kind.bool := hk.2.2.symm.trans a1
      cases this
      exact ⟨true, by decide⟩
    · rcases hx with hx | hx <;> exact absurd hx.2.2 a2
  obtain ⟨s3, d2, r4, hsh⟩ := C76_again hc r3 (j := 1) (m := testDesc) (by rw [type_spoil, if_pos rfl]) (b := ⟨1, 0, 2, 2⟩) (rs := [⟨1, .varint 1#64⟩]) (wf_sized hdec.sized (wf _ w1)) (by decide)
    (by rw [hs2]; exact .cons (bs := [0x08#8, 0x01#8]) (rest := []) ⟨[0x08#8], [0x01#8], rfl, ⟨v08, by decide⟩, v01⟩ .nil) hcf (fun i e hi hv hne a q ho ho' => by
      have hi0 : i = 0 := by
        simp only [Ledger.spoil, Known.forget, if_neg hne] at hi
        have hi := (drop_structs.1 hi).1
        simp only [Ledger.gets, Known.put] at hi
        by_cases h0 : i = 0
        · exact h0
        · rw [if_neg h0] at hi
          have := ((comes_sound hc r1).known.struct i e (drop_structs.1 hi).1).2.1
          omega
      subst hi0
      rw [hdec.others 0 (by decide) ((comes_sound hc r2).known.struct 0 _ hk2).2.1] at ho'
      rcases hfr.bytes.owned a q ho' with h | h
      · exact hnil a q h
      · have ha : 1 = a := ho.1
        rw [hw, ← ha] at h
        exact absurd h (by decide)) rt 0
  have hk4 : (((k.gets 0 ⟨testDesc, none, Op.apply (.set rt (num fi) .int32 7#32) .empty⟩).spoil 1 testDesc).gets 1 ⟨testDesc, none, .ofRecords [⟨1, .varint 1#64⟩]⟩).known.structs 0 =
      some ⟨testDesc, none, Op.apply (.set rt (num fi) .int32 7#32) .empty⟩ := by
    show (if 0 = 1 then some ⟨testDesc, none, .ofRecords [⟨1, .varint 1#64⟩]⟩ else (((k.gets 0 ⟨testDesc, none, Op.apply (.set rt (num fi) .int32 7#32) .empty⟩).spoil 1 testDesc).known.drop 1).structs 0) = _
    rw [if_neg (by decide)]
    exact drop_structs.2 ⟨hk3, nofun⟩
  refine ⟨s1, s2, s3, fi, fb, _, _, r2, hk2, hfi, hfb, d1, d2, r4, ?_, ?_⟩
  · obtain ⟨x, v, g1, g2, g3⟩ := hsh.scalar fb .bool hfb rt 0
    refine ⟨v, g1, ?_⟩
    rw [b4] at g3
    have : readVal .bool ((Contents.ofRecords [⟨1, .varint 1#64⟩]).sing 1) = some true := by decide
    rw [this] at g3
    cases g3
    exact g2
  · obtain ⟨x, v, g1, g2, g3⟩ := ((C76_programs hc r4).1 0 _ hk4).scalar fi .int32 hfi rt 0
    refine ⟨v, g1, ?_⟩
    have : readVal .int32 ((Op.apply (.set rt (num fi) .int32 7#32) .empty).sing (num fi)) = some 7#32 := by
      simp only [Op.apply, Contents.set, if_true]
      decide
    rw [this] at g3
    cases g3
    exact g2

end Zeropb.GoSrc.E
