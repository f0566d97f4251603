import Verif.Props.Recover
import Verif.Props.Races
import Verif.Conc.ReadHalt
/-!
# C77: programs that read structs of which they know nothing

The programs of C76, extended: the program may also read a struct whose contents it does not know - one that was decoded from bytes that came from elsewhere, by a call that returned nil, returned
an error or panicked. It may call the getters of scalar fields, of message fields and of repeated fields on it, and `Next` on an iterator that refers to any bytes. Each of these calls may
return, or panic and be recovered from.
-/

set_option linter.constructorNameAsVariable false

namespace Zeropb.GoSrc.E
open Zeropb.Gen Wire Zeropb.GoSrc.G

/-! ## Specification -/

/-- The iterators of which the program knows only the type: the message type and the repeated field. -/
abbrev Loose := Nat → Option (Desc × Field)

/-- Iterator `v` is now of the type for field `fd` of `m`. -/
def Loose.put (l : Loose) (v : Nat) (m : Desc) (fd : Field) : Loose := fun u => if u = v then some (m, fd) else l u

/-- The program does not rely on what iterator `v` yields any more. -/
def Ledger.unpoint (k : Ledger) (v : Nat) : Ledger := { k with known := { k.known with iters := fun u => if u = v then none else k.known.iters u } }

/-- The call panics, with memory `s'` at that moment. -/
def Crashes (p : Program) (rt : Rt) (d : Nat) (t name : Text) (args : List GVal) (s s' : GSt) : Prop :=
  (∃ x, x ≠ .diverge ∧ G.run p rt d t name args s = .error (.fail x)) ∧ Panics p rt d t name args s s'

/-- The call returns, or panics and the program recovers: the memory is `s'` then. -/
def Ends (p : Program) (rt : Rt) (d : Nat) (t name : Text) (args : List GVal) (s s' : GSt) : Prop :=
  (∃ out, G.run p rt d t name args s = .ok (out, s')) ∨ Crashes p rt d t name args s s'

/-- One step of the program. -/
inductive Moves (U : Unicode) (fs : List FileDesc) : GSt → Ledger → Loose → GSt → Ledger → Loose → Prop
  /-- as in C76; this does not concern the iterators that the program knows nothing about -/
  | goes {s k l s' k'} : Goes U fs s k s' k' → (∀ v x, l v = some x → s'.its v = s.its v ∧ k'.known.iters v = none) → Moves U fs s k l s' k' l
  /-- `x.Name()`, where the field is not a message -/
  | get {s k l i m fd kd rt d s'} : k.type i = some m → ScalarField m fd kd → Ends (programOf U fs) rt d m.getName (goName U fd) [.ptr m.getName i] s s' → Moves U fs s k l s' k l
  /-- `ok, err := x.Name(y)` -/
  | message {s k l i m fd j m' rt d s'} : k.type i = some m → MessageField m fd → k.type j = some m' → m'.getName = goType fd →
      Ends (programOf U fs) rt d m.getName (goName U fd) [.ptr m.getName i, .ptr (goType fd) j] s s' → Moves U fs s k l s' (k.spoil j m') l
  /-- `it := x.Name()`, where the field is repeated -/
  | iterate {s k l i m fd rt d o s' v} : k.type i = some m → RepeatedField m fd →
      G.run (programOf U fs) rt d m.getName (goName U fd) [.ptr m.getName i] s = .ok ([.val (optBytes o)], s') →
      Moves U fs s k l { s' with its := fun u => if u = v then o else s'.its u } (k.unpoint v) (l.put v m fd)
  /-- the same, when it panics -/
  | iteratePanics {s k l i m fd rt d s'} : k.type i = some m → RepeatedField m fd → Crashes (programOf U fs) rt d m.getName (goName U fd) [.ptr m.getName i] s s' → Moves U fs s k l s' k l
  /-- iterator `v` refers to any bytes -/
  | loosen {s k l v m fd} : (∃ f ∈ fs, some m ∈ f.messageType) → RepeatedField m fd → (∀ b, s.its v = some b → s.h.w.WFs b) → Moves U fs s k l s (k.unpoint v) (l.put v m fd)
  /-- iterator `v` is not used any more -/
  | drop {s k l v} : Moves U fs s k l s (k.unpoint v) (fun u => if u = v then none else l u)
  /-- `ok, err := it.Next(y)` -/
  | next {s k l v m fd j m' rt d s'} : l v = some (m, fd) → k.type j = some m' → m'.getName = goType fd →
      Ends (programOf U fs) rt d (iterOf m fd) t!"Next" [.iter (iterOf m fd) v, .ptr (goType fd) j] s s' → Moves U fs s k l s' (k.spoil j m') l

/-- A run of the program, from a state in which it knows nothing. -/
inductive Roams (U : Unicode) (fs : List FileDesc) (s0 : GSt) : GSt → Ledger → Loose → Prop
  | start : Roams U fs s0 s0 .nothing (fun _ => none)
  | step {s k l s' k' l'} : Roams U fs s0 s k l → Moves U fs s k l s' k' l' → Roams U fs s0 s' k' l'

/-! ## Nothing changes -/

/-- Of what existed, nothing changed. -/
structure Still (s s' : GSt) : Prop where
  sized : Sized s.h.w s'.h.w
  cells : ∀ a q, a < s.h.w.arrs.length → s'.h.w.cell a q = s.h.w.cell a q
  maps : ∀ id, id < s.h.w.maps.length → s'.h.w.maps.getD id [] = s.h.w.maps.getD id []
  next : s.next ≤ s'.next
  structs : ∀ j, j < s.next → s'.h.ms j = s.h.ms j
  its : s'.its = s.its

theorem Still.refl (s : GSt) : Still s s := ⟨⟨Nat.le_refl _, fun _ _ => rfl, Nat.le_refl _⟩, fun _ _ _ => rfl, fun _ _ => rfl, Nat.le_refl _, fun _ _ => rfl, rfl⟩

/-- A function that only reads may write what it allocates. -/
def onlyNew (s : GSt) (l : Conc.Loc) : Prop := ¬ l.Old (Conc.Base.of s)

theorem still_of {s s' : GSt} (h : Conc.Keeps (onlyNew s) s s') : Still s s' := by
  have same : ∀ l, l.Old (Conc.Base.of s) → Conc.read l s' = Conc.read l s := fun l hl => h.same l hl (fun hx => hx hl)
  have cells : ∀ a q, a < s.h.w.arrs.length → s'.h.w.cell a q = s.h.w.cell a q := fun a q ha => same (.cell a q) ha
  refine ⟨⟨h.arrs, fun a ha => ?_, h.maps⟩, cells, fun id hid => same (.map id) hid, h.next, fun j hj => ?_, ?_⟩
  · have hc := fun q => cells a q ha
    unfold World.cell at hc
    rw [List.ext_getElem? hc]
  · exact hmsg_ext (same (.buf j) hj) (fun x => same (.slot j x) hj) (same (.ref j) hj)
  · funext v; exact same (.iter v) trivial

/-- The right to read struct `i`. -/
def readOnly (i : Nat) : Conc.Rights := ⟨fun x => if x = i then some 0 else none, fun _ => False⟩

theorem holds_readOnly {s : GSt} {i : Nat} (hi : i < s.next) : Conc.Holds (fun _ => True) (onlyNew s) (readOnly i) s := by
  refine ⟨⟨fun l hl => ⟨trivial, hl⟩⟩, fun j lv hj => ?_, nofun⟩
  simp only [readOnly] at hj
  split at hj
  · next e =>
    subst e
    injection hj with hj
    subst hj
    exact ⟨by decide, hi, trivial, fun _ => trivial, trivial, trivial, fun _ _ _ => trivial, fun _ _ => trivial, nofun, fun _ => nofun, nofun, fun _ => nofun, nofun⟩
  · cases hj

section
variable {U : Unicode} {fs : List FileDesc} {pkg : Text} {s : GSt}

theorem Sound.still {k : Ledger} (h : Sound U fs s k) {s' : GSt} (hs : Still s s') : Sound U fs s' k :=
  h.other ⟨⟨hs.sized, hs.next, fun i e hi => hs.structs i (h.known.struct i e hi).2.1, fun i e hi _ a q ho => hs.cells a q ((h.known.struct i e hi).2.2.1.1.cell_lt ho),
    fun i e id hi hid => hs.maps id ((h.known.struct i e hi).2.2.1.2 id hid), fun _ _ _ => by rw [hs.its]⟩, fun i m hi => by
      cases hk : k.known.structs i with
      | some e => exact hs.structs i (h.known.struct i e hk).2.1
      | none => exact hs.structs i (h.shape.one i m (by unfold Ledger.type; rw [hk]; exact hi)).2.1⟩

/-- A scalar getter, of any struct. -/
theorem Sound.get {k : Ledger} (hc : Compilable U fs pkg) (h : Sound U fs s k) {i : Nat} {m : Desc} {fd : Field} {kd : Kind} (hi : k.type i = some m) (hfd : ScalarField m fd kd) {rt : Rt} {d : Nat} :
    (∀ {out s'}, G.run (programOf U fs) rt d m.getName (goName U fd) [.ptr m.getName i] s = .ok (out, s') → s' = s) ∧
    (∀ {s'}, Panics (programOf U fs) rt d m.getName (goName U fd) [.ptr m.getName i] s s' → Still s s') := by
  obtain ⟨⟨f, hf, hm⟩, o2, o3, _⟩ := h.shape.one i m hi
  have hd := sub_of (U := U) hf hm _ (decl_get (U := U) (hc.valid f hf m hm) hfd).1
  refine ⟨fun {out s'} hr => ?_, fun {s'} hp => ?_⟩
  · have hg := C63_get hc.program rt d s (i := i) hd o3.1
    cases e : (s.h.w.msg (s.h.ms i)).get kd (num fd) with
    | error x => rw [e] at hg; simp only [Reads] at hg; rw [hg] at hr; cases hr
    | ok x =>
      rw [e] at hg
      obtain ⟨v, hg, _⟩ := hg
      rw [hg] at hr
      injection hr with hr; injection hr with _ hr; exact hr.symm
  · obtain ⟨x, fuel, hp⟩ := hp
    exact still_of ((Conc.gsafe_get (holds_readOnly o2) (i := i) (lv := 0) (by simp [readOnly]) (hc.program.method hd rfl) (pkg_get _) (Conc.getter_callable _)).halt_keeps (hp fuel (Nat.le_refl _)))


/-- The getter of a repeated field, of any struct. -/
theorem Sound.iterate {k : Ledger} (hc : Compilable U fs pkg) (h : Sound U fs s k) {i : Nat} {m : Desc} {fd : Field} (hi : k.type i = some m) (hfd : RepeatedField m fd) {rt : Rt} {d : Nat} :
    (∀ {o s'}, G.run (programOf U fs) rt d m.getName (goName U fd) [.ptr m.getName i] s = .ok ([.val (optBytes o)], s') → s' = s ∧ ∀ b, o = some b → s.h.w.WFs b ∧ Within b (s.h.ms i).buf) ∧
    (∀ {s'}, Panics (programOf U fs) rt d m.getName (goName U fd) [.ptr m.getName i] s s' → Still s s') := by
  obtain ⟨⟨f, hf, hm⟩, o2, o3, _⟩ := h.shape.one i m hi
  have hsub := sub_of (U := U) hf hm
  obtain ⟨d1, _, d3, _⟩ := decl_repeated (U := U) (hc.valid f hf m hm) hfd
  refine ⟨fun {o s'} hr => ?_, fun {s'} hp => ?_⟩
  · rw [C63_getRepeated hc.program rt d s (i := i) (hsub _ d3) (hsub _ d1)] at hr
    obtain ⟨r, r1, r2⟩ := bind_ok hr
    have r1 := lift_ok r1
    injection r2 with r2; injection r2 with r2 r3
    refine ⟨r3.symm, fun b hb => ?_⟩
    subst hb
    have hr' : r = some b := by
      cases r with
      | none => simp [optBytes] at r2
      | some t => simp [optBytes] at r2; rw [r2]
    subst hr'
    unfold HMsg.messages at r1
    simp only [bind, Except.bind] at r1
    cases hg : (s.h.w.offs (s.h.ms i)).get (num fd) with
    | error e => rw [hg] at r1; cases r1
    | ok x =>
      rw [hg] at r1
      simp only at r1
      split at r1
      · cases r1
      · cases hd : (s.h.ms i).buf.dropFrom x.1.toNat with
        | error e => rw [hd] at r1; cases r1
        | ok t =>
          rw [hd] at r1
          simp only [pure, Except.pure, Except.ok.injEq, Option.some.injEq] at r1
          subst r1
          exact ⟨HSlice.dropFrom_wf o3.1 hd, fun a q ho => HSlice.dropFrom_owns hd o3.1.1 ho⟩
  · obtain ⟨x, fuel, hp⟩ := hp
    exact still_of ((Conc.gsafe_getRepeated (holds_readOnly o2) (i := i) (lv := 0) (by simp [readOnly]) (hc.program.method (hsub _ d3) rfl)).halt_keeps (hp fuel (Nat.le_refl _)))

/-- The getter of a message field, of any struct: `Decode`, if there are bytes. -/
theorem Sound.getMessage {k : Ledger} (hc : Compilable U fs pkg) (h : Sound U fs s k) {i j : Nat} {m m' : Desc} {fd : Field} (hi : k.type i = some m) (hfd : MessageField m fd) (hj : k.type j = some m')
    (hname : m'.getName = goType fd) (rt : Rt) (d : Nat) :
    G.run (programOf U fs) rt d m.getName (goName U fd) [.ptr m.getName i, .ptr (goType fd) j] s = (lift ((s.h.ms i).getBytes s.h.w (num fd)) >>= fun o => match o with
      | none => .ok ([.val (.bool false), .val .nil], s)
      | some b => G.run (programOf U fs) rt d m'.getName t!"Decode" [.ptr m'.getName j, .val (.bytes (.mem b))] s >>= fun r => .ok (.val (.bool true) :: r.1, r.2)) := by
  obtain ⟨⟨f, hf, hm⟩, _, o3, _⟩ := h.shape.one i m hi
  obtain ⟨⟨f', hf', hm'⟩, _, o3', _⟩ := h.shape.one j m' hj
  have hsub := sub_of (U := U) hf hm
  have hsub' := sub_of (U := U) hf' hm'
  have hdi := decls_implements U m' (hc.valid f' hf' m' hm')
  obtain ⟨nums, t1, _⟩ := hdi.table
  have d1 := hsub' _ hdi.fixed.2.1
  have d2 := hsub' _ ((t1 m'.getName nums).2 ⟨rfl, rfl⟩)
  rw [← hname]
  have hd := hsub _ (decl_message (U := U) (hc.valid f hf m hm) hfd).1
  rw [← hname] at hd
  rw [C63_getMessage hc.program rt d s (i := i) (j := j) hd d1 d2 o3.1 o3']
  unfold HMsg.subMessage
  cases hg : (s.h.ms i).getBytes s.h.w (num fd) with
  | error e => rfl
  | ok o =>
    cases o with
    | none =>
      simp only [bind, Except.bind, lift, pure, Except.pure]
      rw [show s.h.upd j (s.h.ms j, s.h.w) = s.h from upd_self s.h j]
      rfl
    | some b =>
      have hb : s.h.w.WFs b := by
        obtain ⟨_, _, hrg⟩ := getBytes_owns hg
        exact HSlice.range_wf o3.1 hrg
      simp only [bind, Except.bind, lift, pure, Except.pure]
      rw [C63_decode hc.program rt d s d1 d2 b hb o3']
      simp only [bind, Except.bind, lift]
      cases (s.h.ms j).decode (fun n => decide ((n : Int) ∈ nums)) s.h.w b with
      | error e => rfl
      | ok r => rfl


/-- `Next`, with any bytes. -/
theorem Sound.nextRun {k : Ledger} (hc : Compilable U fs pkg) (h : Sound U fs s k) {v j : Nat} {m m' : Desc} {fd : Field} (hm : ∃ f ∈ fs, some m ∈ f.messageType) (hfd : RepeatedField m fd)
    (hv : ∀ b, s.its v = some b → s.h.w.WFs b) (hj : k.type j = some m') (hname : m'.getName = goType fd) (rt : Rt) (d : Nat) :
    G.run (programOf U fs) rt d (iterOf m fd) t!"Next" [.iter (iterOf m fd) v, .ptr (goType fd) j] s = (lift (hFindNextField s.h.w (s.its v) (num fd)) >>= fun r => match r.2 with
      | none => .ok ([.val (.bool false), .val .nil], { s with its := fun u => if u = v then r.1 else s.its u })
      | some b => G.run (programOf U fs) rt d m'.getName t!"Decode" [.ptr m'.getName j, .val (.bytes (.mem b))] { s with its := fun u => if u = v then r.1 else s.its u } >>=
          fun r => .ok (.val (.bool true) :: r.1, r.2)) := by
  obtain ⟨f, hf, hm⟩ := hm
  obtain ⟨⟨f', hf', hm'⟩, _, o3', _⟩ := h.shape.one j m' hj
  have hsub := sub_of (U := U) hf hm
  have hsub' := sub_of (U := U) hf' hm'
  have hdi := decls_implements U m' (hc.valid f' hf' m' hm')
  obtain ⟨nums, t1, _⟩ := hdi.table
  have d1 := hsub' _ hdi.fixed.2.1
  have d2 := hsub' _ ((t1 m'.getName nums).2 ⟨rfl, rfl⟩)
  rw [← hname]
  have hd := hsub _ (decl_repeated (U := U) (hc.valid f hf m hm) hfd).2.1
  rw [← hname] at hd
  rw [C63_next hc.program rt d s (i := v) (j := j) hd d1 d2 hv o3']
  unfold hNext
  cases hg : hFindNextField s.h.w (s.its v) (num fd) with
  | error e => rfl
  | ok r =>
    obtain ⟨it, o⟩ := r
    cases o with
    | none =>
      simp only [bind, Except.bind, lift, pure, Except.pure]
      rw [show s.h.upd j (s.h.ms j, s.h.w) = s.h from upd_self s.h j]
      rfl
    | some b =>
      have hb : s.h.w.WFs b := by
        cases hi : s.its v with
        | none => rw [hi] at hg; simp [hFindNextField] at hg
        | some B => rw [hi] at hg; exact ((hFindNextField_tail (hv B hi) hg).2 b rfl).2
      simp only [bind, Except.bind, lift, pure, Except.pure]
      rw [C63_decode hc.program rt d { s with its := fun u => if u = v then it else s.its u } d1 d2 b hb o3']
      simp only [bind, Except.bind, lift]
      cases (s.h.ms j).decode (fun n => decide ((n : Int) ∈ nums)) s.h.w b with
      | error e => rfl
      | ok r => rfl

theorem lift_error_eq {α : Type} {x : Res α} {e : Fail} (h : lift x = .error (.fail e)) : x = .error e := by
  cases x with
  | ok a => cases h
  | error y => simp only [lift, Except.error.injEq, Stop.fail.injEq] at h; rw [h]

/-- The getter of a message field, of any struct, panics. -/
theorem Sound.getMessage_panics {k : Ledger} (hc : Compilable U fs pkg) (h : Sound U fs s k) {i j : Nat} {m m' : Desc} {fd : Field} (hi : k.type i = some m) (hfd : MessageField m fd) (hj : k.type j = some m')
    (hname : m'.getName = goType fd) {rt : Rt} {d : Nat} {s' : GSt}
    (hp : Crashes (programOf U fs) rt d m.getName (goName U fd) [.ptr m.getName i, .ptr (goType fd) j] s s') :
    Still s s' ∨ ∃ b, s.h.w.WFs b ∧ Within b (s.h.ms i).buf ∧ Fallen s s' j b := by
  obtain ⟨⟨f, hf, hm⟩, o2, o3, _⟩ := h.shape.one i m hi
  have hsub := sub_of (U := U) hf hm
  have hd := hc.program.method (hsub _ (decl_message (U := U) (hc.valid f hf m hm) hfd).1) rfl
  obtain ⟨⟨x, hx, hr⟩, y, hev⟩ := hp
  have hcall := go_GetBytes rt (d + 1) i (num fd) s.h o3.1
  rw [h.getMessage hc hi hfd hj hname rt d] at hr
  cases hg : (s.h.ms i).getBytes s.h.w (num fd) with
  | error e =>
    rw [hg] at hr hcall
    have hex : e = x := by simpa [lift, bind, Except.bind] using hr
    subst hex
    obtain ⟨s1, hf1⟩ := Conc.fl_goCall hx rt (d + 3) .GetBytes [.bytes (.mem (s.h.ms i).buf), .offs i, .const (num fd)] s hcall
    obtain ⟨fuel, hfu⟩ := hev.and hf1
    obtain ⟨f1, f2⟩ := hfu fuel (Nat.le_refl _)
    have f3 := Conc.halt_getMessage_bytes (n := d + 1) (d := d + 2) (i := i) (j := j) hd f2
    have f4 := f3.symm.trans f1
    injection f4 with f4; injection f4 with _ f4
    subst f4
    have hh := (holds_readOnly o2).struct i 0 (by simp [readOnly])
    exact .inl (still_of ((Conc.safe_on (by decide) (holds_readOnly o2).fresh hh.2.2 (f := .GetBytes) rfl (Conc.getter_args hh.2.2) fuel (d + 3)).halt_keeps f2))
  | ok o =>
    rw [hg] at hcall
    have hend := Conc.ends_goCall rt (d + 3) .GetBytes [.bytes (.mem (s.h.ms i).buf), .offs i, .const (num fd)] s _ _ hcall
    obtain ⟨fuel, hfu⟩ := hev.and hend
    obtain ⟨f1, f2⟩ := hfu fuel (Nat.le_refl _)
    have f2 : _ = Except.ok (_, s) := f2
    have f3 := Conc.halt_getMessage hd f2 f1
    cases o with
    | none => exact absurd f3 (Conc.halt_tail_nil rfl)
    | some b =>
      obtain ⟨_, _, hrg⟩ := getBytes_owns hg
      have hb : s.h.w.WFs b := HSlice.range_wf o3.1 hrg
      have f4 := Conc.halt_tail (b := b) (j := j) (typ := goType fd) rfl rfl f3
      rw [← hname] at f4
      exact .inr ⟨b, hb, fun a q ho => HSlice.range_owns hrg ho, h.falls hc hj hb f4⟩

/-- An iterator that the program does not rely on may be assigned. -/
theorem Sound.assign {k : Ledger} (h : Sound U fs s k) {v : Nat} (hv : k.known.iters v = none) (o : Option HSlice) : Sound U fs { s with its := fun u => if u = v then o else s.its u } k := by
  refine ⟨h.known.other ⟨⟨Nat.le_refl _, fun _ _ => rfl, Nat.le_refl _⟩, Nat.le_refl _, fun _ _ _ => rfl, fun _ _ _ _ _ _ _ => rfl, fun _ _ _ _ _ => rfl, fun u c hu => ?_⟩, ⟨h.shape.one, h.shape.maps⟩⟩
  have : u ≠ v := fun he => by rw [he, hv] at hu; cases hu
  simp [this]

/-- `Next`, with any bytes, panics. -/
theorem Sound.nextRun_panics {k : Ledger} (hc : Compilable U fs pkg) (h : Sound U fs s k) {v j : Nat} {m m' : Desc} {fd : Field} (hm : ∃ f ∈ fs, some m ∈ f.messageType) (hfd : RepeatedField m fd)
    (hv : ∀ b, s.its v = some b → s.h.w.WFs b) (hk : k.known.iters v = none) (hj : k.type j = some m') (hname : m'.getName = goType fd) {rt : Rt} {d : Nat} {s' : GSt}
    (hp : Crashes (programOf U fs) rt d (iterOf m fd) t!"Next" [.iter (iterOf m fd) v, .ptr (goType fd) j] s s') :
    Still s s' ∨ ∃ B b o, s.its v = some B ∧ s.h.w.WFs b ∧ Within b B ∧ hFindNextField s.h.w (some B) (num fd) = .ok (o, some b) ∧
      Fallen { s with its := fun u => if u = v then o else s.its u } s' j b := by
  obtain ⟨f, hf, hmf⟩ := hm
  have hsub := sub_of (U := U) hf hmf
  have hd := hc.program.method (hsub _ (decl_repeated (U := U) (hc.valid f hf m hmf) hfd).2.1) rfl
  obtain ⟨⟨x, hx, hr⟩, y, hev⟩ := hp
  have hcall := go_FindNextField rt (d + 1) (s.its v) (num fd) s.h hv
  have hopt : ∀ o : Option HSlice, optBytes o = Conc.optVal o := fun o => by cases o <;> rfl
  rw [h.nextRun hc ⟨f, hf, hmf⟩ hfd hv hj hname rt d] at hr
  cases hg : hFindNextField s.h.w (s.its v) (num fd) with
  | error e =>
    rw [hg] at hr hcall
    have hex : e = x := by simpa [lift, bind, Except.bind] using hr
    subst hex
    obtain ⟨s1, hf1⟩ := Conc.fl_goCall hx rt (d + 3) .FindNextField [Conc.optVal (s.its v), .const (num fd)] s (by rw [← hopt]; exact hcall)
    obtain ⟨fuel, hfu⟩ := hev.and hf1
    obtain ⟨f1, f2⟩ := hfu fuel (Nat.le_refl _)
    have f3 := Conc.halt_next_find (n := d + 1) (d := d + 2) (v := v) (j := j) hd f2
    have f4 := f3.symm.trans f1
    injection f4 with f4; injection f4 with _ f4
    subst f4
    have hh : Conc.Fresh (fun _ => True) (onlyNew s) s := ⟨fun l hl => ⟨trivial, hl⟩⟩
    refine .inl (still_of ((Conc.safe_off (i := 0) hh (f := .FindNextField) rfl (fun x hx => ?_) fuel (d + 3)).halt_keeps f2))
    simp only [List.mem_cons, List.not_mem_nil, or_false] at hx
    rcases hx with rfl | rfl
    · cases s.its v with
      | none => exact Or.inl rfl
      | some b => exact Or.inr ⟨b, Or.inl rfl, fun _ _ _ => trivial⟩
    · exact Or.inl rfl
  | ok r =>
    obtain ⟨o, p⟩ := r
    rw [hg] at hcall
    have hend := Conc.ends_goCall rt (d + 3) .FindNextField [Conc.optVal (s.its v), .const (num fd)] s [Conc.optVal o, Conc.optVal p] s.h (by rw [← hopt, ← hopt, ← hopt]; exact hcall)
    obtain ⟨fuel, hfu⟩ := hev.and hend
    obtain ⟨f1, f2⟩ := hfu fuel (Nat.le_refl _)
    have f2 : _ = Except.ok (_, s) := f2
    have f3 := Conc.halt_next hd f2 f1
    cases p with
    | none => exact absurd f3 (Conc.halt_tail_nil rfl)
    | some b =>
      cases hB : s.its v with
      | none => rw [hB] at hg; simp [hFindNextField] at hg
      | some B =>
        rw [hB] at hg
        obtain ⟨_, t2⟩ := hFindNextField_tail (hv B hB) hg
        obtain ⟨t2, hb⟩ := t2 b rfl
        have f4 := Conc.halt_tail (b := b) (j := j) (typ := goType fd) rfl rfl f3
        rw [← hname] at f4
        exact .inr ⟨B, b, o, rfl, hb, fun a q ho => t2.owns ho, hg, (h.assign hk o).falls hc hj hb f4⟩


/-- After `Decode` the struct refers to the bytes it was given. -/
theorem decoded_buf (hc : Compilable U fs pkg) {m : Desc} (hm : ∃ f ∈ fs, some m ∈ f.messageType) {i : Nat} {b : HSlice} (hb : s.h.w.WFs b) (hw : s.h.w.WF (s.h.ms i)) {rt : Rt} {d : Nat} {out : List GVal} {s' : GSt}
    (hr : G.run (programOf U fs) rt d m.getName t!"Decode" [.ptr m.getName i, .val (.bytes (.mem b))] s = .ok (out, s')) : (s'.h.ms i).buf = b := by
  obtain ⟨rep, he⟩ := decode_eq hc hm
  rw [he s rt d i b hb hw] at hr
  obtain ⟨r, r1, r2⟩ := bind_ok hr
  injection r2 with r2; injection r2 with _ r2; subst r2
  have r1 := lift_ok r1
  have := decode_refines rep hw hb
  cases e : (s.h.w.msg (s.h.ms i)).decode rep (s.h.w.slice b) with
  | error e' => rw [e] at this; simp only at this; rw [this] at r1; cases r1
  | ok v =>
    rw [e] at this
    obtain ⟨m', w', h1, h2, h3, h4, h5, h6⟩ := this
    rw [h1] at r1
    injection r1 with r1; subst r1
    rw [upd_ms]; exact h4

/-- The getter of a message field, of any struct, returns. -/
theorem Sound.getMessage_ok {k : Ledger} (hc : Compilable U fs pkg) (h : Sound U fs s k) {i j : Nat} {m m' : Desc} {fd : Field} (hi : k.type i = some m) (hfd : MessageField m fd) (hj : k.type j = some m')
    (hname : m'.getName = goType fd) {rt : Rt} {d : Nat} {out : List GVal} {s' : GSt}
    (hr : G.run (programOf U fs) rt d m.getName (goName U fd) [.ptr m.getName i, .ptr (goType fd) j] s = .ok (out, s')) :
    (s' = s ∧ out = [.val (.bool false), .val .nil]) ∨ ∃ b, s.h.w.WFs b ∧ Within b (s.h.ms i).buf ∧ Decoded s s' j b ∧ (s'.h.ms j).buf = b := by
  obtain ⟨_, _, o3, _⟩ := h.shape.one i m hi
  obtain ⟨p1, _, p3, _⟩ := h.shape.one j m' hj
  rw [h.getMessage hc hi hfd hj hname rt d] at hr
  obtain ⟨o, r1, r2⟩ := bind_ok hr
  have r1 := lift_ok r1
  cases o with
  | none => injection r2 with r2; injection r2 with r2 r3; exact .inl ⟨r3.symm, r2.symm⟩
  | some b =>
    obtain ⟨_, _, hrg⟩ := getBytes_owns r1
    have hb : s.h.w.WFs b := HSlice.range_wf o3.1 hrg
    obtain ⟨r, r3, r4⟩ := bind_ok r2
    injection r4 with r4; injection r4 with _ r4; subst r4
    exact .inr ⟨b, hb, fun a q ho => HSlice.range_owns hrg ho, decoded hc p1 hb p3 (out := r.1) r3, decoded_buf hc p1 hb p3 (out := r.1) r3⟩

/-- `Next`, with any bytes, returns. -/
theorem Sound.nextRun_ok {k : Ledger} (hc : Compilable U fs pkg) (h : Sound U fs s k) {v j : Nat} {m m' : Desc} {fd : Field} (hm : ∃ f ∈ fs, some m ∈ f.messageType) (hfd : RepeatedField m fd)
    (hv : ∀ b, s.its v = some b → s.h.w.WFs b) (hj : k.type j = some m') (hname : m'.getName = goType fd) {rt : Rt} {d : Nat} {out : List GVal} {s' : GSt}
    (hr : G.run (programOf U fs) rt d (iterOf m fd) t!"Next" [.iter (iterOf m fd) v, .ptr (goType fd) j] s = .ok (out, s')) :
    (s.its v = none ∧ s' = s ∧ out = [.val (.bool false), .val .nil]) ∨
    ∃ B b o, s.its v = some B ∧ s.h.w.WFs b ∧ Within b B ∧ hFindNextField s.h.w (some B) (num fd) = .ok (o, some b) ∧
      Decoded { s with its := fun u => if u = v then o else s.its u } s' j b ∧ (s'.h.ms j).buf = b ∧ ∃ out', out = .val (.bool true) :: out' := by
  obtain ⟨p1, _, p3, _⟩ := h.shape.one j m' hj
  rw [h.nextRun hc hm hfd hv hj hname rt d] at hr
  obtain ⟨⟨o, p⟩, r1, r2⟩ := bind_ok hr
  have r1 := lift_ok r1
  cases hB : s.its v with
  | none =>
    rw [hB] at r1
    simp only [hFindNextField, Except.ok.injEq, Prod.mk.injEq] at r1
    obtain ⟨rfl, rfl⟩ := r1
    injection r2 with r2; injection r2 with r2 r3
    refine .inl ⟨rfl, ?_, r2.symm⟩
    rw [← r3]
    have : (fun u => if u = v then (none : Option HSlice) else s.its u) = s.its := by
      funext u
      split
      · next e => rw [e, hB]
      · rfl
    show ({ s with its := fun u => if u = v then (none : Option HSlice) else s.its u } : GSt) = s
    rw [this]
  | some B =>
    rw [hB] at r1
    have hp : ∃ b, p = some b := by
      unfold hFindNextField at r1
      obtain ⟨_, _, r1⟩ := bind_ok r1
      obtain ⟨_, _, r1⟩ := bind_ok r1
      injection r1 with r1; injection r1 with _ r1
      exact ⟨_, r1.symm⟩
    obtain ⟨b, rfl⟩ := hp
    obtain ⟨_, t2⟩ := hFindNextField_tail (hv B hB) r1
    obtain ⟨t2, hb⟩ := t2 b rfl
    obtain ⟨r, r3, r4⟩ := bind_ok r2
    injection r4 with r4; injection r4 with r4 r5; subst r5
    exact .inr ⟨B, b, o, rfl, hb, fun a q ho => t2.owns ho, r1, decoded hc (s := { s with its := fun u => if u = v then o else s.its u }) p1 hb p3 (out := r.1) r3,
      decoded_buf hc (s := { s with its := fun u => if u = v then o else s.its u }) p1 hb p3 (out := r.1) r3, r.1, r4.symm⟩

theorem sized_refl (w : World) : Sized w w := ⟨Nat.le_refl _, fun _ _ => rfl, Nat.le_refl _⟩

theorem Sound.sized {k : Ledger} (hc : Compilable U fs pkg) (h : Sound U fs s k) {s' : GSt} {k' : Ledger} (hs : Goes U fs s k s' k') : Sized s.h.w s'.h.w := by
  have dec : ∀ {j : Nat} {m : Desc} {b : HSlice} {rt : Rt} {d : Nat} {out : List GVal} {it : Nat → Option HSlice} {s1 : GSt}, k.type j = some m → s.h.w.WFs b →
      G.run (programOf U fs) rt d m.getName t!"Decode" [.ptr m.getName j, .val (.bytes (.mem b))] { s with its := it } = .ok (out, s1) → Sized s.h.w s1.h.w := fun {_ _ _ _ _ _ it _} hj hb hr => by
    obtain ⟨p1, _, p3, _⟩ := h.shape.one _ _ hj
    exact (decoded hc (s := { s with its := it }) p1 hb p3 hr).sized
  have nx : ∀ {v j o : Nat} {m m' : Desc} {fd : Field} {bs : List Byte} {rest : List (List Byte)} {rt : Rt} {d : Nat} {out : List GVal} {s1 : GSt}, k.known.iters v = some ⟨m, fd, o, bs :: rest⟩ → k.type j = some m' →
      m'.getName = goType fd → G.run (programOf U fs) rt d (iterOf m fd) t!"Next" [.iter (iterOf m fd) v, .ptr (goType fd) j] s = .ok (out, s1) → Sized s.h.w s1.h.w := fun {v j o m m' fd bs rest rt d out s1} h1 h2 h3 h4 => by
    obtain ⟨b, it, eo, _, _, _, e2, hl, e3, hp, e4⟩ := h.more h1 h2 rt d
    rw [e4] at h4
    obtain ⟨r, r1, r2⟩ := bind_ok h4
    injection r2 with r2; injection r2 with _ r2; subst r2
    rw [← h3] at r1
    exact dec (out := r.1) h2 e2 r1
  have msg : ∀ {i j : Nat} {m m' : Desc} {fd : Field} {rt : Rt} {d : Nat} {out : List GVal} {s1 : GSt}, k.type i = some m → MessageField m fd → k.type j = some m' → m'.getName = goType fd →
      G.run (programOf U fs) rt d m.getName (goName U fd) [.ptr m.getName i, .ptr (goType fd) j] s = .ok (out, s1) → Sized s.h.w s1.h.w := fun h1 h2 h3 h4 h5 => by
    rcases h.getMessage_ok hc h1 h2 h3 h4 h5 with ⟨rfl, _⟩ | ⟨b, _, _, hd, _⟩
    · exact sized_refl _
    · exact hd.sized
  cases hs with
  | decode h1 h2 h3 =>
    obtain ⟨e, fuel, h3⟩ := h3
    exact (h.falls hc h1 h2 (h3 fuel (Nat.le_refl _))).sized
  | message h1 h2 h3 h4 h5 =>
    obtain ⟨b, _, h6⟩ := h.message_panics hc h1 h2 h3 h4 h5
    exact h6.sized
  | next h1 h2 h3 h4 =>
    obtain ⟨b, it, _, h5, h6⟩ := h.next_panics hc h1 h2 h3 h4
    exact h6.sized
  | does hs =>
    cases hs with
    | new h1 h2 => exact sized_refl _
    | @set i m c rt d name args op out s' h1 h2 h3 h4 =>
      obtain ⟨_, _, _, _, _, _, _, a7, _⟩ := call_tracks hc h.known (e := ⟨m, none, c⟩) h1 h2 h4
      have hfr : Frame s.h.w s'.h.w (s.h.ms i) (s'.h.ms i) := by cases op <;> first | exact a7 | cases h3
      exact ⟨hfr.bytes.grow, hfr.bytes.size, hfr.mgrow⟩
    | @fill i m rt d name args op out s' h1 h2 h3 h4 h5 =>
      obtain ⟨⟨f, hf, hm⟩, o2, o3, o4⟩ := h.shape.one i m h1
      have hv := hc.valid f hf m hm
      obtain ⟨heff, _⟩ := call_effect hc.program hc.closed (decls_implements U m hv) (sub_of (U := U) hf hm) o3 o2 (calls_issues hv h2) h5
      have hfr : Frame s.h.w s'.h.w (s.h.ms i) { s'.h.ms i with buf := (s.h.ms i).buf } := by
        cases op <;> first | exact heff.2.1 | exact absurd trivial h3
      exact ⟨hfr.bytes.grow, hfr.bytes.size, hfr.mgrow⟩
    | view h1 h2 h3 h4 h5 h6 h7 h8 h9 h10 => exact dec (it := s.its) h1 h6 h10
    | message h1 h2 h3 h4 h5 h6 h7 h8 h9 => exact msg (type_known h1) h2 h3 h4 h9
    | iterate h1 h2 h3 =>
      obtain ⟨rfl, _⟩ := (h.iterate hc (type_known h1) h2).1 h3
      exact sized_refl _
    | next h1 h2 h3 h4 h5 h6 h7 => exact nx h1 h2 h3 h7
    | tryDecode h1 h2 h3 => exact dec (it := s.its) h1 h2 h3
    | tryMessage h1 h2 h3 h4 h5 => exact msg (type_known h1) h2 h3 h4 h5
    | tryNext h1 h2 h3 h4 => exact nx h1 h2 h3 h4
    | lose h1 => exact sized_refl _
    | forget => exact sized_refl _
    | other h1 => exact h1.known.sized

/-- What holds at every moment. -/
structure Whole (U : Unicode) (fs : List FileDesc) (s : GSt) (k : Ledger) (l : Loose) : Prop where
  sound : Sound U fs s k
  loose : ∀ v m fd, l v = some (m, fd) → (∃ f ∈ fs, some m ∈ f.messageType) ∧ RepeatedField m fd ∧ k.known.iters v = none ∧ ∀ b, s.its v = some b → s.h.w.WFs b

theorem Sound.unpoint {k : Ledger} (h : Sound U fs s k) (v : Nat) : Sound U fs s (k.unpoint v) := by
  refine ⟨⟨h.known.struct, h.known.bufs, h.known.views, h.known.maps, fun u c hu => h.known.iters u c ?_⟩, h.shape⟩
  simp only [Ledger.unpoint] at hu
  split at hu
  · cases hu
  · exact hu

theorem Whole.still {k : Ledger} {l : Loose} (h : Whole U fs s k l) {s' : GSt} (hs : Still s s') : Whole U fs s' k l :=
  ⟨h.sound.still hs, fun v m fd hv => by
    obtain ⟨a1, a2, a3, a4⟩ := h.loose v m fd hv
    exact ⟨a1, a2, a3, fun b hb => wf_sized hs.sized (a4 b (by rw [← hs.its]; exact hb))⟩⟩

theorem Whole.assign {k : Ledger} {l : Loose} (h : Whole U fs s k l) {v : Nat} {m : Desc} {fd : Field} (hv : l v = some (m, fd)) {o : Option HSlice} (ho : ∀ b, o = some b → s.h.w.WFs b) :
    Whole U fs { s with its := fun u => if u = v then o else s.its u } k l := by
  refine ⟨h.sound.assign (h.loose v m fd hv).2.2.1 o, fun u mu fu hu => ?_⟩
  obtain ⟨a1, a2, a3, a4⟩ := h.loose u mu fu hu
  refine ⟨a1, a2, a3, fun b hb => ?_⟩
  simp only at hb
  split at hb
  · exact ho b hb
  · exact a4 b hb

theorem spoil_iters {k : Ledger} {j v : Nat} {m : Desc} (h : k.known.iters v = none) : (k.spoil j m).known.iters v = none := by
  show (k.known.iters v).filter _ = none
  rw [h]; rfl

theorem Whole.spoil {k : Ledger} {l : Loose} (h : Whole U fs s k l) {j : Nat} {m : Desc} {s' : GSt} (hs : Sound U fs s' (k.spoil j m)) (hz : Sized s.h.w s'.h.w) (hi : s'.its = s.its) : Whole U fs s' (k.spoil j m) l :=
  ⟨hs, fun v mv fd hv => by
    obtain ⟨a1, a2, a3, a4⟩ := h.loose v mv fd hv
    exact ⟨a1, a2, spoil_iters a3, fun b hb => wf_sized hz (a4 b (by rw [← hi]; exact hb))⟩⟩

theorem Whole.step {k : Ledger} {l : Loose} (hc : Compilable U fs pkg) (h : Whole U fs s k l) {s' : GSt} {k' : Ledger} {l' : Loose} (hs : Moves U fs s k l s' k' l') : Whole U fs s' k' l' := by
  cases hs with
  | goes h1 h2 =>
    have hz := h.sound.sized hc h1
    refine ⟨h.sound.go hc h1, fun v m fd hv => ?_⟩
    obtain ⟨a1, a2, a3, a4⟩ := h.loose v m fd hv
    obtain ⟨b1, b2⟩ := h2 v _ hv
    exact ⟨a1, a2, b2, fun b hb => wf_sized hz (a4 b (by rw [← b1]; exact hb))⟩
  | get h1 h2 h3 =>
    rcases h3 with ⟨out, h3⟩ | h3
    · rw [(h.sound.get hc h1 h2).1 h3]; exact h
    · exact h.still ((h.sound.get hc h1 h2).2 h3.2)
  | message h1 h2 h3 h4 h5 =>
    rcases h5 with ⟨out, h5⟩ | h5
    · rcases h.sound.getMessage_ok hc h1 h2 h3 h4 h5 with ⟨rfl, _⟩ | ⟨b, _, _, hd, _⟩
      · exact h.spoil (h.sound.lose h3) (sized_refl _) rfl
      · exact h.spoil (h.sound.spoil h3 hd) hd.sized hd.its
    · rcases h.sound.getMessage_panics hc h1 h2 h3 h4 h5 with hq | ⟨b, _, _, hd⟩
      · exact (h.still hq).spoil ((h.sound.still hq).lose h3) (sized_refl _) rfl
      · exact h.spoil (h.sound.fall h3 hd) hd.sized hd.its
  | @iterate i m fd rt d o s1 v h1 h2 h3 =>
    obtain ⟨rfl, hw⟩ := (h.sound.iterate hc h1 h2).1 h3
    have hn : (k.unpoint v).known.iters v = none := by simp [Ledger.unpoint]
    refine ⟨(h.sound.unpoint v).assign hn o, fun u mu fu hu => ?_⟩
    simp only [Loose.put] at hu
    by_cases e : u = v
    · subst e
      rw [if_pos rfl] at hu
      injection hu with hu; injection hu with hu1 hu2; subst hu1 hu2
      obtain ⟨o1, _⟩ := h.sound.shape.one i m h1
      exact ⟨o1, h2, hn, fun b hb => (hw b (by simpa using hb)).1⟩
    · rw [if_neg e] at hu
      obtain ⟨a1, a2, a3, a4⟩ := h.loose u mu fu hu
      exact ⟨a1, a2, by simp [Ledger.unpoint, e, a3], fun b hb => a4 b (by simpa [e] using hb)⟩
  | iteratePanics h1 h2 h3 => exact h.still ((h.sound.iterate hc h1 h2).2 h3.2)
  | @loosen v m fd h1 h2 h3 =>
    refine ⟨h.sound.unpoint v, fun u mu fu hu => ?_⟩
    simp only [Loose.put] at hu
    by_cases e : u = v
    · subst e
      rw [if_pos rfl] at hu
      injection hu with hu; injection hu with hu1 hu2; subst hu1 hu2
      exact ⟨h1, h2, by simp [Ledger.unpoint], h3⟩
    · rw [if_neg e] at hu
      obtain ⟨a1, a2, a3, a4⟩ := h.loose u mu fu hu
      exact ⟨a1, a2, by simp [Ledger.unpoint, e, a3], a4⟩
  | @drop v =>
    refine ⟨h.sound.unpoint v, fun u mu fu hu => ?_⟩
    by_cases e : u = v
    · simp [e] at hu
    · rw [if_neg e] at hu
      obtain ⟨a1, a2, a3, a4⟩ := h.loose u mu fu hu
      exact ⟨a1, a2, by simp [Ledger.unpoint, e, a3], a4⟩
  | @next v m fd j m' rt d s1 h1 h2 h3 h4 =>
    obtain ⟨a1, a2, a3, a4⟩ := h.loose v m fd h1
    rcases h4 with ⟨out, h4⟩ | h4
    · rcases h.sound.nextRun_ok hc a1 a2 a4 h2 h3 h4 with ⟨_, rfl, _⟩ | ⟨B, b, o, e1, _, _, e4, hd, _⟩
      · exact h.spoil (h.sound.lose h2) (sized_refl _) rfl
      · have ha := h.assign h1 (o := o) fun b hb => ((hFindNextField_tail (a4 B e1) e4).1 b hb).2
        exact ha.spoil (ha.sound.spoil h2 hd) hd.sized hd.its
    · rcases h.sound.nextRun_panics hc a1 a2 a4 a3 h2 h3 h4 with hq | ⟨B, b, o, e1, _, _, e4, hd⟩
      · exact (h.still hq).spoil ((h.sound.still hq).lose h2) (sized_refl _) rfl
      · have ha := h.assign h1 (o := o) fun b hb => ((hFindNextField_tail (a4 B e1) e4).1 b hb).2
        exact ha.spoil (ha.sound.fall h2 hd) hd.sized hd.its

theorem roams_whole (hc : Compilable U fs pkg) {s0 : GSt} {k : Ledger} {l : Loose} (h : Roams U fs s0 s k l) : Whole U fs s k l := by
  induction h with
  | start => exact ⟨comes_sound hc (s0 := s0) .start, nofun⟩
  | step _ hs ih => exact ih.step hc hs


/-! ## Iterators move on -/

/-- A number that is at least 1 does not become 0 by wrapping around once. -/
theorem wrap_pos {x : Int} (h1 : 1 ≤ x) (h2 : x < 18446744073709551616) (h3 : 0 ≤ wrapInt x) : 1 ≤ wrapInt x := by
  rcases (by omega : x < 9223372036854775808 ∨ 9223372036854775808 ≤ x) with h | h
  · rw [wrapInt_id (by omega) h]; exact h1
  · exfalso
    unfold wrapInt at h3
    have : (x + 9223372036854775808) % 18446744073709551616 = x + 9223372036854775808 - 18446744073709551616 := by
      rw [← Int.emod_eq_of_lt (a := x + 9223372036854775808 - 18446744073709551616) (b := 18446744073709551616) (by omega) (by omega), Int.sub_emod_right]
    rw [this] at h3
    omega

/-- `FindNextField` returns less than it was given. -/
theorem find_less {w : World} {B r b : HSlice} {f : Nat} (hl : B.len < maxLen) (hf : 1 ≤ f) (h : hFindNextField w (some B) f = .ok (some r, some b)) : r.len < B.len := by
  unfold hFindNextField at h
  obtain ⟨_, _, h⟩ := bind_ok h
  obtain ⟨o, h1, h⟩ := bind_ok h
  injection h with h; injection h with h _; subst h
  refine iterate_post (Q := fun o => ∀ r, o = some r → r.len < B.len) (fun idx o hs r hr => ?_) h1 r rfl
  subst hr
  unfold hFindStep at hs
  split at hs
  · cases hs
  · next hidx =>
    obtain ⟨t, ht, hs⟩ := bind_ok hs
    have h0 : 0 ≤ idx := by
      unfold Slice.dropFrom at ht
      split at ht
      · next hx => exact hx.1
      · cases ht
    simp only at hs
    split at hs
    · next hfield =>
      obtain ⟨t', ht', hs⟩ := bind_ok hs
      injection hs with hs; injection hs with hs; injection hs with hs; subst hs
      have hsz : 1 ≤ (uvarint t.data).2 ∧ (uvarint t.data).2 ≤ 10 := by
        rcases uvarint_cases t.data with ⟨_, hu⟩ | ⟨_, _, _, _, _, _, _, hu⟩ | ⟨v, vb, rest, _, hv, hu⟩
        · rw [hu] at hfield
          have : tagField 0#64 = 0 := by decide
          rw [this] at hfield; omega
        · rw [hu] at hfield
          have : tagField 0#64 = 0 := by decide
          rw [this] at hfield; omega
        · rw [hu]
          obtain ⟨ini, last, rfl, _, _, h10, _⟩ := hv
          simp only [List.length_append, List.length_singleton] at h10 ⊢
          omega
      unfold HSlice.dropFrom at ht'
      split at ht'
      · next hx =>
        injection ht' with ht'; subst ht'
        have hw : 1 ≤ addInt idx (uvarint t.data).2 := by
          unfold addInt at hx ⊢
          have : (B.len : Int) < 9223372036854775808 := Int.ofNat_lt.2 hl
          exact wrap_pos (by omega) (by omega) hx.1
        simp only
        obtain ⟨hx1, hx2⟩ := hx
        generalize addInt idx (uvarint t.data).2 = z at hw hx1 hx2 ⊢
        omega
      · cases ht'
    · obtain ⟨_, _, hs⟩ := bind_ok hs
      obtain ⟨_, _, hs⟩ := bind_ok hs
      cases hs

/-! ## Reading ends -/

/-- The call ends: it returns or panics. -/
def Quits {α : Type} (r : Res α) : Prop := r ≠ .error .diverge

theorem Quits.bind {α β : Type} {r : Res α} {f : α → Res β} (h : Quits r) (hf : ∀ a, Quits (f a)) : Quits (r >>= f) := by
  cases r with
  | error e => exact fun hh => h (by injection hh with hh; rw [hh])
  | ok a => exact hf a

theorem quits_ok {α : Type} (a : α) : Quits (.ok a : Res α) := nofun

theorem quits_offset (o : Offsets) (f : Nat) : Quits (o.get f) := by
  unfold Offsets.get Offsets.slot
  cases o.a[f]? with
  | none => nofun
  | some v =>
    simp only [bind, Except.bind]
    split <;> nofun

theorem quits_drop (b : Slice) (i : Int) : Quits (b.dropFrom i) := by unfold Slice.dropFrom; split <;> nofun
theorem quits_range (b : Slice) (i j : Int) : Quits (b.range i j) := by unfold Slice.range; split <;> nofun
theorem quits_le32 (b : List Byte) : Quits (leUint32 b) := by unfold leUint32; split <;> nofun
theorem quits_le64 (b : List Byte) : Quits (leUint64 b) := by unfold leUint64; split <;> nofun

theorem quits_get (m : Msg) (k : Kind) (f : Nat) : Quits (m.get k f) := by
  cases k
  all_goals
    simp only [Msg.get, getBool, getInt32, getInt64, getUint32, getUint64, getZigZagInt32, getZigZagInt64, getFixedUint32, getFixedUint64, getFixedInt32, getFixedInt64, getFloat32, getFloat64, getString, getBytes]
    try refine Quits.bind ?_ fun _ => quits_ok _
    refine (quits_offset _ _).bind fun x => ?_
    obtain ⟨x, y⟩ := x
    dsimp only
    split
    · exact quits_ok _
    first
    | exact (quits_drop _ _).bind fun _ => quits_ok _
    | exact (quits_range _ _ _).bind fun _ => quits_le32 _
    | exact (quits_range _ _ _).bind fun _ => quits_le64 _
    | exact (quits_drop _ _).bind fun _ => (quits_range _ _ _).bind fun _ => quits_ok _

theorem quits_messages (w : World) (m : HMsg) (f : Nat) : Quits (m.messages w f) := by
  unfold HMsg.messages
  refine (quits_offset _ _).bind fun x => ?_
  obtain ⟨x, y⟩ := x
  dsimp only
  split
  · exact quits_ok _
  · refine Quits.bind ?_ fun _ => quits_ok _
    unfold HSlice.dropFrom; split <;> nofun

theorem quits_getBytes (w : World) (m : HMsg) (f : Nat) : Quits (m.getBytes w f) := by
  unfold HMsg.getBytes
  refine (quits_offset _ _).bind fun x => ?_
  obtain ⟨x, y⟩ := x
  dsimp only
  split
  · exact quits_ok _
  · refine (quits_drop _ _).bind fun _ => Quits.bind ?_ fun _ => quits_ok _
    unfold HSlice.range; split <;> nofun

theorem crashes_of {p : Program} {rt : Rt} {d : Nat} {t name : Text} {args : List GVal} {x : Fail} (hx : x ≠ .diverge) (h : G.run p rt d t name args s = .error (.fail x)) :
    ∃ s', Crashes p rt d t name args s s' := by
  obtain ⟨s', hp⟩ := panics_of hx h
  exact ⟨s', ⟨x, hx, h⟩, hp⟩

/-! ## C77 -/

/-- C77: at every moment of every run, whatever structs and iterators of unknown contents the program has read, and however often it has recovered from panics of those calls, every struct of which the
program knows the contents is seen, through the methods of the generated program, as its record of the calls made on it, and every iterator that it relies on yields the elements that it has not yielded yet. -/
theorem C77_programs (hc : Compilable U fs pkg) {s0 : GSt} {k : Ledger} {l : Loose} (h : Roams U fs s0 s k l) :
    (∀ i e, k.known.structs i = some e → Shows U (programOf U fs) e.type i s e.contents) ∧ (∀ v c, k.known.iters v = some c → Points (programOf U fs) s v c) :=
  ⟨fun _ _ hi => (roams_whole hc h).sound.known.shows hc hi, fun _ _ hv => (roams_whole hc h).sound.known.points hv⟩

theorem roamed_only (hc : Compilable U fs pkg) {s0 : GSt} {k : Ledger} {l : Loose} {j : Nat} {m : Desc} (h : Roams U fs s0 s (k.spoil j m) l) : OnlyChanges U (programOf U fs) k s j := by
  refine ⟨fun i e hi hne hv => (C77_programs hc h).1 i e ?_, fun v c hv hne => (C77_programs hc h).2 v c (drop_iters.2 ⟨hv, hne⟩)⟩
  show (if i = j then none else (k.known.drop j).structs i) = _
  rw [if_neg hne]
  exact drop_structs.2 ⟨hi, hv⟩

/-- C77: `x.Name()`, of a field that is not a message, on a struct of any contents: it returns, and nothing at all has changed; or it panics, and nothing that existed has changed. It does not go on
forever. -/
theorem C77_get (hc : Compilable U fs pkg) {s0 : GSt} {k : Ledger} {l : Loose} (h : Roams U fs s0 s k l) {i : Nat} {m : Desc} {fd : Field} {kd : Kind} (hi : k.type i = some m) (hfd : ScalarField m fd kd) (rt : Rt) (d : Nat) :
    (∃ out, G.run (programOf U fs) rt d m.getName (goName U fd) [.ptr m.getName i] s = .ok (out, s)) ∨
    (∃ s', Crashes (programOf U fs) rt d m.getName (goName U fd) [.ptr m.getName i] s s' ∧ Still s s' ∧ Roams U fs s0 s' k l) := by
  have hs := (roams_whole hc h).sound
  obtain ⟨⟨f, hf, hm⟩, _, o3, _⟩ := hs.shape.one i m hi
  have hd := sub_of (U := U) hf hm _ (decl_get (U := U) (hc.valid f hf m hm) hfd).1
  have hg := C63_get hc.program rt d s (i := i) hd o3.1
  cases e : (s.h.w.msg (s.h.ms i)).get kd (num fd) with
  | ok x =>
    rw [e] at hg
    obtain ⟨v, hg, _⟩ := hg
    exact .inl ⟨_, hg⟩
  | error x =>
    rw [e] at hg
    simp only [Reads] at hg
    obtain ⟨s', hp⟩ := crashes_of (fun hx => quits_get _ _ _ (hx ▸ e)) hg
    exact .inr ⟨s', hp, (hs.get hc hi hfd).2 hp.2, h.step (.get hi hfd (.inr hp))⟩

/-- C77: `it := x.Name()`, of a repeated field, on a struct of any contents: it returns, nothing has changed, and the iterator refers to memory of `x` or is empty; or it panics, and nothing that existed
has changed. It does not go on forever. -/
theorem C77_iterate (hc : Compilable U fs pkg) {s0 : GSt} {k : Ledger} {l : Loose} (h : Roams U fs s0 s k l) {i : Nat} {m : Desc} {fd : Field} (hi : k.type i = some m) (hfd : RepeatedField m fd) (v : Nat) (rt : Rt) (d : Nat) :
    (∃ o, G.run (programOf U fs) rt d m.getName (goName U fd) [.ptr m.getName i] s = .ok ([.val (optBytes o)], s) ∧ (∀ b, o = some b → Within b (s.h.ms i).buf) ∧
      Roams U fs s0 { s with its := fun u => if u = v then o else s.its u } (k.unpoint v) (l.put v m fd)) ∨
    (∃ s', Crashes (programOf U fs) rt d m.getName (goName U fd) [.ptr m.getName i] s s' ∧ Still s s' ∧ Roams U fs s0 s' k l) := by
  have hs := (roams_whole hc h).sound
  obtain ⟨⟨f, hf, hm⟩, _, o3, _⟩ := hs.shape.one i m hi
  have hsub := sub_of (U := U) hf hm
  obtain ⟨d1, _, d3, _⟩ := decl_repeated (U := U) (hc.valid f hf m hm) hfd
  have hg := C63_getRepeated hc.program rt d s (i := i) (hsub _ d3) (hsub _ d1)
  cases e : (s.h.ms i).messages s.h.w (num fd) with
  | ok o =>
    rw [e] at hg
    have hg : _ = Except.ok ([GVal.val (optBytes o)], s) := hg
    exact .inl ⟨o, hg, fun b hb => (((hs.iterate hc hi hfd).1 hg).2 b hb).2, h.step (.iterate hi hfd hg)⟩
  | error x =>
    rw [e] at hg
    obtain ⟨s', hp⟩ := crashes_of (fun hx => quits_messages _ _ _ (hx ▸ e)) hg
    exact .inr ⟨s', hp, (hs.iterate hc hi hfd).2 hp.2, h.step (.iteratePanics hi hfd hp)⟩

/-- C77: `ok, err := x.Name(y)`, on a struct `x` of any contents, when it returns or panics: it has changed nothing else than `y`, no byte and no iterator, and what `y` refers to now is what it
referred to before, or memory of `x`. -/
theorem C77_message (hc : Compilable U fs pkg) {s0 : GSt} {k : Ledger} {l : Loose} (h : Roams U fs s0 s k l) {i j : Nat} {m m' : Desc} {fd : Field} (hi : k.type i = some m) (hfd : MessageField m fd)
    (hj : k.type j = some m') (hname : m'.getName = goType fd) {rt : Rt} {d : Nat} {s' : GSt}
    (hp : Ends (programOf U fs) rt d m.getName (goName U fd) [.ptr m.getName i, .ptr (goType fd) j] s s') :
    OnlyChanges U (programOf U fs) k s' j ∧ (∀ a q, a < s.h.w.arrs.length → s'.h.w.cell a q = s.h.w.cell a q) ∧ (∀ x, x ≠ j → x < s.next → s'.h.ms x = s.h.ms x) ∧ s'.its = s.its ∧
    ((s'.h.ms j).buf = (s.h.ms j).buf ∨ Within (s'.h.ms j).buf (s.h.ms i).buf) := by
  have hs := (roams_whole hc h).sound
  refine ⟨roamed_only hc (h.step (.message hi hfd hj hname hp)), ?_⟩
  rcases hp with ⟨out, hp⟩ | hp
  · rcases hs.getMessage_ok hc hi hfd hj hname hp with ⟨rfl, _⟩ | ⟨b, _, b1, b2, b3⟩
    · exact ⟨fun _ _ _ => rfl, fun _ _ _ => rfl, rfl, .inl rfl⟩
    · exact ⟨fun a q _ => by unfold World.cell World.arr; rw [b2.arrs], b2.others, b2.its, .inr (b3 ▸ b1)⟩
  · rcases hs.getMessage_panics hc hi hfd hj hname hp with hq | ⟨b, _, b1, b2⟩
    · exact ⟨hq.cells, fun x _ hx => hq.structs x hx, hq.its, .inl (by rw [hq.structs j (hs.shape.one j m' hj).2.1])⟩
    · exact ⟨b2.cells, b2.others, b2.its, .inr (b2.buf ▸ b1)⟩

/-- C77: `ok, err := x.Name(y)`, on a struct `x` of any contents, returns, or panics, or never ends: the first two are steps of the program. -/
theorem C77_message_outcome (hc : Compilable U fs pkg) {s0 : GSt} {k : Ledger} {l : Loose} (h : Roams U fs s0 s k l) {i j : Nat} {m m' : Desc} {fd : Field} (hi : k.type i = some m) (hfd : MessageField m fd)
    (hj : k.type j = some m') (hname : m'.getName = goType fd) (rt : Rt) (d : Nat) :
    (∃ s', Ends (programOf U fs) rt d m.getName (goName U fd) [.ptr m.getName i, .ptr (goType fd) j] s s' ∧ Roams U fs s0 s' (k.spoil j m') l) ∨
    G.run (programOf U fs) rt d m.getName (goName U fd) [.ptr m.getName i, .ptr (goType fd) j] s = .error (.fail .diverge) := by
  have hs := (roams_whole hc h).sound
  obtain ⟨_, _, o3, _⟩ := hs.shape.one i m hi
  obtain ⟨p1, _, p3, _⟩ := hs.shape.one j m' hj
  have hg := hs.getMessage hc hi hfd hj hname rt d
  have ends : ∀ {x : Fail}, x ≠ .diverge → G.run (programOf U fs) rt d m.getName (goName U fd) [.ptr m.getName i, .ptr (goType fd) j] s = .error (.fail x) →
      ∃ s', Ends (programOf U fs) rt d m.getName (goName U fd) [.ptr m.getName i, .ptr (goType fd) j] s s' ∧ Roams U fs s0 s' (k.spoil j m') l := fun hx hr => by
    obtain ⟨s', hp⟩ := crashes_of hx hr
    exact ⟨s', .inr hp, h.step (.message hi hfd hj hname (.inr hp))⟩
  cases e : (s.h.ms i).getBytes s.h.w (num fd) with
  | error x => rw [e] at hg; exact .inl (ends (fun hx => quits_getBytes _ _ _ (hx ▸ e)) hg)
  | ok o =>
    rw [e] at hg
    cases o with
    | none => exact .inl ⟨s, .inl ⟨_, hg⟩, h.step (.message hi hfd hj hname (.inl ⟨_, hg⟩))⟩
    | some b =>
      have hb : s.h.w.WFs b := by
        obtain ⟨_, _, hrg⟩ := getBytes_owns e
        exact HSlice.range_wf o3.1 hrg
      obtain ⟨rep, he⟩ := decode_eq hc p1
      simp only [lift, bind, Except.bind] at hg
      rw [he s rt d j b hb p3] at hg
      cases hd : (s.h.ms j).decode rep s.h.w b with
      | ok r =>
        rw [hd] at hg
        exact .inl ⟨_, .inl ⟨_, hg⟩, h.step (.message hi hfd hj hname (.inl ⟨_, hg⟩))⟩
      | error x =>
        rw [hd] at hg
        by_cases hx : x = .diverge
        · subst hx; exact .inr hg
        · exact .inl (ends hx hg)

/-- C77: `ok, err := it.Next(y)`, where `it` refers to any bytes, when it returns or panics: it has changed nothing else than `y` and `it`, no byte, and what `y` refers to now is what it referred to
before, or a part of the bytes that `it` referred to. -/
theorem C77_next (hc : Compilable U fs pkg) {s0 : GSt} {k : Ledger} {l : Loose} (h : Roams U fs s0 s k l) {v j : Nat} {m m' : Desc} {fd : Field} (hv : l v = some (m, fd))
    (hj : k.type j = some m') (hname : m'.getName = goType fd) {rt : Rt} {d : Nat} {s' : GSt}
    (hp : Ends (programOf U fs) rt d (iterOf m fd) t!"Next" [.iter (iterOf m fd) v, .ptr (goType fd) j] s s') :
    OnlyChanges U (programOf U fs) k s' j ∧ (∀ a q, a < s.h.w.arrs.length → s'.h.w.cell a q = s.h.w.cell a q) ∧ (∀ x, x ≠ j → x < s.next → s'.h.ms x = s.h.ms x) ∧
    (∀ u, u ≠ v → s'.its u = s.its u) ∧ (∀ b, s'.its v = some b → ∃ B, s.its v = some B ∧ Within b B) ∧
    ((s'.h.ms j).buf = (s.h.ms j).buf ∨ ∃ B, s.its v = some B ∧ Within (s'.h.ms j).buf B) := by
  have hw := roams_whole hc h
  have hs := hw.sound
  obtain ⟨a1, a2, a3, a4⟩ := hw.loose v m fd hv
  refine ⟨roamed_only hc (h.step (.next hv hj hname hp)), ?_⟩
  have mono : ∀ {B b o}, s.its v = some B → hFindNextField s.h.w (some B) (num fd) = .ok (o, some b) → ∀ r, o = some r → Within r B := fun hB hf r hr a q ho =>
    ((hFindNextField_tail (a4 _ hB) hf).1 r hr).1.owns ho
  rcases hp with ⟨out, hp⟩ | hp
  · rcases hs.nextRun_ok hc a1 a2 a4 hj hname hp with ⟨e, rfl, _⟩ | ⟨B, b, o, e1, _, e3, e4, b2, b3, _⟩
    · exact ⟨fun _ _ _ => rfl, fun _ _ _ => rfl, fun _ _ => rfl, fun b hb => ⟨b, hb, fun _ _ => id⟩, .inl rfl⟩
    · refine ⟨fun a q _ => by unfold World.cell World.arr; rw [b2.arrs], b2.others, fun u hu => by rw [b2.its]; simp [hu], fun r hr => ?_, .inr ⟨B, e1, b3 ▸ e3⟩⟩
      rw [b2.its] at hr
      exact ⟨B, e1, mono e1 e4 r (by simpa using hr)⟩
  · rcases hs.nextRun_panics hc a1 a2 a4 a3 hj hname hp with hq | ⟨B, b, o, e1, _, e3, e4, b2⟩
    · exact ⟨hq.cells, fun x _ hx => hq.structs x hx, fun u _ => by rw [hq.its], fun b hb => ⟨b, by rw [← hq.its]; exact hb, fun _ _ => id⟩, .inl (by rw [hq.structs j (hs.shape.one j m' hj).2.1])⟩
    · refine ⟨b2.cells, b2.others, fun u hu => by rw [b2.its]; simp [hu], fun r hr => ?_, .inr ⟨B, e1, b2.buf ▸ e3⟩⟩
      rw [b2.its] at hr
      exact ⟨B, e1, mono e1 e4 r (by simpa using hr)⟩

/-- C77: a loop `for it.Next(y)` over any bytes comes to an end, unless a call of `Next` itself does not end: if `Next` reports that there was an element, then less is left than before; if it reports
that there was none, nothing was left and nothing has changed. -/
theorem C77_progress (hc : Compilable U fs pkg) {s0 : GSt} {k : Ledger} {l : Loose} (h : Roams U fs s0 s k l) {v j : Nat} {m m' : Desc} {fd : Field} (hv : l v = some (m, fd))
    (hj : k.type j = some m') (hname : m'.getName = goType fd) (hlen : ∀ B, s.its v = some B → B.len < maxLen) {rt : Rt} {d : Nat} {out : List GVal} {s' : GSt}
    (hr : G.run (programOf U fs) rt d (iterOf m fd) t!"Next" [.iter (iterOf m fd) v, .ptr (goType fd) j] s = .ok (out, s')) :
    (s.its v = none ∧ s' = s ∧ out = [.val (.bool false), .val .nil]) ∨
    (∃ B, s.its v = some B ∧ (∀ b, s'.its v = some b → b.len < B.len) ∧ (out = [.val (.bool true), .val .nil] ∨ out = [.val (.bool true), .val .eof])) := by
  have hw := roams_whole hc h
  have hs := hw.sound
  obtain ⟨⟨f, hf, hm⟩, a2, a3, a4⟩ := hw.loose v m fd hv
  rcases hs.nextRun_ok hc ⟨f, hf, hm⟩ a2 a4 hj hname hr with hx | ⟨B, b, o, e1, e2, _, e4, b2, _, out', ho⟩
  · exact .inl hx
  · refine .inr ⟨B, e1, fun r hr => ?_, ?_⟩
    · rw [b2.its] at hr
      have hr : o = some r := by simpa using hr
      subst hr
      exact find_less (hlen B e1) ((hc.valid f hf m hm).numbers fd a2.1).1 e4
    · obtain ⟨p1, _, p3, _⟩ := hs.shape.one j m' hj
      rw [hs.nextRun hc ⟨f, hf, hm⟩ a2 a4 hj hname rt d, e1, e4] at hr
      simp only [lift, bind, Except.bind] at hr
      obtain ⟨rep, he⟩ := decode_eq hc p1
      rw [he { s with its := fun u => if u = v then o else s.its u } rt d j b e2 p3] at hr
      cases hd : (s.h.ms j).decode rep s.h.w b with
      | error x => simp only [hd] at hr; cases hr
      | ok r =>
        simp only [hd, lift, bind, Except.bind] at hr
        injection hr with hr; injection hr with hr _
        subst hr
        rcases r with ⟨_, _, _ | ⟨⟨⟩⟩⟩ <;> first | exact .inl rfl | exact .inr rfl

/-- C77: `ok, err := it.Next(y)`, where `it` refers to any bytes, returns, or panics, or never ends: the first two are steps of the program. -/
theorem C77_next_outcome (hc : Compilable U fs pkg) {s0 : GSt} {k : Ledger} {l : Loose} (h : Roams U fs s0 s k l) {v j : Nat} {m m' : Desc} {fd : Field} (hv : l v = some (m, fd))
    (hj : k.type j = some m') (hname : m'.getName = goType fd) (rt : Rt) (d : Nat) :
    (∃ s', Ends (programOf U fs) rt d (iterOf m fd) t!"Next" [.iter (iterOf m fd) v, .ptr (goType fd) j] s s' ∧ Roams U fs s0 s' (k.spoil j m') l) ∨
    G.run (programOf U fs) rt d (iterOf m fd) t!"Next" [.iter (iterOf m fd) v, .ptr (goType fd) j] s = .error (.fail .diverge) := by
  have hw := roams_whole hc h
  obtain ⟨a1, a2, a3, a4⟩ := hw.loose v m fd hv
  cases hr : G.run (programOf U fs) rt d (iterOf m fd) t!"Next" [.iter (iterOf m fd) v, .ptr (goType fd) j] s with
  | ok r => exact .inl ⟨r.2, .inl ⟨r.1, hr⟩, h.step (.next hv hj hname (.inl ⟨r.1, hr⟩))⟩
  | error x =>
    have hx : ∃ y, x = .fail y := by
      rw [hw.sound.nextRun hc a1 a2 a4 hj hname rt d] at hr
      cases hg : hFindNextField s.h.w (s.its v) (num fd) with
      | error y => rw [hg] at hr; injection hr with hr; exact ⟨y, hr.symm⟩
      | ok r =>
        rw [hg] at hr
        simp only [lift, bind, Except.bind] at hr
        obtain ⟨o, p⟩ := r
        cases p with
        | none => cases hr
        | some b =>
          have hb : s.h.w.WFs b := by
            cases hi : s.its v with
            | none => rw [hi] at hg; simp [hFindNextField] at hg
            | some B => rw [hi] at hg; exact ((hFindNextField_tail (a4 B hi) hg).2 b rfl).2
          obtain ⟨p1, _, p3, _⟩ := hw.sound.shape.one j m' hj
          obtain ⟨rep, he⟩ := decode_eq hc p1
          simp only at hr
          rw [he { s with its := fun u => if u = v then o else s.its u } rt d j b hb p3] at hr
          cases hd : (s.h.ms j).decode rep s.h.w b with
          | ok r => simp only [hd] at hr; cases hr
          | error y => simp only [hd] at hr; injection hr with hr; exact ⟨y, hr.symm⟩
    obtain ⟨y, rfl⟩ := hx
    by_cases hy : y = .diverge
    · subst hy; exact .inr rfl
    · obtain ⟨s', hp⟩ := crashes_of hy hr
      exact .inl ⟨s', .inr hp, h.step (.next hv hj hname (.inr hp))⟩

/-- C77: a struct of unknown contents is as good as a new one: a valid message in memory that no other struct has decodes without an error, and then the struct shows that message. -/
theorem C77_again (hc : Compilable U fs pkg) {s0 : GSt} {k : Ledger} {l : Loose} (h : Roams U fs s0 s k l) {j : Nat} {m : Desc} (hj : k.type j = some m) {b : HSlice} {rs : List Record} (hb : s.h.w.WFs b) (hl : b.len < maxLen)
    (hm : IsMinTagMessage rs (s.h.w.slice b).data) (hcf : Conforms m rs) (hfree : k.known.Free s j b) (rt : Rt) (d : Nat) :
    ∃ s', G.run (programOf U fs) rt d m.getName t!"Decode" [.ptr m.getName j, .val (.bytes (.mem b))] s = .ok ([.val .nil], s') ∧
      Roams U fs s0 s' (k.gets j ⟨m, none, .ofRecords rs⟩) l ∧ Shows U (programOf U fs) m j s' (.ofRecords rs) := by
  have hw := roams_whole hc h
  have hs := hw.sound
  obtain ⟨p1, _, p3, _⟩ := hs.shape.one j m hj
  obtain ⟨s1, g1, e1, hr⟩ := hs.ready hc hj
  have hb1 : s1.h.w.WFs b := ⟨hb.1, by unfold World.arr; rw [hr.arrs]; exact hb.2⟩
  obtain ⟨s', r⟩ := hr.inv.decode_ok hc hr.entry hb1 hl (by rw [World.slice_arrs hr.arrs]; exact hm) (by rw [hr.type]; exact hcf) rt d
  rw [hr.type] at r
  have e0 : ({ s1 with its := s.its } : GSt) = s1 := by rw [← hr.its]
  have hq := hr.decode rt d b s.its hb
  rw [e0, r] at hq
  have hg : Roams U fs s0 s' (k.gets j ⟨m, none, .ofRecords rs⟩) l := h.step (.goes (.does (.fill (op := .decode (s.h.w.slice b) rs) hj (.decode hb hl hm hcf) (fun h => h) (fun b' hb' => by
    have : b' = b := by simpa using hb'
    rw [this]; exact hfree) hq.symm)) fun v x hx => ⟨by rw [(decoded hc p1 hb p3 hq.symm).its], by
      obtain ⟨_, _, a3, _⟩ := hw.loose v x.1 x.2 hx
      show (k.known.iters v).filter _ = none
      rw [a3]; rfl⟩)
  exact ⟨s', hq.symm, hg, (C77_programs hc hg).1 j ⟨m, none, .ofRecords rs⟩ (by simp [Ledger.gets, Known.put])⟩

/-- C77: likewise `x.Reset(nil)`: it returns, and then the struct is empty. -/
theorem C77_reset (hc : Compilable U fs pkg) {s0 : GSt} {k : Ledger} {l : Loose} (h : Roams U fs s0 s k l) {j : Nat} {m : Desc} (hj : k.type j = some m) (rt : Rt) (d : Nat) :
    ∃ s', G.run (programOf U fs) rt d m.getName t!"Reset" [.ptr m.getName j, .val .nil] s = .ok ([], s') ∧
      Roams U fs s0 s' (k.gets j ⟨m, none, .empty⟩) l ∧ Shows U (programOf U fs) m j s' .empty := by
  have hw := roams_whole hc h
  obtain ⟨⟨f, hf, hm⟩, _, o3, _⟩ := hw.sound.shape.one j m hj
  have hdi := decls_implements U m (hc.valid f hf m hm)
  have hr := C63_reset_nil hc.program rt d s (sub_of (U := U) hf hm _ hdi.fixed.2.2) o3
  have he : (s.h.ms j).reset s.h.w .nil = .ok (cleared s.h.w (s.h.ms j)) := rfl
  rw [he] at hr
  have hg : Roams U fs s0 _ (k.gets j ⟨m, none, .empty⟩) l := h.step (.goes (.does (.fill (op := .reset .empty) hj .resetNil (fun h => h) (fun b' hb' => by simp at hb') hr)) fun v x hx => ⟨rfl, by
      obtain ⟨_, _, a3, _⟩ := hw.loose v x.1 x.2 hx
      show (k.known.iters v).filter _ = none
      rw [a3]; rfl⟩)
  exact ⟨_, hr, hg, (C77_programs hc hg).1 j ⟨m, none, .empty⟩ (by simp [Ledger.gets, Known.put])⟩

/-- The programs of C76 are among these. -/
theorem comes_roams {s0 : GSt} {k : Ledger} (h : Comes U fs s0 s k) : Roams U fs s0 s k (fun _ => none) := by
  induction h with
  | start => exact .start
  | step _ hs ih => exact ih.step (.goes hs nofun)

end

/-! ## The hypotheses are met -/

/-- C77, on golden/test.proto: `var x, y TestMessage; x.SetInt32(7); y.Decode([]byte{0x08, 0x01, 0xA0, 0x06, 0x01})` panics, and the program recovers; then `y.Bool()`, on a struct that is in the middle
of a `Decode`, returns or panics, and `x.Int32()` is 7 still. -/
theorem C77_example (rt : Rt) : ∃ s s1 s2 fi fb k, Roams asciiUnicode [testFile] received2 s k (fun _ => none) ∧ k.known.structs 0 = some ⟨testDesc, none, Op.apply (.set rt (num fi) .int32 7#32) .empty⟩ ∧
    ScalarField testDesc fi .int32 ∧ ScalarField testDesc fb .bool ∧
    Panics (programOf asciiUnicode [testFile]) rt 0 testDesc.getName t!"Decode" [.ptr testDesc.getName 1, .val (.bytes (.mem ⟨0, 0, 5, 5⟩))] s s1 ∧
    Ends (programOf asciiUnicode [testFile]) rt 0 testDesc.getName (goName asciiUnicode fb) [.ptr testDesc.getName 1] s1 s2 ∧ Roams asciiUnicode [testFile] received2 s2 (k.spoil 1 testDesc) (fun _ => none) ∧
    (∃ v, G.run (programOf asciiUnicode [testFile]) rt 0 testDesc.getName (goName asciiUnicode fi) [.ptr testDesc.getName 0] s2 = .ok ([.val v], s2) ∧ IsVal s2.h.w .int32 7#32 v) := by
  have hc := testFile_compilable
  obtain ⟨hf, hm⟩ := testFile_has
  obtain ⟨fi, i1, i2, i3, i4⟩ := testField (P := fun fd => (getLabel (some fd) = 1 ∨ getLabel (some fd) = 2) ∧ protoKind (getType (some fd)) = some .int32 ∧ num fd = 2) (by decide +kernel)
  obtain ⟨fb, b1, b2, b3, b4⟩ := testField (P := fun fd => (getLabel (some fd) = 1 ∨ getLabel (some fd) = 2) ∧ protoKind (getType (some fd)) = some .bool ∧ num fd = 1) (by decide +kernel)
  have hfi : ScalarField testDesc fi .int32 := ⟨i1, i2, i3⟩
  have hfb : ScalarField testDesc fb .bool := ⟨b1, b2, b3⟩
  have r0 := Comes.start (U := asciiUnicode) (fs := [testFile]) (s0 := received2)
  obtain ⟨s, k, r1, hms, hgs, hn, hw⟩ : ∃ s k, Comes asciiUnicode [testFile] received2 s k ∧ (∀ i, i < 2 → s.h.ms i = .zero (slotsOf testDesc)) ∧
      (∀ i, i < 2 → k.known.structs i = some ⟨testDesc, none, .empty⟩) ∧ s.next = 2 ∧ s.h.w = received2.h.w := by
    refine ⟨_, _, (r0.step (.does (.new hf hm))).step (.does (.new hf hm)), fun i hi => ?_, fun i hi => ?_, rfl, rfl⟩
    · rcases i with _ | _ | i <;> first | rfl | omega
    · rcases i with _ | _ | i <;> first | rfl | omega
  have c : Calls asciiUnicode testDesc rt 0 s (t!"Set" ++ goName asciiUnicode fi) [.ptr testDesc.getName 0, .val (.i32 7#32)] (.set rt (num fi) .int32 7#32) :=
    .set hfi rfl (by intro _ h; rcases h with h | h <;> cases h) (by decide)
  have hk0 := hgs 0 (by decide)
  obtain ⟨s1, q1, q2, q3⟩ := ((C76_programs hc r1).1 0 _ hk0).calls rt 0 _ _ _ c (by rw [hms 0 (by decide)]; show 0 + (20 + Kind.size .int32 7#32) < maxLen; decide)
  have r2 := r1.step (.does (.set hk0 c trivial q1))
  obtain ⟨_, _, _, _, _, _, _, heff, _⟩ := call_tracks hc (comes_sound hc r1).known (e := ⟨testDesc, none, .empty⟩) hk0 c q1
  have hfr : Frame s.h.w s1.h.w (s.h.ms 0) (s1.h.ms 0) := heff
  have hnil : ∀ a q, ¬ (s.h.ms 0).buf.owns a q := fun a q ho => by
    rw [hms 0 (by decide)] at ho
    exact owns_nil ho
  have wf : ∀ b : HSlice, received2.h.w.WFs b → s1.h.w.WFs b := fun b hb => wf_sized ⟨hfr.bytes.grow, hfr.bytes.size, hfr.mgrow⟩ (by rw [hw]; exact hb)
  have sl : ∀ b : HSlice, received2.h.w.WFs b → s1.h.w.slice b = received2.h.w.slice b := fun b hb => by
    rw [← hw] at hb ⊢
    exact hfr.bytes.slice_eq hb fun a q ho => absurd ho (hnil a q)
  have w0 : received2.h.w.WFs ⟨0, 0, 5, 5⟩ := ⟨by decide, by decide⟩
  have v08 : IsVarint 8 [0x08#8] := ⟨[], 0x08#8, rfl, by simp, by decide, by decide, by decide, by decide⟩
  have v01 : IsVarint 1 [0x01#8] := ⟨[], 0x01#8, rfl, by simp, by decide, by decide, by decide, by decide⟩
  have v800 : IsVarint 800 [0xA0#8, 0x06#8] := ⟨[0xA0#8], 0x06#8, rfl, by decide, by decide, by decide, by decide, by decide⟩
  have hrec : IsMessage [⟨1, .varint 1#64⟩, ⟨100, .varint 1#64⟩] [0x08#8, 0x01#8, 0xA0#8, 0x06#8, 0x01#8] :=
    .cons (bs := [0x08#8, 0x01#8]) (rest := [0xA0#8, 0x06#8, 0x01#8]) ⟨[0x08#8], [0x01#8], rfl, v08, v01⟩
      (.cons (bs := [0xA0#8, 0x06#8, 0x01#8]) (rest := []) ⟨[0xA0#8, 0x06#8], [0x01#8], rfl, v800, v01⟩ .nil)
  have hn1 : slotsOf testDesc ≤ 100 := by decide +kernel
  have ht1 : (k.gets 0 ⟨testDesc, none, Op.apply (.set rt (num fi) .int32 7#32) .empty⟩).type 1 = some testDesc := by
    rw [type_gets, if_neg (by decide)]; exact type_known (hgs 1 (by decide))
  have hk2 : (k.gets 0 ⟨testDesc, none, Op.apply (.set rt (num fi) .int32 7#32) .empty⟩).known.structs 0 = some ⟨testDesc, none, Op.apply (.set rt (num fi) .int32 7#32) .empty⟩ := by
    simp [Ledger.gets, Known.put]
  obtain ⟨s2, d1, r3⟩ := C76_unknown hc r2 (j := 1) ht1 (b := ⟨0, 0, 5, 5⟩) (wf _ w0) (by decide) (rs := [⟨1, .varint 1#64⟩, ⟨100, .varint 1#64⟩]) (by rw [sl _ w0]; exact hrec) ⟨⟨100, .varint 1#64⟩, by simp, hn1⟩ rt 0
  have hk3 : ((k.gets 0 ⟨testDesc, none, Op.apply (.set rt (num fi) .int32 7#32) .empty⟩).spoil 1 testDesc).known.structs 0 = some ⟨testDesc, none, Op.apply (.set rt (num fi) .int32 7#32) .empty⟩ := by
    show (if 0 = 1 then none else ((k.gets 0 ⟨testDesc, none, Op.apply (.set rt (num fi) .int32 7#32) .empty⟩).known.drop 1).structs 0) = _
    rw [if_neg (by decide)]
    exact drop_structs.2 ⟨hk2, nofun⟩
  have hy : ((k.gets 0 ⟨testDesc, none, Op.apply (.set rt (num fi) .int32 7#32) .empty⟩).spoil 1 testDesc).type 1 = some testDesc := by rw [type_spoil, if_pos rfl]
  obtain ⟨s3, hend, r4⟩ : ∃ s3, Ends (programOf asciiUnicode [testFile]) rt 0 testDesc.getName (goName asciiUnicode fb) [.ptr testDesc.getName 1] s2 s3 ∧
      Roams asciiUnicode [testFile] received2 s3 ((k.gets 0 ⟨testDesc, none, Op.apply (.set rt (num fi) .int32 7#32) .empty⟩).spoil 1 testDesc) (fun _ => none) := by
    rcases C77_get hc (comes_roams r3) hy hfb rt 0 with ⟨out, hr⟩ | ⟨s3, hp, _, r4⟩
    · exact ⟨s2, .inl ⟨out, hr⟩, comes_roams r3⟩
    · exact ⟨s3, .inr hp, r4⟩
  refine ⟨s1, s2, s3, fi, fb, _, comes_roams r2, hk2, hfi, hfb, d1, hend, r4, ?_⟩
  obtain ⟨x, v, g1, g2, g3⟩ := ((C77_programs hc r4).1 0 _ hk3).scalar fi .int32 hfi rt 0
  refine ⟨v, g1, ?_⟩
  have : readVal .int32 ((Op.apply (.set rt (num fi) .int32 7#32) .empty).sing (num fi)) = some 7#32 := by
    simp only [Op.apply, Contents.set, if_true]
    decide
  rw [this] at g3
  cases g3
  exact g2

/-- C77, on golden/test.proto, with an iterator over any bytes: `var y TestMessage; ok, err := it.Next(&y)` returns or panics, and this is a run of the program; or it does not end. -/
theorem C77_example_next (rt : Rt) (s : GSt) (b : HSlice) (hb : s.h.w.WFs b) (hi : s.its 0 = some b) : ∃ fd k l, RepeatedField testDesc fd ∧ l 0 = some (testDesc, fd) ∧ k.type s.next = some testDesc ∧
    Roams asciiUnicode [testFile] s ⟨s.h.put s.next (.zero (slotsOf testDesc)), s.next + 1, s.its⟩ k l ∧
    ((∃ s', Ends (programOf asciiUnicode [testFile]) rt 0 (iterOf testDesc fd) t!"Next" [.iter (iterOf testDesc fd) 0, .ptr testDesc.getName s.next] ⟨s.h.put s.next (.zero (slotsOf testDesc)), s.next + 1, s.its⟩ s' ∧
        Roams asciiUnicode [testFile] s s' (k.spoil s.next testDesc) l) ∨
      G.run (programOf asciiUnicode [testFile]) rt 0 (iterOf testDesc fd) t!"Next" [.iter (iterOf testDesc fd) 0, .ptr testDesc.getName s.next] ⟨s.h.put s.next (.zero (slotsOf testDesc)), s.next + 1, s.its⟩ = .error (.fail .diverge)) := by
  have hc := testFile_compilable
  obtain ⟨hf, hm⟩ := testFile_has
  obtain ⟨fd, i1, i2, i3, i4⟩ := testField (P := fun fd => getLabel (some fd) = 3 ∧ getType (some fd) = 11 ∧ testDesc.getName = goType fd) (by decide +kernel)
  have hfd : RepeatedField testDesc fd := ⟨i1, i2, i3⟩
  have r := ((Roams.start (U := asciiUnicode) (fs := [testFile]) (s0 := s)).step (.goes (.does (.new hf hm)) nofun)).step (.loosen (v := 0) ⟨_, hf, hm⟩ hfd (fun b' hb' => by
    have : b' = b := by rw [hi] at hb'; injection hb' with hb'; exact hb'.symm
    rw [this]; exact hb))
  have ht : ((Ledger.nothing.gets s.next ⟨testDesc, none, .empty⟩).unpoint 0).type s.next = some testDesc := by
    have : ((Ledger.nothing.gets s.next ⟨testDesc, none, .empty⟩).unpoint 0).known.structs s.next = some ⟨testDesc, none, .empty⟩ := by simp [Ledger.unpoint, Ledger.gets, Known.put]
    exact type_known this
  refine ⟨fd, _, _, hfd, by simp [Loose.put], ht, r, ?_⟩
  have := C77_next_outcome hc r (v := 0) (m := testDesc) (fd := fd) (by simp [Loose.put]) ht i4 rt 0
  rw [← i4] at this
  exact this

end Zeropb.GoSrc.E
