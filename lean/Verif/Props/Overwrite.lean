import Verif.Props.Peek
import Verif.Conc.SetHalt
/-!
# C78: programs that write to structs of unknown contents

C77, extended. `SetName` and `AppendToName` may be called on any struct whose memory no struct of known contents has: on a struct whose `Decode` failed, on one that a panic interrupted, on a view of a struct that the
program does not use any more. Such a call may do anything to the struct, and it may panic.
-/

set_option linter.constructorNameAsVariable false

namespace Zeropb.GoSrc.E
open Zeropb.Gen Wire Zeropb.GoSrc.G

/-! ## Specification -/

/-- One step of the program. -/
inductive Acts (U : Unicode) (fs : List FileDesc) : GSt → Ledger → Loose → GSt → Ledger → Loose → Prop
  /-- as in C77 -/
  | moves {s k l s' k' l'} : Moves U fs s k l s' k' l' → Acts U fs s k l s' k' l'
  /-- `x.SetName(v)`, `x.AppendToName(y)`, whatever the contents of `x` are -/
  | write {s k l i m rt d name args op out s'} : k.type i = some m → k.known.Free s i (s.h.ms i).buf → Calls U m rt i s name args op → Writes op →
      G.run (programOf U fs) rt d m.getName name args s = .ok (out, s') → Acts U fs s k l s' (k.spoil i m) l
  /-- the same, when it panics: the struct is not used any more -/
  | writePanics {s k l i m rt d name args op s'} : k.type i = some m → k.known.Free s i (s.h.ms i).buf → Calls U m rt i s name args op → Writes op →
      Crashes (programOf U fs) rt d m.getName name args s s' → Acts U fs s k l s' (k.forget i) l
  /-- the same, and then `x.Reset(nil)` -/
  | writeReset {s k l i m rt d name args op s1 rt' d' out s'} : k.type i = some m → k.known.Free s i (s.h.ms i).buf → Calls U m rt i s name args op → Writes op →
      Crashes (programOf U fs) rt d m.getName name args s s1 → G.run (programOf U fs) rt' d' m.getName t!"Reset" [.ptr m.getName i, .val .nil] s1 = .ok (out, s') →
      Acts U fs s k l s' (k.gets i ⟨m, none, .empty⟩) l

/-- A run of the program, from a state in which it knows nothing. -/
inductive Lives (U : Unicode) (fs : List FileDesc) (s0 : GSt) : GSt → Ledger → Loose → Prop
  | start : Lives U fs s0 s0 .nothing (fun _ => none)
  | step {s k l s' k' l'} : Lives U fs s0 s k l → Acts U fs s k l s' k' l' → Lives U fs s0 s' k' l'

/-! ## What a setter may change -/

/-- What has changed: struct `i`, the memory of its buffer, its map. -/
structure Spilled (s s' : GSt) (i : Nat) : Prop where
  sized : Sized s.h.w s'.h.w
  cells : ∀ a q, a < s.h.w.arrs.length → ¬ (s.h.ms i).buf.owns a q → s'.h.w.cell a q = s.h.w.cell a q
  owned : ∀ a q, (s'.h.ms i).buf.owns a q → (s.h.ms i).buf.owns a q ∨ s.h.w.arrs.length ≤ a
  next : s.next ≤ s'.next
  its : s'.its = s.its
  others : ∀ j, j ≠ i → j < s.next → s'.h.ms j = s.h.ms j
  slots : (s'.h.ms i).a.length = (s.h.ms i).a.length
  live : ∀ id, (s'.h.ms i).m = some id → id < s'.h.w.maps.length
  maps : ∀ id, id < s.h.w.maps.length → (s.h.ms i).m ≠ some id → s'.h.w.maps.getD id [] = s.h.w.maps.getD id []
  mown : ∀ id, (s'.h.ms i).m = some id → (s.h.ms i).m = some id ∨ s.h.w.maps.length ≤ id

/-- What a setter may write. -/
def setterMay (s : GSt) (i : Nat) : Conc.Loc → Prop
  | .cell a q => (s.h.ms i).buf.owns a q ∨ s.h.w.arrs.length ≤ a
  | .map id => (s.h.ms i).m = some id ∨ s.h.w.maps.length ≤ id
  | _ => True

theorem setter_fresh (s : GSt) (i : Nat) : Conc.Fresh (fun _ => True) (setterMay s i) s := ⟨fun l hl => ⟨trivial, by
  cases l <;> simp only [Conc.Loc.Old, Conc.Base.of, setterMay] at hl ⊢
  · exact .inr (by omega)
  · exact .inr (by omega)⟩⟩

theorem setter_has {s : GSt} {i : Nat} (hw : s.h.w.WF (s.h.ms i)) : Conc.Has (fun _ => True) (setterMay s i) 2 s i :=
  ⟨trivial, fun _ => trivial, trivial, trivial, fun _ _ _ => trivial, fun _ _ => trivial, fun _ => trivial, fun _ _ => trivial, fun _ => trivial, fun id _ hid => .inl hid,
    fun _ q h1 h2 => .inl ⟨rfl, h1, by have := hw.1.1; omega⟩⟩

theorem has_read {s : GSt} {i j : Nat} : Conc.Has (fun _ => True) (setterMay s i) 0 s j :=
  ⟨trivial, fun _ => trivial, trivial, trivial, fun _ _ _ => trivial, fun _ _ => trivial, nofun, fun _ => nofun, nofun, fun _ => nofun, nofun⟩

theorem spilled_of {s s' : GSt} {i : Nat} (hi : i < s.next) (hw : s.h.w.WF (s.h.ms i)) (hg : Conc.Widens s s') (h : Conc.OnStop (fun _ => True) (setterMay s i) 2 i s s') : Spilled s s' i := by
  obtain ⟨z1, z2, z3⟩ := h
  have same := z2.same
  refine ⟨⟨hg.1, hg.2, z2.maps⟩, fun a q ha hn => same (.cell a q) ha (fun hx => ?_), fun a q ho => ?_, z2.next, ?_, fun k hk hlt => ?_, same (.slots i) hi (fun hx => hx.2), fun id hid => ?_,
    fun id hid hne => same (.map id) hid (fun hx => ?_), fun id hid => z1.wmap id (by decide) hid⟩
  · rcases hx.1 with h1 | h1
    · exact hn h1
    · omega
  · obtain ⟨rfl, h1, h2⟩ := ho
    exact z1.wbytes (Nat.le_refl _) q h1 (by omega)
  · funext v; exact same (.iter v) trivial (fun hx => hx.2)
  · exact hmsg_ext (same (.buf k) hlt (fun hx => hk hx.2.1)) (fun x => same (.slot k x) hlt (fun hx => hk hx.2.1)) (same (.ref k) hlt (fun hx => hk hx.2.1))
  · rcases z3 id hid with h1 | h1
    · exact Nat.lt_of_lt_of_le (hw.2 id h1) z2.maps
    · exact h1
  · rcases hx.1 with h1 | h1
    · exact hne h1
    · omega

/-- A copy of a struct was made before. -/
theorem onStop_copy {R W : Conc.Loc → Prop} {s s' : GSt} {i : Nat} {x : HMsg} (hi : i < s.next) (h : Conc.OnStop R W 2 i ⟨s.h.put s.next x, s.next + 1, s.its⟩ s') : Conc.OnStop R W 2 i s s' := by
  refine ⟨h.has, ((Conc.keeps_newStruct (X := fun l => W l ∧ Conc.On 2 i l) x s).trans h.keeps), fun id hid => ?_⟩
  rcases h.live id hid with h1 | h1
  · have : (s.h.put s.next x).ms i = s.h.ms i := by simp [Heap.put, Nat.ne_of_lt hi]
    simp only [this] at h1
    exact .inl h1
  · exact .inr h1

section
variable {U : Unicode} {fs : List FileDesc} {pkg : Text} {s : GSt}

theorem readable_val {w : World} {k : Kind} {x : k.Ty} {v : Val} (h : IsVal w k x v) : Conc.Readable (fun _ => True) v := by
  have mem : ∀ t, Conc.Readable (fun _ => True) (.str (.mem t)) ∧ Conc.Readable (fun _ => True) (.bytes (.mem t)) := fun t =>
    ⟨.inr ⟨t, .inr rfl, fun _ _ _ => trivial⟩, .inr ⟨t, .inl rfl, fun _ _ _ => trivial⟩⟩
  cases k <;> simp only [IsVal] at h
  case string =>
    obtain ⟨src, rfl, _⟩ := h
    cases src with
    | mem t => exact (mem t).1
    | lit bs => exact .inl rfl
  case bytes =>
    rcases h with ⟨rfl, _⟩ | ⟨src, rfl, _⟩
    · exact .inl rfl
    · cases src with
      | mem t => exact (mem t).2
      | lit bs => exact .inl rfl
  all_goals
    subst h
    exact .inl rfl

/-- A setter, on any struct. -/
theorem setter_safe (hc : Compilable U fs pkg) {i : Nat} {m : Desc} (hm : ∃ f ∈ fs, some m ∈ f.messageType) (hi : i < s.next) (hw : s.h.w.WF (s.h.ms i)) {rt : Rt} {name : Text} {args : List GVal} {op : Zeropb.Op}
    (hcall : Calls U m rt i s name args op) (hop : Writes op) (fuel d : Nat) :
    (Conc.grun (programOf U fs) rt fuel d m.getName name args).SafeZ (Conc.OnStop (fun _ => True) (setterMay s i) 2 i s) (fun _ => True) (setterMay s i)
      (fun _ s' => Conc.OnStop (fun _ => True) (setterMay s i) 2 i s s') s := by
  obtain ⟨f, hf, hm⟩ := hm
  have hv := hc.valid f hf m hm
  have hp := hc.program
  unfold Conc.grun
  cases hcall with
  | set hfd hval _ _ =>
    exact Conc.gsafez_set (n := d + 1) (setter_fresh s i) (setter_has hw) (hp.method (sub_of hf hm _ (decl_get hv hfd).2) rfl) (pkg_set _) (goType_slots hp _) (readable_val hval)
  | setMessage hfd _ _ =>
    obtain ⟨c1, _, ⟨n, c2⟩, _⟩ := hc.target hf hm (Or.inl hfd)
    exact (Conc.gsafez_setBuf (n := d) (setter_fresh s i) hi (setter_has hw) (lj := 0) has_read (hp.method (sub_of hf hm _ (decl_message hv hfd).2) rfl) (hp.method c1 rfl)
      (by rw [hp.slots c2]; rfl) (F := t!"SetBytes") (q := .SetBytes) rfl).mono (fun _ => onStop_copy hi) (fun _ => id) (fun _ => id) (fun _ _ => onStop_copy hi)
  | append hfd _ _ =>
    obtain ⟨c1, _, ⟨n, c2⟩, _⟩ := hc.target hf hm (Or.inr hfd)
    exact (Conc.gsafez_setBuf (n := d) (setter_fresh s i) hi (setter_has hw) (lj := 0) has_read (hp.method (sub_of hf hm _ (decl_repeated hv hfd).2.2.2) rfl) (hp.method c1 rfl)
      (by rw [hp.slots c2]; rfl) (F := t!"AppendBytes") (q := .AppendBytes) rfl).mono (fun _ => onStop_copy hi) (fun _ => id) (fun _ => id) (fun _ _ => onStop_copy hi)
  | reset _ _ => cases hop
  | resetNil => cases hop
  | decode _ _ _ _ => cases hop

theorem setter_panics (hc : Compilable U fs pkg) {k : Ledger} (h : Sound U fs s k) {i : Nat} {m : Desc} (hi : k.type i = some m) {rt : Rt} {d : Nat} {name : Text} {args : List GVal} {op : Zeropb.Op}
    (hcall : Calls U m rt i s name args op) (hop : Writes op) {s' : GSt} (hp : Panics (programOf U fs) rt d m.getName name args s s') : Spilled s s' i := by
  obtain ⟨o1, o2, o3, _⟩ := h.shape.one i m hi
  obtain ⟨e, fuel, hp⟩ := hp
  exact spilled_of o2 o3 (Conc.Prog.halt_widens (hp fuel (Nat.le_refl _))) ((setter_safe hc o1 o2 o3 hcall hop fuel d).halt (hp fuel (Nat.le_refl _)))

theorem setter_returns (hc : Compilable U fs pkg) {k : Ledger} (h : Sound U fs s k) {i : Nat} {m : Desc} (hi : k.type i = some m) {rt : Rt} {d : Nat} {name : Text} {args : List GVal} {op : Zeropb.Op}
    (hcall : Calls U m rt i s name args op) (hop : Writes op) {out : List GVal} {s' : GSt} (hr : G.run (programOf U fs) rt d m.getName name args s = .ok (out, s')) :
    out = [] ∧ Spilled s s' i ∧ s'.h.w.WF (s'.h.ms i) := by
  obtain ⟨o1, o2, o3, o4⟩ := h.shape.one i m hi
  obtain ⟨fuel, hf⟩ := Conc.to_grun hr
  have hq : (Conc.grun (programOf U fs) rt fuel d m.getName name args).run s = .ok (out, s') := hf fuel (Nat.le_refl _)
  have hsp := spilled_of o2 o3 (Conc.Prog.run_widens hq) ((setter_safe hc o1 o2 o3 hcall hop fuel d).safe.run hq)
  obtain ⟨f, hf, hm⟩ := o1
  have hv := hc.valid f hf m hm
  obtain ⟨_, hfo⟩ := C63_call hc.program hc.closed (decls_implements U m hv) (sub_of (U := U) hf hm) rt d o3 o4 o2 (calls_issues hv hcall)
  cases e : op.run (schemaOf m hv) (s.h.w.msg (s.h.ms i)) with
  | error x => rw [e, hr] at hfo; cases hfo
  | ok mv =>
    rw [e] at hfo
    obtain ⟨s1, f1, f2, f3, f4, f5⟩ := hfo
    rw [hr] at f1
    injection f1 with f1
    injection f1 with f0 f1
    subst f1
    refine ⟨?_, hsp, f3⟩
    rw [f0]
    cases op <;> first | rfl | cases hop

/-- Struct `i` and the memory of its buffer changed. -/
theorem Sound.overwrite {k : Ledger} (h : Sound U fs s k) {i : Nat} {m : Desc} (hi : k.type i = some m) (hfree : k.known.Free s i (s.h.ms i).buf) {s' : GSt} (hd : Spilled s s' i)
    (hw : s'.h.w.WF (s'.h.ms i)) : Sound U fs s' (k.spoil i m) := by
  obtain ⟨o1, o2, _, o4⟩ := h.shape.one i m hi
  have look : ∀ x e, (k.known.forget i).structs x = some e → x ≠ i ∧ k.known.structs x = some e := fun x e hx => by
    simp only [Known.forget] at hx
    by_cases hj : x = i
    · rw [if_pos hj] at hx; cases hx
    · rw [if_neg hj] at hx; exact ⟨hj, (drop_structs.1 hx).1⟩
  refine ⟨(h.known.forget i).other ⟨hd.sized, hd.next, fun x e hx => hd.others x (look x e hx).1 (h.known.struct x e (look x e hx).2).2.1,
      fun x e hx hv a q ho => hd.cells a q ((h.known.struct x e (look x e hx).2).2.2.1.1.cell_lt ho) (fun hb => hfree x e (look x e hx).2 hv (look x e hx).1 a q hb ho), fun x e id hx hid => ?_,
      fun _ _ _ => by rw [hd.its]⟩,
    h.shape.update i m hd.sized hd.next (fun x mx hx hxt => hd.others x hx (h.shape.one x mx hxt).2.1) ⟨o1, Nat.lt_of_lt_of_le o2 hd.next, hw, by rw [hd.slots]; exact o4⟩ ?_ ?_ ?_⟩
  · obtain ⟨h1, h2⟩ := look x e hx
    exact hd.maps id ((h.known.struct x e h2).2.2.1.2 id hid) (h.shape.maps x i _ m h1 (type_known h2) hi id hid)
  · intro id hid
    rcases hd.mown id hid with h3 | h3
    · exact .inl ⟨m, hi, h3⟩
    · exact .inr h3
  · intro x mx hx; rw [type_spoil, if_neg hx]; exact id
  · intro mx hx; rw [type_spoil, if_pos rfl] at hx; injection hx with hx; exact hx.symm

/-- `s`, with an empty buffer in struct `i`. -/
def mended (s : GSt) (i : Nat) : GSt := { s with h := s.h.put i { s.h.ms i with buf := .nil } }

theorem mended_ms (s : GSt) (i : Nat) : (mended s i).h.ms i = { s.h.ms i with buf := .nil } := by simp [mended, Heap.put]

theorem mended_other (s : GSt) {i j : Nat} (h : j ≠ i) : (mended s i).h.ms j = s.h.ms j := by simp [mended, Heap.put, h]

theorem Spilled.mended {s s' : GSt} {i : Nat} (h : Spilled s s' i) : Spilled s (mended s' i) i ∧ (mended s' i).h.w.WF ((mended s' i).h.ms i) := by
  refine ⟨⟨h.sized, h.cells, fun a q ho => ?_, h.next, h.its, fun j hj hlt => by rw [mended_other _ hj]; exact h.others j hj hlt, by rw [mended_ms]; exact h.slots, by rw [mended_ms]; exact h.live,
    h.maps, by rw [mended_ms]; exact h.mown⟩, ?_⟩
  · rw [mended_ms] at ho; exact absurd ho owns_nil
  · rw [mended_ms]; exact ⟨⟨Nat.le_refl _, by simp [HSlice.nil]⟩, h.live⟩

/-- After a setter that panicked, if the struct is not used any more. -/
theorem Sound.dropped {k : Ledger} (h : Sound U fs s k) {i : Nat} {m : Desc} (hi : k.type i = some m) (hfree : k.known.Free s i (s.h.ms i).buf) {s' : GSt} (hd : Spilled s s' i) : Sound U fs s' (k.forget i) := by
  obtain ⟨h1, h2⟩ := hd.mended
  have h3 := h.overwrite hi hfree h1 h2
  have h4 : Sound U fs (mended s' i) (k.forget i) := ⟨h3.known, h3.shape.sub fun x mx hx => by
    rw [type_forget] at hx
    rw [type_spoil]
    split at hx
    · cases hx
    · next hne => rw [if_neg hne]; exact hx⟩
  have hne : ∀ x mx, (k.forget i).type x = some mx → x ≠ i := fun x mx hx he => by rw [type_forget, if_pos he] at hx; cases hx
  refine h4.other ⟨⟨⟨Nat.le_refl _, fun _ _ => rfl, Nat.le_refl _⟩, Nat.le_refl _, fun x e hx => (mended_other _ (hne x _ (type_known hx))).symm, fun _ _ _ _ _ _ _ => rfl, fun _ _ _ _ _ => rfl, fun _ _ _ => rfl⟩, fun x mx hx => ?_⟩
  cases hk : (k.forget i).known.structs x with
  | some e => exact (mended_other _ (hne x _ (type_known hk))).symm
  | none => exact (mended_other _ (hne x mx (by unfold Ledger.type; rw [hk]; exact hx))).symm

theorem gets_spoil (k : Ledger) (i : Nat) (m : Desc) (e : Entry) : (k.spoil i m).gets i e = k.gets i e := by
  unfold Ledger.gets Ledger.spoil Ledger.spoiling Known.forget Known.drop Known.put
  simp only [Ledger.mk.injEq, Known.mk.injEq]
  refine ⟨⟨funext fun j => ?_, funext fun v => ?_⟩, funext fun j => ?_⟩
  · by_cases hj : j = i
    · simp [hj]
    · simp only [hj, if_false]
      cases k.known.structs j with
      | none => rfl
      | some x => by_cases hx : x.view = some i <;> simp [Option.filter, hx]
  · cases k.known.iters v with
    | none => rfl
    | some c => by_cases hc : c.over = i <;> simp [Option.filter, hc]
  · by_cases hj : j = i
    · simp [hj]
    · simp only [hj, if_false]
      cases k.known.structs j with
      | none => simp
      | some x => by_cases hx : x.view = some i <;> simp [Option.filter, hx]

/-- `x.Reset(nil)` returns, if the map of `x` exists; it does not look at the old buffer. -/
theorem reset_any (hc : Compilable U fs pkg) {m : Desc} (hm : ∃ f ∈ fs, some m ∈ f.messageType) {i : Nat} (hl : ∀ id, (s.h.ms i).m = some id → id < s.h.w.maps.length) (rt : Rt) (d : Nat) :
    ∃ s', G.run (programOf U fs) rt d m.getName t!"Reset" [.ptr m.getName i, .val .nil] s = .ok ([], s') ∧
      G.run (programOf U fs) rt d m.getName t!"Reset" [.ptr m.getName i, .val .nil] (mended s i) = .ok ([], s') ∧ s'.its = s.its := by
  obtain ⟨f, hf, hm⟩ := hm
  have hdi := decls_implements U m (hc.valid f hf m hm)
  have hmeth := hc.program.method (sub_of (U := U) hf hm _ hdi.fixed.2.2) rfl
  have h1 := run_reset_nil (rt := rt) (d := d + 2) (n := d + 1) (i := i) hmeth s hl
  have h2 := run_reset_nil (rt := rt) (d := d + 2) (n := d + 1) (i := i) hmeth (mended s i) (by rw [mended_ms]; exact hl)
  have e1 : (s.h.ms i).reset s.h.w .nil = .ok (cleared s.h.w (s.h.ms i)) := rfl
  have e2 : ((mended s i).h.ms i).reset (mended s i).h.w .nil = .ok (cleared s.h.w { s.h.ms i with buf := .nil }) := by rw [mended_ms]; rfl
  have e3 : cleared s.h.w { s.h.ms i with buf := .nil } = cleared s.h.w (s.h.ms i) := by
    unfold cleared World.storeOffs World.offs
    cases (s.h.ms i).m <;> rfl
  rw [e1] at h1
  rw [e2, e3] at h2
  refine ⟨_, h1, h2.trans ?_, rfl⟩
  have : ({ (mended s i) with h := (mended s i).h.upd i (cleared s.h.w (s.h.ms i)) } : GSt) = { s with h := s.h.upd i (cleared s.h.w (s.h.ms i)) } := by
    simp only [mended, Heap.upd, Heap.put]
    congr 2
    funext x
    by_cases hx : x = i <;> simp [hx]
  exact congrArg (fun x => Except.ok ([], x)) this

/-- After a setter that panicked, and then `x.Reset(nil)`. -/
theorem Sound.restart {k : Ledger} (hc : Compilable U fs pkg) (h : Sound U fs s k) {i : Nat} {m : Desc} (hi : k.type i = some m) (hfree : k.known.Free s i (s.h.ms i).buf) {s1 : GSt} (hd : Spilled s s1 i) (rt : Rt) (d : Nat) :
    ∃ s', G.run (programOf U fs) rt d m.getName t!"Reset" [.ptr m.getName i, .val .nil] s1 = .ok ([], s') ∧ Sound U fs s' (k.gets i ⟨m, none, .empty⟩) ∧ Sized s.h.w s'.h.w ∧ s'.its = s.its := by
  obtain ⟨h1, h2⟩ := hd.mended
  have h3 := h.overwrite hi hfree h1 h2
  obtain ⟨o1, _⟩ := h.shape.one i m hi
  obtain ⟨s', r1, r2, r3⟩ := reset_any hc o1 hd.live rt d
  have hty : (k.spoil i m).type i = some m := by rw [type_spoil, if_pos rfl]
  have h4 := h3.fill hc hty (op := .reset .empty) .resetNil (fun h => h) (fun b' hb' => by simp at hb') r2
  have h5 := h3.sized hc (.does (.fill (op := .reset .empty) hty .resetNil (fun h => h) (fun b' hb' => by simp at hb') r2))
  refine ⟨s', r1, ?_, ⟨Nat.le_trans h1.sized.1 h5.1, fun a ha => (h5.2.1 a (Nat.lt_of_lt_of_le ha h1.sized.1)).trans (h1.sized.2.1 a ha), Nat.le_trans h1.sized.2.2 h5.2.2⟩, r3.trans hd.its⟩
  rw [← gets_spoil k i m]
  exact h4.1

theorem Whole.become {k : Ledger} {l : Loose} (h : Whole U fs s k l) {s' : GSt} {k' : Ledger} (hs : Sound U fs s' k') (hz : Sized s.h.w s'.h.w) (hi : s'.its = s.its)
    (hk : ∀ v, k.known.iters v = none → k'.known.iters v = none) : Whole U fs s' k' l :=
  ⟨hs, fun v mv fd hv => by
    obtain ⟨a1, a2, a3, a4⟩ := h.loose v mv fd hv
    exact ⟨a1, a2, hk v a3, fun b hb => wf_sized hz (a4 b (by rw [← hi]; exact hb))⟩⟩

theorem filter_none {g : Known} {i v : Nat} (h : g.iters v = none) : (g.drop i).iters v = none := by
  show (g.iters v).filter _ = none
  rw [h]; rfl

theorem Whole.act {k : Ledger} {l : Loose} (hc : Compilable U fs pkg) (h : Whole U fs s k l) {s' : GSt} {k' : Ledger} {l' : Loose} (hs : Acts U fs s k l s' k' l') : Whole U fs s' k' l' := by
  cases hs with
  | moves h1 => exact h.step hc h1
  | write h1 h2 h3 h4 h5 =>
    obtain ⟨_, a2, a3⟩ := setter_returns hc h.sound h1 h3 h4 h5
    exact h.become (h.sound.overwrite h1 h2 a2 a3) a2.sized a2.its (fun _ => filter_none)
  | writePanics h1 h2 h3 h4 h5 =>
    have a2 := setter_panics hc h.sound h1 h3 h4 h5.2
    exact h.become (h.sound.dropped h1 h2 a2) a2.sized a2.its (fun _ => filter_none)
  | @writeReset i m rt d name args op s1 rt' d' out s' h1 h2 h3 h4 h5 h6 =>
    have a2 := setter_panics hc h.sound h1 h3 h4 h5.2
    obtain ⟨s2, b1, b2, b3, b4⟩ := h.sound.restart hc h1 h2 a2 rt' d'
    rw [b1] at h6
    injection h6 with h6; injection h6 with _ h6; subst h6
    exact h.become b2 b3 b4 (fun _ => filter_none)

theorem lives_whole (hc : Compilable U fs pkg) {s0 : GSt} {k : Ledger} {l : Loose} (h : Lives U fs s0 s k l) : Whole U fs s k l := by
  induction h with
  | start => exact roams_whole hc (s0 := s0) .start
  | step _ hs ih => exact ih.act hc hs

/-! ## Setters end -/

theorem quits_slot (o : Offsets) (f : Nat) : Quits (o.slot f) := by
  unfold Offsets.slot
  cases o.a[f]? <;> nofun

theorem quits_set (o : Offsets) (f : Nat) (x : U64) : Quits (o.set f x) := by
  unfold Offsets.set
  split
  · exact (quits_slot _ _).bind fun _ => quits_ok _
  · exact (quits_slot _ _).bind fun _ => quits_ok _

theorem quits_append (rt : Rt) (s : Slice) (xs : List Byte) : Quits (goAppend rt s xs) := by
  unfold goAppend
  split
  · split <;> nofun
  · nofun

theorem quits_uvarint (n : Nat) (x : U64) : Quits (putUvarint n x) := by
  induction n generalizing x with
  | zero => nofun
  | succ n ih =>
    unfold putUvarint
    split
    · exact (ih _).bind fun _ => quits_ok _
    · exact quits_ok _

theorem quits_oldLen (b : Slice) (x : U64) (t : Nat) : Quits (oldLenOf b x t) := by
  unfold oldLenOf
  repeat' split
  · exact (quits_drop _ _).bind fun _ => quits_ok _
  · exact quits_ok _
  · exact quits_ok _
  · exact (quits_drop _ _).bind fun _ => quits_ok _
  · nofun

theorem quits_adjust (fe r : U64) (l : List Nat) (o : Offsets) : Quits (adjustMap fe r l o) := by
  induction l generalizing o with
  | nil => exact quits_ok _
  | cons k ks ih =>
    unfold adjustMap
    split
    · exact ih o
    · split
      · exact (quits_set _ _ _).bind fun _ => ih _
      · exact ih o

theorem quits_remove (rt : Rt) (b : Slice) (o : Offsets) (x : U64) (n : Nat) (l : Int) : Quits (removeField rt b o x n l) := by
  unfold removeField
  exact (quits_drop _ _).bind fun _ => (quits_drop _ _).bind fun _ => (quits_range _ _ _).bind fun _ => (quits_adjust _ _ _ _).bind fun _ => quits_ok _

theorem quits_appendField (rt : Rt) (b : Slice) (o : Offsets) (f : Nat) (t vl v : List Byte) : Quits (appendField rt b o f t vl v) := by
  unfold appendField
  exact (quits_append _ _ _).bind fun _ => (quits_set _ _ _).bind fun _ => (quits_append _ _ _).bind fun _ => (quits_append _ _ _).bind fun _ => quits_ok _

theorem quits_setSingle (rt : Rt) (b : Slice) (o : Offsets) (f t : Nat) (vl v : List Byte) : Quits (setSingle rt b o f t vl v) := by
  unfold setSingle
  refine (quits_uvarint _ _).bind fun tag => (quits_offset _ _).bind fun x => ?_
  obtain ⟨x, ok⟩ := x
  dsimp only
  split
  · refine (quits_oldLen _ _ _).bind fun n => ?_
    split
    · exact (quits_drop _ _).bind fun _ => (quits_drop _ _).bind fun _ => quits_ok _
    · exact (quits_remove _ _ _ _ _ _).bind fun _ => quits_appendField _ _ _ _ _ _ _
  · exact quits_appendField _ _ _ _ _ _ _

theorem quits_appendSingle (rt : Rt) (b : Slice) (o : Offsets) (f t : Nat) (vl v : List Byte) : Quits (appendSingle rt b o f t vl v) := by
  unfold appendSingle
  refine (quits_uvarint _ _).bind fun tag => (quits_append _ _ _).bind fun _ => (quits_offset _ _).bind fun x => ?_
  obtain ⟨x, ok⟩ := x
  dsimp only
  split
  · exact (quits_set _ _ _).bind fun _ => (quits_append _ _ _).bind fun _ => (quits_append _ _ _).bind fun _ => quits_ok _
  · exact (quits_ok _).bind fun _ => (quits_append _ _ _).bind fun _ => (quits_append _ _ _).bind fun _ => quits_ok _

theorem quits_setField (rt : Rt) (b : Slice) (o : Offsets) (k : Kind) (f : Nat) (x : k.Ty) : Quits (Msg.setField rt b o k f x) := by
  have h (n : Nat) (y : U64) (t : Nat) (vl : List Byte → List Byte) (v : List Byte → List Byte) : Quits (putUvarint n y >>= fun z => setSingle rt b o f t (vl z) (v z)) :=
    (quits_uvarint _ _).bind fun _ => quits_setSingle _ _ _ _ _ _ _
  cases k with
  | bool => exact quits_setSingle _ _ _ _ _ _ _
  | int32 => exact h _ _ _ (fun _ => []) id
  | int64 => exact h _ _ _ (fun _ => []) id
  | uint32 => exact h _ _ _ (fun _ => []) id
  | uint64 => exact h _ _ _ (fun _ => []) id
  | sint32 => exact h _ _ _ (fun _ => []) id
  | sint64 => exact h _ _ _ (fun _ => []) id
  | fixed32 => exact quits_setSingle _ _ _ _ _ _ _
  | fixed64 => exact quits_setSingle _ _ _ _ _ _ _
  | sfixed32 => exact quits_setSingle _ _ _ _ _ _ _
  | sfixed64 => exact quits_setSingle _ _ _ _ _ _ _
  | float => exact quits_setSingle _ _ _ _ _ _ _
  | double => exact quits_setSingle _ _ _ _ _ _ _
  | string => exact h _ _ _ id (fun _ => x)
  | bytes => exact h _ _ _ id (fun _ => x)

theorem quits_run (S : Schema) {op : Zeropb.Op} (h : Writes op) (m : Msg) : Quits (op.run S m) := by
  cases op with
  | set rt f k x => exact (quits_setField rt m.buf m.off k f x).bind fun _ => quits_ok _
  | append rt f x =>
    have : Quits (appendBytes rt m.buf m.off f x) := (quits_uvarint _ _).bind fun _ => quits_appendSingle _ _ _ _ _ _ _
    exact this.bind fun _ => quits_ok _
  | reset _ => cases h
  | decode _ _ => cases h

theorem append_some (rt : Rt) {s : Slice} {xs : List Byte} (h : s.data.length + xs.length < maxLen) : ∃ s', goAppend rt s xs = .ok s' ∧ s'.data.length = s.data.length + xs.length := by
  unfold goAppend
  rw [if_pos h]
  split
  · exact ⟨_, rfl, by simp⟩
  · exact ⟨_, rfl, by simp⟩

theorem minvarint_len {v : Nat} {bs : List Byte} (h : IsMinVarint v bs) : bs.length ≤ 10 := by
  obtain ⟨⟨ini, last, rfl, _, _, h, _⟩, _⟩ := h
  exact h

/-- `AppendBytes` does not look at what is in the buffer: it returns if there is a slot for the field, and room in an `int`. -/
theorem append_returns (rt : Rt) {m : Msg} {f : Nat} {x : List Byte} (hf : f < m.off.a.length) (hl : m.buf.data.length + (20 + x.length) < maxLen) : ∃ m', m.appendRaw rt f x = .ok m' := by
  obtain ⟨vl, p1, p2⟩ := putUvarint64 (BitVec.ofNat 64 x.length)
  obtain ⟨tag, t1, t2⟩ := putUvarint64 (tagOf f wireBytes)
  have n1 := minvarint_len p2
  have n2 := minvarint_len t2
  obtain ⟨b1, e1, l1⟩ := append_some rt (s := m.buf) (xs := tag) (by omega)
  obtain ⟨b2, e2, l2⟩ := append_some rt (s := b1) (xs := vl) (by omega)
  obtain ⟨b3, e3, l3⟩ := append_some rt (s := b2) (xs := x) (by omega)
  have hs : m.off.slot f = .ok m.off.a[f] := by unfold Offsets.slot; rw [List.getElem?_eq_getElem hf]
  obtain ⟨z, ok, hg⟩ : ∃ z ok, m.off.get f = .ok (z, ok) := by
    unfold Offsets.get
    rw [hs]
    simp only [bind, Except.bind]
    split
    · exact ⟨_, _, rfl⟩
    · exact ⟨_, _, rfl⟩
  obtain ⟨o', ho⟩ : ∃ o', m.off.set f (BitVec.ofNat 64 b1.data.length) = .ok o' := by
    unfold Offsets.set
    rw [hs]
    simp only [bind, Except.bind]
    split
    · exact ⟨_, rfl⟩
    · exact ⟨_, rfl⟩
  unfold Msg.appendRaw appendBytes appendSingle
  simp only [p1, t1, e1, hg, ho, bind, Except.bind, pure, Except.pure]
  cases ok
  · simp only [Bool.not_false, if_true, e2, e3]; exact ⟨_, rfl⟩
  · simp only [Bool.not_true, Bool.false_eq_true, if_false, e2, e3]; exact ⟨_, rfl⟩

/-! ## C78 -/

/-- C78: at every moment of every run, whatever structs of unknown contents the program has read and written, and however often it has recovered from panics of those calls, every struct of which the
program knows the contents is seen, through the methods of the generated program, as its record of the calls made on it, and every iterator that it relies on yields the elements that it has not yielded yet. -/
theorem C78_programs (hc : Compilable U fs pkg) {s0 : GSt} {k : Ledger} {l : Loose} (h : Lives U fs s0 s k l) :
    (∀ i e, k.known.structs i = some e → Shows U (programOf U fs) e.type i s e.contents) ∧ (∀ v c, k.known.iters v = some c → Points (programOf U fs) s v c) :=
  ⟨fun _ _ hi => (lives_whole hc h).sound.known.shows hc hi, fun _ _ hv => (lives_whole hc h).sound.known.points hv⟩

theorem lived_only (hc : Compilable U fs pkg) {s0 : GSt} {k : Ledger} {l : Loose} {j : Nat} {k' : Ledger} (h : Lives U fs s0 s k' l) (hk : k'.known = k.known.forget j) : OnlyChanges U (programOf U fs) k s j := by
  refine ⟨fun i e hi hne hv => (C78_programs hc h).1 i e ?_, fun v c hv hne => (C78_programs hc h).2 v c (by rw [hk]; exact drop_iters.2 ⟨hv, hne⟩)⟩
  rw [hk]
  show (if i = j then none else (k.known.drop j).structs i) = _
  rw [if_neg hne]
  exact drop_structs.2 ⟨hi, hv⟩

/-- C78: `x.SetName(v)` or `x.AppendToName(y)`, on a struct `x` of any contents, that returns: it has changed nothing else than `x`, the bytes of the array of its buffer, and its map, and what `x` refers to
now is its old buffer, or memory that is new. -/
theorem C78_write (hc : Compilable U fs pkg) {s0 : GSt} {k : Ledger} {l : Loose} (h : Lives U fs s0 s k l) {i : Nat} {m : Desc} (hi : k.type i = some m) (hfree : k.known.Free s i (s.h.ms i).buf) {rt : Rt} {d : Nat}
    {name : Text} {args : List GVal} {op : Zeropb.Op} (hcall : Calls U m rt i s name args op) (hop : Writes op) {out : List GVal} {s' : GSt} (hr : G.run (programOf U fs) rt d m.getName name args s = .ok (out, s')) :
    out = [] ∧ OnlyChanges U (programOf U fs) k s' i ∧ (∀ a q, a < s.h.w.arrs.length → ¬ (s.h.ms i).buf.owns a q → s'.h.w.cell a q = s.h.w.cell a q) ∧ (∀ x, x ≠ i → x < s.next → s'.h.ms x = s.h.ms x) ∧
    s'.its = s.its ∧ (∀ a q, (s'.h.ms i).buf.owns a q → (s.h.ms i).buf.owns a q ∨ s.h.w.arrs.length ≤ a) := by
  obtain ⟨a1, a2, _⟩ := setter_returns hc (lives_whole hc h).sound hi hcall hop hr
  exact ⟨a1, lived_only hc (h.step (.write hi hfree hcall hop hr)) rfl, a2.cells, a2.others, a2.its, a2.owned⟩

/-- C78: likewise if it panics. -/
theorem C78_write_panics (hc : Compilable U fs pkg) {s0 : GSt} {k : Ledger} {l : Loose} (h : Lives U fs s0 s k l) {i : Nat} {m : Desc} (hi : k.type i = some m) (hfree : k.known.Free s i (s.h.ms i).buf) {rt : Rt} {d : Nat}
    {name : Text} {args : List GVal} {op : Zeropb.Op} (hcall : Calls U m rt i s name args op) (hop : Writes op) {s' : GSt} (hr : Crashes (programOf U fs) rt d m.getName name args s s') :
    OnlyChanges U (programOf U fs) k s' i ∧ (∀ a q, a < s.h.w.arrs.length → ¬ (s.h.ms i).buf.owns a q → s'.h.w.cell a q = s.h.w.cell a q) ∧ (∀ x, x ≠ i → x < s.next → s'.h.ms x = s.h.ms x) ∧
    s'.its = s.its ∧ (∀ a q, (s'.h.ms i).buf.owns a q → (s.h.ms i).buf.owns a q ∨ s.h.w.arrs.length ≤ a) := by
  have a2 := setter_panics hc (lives_whole hc h).sound hi hcall hop hr.2
  exact ⟨lived_only hc (h.step (.writePanics hi hfree hcall hop hr)) rfl, a2.cells, a2.others, a2.its, a2.owned⟩

/-- C78: it returns or panics: it does not go on forever. Both are steps of the program. -/
theorem C78_outcome (hc : Compilable U fs pkg) {s0 : GSt} {k : Ledger} {l : Loose} (h : Lives U fs s0 s k l) {i : Nat} {m : Desc} (hi : k.type i = some m) (hfree : k.known.Free s i (s.h.ms i).buf) {rt : Rt} (d : Nat)
    {name : Text} {args : List GVal} {op : Zeropb.Op} (hcall : Calls U m rt i s name args op) (hop : Writes op) :
    (∃ s', G.run (programOf U fs) rt d m.getName name args s = .ok ([], s') ∧ Lives U fs s0 s' (k.spoil i m) l) ∨
    (∃ s', Crashes (programOf U fs) rt d m.getName name args s s' ∧ Lives U fs s0 s' (k.forget i) l) := by
  obtain ⟨⟨f, hf, hm⟩, o2, o3, o4⟩ := (lives_whole hc h).sound.shape.one i m hi
  have hv := hc.valid f hf m hm
  obtain ⟨_, hfo⟩ := C63_call hc.program hc.closed (decls_implements U m hv) (sub_of (U := U) hf hm) rt d o3 o4 o2 (calls_issues hv hcall)
  cases e : op.run (schemaOf m hv) (s.h.w.msg (s.h.ms i)) with
  | error x =>
    rw [e] at hfo
    obtain ⟨s', hp⟩ := crashes_of (fun hx => quits_run _ hop _ (hx ▸ e)) hfo
    exact .inr ⟨s', hp, h.step (.writePanics hi hfree hcall hop hp)⟩
  | ok mv =>
    rw [e] at hfo
    obtain ⟨s', f1, _⟩ := hfo
    have f0 := (setter_returns hc (lives_whole hc h).sound hi hcall hop f1).1
    rw [f0] at f1
    exact .inl ⟨s', f1, h.step (.write hi hfree hcall hop f1)⟩

/-- C78: `x.AppendToName(y)` returns, whatever the contents of `x` are. -/
theorem C78_append (hc : Compilable U fs pkg) {s0 : GSt} {k : Ledger} {l : Loose} (h : Lives U fs s0 s k l) {i : Nat} {m : Desc} (hi : k.type i = some m) (hfree : k.known.Free s i (s.h.ms i).buf) {rt : Rt} (d : Nat)
    {fd : Field} {j : Nat} (hfd : RepeatedField m fd) (hap : (Src.mem (s.h.ms j).buf).Apart s.h.w (s.h.ms i).buf) (hl : (s.h.ms i).buf.len + (s.h.ms j).buf.len + 20 < maxLen) :
    ∃ s', G.run (programOf U fs) rt d m.getName (t!"AppendTo" ++ goName U fd) [.ptr m.getName i, .struct (goType fd) j] s = .ok ([], s') ∧ Lives U fs s0 s' (k.spoil i m) l := by
  obtain ⟨⟨f, hf, hm⟩, o2, o3, o4⟩ := (lives_whole hc h).sound.shape.one i m hi
  have hv := hc.valid f hf m hm
  have hcall : Calls U m rt i s _ _ _ := .append hfd hap (by omega)
  obtain ⟨hval, hfo⟩ := C63_call hc.program hc.closed (decls_implements U m hv) (sub_of (U := U) hf hm) rt d o3 o4 o2 (calls_issues hv hcall)
  obtain ⟨m', hm'⟩ : ∃ m', Op.run (schemaOf m hv) (.append rt (num fd) (s.h.w.src (.mem (s.h.ms j).buf))) (s.h.w.msg (s.h.ms i)) = .ok m' := by
    refine append_returns rt ?_ ?_
    · have : num fd < slotsOf m := (schemaOf m hv).kind_lt _ (by rw [hval.1]; nofun)
      rw [← o4] at this
      exact this
    · have h1 : (s.h.w.slice (s.h.ms i).buf).data.length = (s.h.ms i).buf.len := World.slice_len o3.1
      have h2 : (s.h.w.src (.mem (s.h.ms j).buf)).length = (s.h.ms j).buf.len := src_length (apart_wfsrc hap)
      show (s.h.w.slice (s.h.ms i).buf).data.length + _ < _
      rw [h1, h2]
      omega
  rw [hm'] at hfo
  obtain ⟨s', f1, _⟩ := hfo
  exact ⟨s', f1, h.step (.write hi hfree hcall trivial f1)⟩

/-- C78: after a setter that panicked, `x.Reset(nil)` returns, and then the struct is empty: it may be used as a new one. -/
theorem C78_reset (hc : Compilable U fs pkg) {s0 : GSt} {k : Ledger} {l : Loose} (h : Lives U fs s0 s k l) {i : Nat} {m : Desc} (hi : k.type i = some m) (hfree : k.known.Free s i (s.h.ms i).buf) {rt : Rt} {d : Nat}
    {name : Text} {args : List GVal} {op : Zeropb.Op} (hcall : Calls U m rt i s name args op) (hop : Writes op) {s1 : GSt} (hr : Crashes (programOf U fs) rt d m.getName name args s s1) (rt' : Rt) (d' : Nat) :
    ∃ s', G.run (programOf U fs) rt' d' m.getName t!"Reset" [.ptr m.getName i, .val .nil] s1 = .ok ([], s') ∧ Lives U fs s0 s' (k.gets i ⟨m, none, .empty⟩) l ∧ Shows U (programOf U fs) m i s' .empty := by
  have a2 := setter_panics hc (lives_whole hc h).sound hi hcall hop hr.2
  obtain ⟨s', b1, _⟩ := (lives_whole hc h).sound.restart hc hi hfree a2 rt' d'
  have hg := h.step (.writeReset hi hfree hcall hop hr b1)
  exact ⟨s', b1, hg, (C78_programs hc hg).1 i ⟨m, none, .empty⟩ (by simp [Ledger.gets, Known.put])⟩

/-- The programs of C77 are among these. -/
theorem roams_lives {s0 : GSt} {k : Ledger} {l : Loose} (h : Roams U fs s0 s k l) : Lives U fs s0 s k l := by
  induction h with
  | start => exact .start
  | step _ hs ih => exact ih.step (.moves hs)

end

/-! ## The hypotheses are met -/

/-- A program that has received the first two bytes of a message: the tag of field 14, and the length 5. -/
def received3 : GSt := ⟨⟨⟨[[0x72#8, 0x05#8]], []⟩, fun _ => .zero 0⟩, 0, fun _ => none⟩

theorem decode_cut (rep : Nat → Bool) (n : Nat) (hn : n = slotsOf testDesc) : Zeropb.decode ⟨[0x72#8, 0x05#8], []⟩ (Offsets.zero n) rep = .ok (⟨(List.replicate n offsetUnset).set 14 1#16, none⟩, some .unexpectedEOF) := by
  have hn : n = 35 := by rw [hn]; decide +kernel
  subst hn
  have hu : uvarint [0x72#8, 0x05#8] = (114#64, 1) := by decide +kernel
  have hd : Slice.dropFrom ⟨[0x72#8, 0x05#8], []⟩ 0 = .ok ⟨[0x72#8, 0x05#8], []⟩ := by decide +kernel
  have hx : tagField 114#64 = 14 := by decide +kernel
  have step : decodeStep ⟨[0x72#8, 0x05#8], []⟩ rep (0, (Offsets.zero 35).clear) = decodeStep ⟨[0x72#8, 0x05#8], []⟩ (fun _ => rep 14) (0, (Offsets.zero 35).clear) := by
    simp only [decodeStep, hd, bind, Except.bind, hu, hx, recordOffset]
  have first : ∀ b : Bool, decodeStep ⟨[0x72#8, 0x05#8], []⟩ (fun _ => b) (0, (Offsets.zero 35).clear) = .ok (.inl (7, ⟨(List.replicate 35 offsetUnset).set 14 1#16, none⟩)) := by
    intro b; cases b <;> decide +kernel
  have last : ∀ o : Offsets, decodeStep ⟨[0x72#8, 0x05#8], []⟩ rep (7, o) = .ok (.inr (o, some .unexpectedEOF)) := by
    intro o
    simp [decodeStep, pure, Except.pure]
  unfold Zeropb.decode
  rw [iterate_eq, step, first]
  exact (iterate_eq _ _).trans (by rw [last])

/-- C78, on golden/test.proto: `var x, y TestMessage; x.SetInt32(7); y.Decode([]byte{0x72, 0x05})` returns `io.ErrUnexpectedEOF`. Then `y.SetInt32(8)` would return, but `y.SetString("hi")` panics; the program
recovers, and `y.Reset(nil)` returns: now `y` is empty, and `x.Int32()` is 7 still. -/
theorem C78_example (rt : Rt) : ∃ s s1 s2 s3 fi ft k, Lives asciiUnicode [testFile] received3 s k (fun _ => none) ∧ k.known.structs 0 = some ⟨testDesc, none, Op.apply (.set rt (num fi) .int32 7#32) .empty⟩ ∧
    ScalarField testDesc fi .int32 ∧ ScalarField testDesc ft .string ∧
    G.run (programOf asciiUnicode [testFile]) rt 0 testDesc.getName t!"Decode" [.ptr testDesc.getName 1, .val (.bytes (.mem ⟨0, 0, 2, 2⟩))] s = .ok ([.val .eof], s1) ∧
    Lives asciiUnicode [testFile] received3 s1 (k.spoil 1 testDesc) (fun _ => none) ∧
    (∃ s1', G.run (programOf asciiUnicode [testFile]) rt 0 testDesc.getName (t!"Set" ++ goName asciiUnicode fi) [.ptr testDesc.getName 1, .val (.i32 8#32)] s1 = .ok ([], s1') ∧
      Lives asciiUnicode [testFile] received3 s1' ((k.spoil 1 testDesc).spoil 1 testDesc) (fun _ => none)) ∧
    Crashes (programOf asciiUnicode [testFile]) rt 0 testDesc.getName (t!"Set" ++ goName asciiUnicode ft) [.ptr testDesc.getName 1, .val (.str (.lit [0x68#8, 0x69#8]))] s1 s2 ∧
    G.run (programOf asciiUnicode [testFile]) rt 0 testDesc.getName t!"Reset" [.ptr testDesc.getName 1, .val .nil] s2 = .ok ([], s3) ∧
    Shows asciiUnicode (programOf asciiUnicode [testFile]) testDesc 1 s3 .empty ∧
    (∃ v, G.run (programOf asciiUnicode [testFile]) rt 0 testDesc.getName (goName asciiUnicode fi) [.ptr testDesc.getName 0] s3 = .ok ([.val v], s3) ∧ IsVal s3.h.w .int32 7#32 v) := by
  have hc := testFile_compilable
  obtain ⟨hf, hm⟩ := testFile_has
  obtain ⟨fi, i1, i2, i3, i4⟩ := testField (P := fun fd => (getLabel (some fd) = 1 ∨ getLabel (some fd) = 2) ∧ protoKind (getType (some fd)) = some .int32 ∧ num fd = 2) (by decide +kernel)
  obtain ⟨ft, b1, b2, b3, b4⟩ := testField (P := fun fd => (getLabel (some fd) = 1 ∨ getLabel (some fd) = 2) ∧ protoKind (getType (some fd)) = some .string ∧ num fd = 14) (by decide +kernel)
  have hfi : ScalarField testDesc fi .int32 := ⟨i1, i2, i3⟩
  have hft : ScalarField testDesc ft .string := ⟨b1, b2, b3⟩
  have r0 := Comes.start (U := asciiUnicode) (fs := [testFile]) (s0 := received3)
  obtain ⟨s, k, r1, hms, hgs, hn, hw⟩ : ∃ s k, Comes asciiUnicode [testFile] received3 s k ∧ (∀ i, i < 2 → s.h.ms i = .zero (slotsOf testDesc)) ∧
      (∀ i, i < 2 → k.known.structs i = some ⟨testDesc, none, .empty⟩) ∧ s.next = 2 ∧ s.h.w = received3.h.w := by
    refine ⟨_, _, (r0.step (.does (.new hf hm))).step (.does (.new hf hm)), fun i hi => ?_, fun i hi => ?_, rfl, rfl⟩
    · rcases i with _ | _ | i <;> first | rfl | omega
    · rcases i with _ | _ | i <;> first | rfl | omega
  have c : Calls asciiUnicode testDesc rt 0 s (t!"Set" ++ goName asciiUnicode fi) [.ptr testDesc.getName 0, .val (.i32 7#32)] (.set rt (num fi) .int32 7#32) :=
    .set hfi rfl (by intro _ h; rcases h with h | h <;> cases h) (by decide)
  have hk0 := hgs 0 (by decide)
  obtain ⟨s1, q1, q2, q3⟩ := ((C76_programs hc r1).1 0 _ hk0).calls rt 0 _ _ _ c (by rw [hms 0 (by decide)]; show 0 + (20 + Kind.size .int32 7#32) < maxLen; decide)
  have r2 := r1.step (.does (.set hk0 c trivial q1))
  obtain ⟨_, _, _, _, _, hoth, _, heff, _⟩ := call_tracks hc (comes_sound hc r1).known (e := ⟨testDesc, none, .empty⟩) hk0 c q1
  have hfr : Frame s.h.w s1.h.w (s.h.ms 0) (s1.h.ms 0) := heff
  have hnil : ∀ a q, ¬ (s.h.ms 0).buf.owns a q := fun a q ho => by
    rw [hms 0 (by decide)] at ho
    exact owns_nil ho
  have w0 : received3.h.w.WFs ⟨0, 0, 2, 2⟩ := ⟨by decide, by decide⟩
  have wf : s1.h.w.WFs ⟨0, 0, 2, 2⟩ := wf_sized ⟨hfr.bytes.grow, hfr.bytes.size, hfr.mgrow⟩ (by rw [hw]; exact w0)
  have sl : s1.h.w.slice ⟨0, 0, 2, 2⟩ = ⟨[0x72#8, 0x05#8], []⟩ := by
    have w0' := w0
    rw [← hw] at w0'
    rw [hfr.bytes.slice_eq w0' fun a q ho => absurd ho (hnil a q), hw]
    rfl
  have ht1 : (k.gets 0 ⟨testDesc, none, Op.apply (.set rt (num fi) .int32 7#32) .empty⟩).type 1 = some testDesc := by
    rw [type_gets, if_neg (by decide)]; exact type_known (hgs 1 (by decide))
  have hk2 : (k.gets 0 ⟨testDesc, none, Op.apply (.set rt (num fi) .int32 7#32) .empty⟩).known.structs 0 = some ⟨testDesc, none, Op.apply (.set rt (num fi) .int32 7#32) .empty⟩ := by
    simp [Ledger.gets, Known.put]
  obtain ⟨rep, he⟩ := decode_eq hc ⟨_, hf, hm⟩
  have hs1 : s1.h.ms 1 = .zero (slotsOf testDesc) := by rw [hoth 1 (by decide) (by omega), hms 1 (by decide)]
  have hwf1 := ((comes_sound hc r2).shape.one 1 testDesc ht1).2.2.1
  have d1 := he s1 rt 0 1 ⟨0, 0, 2, 2⟩ wf hwf1
  have hdec : (s1.h.ms 1).decode rep s1.h.w ⟨0, 0, 2, 2⟩ = .ok (⟨⟨0, 0, 2, 2⟩, (List.replicate (slotsOf testDesc) offsetUnset).set 14 1#16, none⟩, s1.h.w, some .unexpectedEOF) := by
    have : s1.h.w.offs (s1.h.ms 1) = Offsets.zero (slotsOf testDesc) := by rw [hs1]; rfl
    unfold HMsg.decode
    rw [sl, this, decode_cut rep _ rfl, hs1]
    rfl
  rw [hdec] at d1
  have d1 : _ = Except.ok ([GVal.val .eof], _) := d1
  have r3 := roams_lives (comes_roams (r2.step (.does (.tryDecode ht1 wf d1))))
  generalize hs2 : ({ s1 with h := s1.h.upd 1 (⟨⟨0, 0, 2, 2⟩, (List.replicate (slotsOf testDesc) offsetUnset).set 14 1#16, none⟩, s1.h.w) } : GSt) = s2 at d1 r3
  have hms2 : s2.h.ms 1 = ⟨⟨0, 0, 2, 2⟩, (List.replicate (slotsOf testDesc) offsetUnset).set 14 1#16, none⟩ := by rw [← hs2]; simp [Heap.upd]
  have hw2 : s2.h.w = s1.h.w := by rw [← hs2]; rfl
  have ho2 : s2.h.ms 0 = s1.h.ms 0 := by rw [← hs2]; simp [Heap.upd]
  have hmsg : s2.h.w.msg (s2.h.ms 1) = ⟨⟨[0x72#8, 0x05#8], []⟩, ⟨(List.replicate 35 offsetUnset).set 14 1#16, none⟩⟩ := by
    have : slotsOf testDesc = 35 := by decide +kernel
    rw [hms2, hw2, this]
    unfold World.msg
    rw [sl]
    rfl
  have hy : ((k.gets 0 ⟨testDesc, none, Op.apply (.set rt (num fi) .int32 7#32) .empty⟩).spoil 1 testDesc).type 1 = some testDesc := by rw [type_spoil, if_pos rfl]
  have hfree : ((k.gets 0 ⟨testDesc, none, Op.apply (.set rt (num fi) .int32 7#32) .empty⟩).spoil 1 testDesc).known.Free s2 1 (s2.h.ms 1).buf := fun i e hi hv hne a q ho ho' => by
    have hi0 : i = 0 := by
      simp only [Ledger.spoil, Known.forget, if_neg hne] at hi
      have hi := (drop_structs.1 hi).1
      simp only [Ledger.gets, Known.put] at hi
      by_cases h0 : i = 0
      · exact h0
      · rw [if_neg h0] at hi
        have := ((comes_sound hc r1).known.struct i e (drop_structs.1 hi).1).2.1
        omega
    subst hi0
    rw [ho2] at ho'
    rcases hfr.bytes.owned a q ho' with h | h
    · exact hnil a q h
    · rw [hms2] at ho
      have ha : 0 = a := ho.1
      rw [hw, ← ha] at h
      exact absurd h (by decide)
  have hv := hc.valid _ hf _ hm
  obtain ⟨_, o2, o3, o4⟩ := (lives_whole hc r3).sound.shape.one 1 testDesc hy
  have ci : Calls asciiUnicode testDesc rt 1 s2 (t!"Set" ++ goName asciiUnicode fi) [.ptr testDesc.getName 1, .val (.i32 8#32)] (.set rt (num fi) .int32 8#32) :=
    .set hfi rfl (by intro _ h; rcases h with h | h <;> cases h) (by decide)
  have ct : Calls asciiUnicode testDesc rt 1 s2 (t!"Set" ++ goName asciiUnicode ft) [.ptr testDesc.getName 1, .val (.str (.lit [0x68#8, 0x69#8]))] (.set rt (num ft) .string [0x68#8, 0x69#8]) :=
    .set hft ⟨_, rfl, rfl⟩ (by intro _ h; rcases h with h | h <;> cases h; trivial) (by decide)
  have fi2 := (C63_call hc.program hc.closed (decls_implements asciiUnicode testDesc hv) (sub_of hf hm) rt 0 o3 o4 o2 (calls_issues hv ci)).2
  have ft2 := (C63_call hc.program hc.closed (decls_implements asciiUnicode testDesc hv) (sub_of hf hm) rt 0 o3 o4 o2 (calls_issues hv ct)).2
  rw [hmsg, i4] at fi2
  rw [hmsg, b4] at ft2
  obtain ⟨mi, hmi⟩ : ∃ m', Op.run (schemaOf testDesc hv) (.set rt 2 .int32 8#32) ⟨⟨[0x72#8, 0x05#8], []⟩, ⟨(List.replicate 35 offsetUnset).set 14 1#16, none⟩⟩ = .ok m' := by
    obtain ⟨B1, e1, l1⟩ := append_some rt (s := ⟨[0x72#8, 0x05#8], []⟩) (xs := [0x10#8]) (by decide)
    obtain ⟨B2, e2, l2⟩ := append_some rt (s := B1) (xs := []) (by rw [l1]; decide)
    obtain ⟨B3, e3, l3⟩ := append_some rt (s := B2) (xs := [0x08#8]) (by rw [l2, l1]; decide)
    have hl : B1.data.length = 3 := l1
    have p1 : putUvarint maxVarintLen64 ((8#32 : U32).signExtend 64) = .ok [0x08#8] := by decide +kernel
    have p2 : putUvarint maxVarintLen64 (tagOf 2 wireVarint) = .ok [0x10#8] := by decide +kernel
    have p3 : (⟨(List.replicate 35 offsetUnset).set 14 1#16, none⟩ : Offsets).get 2 = .ok (0#64, false) := by decide +kernel
    have p4 : ∃ o', (⟨(List.replicate 35 offsetUnset).set 14 1#16, none⟩ : Offsets).set 2 (BitVec.ofNat 64 3) = .ok o' := ⟨_, rfl⟩
    obtain ⟨o', p4⟩ := p4
    simp only [Op.run, Msg.set, Msg.setField, setInt32, setSingle, appendField, p1, p2, p3, e1, e2, e3, hl, p4, bind, Except.bind, Bool.false_eq_true, if_false]
    exact ⟨_, rfl⟩
  have hmt : Op.run (schemaOf testDesc hv) (.set rt 14 .string [0x68#8, 0x69#8]) ⟨⟨[0x72#8, 0x05#8], []⟩, ⟨(List.replicate 35 offsetUnset).set 14 1#16, none⟩⟩ = .error .sliceBounds := rfl
  rw [hmi] at fi2
  rw [hmt] at ft2
  obtain ⟨s1', g1, _⟩ := fi2
  obtain ⟨s3, hp⟩ := crashes_of (by decide) ft2
  obtain ⟨s4, e1, e2, e3⟩ := C78_reset hc r3 hy hfree ct trivial hp rt 0
  refine ⟨s1, s2, s3, s4, fi, ft, _, roams_lives (comes_roams r2), hk2, hfi, hft, d1, r3, ⟨s1', g1, r3.step (.write hy hfree ci trivial g1)⟩, hp, e1, e3, ?_⟩
  obtain ⟨x, v, g1, g2, g3⟩ := ((C78_programs hc e2).1 0 ⟨testDesc, none, Op.apply (.set rt (num fi) .int32 7#32) .empty⟩ (by
    show (if 0 = 1 then some ⟨testDesc, none, .empty⟩ else ((((k.gets 0 ⟨testDesc, none, Op.apply (.set rt (num fi) .int32 7#32) .empty⟩).spoil 1 testDesc).known).drop 1).structs 0) = _
    rw [if_neg (by decide)]
    refine drop_structs.2 ⟨?_, nofun⟩
    show (if 0 = 1 then none else ((k.gets 0 ⟨testDesc, none, Op.apply (.set rt (num fi) .int32 7#32) .empty⟩).known.drop 1).structs 0) = _
    rw [if_neg (by decide)]
    exact drop_structs.2 ⟨hk2, nofun⟩)).scalar fi .int32 hfi rt 0
  refine ⟨v, g1, ?_⟩
  have : readVal .int32 ((Op.apply (.set rt (num fi) .int32 7#32) .empty).sing (num fi)) = some 7#32 := by
    simp only [Op.apply, Contents.set, if_true]
    decide
  rw [this] at g3
  cases g3
  exact g2

end Zeropb.GoSrc.E
