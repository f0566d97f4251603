import Verif.Conc.GenWrites
/-!
# How many accesses the setters make
-/

set_option linter.constructorNameAsVariable false

namespace Zeropb.GoSrc.Conc
open Zeropb.GoSrc.G Wire

variable {α β : Type}

/-- Accesses that are not to a byte of a buffer: to offsets and to slice headers, and allocations. -/
def Event.other (e : Event) : Bool := e.byteRead.isNone && e.byteWritten.isNone

/-- How many there are. -/
def others (es : List Event) : Nat := es.countP Event.other

theorem others_append (xs ys : List Event) : others (xs ++ ys) = others xs + others ys := List.countP_append

theorem others_le (es : List Event) : others es ≤ es.length := List.countP_le_length

theorem length_split (es : List Event) : es.length = (bytesRead es).length + (bytesWritten es).length + others es := by
  induction es with
  | nil => rfl
  | cons e es ih =>
    have h : bytesRead (e :: es) = e.byteRead.toList ++ bytesRead es := by
      unfold bytesRead; rw [List.filterMap_cons]; cases e.byteRead <;> rfl
    have h' : bytesWritten (e :: es) = e.byteWritten.toList ++ bytesWritten es := by
      unfold bytesWritten; rw [List.filterMap_cons]; cases e.byteWritten <;> rfl
    have h2 : others (e :: es) = others es + (if e.other then 1 else 0) := by unfold others; rw [List.countP_cons]
    rw [List.length_cons, ih, h, h', h2, List.length_append, List.length_append]
    cases e with
    | allocates => simp [Event.other, Event.byteRead, Event.byteWritten]; omega
    | reads l => cases l <;> simp [Event.other, Event.byteRead, Event.byteWritten] <;> omega
    | writes l => cases l <;> simp [Event.other, Event.byteRead, Event.byteWritten] <;> omega

/-- Whatever it reads, the program makes at most `n` accesses to something else than bytes. -/
inductive Upto : Nat → Prog α → Prop
  | done {n a} : Upto n (.done a)
  | stop {n e} : Upto n (.stop e)
  | size {n i k} : (∀ x, Upto n (k x)) → Upto n (.load (.slots i) k)
  | byte {n a q k} : (∀ x, Upto n (k x)) → Upto n (.load (.cell a q) k)
  | load {n l k} : (∀ x, Upto n (k x)) → Upto (n + 1) (.load l k)
  | put {n a q b k} : Upto n k → Upto n (.store (.cell a q b) k)
  | store {n w k} : Upto n k → Upto (n + 1) (.store w k)
  | newArr {n bs k} : (∀ x, Upto n (k x)) → Upto (n + 1) (.newArr bs k)
  | newMap {n k} : (∀ x, Upto n (k x)) → Upto (n + 1) (.newMap k)

theorem Upto.mono {n m : Nat} {p : Prog α} (h : Upto n p) (hm : n ≤ m) : Upto m p := by
  induction h generalizing m with
  | done => exact .done
  | stop => exact .stop
  | size _ ih => exact .size fun x => ih x hm
  | byte _ ih => exact .byte fun x => ih x hm
  | put _ ih => exact .put (ih hm)
  | load _ ih => obtain ⟨m, rfl⟩ := Nat.exists_eq_add_of_lt (Nat.lt_of_succ_le hm); exact .load fun x => ih x (by omega)
  | store _ ih => obtain ⟨m, rfl⟩ := Nat.exists_eq_add_of_lt (Nat.lt_of_succ_le hm); exact .store (ih (by omega))
  | newArr _ ih => obtain ⟨m, rfl⟩ := Nat.exists_eq_add_of_lt (Nat.lt_of_succ_le hm); exact .newArr fun x => ih x (by omega)
  | newMap _ ih => obtain ⟨m, rfl⟩ := Nat.exists_eq_add_of_lt (Nat.lt_of_succ_le hm); exact .newMap fun x => ih x (by omega)

theorem Upto.bind {n m : Nat} {p : Prog α} {f : α → Prog β} (h : Upto n p) (hf : ∀ a, Upto m (f a)) : Upto (n + m) (p >>= f) := by
  show Upto _ (p.bind f)
  induction h with
  | done => exact (hf _).mono (by omega)
  | stop => exact .stop
  | size _ ih => exact .size ih
  | byte _ ih => exact .byte ih
  | put _ ih => exact .put ih
  | load _ ih => rw [Nat.add_right_comm]; exact .load ih
  | store _ ih => rw [Nat.add_right_comm]; exact .store ih
  | newArr _ ih => rw [Nat.add_right_comm]; exact .newArr ih
  | newMap _ ih => rw [Nat.add_right_comm]; exact .newMap ih

theorem Upto.lift (x : M α) (n : Nat) : Upto n (lift x) := by
  cases x with
  | ok a => exact .done
  | error e => exact .stop

theorem others_ofLoad (l : Loc) : others (Event.ofLoad l) ≤ 1 := by
  refine Nat.le_trans (others_le _) ?_
  unfold Event.ofLoad
  split <;> simp

theorem Upto.others {n : Nat} {p : Prog α} (h : Upto n p) (s : GSt) : others (p.trace s) ≤ n := by
  induction h generalizing s with
  | done => exact Nat.zero_le _
  | stop => exact Nat.zero_le _
  | size _ ih => exact ih _ _
  | @byte n a q k _ ih =>
    have e : Conc.others ((Prog.load (.cell a q) k).trace s) = Conc.others ((k (read (.cell a q) s)).trace s) := by
      show Conc.others ([_] ++ _) = _
      rw [others_append]; exact Nat.zero_add _
    rw [e]; exact ih _ _
  | @put n a q b k _ ih =>
    have e : Conc.others ((Prog.store (.cell a q b) k).trace s) = Conc.others (k.trace ((Write.cell a q b).apply s)) := by
      show Conc.others ([_] ++ _) = _
      rw [others_append]; exact Nat.zero_add _
    rw [e]; exact ih _
  | @load n l k _ ih =>
    have e : (Prog.load l k).trace s = Event.ofLoad l ++ (k (read l s)).trace s := rfl
    rw [e, others_append]
    have := ih (read l s) s
    have := others_ofLoad l
    omega
  | @store n w k _ ih =>
    show Conc.others ([_] ++ _) ≤ _
    rw [others_append]
    have := ih (w.apply s)
    have := others_le [Event.writes w.loc]
    simp only [List.length_singleton] at this
    omega
  | @newArr n bs k _ ih =>
    show Conc.others ([_] ++ _) ≤ _
    rw [others_append]
    have := ih s.h.w.arrs.length (Conc.newArr bs s)
    have := others_le [Event.allocates]
    simp only [List.length_singleton] at this
    omega
  | @newMap n k _ ih =>
    show Conc.others ([_] ++ _) ≤ _
    rw [others_append]
    have := ih s.h.w.maps.length (Conc.newMap s)
    have := others_le [Event.allocates]
    simp only [List.length_singleton] at this
    omega

theorem Table.upto {n : Nat} {p : Prog α} (h : Table n p) : Upto n p := by
  induction h with
  | done => exact .done
  | stop => exact .stop
  | size _ ih => exact .size ih
  | load _ _ ih => exact .load ih
  | store _ _ ih => exact .store ih
  | newMap _ ih => exact .newMap ih

theorem upto_readFrom (a q n : Nat) : Upto 0 (readFrom a q n) := by
  induction n generalizing q with
  | zero => exact .done
  | succ n ih => exact .byte fun x => Upto.bind (n := 0) (m := 0) (ih _) fun _ => .done

theorem upto_readSlice (b : HSlice) : Upto 0 (readSlice b) := upto_readFrom ..

theorem upto_readSrc (x : Src) : Upto 0 (readSrc x) := by
  cases x with
  | lit bs => exact .done
  | mem t => exact upto_readSlice t

theorem upto_readRun (a q n : Nat) : Upto 0 (readRun a q n) := by
  induction n generalizing q with
  | zero => exact .done
  | succ n ih =>
    refine .byte fun x => ?_
    show Upto 0 (afterByte _ x)
    unfold afterByte
    split
    · split
      · exact .done
      · exact Upto.bind (n := 0) (m := 0) (ih _) fun _ => .done
    · exact .done

theorem upto_readVarint (x : Src) : Upto 0 (readVarint x) := by
  cases x with
  | lit bs => exact .done
  | mem t => exact upto_readRun ..

theorem upto_writeTo (a q : Nat) (bs : List Byte) : Upto 0 (writeTo a q bs) := by
  induction bs generalizing q with
  | nil => exact .done
  | cons b bs ih => exact .put (ih _)

theorem upto_append (rt : Rt) (b : HSlice) (bs : List Byte) : Upto 1 (append rt b bs) := by
  unfold append
  split
  · split
    · exact Upto.bind (n := 0) (m := 1) (upto_writeTo ..) fun _ => .done
    · exact Upto.bind (n := 0) (m := 1) (upto_readSlice _) fun _ => .newArr fun _ => .done
  · exact .stop

theorem upto_appendP (rt : Rt) (i : Nat) (x : Src) : Upto 3 (appendP rt i x) :=
  .load fun (b : HSlice) => Upto.bind (n := 0) (m := 2) (upto_readSrc x) fun bs => Upto.bind (n := 1) (m := 1) (upto_append rt b bs) fun _ => .store .done

theorem upto_find (i f : Nat) : Upto 3 (find i f) := (table_find i f).upto
theorem upto_setP (i f : Nat) (x : U64) : Upto 7 (setP i f x) := (table_setP i f x).upto

theorem upto_tailP (rt : Rt) (i f : Nat) (tag : List Byte) (x y : Src) : Upto 17 (tailP rt i f tag x y) := by
  refine Upto.bind (n := 3) (m := 14) (upto_appendP ..) fun _ => .load (n := 13) fun (b : HSlice) => ?_
  exact Upto.bind (n := 7) (m := 6) (upto_setP ..) fun _ => Upto.bind (n := 3) (m := 3) (upto_appendP ..) fun _ => Upto.bind (n := 3) (m := 0) (upto_appendP ..) fun _ => .done

theorem upto_appendSingleP (rt : Rt) (i f : Nat) (tag : List Byte) (x y : Src) : Upto 20 (appendSingleP rt i f tag x y) := by
  refine Upto.bind (n := 3) (m := 17) (upto_appendP ..) fun _ => .load (n := 16) fun (b : HSlice) => ?_
  refine Upto.bind (n := 3) (m := 13) (upto_find ..) fun o => Upto.bind (n := 7) (m := 6) ?_ fun _ => ?_
  · split
    · exact .done
    · exact upto_setP ..
  · exact Upto.bind (n := 3) (m := 3) (upto_appendP ..) fun _ => Upto.bind (n := 3) (m := 0) (upto_appendP ..) fun _ => .done

theorem upto_oldLenP (i typ : Nat) (off : U64) : Upto 1 (oldLenP i typ off) := by
  unfold oldLenP
  repeat' split
  · exact .load fun (b : HSlice) => Upto.bind (n := 0) (m := 0) (.lift _ _) fun _ => Upto.bind (n := 0) (m := 0) (upto_readVarint _) fun _ => .done
  · exact .done
  · exact .done
  · exact .load fun (b : HSlice) => Upto.bind (n := 0) (m := 0) (.lift _ _) fun _ => Upto.bind (n := 0) (m := 0) (upto_readVarint _) fun _ => .done
  · exact .stop

theorem upto_copyP (i : Nat) (off : U64) (x : Src) : Upto 1 (copyP i off x) :=
  .load fun (b : HSlice) => Upto.bind (n := 0) (m := 0) (.lift _ _) fun _ => Upto.bind (n := 0) (m := 0) (upto_readSrc x) fun _ => Upto.bind (n := 0) (m := 0) (upto_writeTo ..) fun _ => .done

/-! ## The loops over the offsets -/

theorem upto_adjust1 (i : Nat) (fe rb : U64) (k : Nat) : Upto 2 (adjust1 i fe rb k) := by
  refine .load (n := 1) fun (x : Option U16) => ?_
  cases x with
  | none => exact .stop
  | some x =>
    show Upto 1 (ite _ _ _)
    split
    · refine .size fun (n : Nat) => ?_
      show Upto 1 (ite _ _ _)
      split
      · exact .store .done
      · exact .stop
    · exact .done

theorem upto_adjust2 (i id : Nat) (fe rb : U64) (k : Nat) : Upto 8 (adjust2 i id fe rb k) := by
  refine .load (n := 7) fun (m : GoMap) => ?_
  cases e : GoMap.find m k with
  | none => exact .done
  | some x =>
    show Upto 7 (ite _ _ _)
    split
    · exact Upto.bind (n := 7) (m := 0) (upto_setP ..) fun _ => .done
    · exact .done

theorem upto_forP {c : Nat} {f : Nat → Prog Unit} (h : ∀ k, Upto c (f k)) (ks : List Nat) : Upto (c * ks.length) (forP f ks) := by
  induction ks with
  | nil => exact .done
  | cons k ks ih =>
    rw [List.length_cons, Nat.mul_succ, Nat.add_comm]
    exact Upto.bind (h k) fun _ => ih

/-- The first loop leaves the map as it is. -/
theorem adjust1_keeps (i : Nat) (fe rb : U64) (ks : List Nat) : ∀ {s s' : GSt} {u : Unit}, (forP (adjust1 i fe rb) ks).run s = .ok (u, s') →
    (s'.h.ms i).m = (s.h.ms i).m ∧ s'.h.w.maps = s.h.w.maps := by
  induction ks with
  | nil => intro s s' u h; cases h; exact ⟨rfl, rfl⟩
  | cons k ks ih =>
    intro s s' u h
    obtain ⟨_, t, h1, h2, _⟩ := run_bind_ok (p := adjust1 i fe rb k) (f := fun _ => forP (adjust1 i fe rb) ks) h
    obtain ⟨e1, e2⟩ := ih h2
    rw [e1, e2]
    unfold adjust1 at h1
    simp only [Prog.run] at h1
    split at h1
    · cases h1
    · split at h1
      · simp only [Prog.run] at h1
        split at h1
        · simp only [Prog.run, Except.ok.injEq, Prod.mk.injEq] at h1
          obtain ⟨_, h1⟩ := h1
          subst h1
          simp [Write.apply, Heap.put]
        · cases h1
      · cases h1; exact ⟨rfl, rfl⟩

theorem adjust_others {rt : Rt} {i : Nat} {fe rb : U64} {s s' : GSt} {u : Unit} (h : (adjustP rt i fe rb).run s = .ok (u, s')) :
    others ((adjustP rt i fe rb).trace s) ≤ 2 * (s.h.ms i).a.length + 8 * spilled s i + 2 := by
  have h : (forP (adjust1 i fe rb) (List.range (s.h.ms i).a.length) >>= fun _ => Prog.load (.ref i) fun (r : Option Nat) => match r with
    | none => .done ()
    | some id => .load (.map id) fun (m : GoMap) => forP (adjust2 i id fe rb) (rt.perm m.keys)).run s = .ok (u, s') := h
  have ht : (adjustP rt i fe rb).trace s = (forP (adjust1 i fe rb) (List.range (s.h.ms i).a.length) >>= fun _ => Prog.load (.ref i) fun (r : Option Nat) => match r with
    | none => .done ()
    | some id => .load (.map id) fun (m : GoMap) => forP (adjust2 i id fe rb) (rt.perm m.keys)).trace s := rfl
  rw [ht]
  obtain ⟨_, t, h1, h2, h3⟩ := run_bind_ok h
  obtain ⟨e1, e2⟩ := adjust1_keeps i fe rb _ h1
  have b1 := (upto_forP (upto_adjust1 i fe rb) (List.range (s.h.ms i).a.length)).others s
  rw [List.length_range] at b1
  rw [h3, others_append]
  have er : (read (.ref i) t : Option Nat) = (s.h.ms i).m := e1
  suffices hs : others ((Prog.load (.ref i) fun (r : Option Nat) => match r with
    | none => .done ()
    | some id => .load (.map id) fun (m : GoMap) => forP (adjust2 i id fe rb) (rt.perm m.keys)).trace t) ≤ 8 * spilled s i + 2 by omega
  have : others (Event.ofLoad (.ref i)) ≤ 1 := others_ofLoad _
  simp only [Prog.trace]
  rw [others_append, er]
  unfold spilled
  cases hm : (s.h.ms i).m with
  | none => simp only [Prog.trace]; have : others [] = 0 := rfl; omega
  | some id =>
    have em : (read (.map id) t : GoMap) = s.h.w.maps.getD id [] := by show t.h.w.maps.getD id [] = _; rw [e2]
    simp only [Prog.trace]
    rw [others_append, em]
    have b2 := (upto_forP (upto_adjust2 i id fe rb) (rt.perm (GoMap.keys (s.h.w.maps.getD id [])))).others t
    rw [(rt.perm_ok _).length_eq, show (GoMap.keys (s.h.w.maps.getD id [])).length = (s.h.w.maps.getD id []).length by simp [GoMap.keys]] at b2
    have : others (Event.ofLoad (.map id)) ≤ 1 := others_ofLoad _
    omega

theorem load_run {l : Loc} {k : l.ty → Prog α} {s : GSt} : (Prog.load l k).run s = (k (read l s)).run s := rfl

theorem lift_run {x : M α} {f : α → Prog β} {s s' : GSt} {b : β} (h : (lift x >>= f).run s = .ok (b, s')) : ∃ a, (lift x >>= f) = f a ∧ (f a).run s = .ok (b, s') := by
  cases x with
  | ok a => exact ⟨a, rfl, h⟩
  | error e => cases h

/-- What `removeP` does before it adjusts the offsets leaves them as they are. -/
theorem remove_others {rt : Rt} {i : Nat} {fb fe : U64} {s s' : GSt} {u : Unit} (h : (removeP rt i fb fe).run s = .ok (u, s')) :
    others ((removeP rt i fb fe).trace s) ≤ 2 * (s.h.ms i).a.length + 8 * spilled s i + 7 := by
  unfold removeP at h ⊢
  have hb : ∀ {γ : Type} (k : HSlice → Prog γ) (t : GSt), others ((Prog.load (.buf i) k).trace t) = others ((k (t.h.ms i).buf).trace t) + 1 := fun k t => by
    show others ([_] ++ _) = _
    rw [others_append, Nat.add_comm]; rfl
  rw [hb]
  have h : (lift (GoSrc.lift ((s.h.ms i).buf.dropFrom fb.toNat)) >>= fun t =>
    Prog.load (.buf i) fun (b : HSlice) => lift (GoSrc.lift (b.dropFrom fe.toNat)) >>= fun u =>
      readSlice u >>= fun bs => writeTo t.arr t.off (bs.take t.len) >>= fun _ =>
    .load (.buf i) fun (b : HSlice) => .load (.buf i) fun (c : HSlice) =>
      lift (GoSrc.lift (b.range 0 (BitVec.ofNat 64 c.len - (fe - fb)).toNat)) >>= fun r => .store (.buf i r) (adjustP rt i fe (fe - fb))).run s = .ok (u, s') := h
  obtain ⟨t, e1, h⟩ := lift_run h
  rw [e1, hb]
  have h : (lift (GoSrc.lift ((s.h.ms i).buf.dropFrom fe.toNat)) >>= fun u =>
      readSlice u >>= fun bs => writeTo t.arr t.off (bs.take t.len) >>= fun _ =>
    Prog.load (.buf i) fun (b : HSlice) => .load (.buf i) fun (c : HSlice) =>
      lift (GoSrc.lift (b.range 0 (BitVec.ofNat 64 c.len - (fe - fb)).toNat)) >>= fun r => .store (.buf i r) (adjustP rt i fe (fe - fb))).run s = .ok (u, s') := h
  obtain ⟨v, e2, h⟩ := lift_run h
  rw [e2]
  obtain ⟨bs, s1, h1, h, e3⟩ := run_bind_ok h
  obtain ⟨_, s2, h2, h, e4⟩ := run_bind_ok h
  rw [e3, e4, others_append, others_append]
  have u1 := (upto_readSlice v).others s
  have u2 := (upto_writeTo t.arr t.off (bs.take t.len)).others s1
  have k1 := (ends_readSlice v s).symm.trans h1
  injection k1 with k1
  injection k1 with _ k1
  have k2 := (does_writeTo t.arr t.off (bs.take t.len) s1).1.symm.trans h2
  injection k2 with k2
  injection k2 with _ k2
  rw [hb, hb]
  have h : (lift (GoSrc.lift ((s2.h.ms i).buf.range 0 (BitVec.ofNat 64 (s2.h.ms i).buf.len - (fe - fb)).toNat)) >>= fun r => Prog.store (.buf i r) (adjustP rt i fe (fe - fb))).run s2 = .ok (u, s') := h
  obtain ⟨r, e5, h⟩ := lift_run h
  rw [e5]
  have ha := adjust_others (s := (Write.buf i r).apply s2) h
  have hs : others ((Prog.store (.buf i r) (adjustP rt i fe (fe - fb))).trace s2) = others ((adjustP rt i fe (fe - fb)).trace ((Write.buf i r).apply s2)) + 1 := by
    show others ([_] ++ _) = _
    rw [others_append, Nat.add_comm]; rfl
  rw [hs]
  subst k1
  have f1 : (((Write.buf i r).apply s2).h.ms i).a = (s.h.ms i).a := by rw [← k2]; simp [Write.apply, Heap.put, withH]
  have f2 : spilled ((Write.buf i r).apply s2) i = spilled s i := by
    unfold spilled
    have : (((Write.buf i r).apply s2).h.ms i).m = (s.h.ms i).m := by rw [← k2]; simp [Write.apply, Heap.put, withH]
    rw [this]
    have : ((Write.buf i r).apply s2).h.w.maps = s.h.w.maps := by rw [← k2]; rfl
    rw [this]
  rw [f1, f2] at ha
  omega

/-- Programs that only read. -/
inductive Looks : Prog α → Prop
  | done {a} : Looks (.done a)
  | stop {e} : Looks (.stop e)
  | load {l k} : (∀ x, Looks (k x)) → Looks (.load l k)

theorem Looks.run {p : Prog α} (h : Looks p) {s s' : GSt} {a : α} (hr : p.run s = .ok (a, s')) : s' = s := by
  induction h with
  | done => cases hr; rfl
  | stop => cases hr
  | load _ ih => exact ih _ hr

theorem Looks.bind {p : Prog α} {f : α → Prog β} (h : Looks p) (hf : ∀ a, Looks (f a)) : Looks (p >>= f) := by
  show Looks (p.bind f)
  induction h with
  | done => exact hf _
  | stop => exact .stop
  | load _ ih => exact .load ih

theorem Looks.lift (x : M α) : Looks (lift x) := by
  cases x with
  | ok a => exact .done
  | error e => exact .stop

theorem looks_readRun (a q n : Nat) : Looks (readRun a q n) := by
  induction n generalizing q with
  | zero => exact .done
  | succ n ih =>
    refine .load fun x => ?_
    show Looks (afterByte _ x)
    unfold afterByte
    split
    · split
      · exact .done
      · exact Looks.bind (ih _) fun _ => .done
    · exact .done

theorem looks_oldLenP (i typ : Nat) (off : U64) : Looks (oldLenP i typ off) := by
  unfold oldLenP
  repeat' split
  · exact .load fun (b : HSlice) => Looks.bind (.lift _) fun _ => Looks.bind (looks_readRun ..) fun _ => .done
  · exact .done
  · exact .done
  · exact .load fun (b : HSlice) => Looks.bind (.lift _) fun _ => Looks.bind (looks_readRun ..) fun _ => .done
  · exact .stop

theorem looks_find (i f : Nat) : Looks (find i f) := by
  refine .load fun (x : Option U16) => ?_
  cases x with
  | none => exact .stop
  | some x =>
    show Looks (ite _ _ _)
    split
    · refine .load fun (r : Option Nat) => ?_
      cases r with
      | none => exact .done
      | some id => exact .load fun m => .done
    · split <;> exact .done

theorem setSingle_others {rt : Rt} {i f typ : Nat} {tag : List Byte} {x y : Src} {s s' : GSt} {u : List Val} (h : (setSingleP rt i f typ tag x y).run s = .ok (u, s')) :
    others ((setSingleP rt i f typ tag x y).trace s) ≤ 2 * (s.h.ms i).a.length + 8 * spilled s i + 28 := by
  unfold setSingleP at h ⊢
  obtain ⟨o, s1, h1, g1, e1⟩ := run_bind_ok h
  cases (looks_find i f).run h1
  rw [e1, others_append]
  have u1 := (upto_find i f).others s
  cases o with
  | none =>
    have := (upto_tailP rt i f tag x y).others s
    dsimp only
    omega
  | some off =>
    dsimp only at g1 ⊢
    obtain ⟨n, s2, h2, g2, e2⟩ := run_bind_ok g1
    cases (looks_oldLenP i typ off).run h2
    have u2 := (upto_oldLenP i typ off).others s
    rw [e2, others_append]
    by_cases hc : n = addInt (strLen x) (strLen y)
    · rw [if_pos hc]
      have := (Upto.bind (n := 1) (m := 1) (upto_copyP i off x) fun k => Upto.bind (n := 1) (m := 0) (upto_copyP i (off + BitVec.ofNat 64 k) y) fun _ => .done (a := ([] : List Val))).others s
      omega
    · rw [if_neg hc] at g2 ⊢
      obtain ⟨_, s3, h3, g3, e3⟩ := run_bind_ok g2
      rw [e3, others_append]
      have := remove_others h3
      have := (upto_tailP rt i f tag x y).others s3
      omega

/-- In place. -/
theorem set_same_others {s : GSt} {i f : Nat} {A pay B : List Byte} {v : Wire.Val} (hw : s.h.w.WFs (s.h.ms i).buf)
    (hl : Located (s.h.w.slice (s.h.ms i).buf) (s.h.w.offs (s.h.ms i)) f A pay B) (hp : IsPayload v pay) {x y : Src} (hn : pay.length = strLen x + strLen y) (rt : Rt) (tag : List Byte) :
    others ((setSingleP rt i f v.wireType tag x y).trace s) ≤ 6 := by
  have hll := hl.lens
  obtain ⟨es1, o1, o2, o3⟩ := oldLen_at hw hl hp
  have u1 := (upto_find i f).others s
  have u2 := (upto_oldLenP i v.wireType (BitVec.ofNat 64 A.length)).others s
  have hf := find_at hl.get
  unfold setSingleP
  rw [trace_bind (a := some (BitVec.ofNat 64 A.length)) (s' := s) hf.1, others_append]
  dsimp only
  rw [trace_bind o1.1, others_append]
  rw [if_pos (by rw [Zeropb.addInt_nat (by omega), hn])]
  have := (Upto.bind (n := 1) (m := 1) (upto_copyP i (BitVec.ofNat 64 A.length) x) fun k => Upto.bind (n := 1) (m := 0) (upto_copyP i (BitVec.ofNat 64 A.length + BitVec.ofNat 64 k) y) fun _ =>
    .done (a := ([] : List Val))).others s
  omega

/-- A value that was not there. -/
theorem set_first_others {s : GSt} {i f : Nat} (hg : (s.h.w.offs (s.h.ms i)).get f = .ok (0#64, false)) (rt : Rt) (typ : Nat) (tag : List Byte) (x y : Src) :
    others ((setSingleP rt i f typ tag x y).trace s) ≤ 20 := by
  have u1 := (upto_find i f).others s
  unfold setSingleP
  rw [trace_bind (a := (none : Option U64)) (s' := s) (find_at hg).1, others_append]
  have := (upto_tailP rt i f tag x y).others s
  dsimp only
  omega

/-! ## Without room -/

/-- Bytes read and written. -/
def touched (es : List Event) : Nat := (bytesRead es).length + (bytesWritten es).length

theorem touched_append (xs ys : List Event) : touched (xs ++ ys) = touched xs + touched ys := by
  simp only [touched, bytesRead_append, bytesWritten_append, List.length_append]; omega

theorem touched_split (es : List Event) : es.length = touched es + others es := length_split es

theorem touched_cells (a q n : Nat) : touched (cells a q n) = n := by
  unfold touched; rw [bytesRead_cells, bytesWritten_cells]; simp

theorem touched_stored (a q n : Nat) : touched (stored a q n) = n := by
  unfold touched; rw [bytesRead_stored, bytesWritten_stored]; simp

theorem srcBytes_length (x : Src) : (srcBytes x).length ≤ strLen x := by
  cases x with
  | lit bs => exact Nat.zero_le _
  | mem t => simp [srcBytes, strLen]

theorem only_touched {p : Prog α} (hp : Only OfTable p) {s s' : GSt} {a : α} (h : p.run s = .ok (a, s')) {i : Nat} (hi : i < s.next) : touched (p.trace s) = 0 := by
  obtain ⟨_, _, h1, h2, _⟩ := table_keeps hp h hi
  unfold touched
  rw [h1, h2]; rfl

/-- What an append reads and writes, in any case. -/
theorem append_bytes {rt : Rt} {i : Nat} {x : Src} {s s' : GSt} {u : Unit} (h : (appendP rt i x).run s = .ok (u, s')) (hx : World.WFsrc s.h.w x) :
    touched ((appendP rt i x).trace s) ≤ (s.h.ms i).buf.len + 2 * strLen x ∧ (s'.h.ms i).buf.len = (s.h.ms i).buf.len + strLen x := by
  obtain ⟨es, h1, h2, _, _, h5⟩ := does_readSrc hx
  have hl := src_length hx
  have h : (readSrc x >>= fun bs => append rt (s.h.ms i).buf bs >>= fun r => .store (.buf i r) (.done ())).run s = .ok (u, s') := h
  have ht : (appendP rt i x).trace s = [.reads (.buf i)] ++ (readSrc x >>= fun bs => append rt (s.h.ms i).buf bs >>= fun r => .store (.buf i r) (.done ())).trace s := rfl
  rw [ht]
  rw [trace_bind h1.1, h1.2]
  rw [Prog.run_bind, h1.1] at h
  have h : (append rt (s.h.ms i).buf (s.h.w.src x) >>= fun r => Prog.store (.buf i r) (.done ())).run s = .ok (u, s') := h
  obtain ⟨r, t, g1, g2, g3⟩ := run_bind_ok h
  rw [g3]
  have g2 : Except.ok ((), (Write.buf i r).apply t) = (Except.ok (u, s') : M (Unit × GSt)) := g2
  injection g2 with g2
  injection g2 with g4 g5
  subst g5
  have eb : (((Write.buf i r).apply t).h.ms i).buf = r := by simp only [Write.apply, Heap.put, if_true]
  rw [eb]
  simp only [touched_append]
  have z1 : touched [Event.reads (.buf i)] = 0 := rfl
  have z2 : touched ((Prog.store (.buf i r) (.done ())).trace t) = 0 := rfl
  have z3 : touched es ≤ strLen x := by unfold touched; rw [h5, h2]; exact srcBytes_length x
  rw [z1, z2]
  unfold append at g1 ⊢
  rw [hl] at g1 ⊢
  split at g1
  · next hm =>
    rw [if_pos hm]
    split at g1
    · next hc =>
      rw [if_pos hc]
      have hd := (does_writeTo (s.h.ms i).buf.arr ((s.h.ms i).buf.off + (s.h.ms i).buf.len) (s.h.w.src x) s).then (f := fun _ =>
        .done (⟨(s.h.ms i).buf.arr, (s.h.ms i).buf.off, (s.h.ms i).buf.len + strLen x, (s.h.ms i).buf.cap⟩ : HSlice)) rfl
      have g1 := hd.1.symm.trans g1
      injection g1 with g1
      injection g1 with g6 g7
      refine ⟨?_, by rw [← g6]⟩
      rw [show _ = _ from hd.2, touched_stored, hl]
      omega
    · next hc =>
      rw [if_neg hc]
      have hd := Does.bind (f := fun old => Prog.newArr (old ++ s.h.w.src x ++ rt.grow (s.h.ms i).buf.cap ((s.h.ms i).buf.len + strLen x)) fun a =>
          .done (⟨a, 0, (s.h.ms i).buf.len + strLen x, (s.h.ms i).buf.len + strLen x + (rt.grow (s.h.ms i).buf.cap ((s.h.ms i).buf.len + strLen x)).length⟩ : HSlice))
        ⟨ends_readSlice (s.h.ms i).buf s, trace_readSlice (s.h.ms i).buf s⟩ ⟨rfl, rfl⟩
      have g1 := hd.1.symm.trans g1
      injection g1 with g1
      injection g1 with g6 g7
      refine ⟨?_, by rw [← g6]⟩
      rw [show _ = _ from hd.2, touched_append, touched_cells]
      show 0 + (touched es + (min _ _ + 0 + 0)) ≤ _
      omega
  · cases g1

/-- Record and tag behind the message, in any case. -/
theorem tail_bytes {rt : Rt} {i f : Nat} {tag : List Byte} {x y : Src} {s s' : GSt} {u : List Val} (h : (tailP rt i f tag x y).run s = .ok (u, s')) (hi : i < s.next)
    (hx : World.WFsrc s.h.w x) (hy : World.WFsrc s.h.w y) : touched ((tailP rt i f tag x y).trace s) ≤ 3 * (s.h.ms i).buf.len + 4 * (tag.length + (strLen x + strLen y)) := by
  unfold tailP at h ⊢
  obtain ⟨_, s1, h1, h, t1⟩ := run_bind_ok h
  rw [t1]
  have g1 := grows_run h1
  have h : (setP i f (BitVec.ofNat 64 (s1.h.ms i).buf.len) >>= fun _ => appendP rt i x >>= fun _ => appendP rt i y >>= fun _ => .done []).run s1 = .ok (u, s') := h
  rw [show (Prog.load (.buf i) fun (b : HSlice) => setP i f (BitVec.ofNat 64 b.len) >>= fun _ => appendP rt i x >>= fun _ => appendP rt i y >>= fun _ => Prog.done ([] : List Val)).trace s1 =
    [.reads (.buf i)] ++ (setP i f (BitVec.ofNat 64 (s1.h.ms i).buf.len) >>= fun _ => appendP rt i x >>= fun _ => appendP rt i y >>= fun _ => Prog.done ([] : List Val)).trace s1 from rfl]
  obtain ⟨_, s2, h2, h, t2⟩ := run_bind_ok h
  rw [t2]
  have g2 := grows_run h2
  obtain ⟨_, s3, h3, h, t3⟩ := run_bind_ok h
  rw [t3]
  have g3 := grows_run h3
  obtain ⟨_, s4, h4, h, t4⟩ := run_bind_ok h
  rw [t4]
  have hx2 := (g1.trans g2).wfsrc hx
  have hy3 := ((g1.trans g2).trans g3).wfsrc hy
  have hi1 := (Conc.appended h1 trivial).2
  obtain ⟨k1, k2, k3, k4, k5⟩ := table_keeps (only_setP i f _) h2 (i := i) (by omega)
  obtain ⟨a1, b1⟩ := append_bytes h1 trivial
  obtain ⟨a3, b3⟩ := append_bytes h3 hx2
  obtain ⟨a4, b4⟩ := append_bytes h4 hy3
  have z1 : touched [Event.reads (.buf i)] = 0 := rfl
  have z2 : touched ((Prog.done ([] : List Val)).trace s4) = 0 := rfl
  have z3 := only_touched (only_setP i f _) h2 (i := i) (by omega)
  simp only [touched_append, z1, z2, z3]
  rw [k1] at a3 b3
  have et : strLen (.lit tag) = tag.length := rfl
  omega

/-- `appendSingle`, in any case. -/
theorem appendSingle_bytes {rt : Rt} {i f : Nat} {tag : List Byte} {x y : Src} {s s' : GSt} {u : List Val} (h : (appendSingleP rt i f tag x y).run s = .ok (u, s')) (hi : i < s.next)
    (hx : World.WFsrc s.h.w x) (hy : World.WFsrc s.h.w y) : touched ((appendSingleP rt i f tag x y).trace s) ≤ 3 * (s.h.ms i).buf.len + 4 * (tag.length + (strLen x + strLen y)) := by
  unfold appendSingleP at h ⊢
  obtain ⟨_, s1, h1, h, t1⟩ := run_bind_ok h
  rw [t1]
  have g1 := grows_run h1
  have h : (find i f >>= fun o => (if o.isSome then .done [] else setP i f (BitVec.ofNat 64 (s1.h.ms i).buf.len)) >>= fun _ => appendP rt i x >>= fun _ => appendP rt i y >>= fun _ => .done []).run s1 =
    .ok (u, s') := h
  rw [show (Prog.load (.buf i) fun (b : HSlice) => find i f >>= fun o => (if o.isSome then .done [] else setP i f (BitVec.ofNat 64 b.len)) >>= fun _ => appendP rt i x >>= fun _ =>
      appendP rt i y >>= fun _ => Prog.done ([] : List Val)).trace s1 =
    [.reads (.buf i)] ++ (find i f >>= fun o => (if o.isSome then .done [] else setP i f (BitVec.ofNat 64 (s1.h.ms i).buf.len)) >>= fun _ => appendP rt i x >>= fun _ => appendP rt i y >>= fun _ =>
      Prog.done ([] : List Val)).trace s1 from rfl]
  obtain ⟨o, s0, h0, h, t0⟩ := run_bind_ok h
  rw [t0]
  have g0 := grows_run h0
  obtain ⟨_, s2, h2, h, t2⟩ := run_bind_ok h
  rw [t2]
  have g2 := grows_run h2
  obtain ⟨_, s3, h3, h, t3⟩ := run_bind_ok h
  rw [t3]
  have g3 := grows_run h3
  obtain ⟨_, s4, h4, h, t4⟩ := run_bind_ok h
  rw [t4]
  have hx2 := ((g1.trans g0).trans g2).wfsrc hx
  have hy3 := (((g1.trans g0).trans g2).trans g3).wfsrc hy
  have hp : Only OfTable (if o.isSome then .done [] else setP i f (BitVec.ofNat 64 (s1.h.ms i).buf.len)) := by
    split
    · trivial
    · exact only_setP _ _ _
  have hi1 := (Conc.appended h1 trivial).2
  obtain ⟨j1, j2, j3, j4, j5⟩ := table_keeps (only_find i f) h0 (i := i) (by omega)
  obtain ⟨k1, k2, k3, k4, k5⟩ := table_keeps hp h2 (i := i) (by omega)
  obtain ⟨a1, b1⟩ := append_bytes h1 trivial
  obtain ⟨a3, b3⟩ := append_bytes h3 hx2
  obtain ⟨a4, b4⟩ := append_bytes h4 hy3
  have z1 : touched [Event.reads (.buf i)] = 0 := rfl
  have z2 : touched ((Prog.done ([] : List Val)).trace s4) = 0 := rfl
  have z3 := only_touched (only_find i f) h0 (i := i) (by omega)
  have z4 := only_touched hp h2 (i := i) (by omega)
  simp only [touched_append, z1, z2, z3, z4]
  rw [k1, j1] at a3 b3
  have et : strLen (.lit tag) = tag.length := rfl
  omega

/-- A value is replaced by one of another length, in any case. -/
theorem moved_bytes {s : GSt} {i f : Nat} {A pay B : List Byte} {v : Wire.Val} {s' : GSt} {u : List Val} (hi : i < s.next) (hw : s.h.w.WFs (s.h.ms i).buf)
    (hl : Located (s.h.w.slice (s.h.ms i).buf) (s.h.w.offs (s.h.ms i)) f A pay B)
    (hp : IsPayload v pay) {x y : Src} (hx : World.WFsrc s.h.w x) (hy : World.WFsrc s.h.w y) (hm : strLen x + strLen y < maxLen) (hn : pay.length ≠ strLen x + strLen y) {rt : Rt} {tag : List Byte}
    (ht : tag.length ≤ A.length) (h : (setSingleP rt i f v.wireType tag x y).run s = .ok (u, s')) :
    touched ((setSingleP rt i f v.wireType tag x y).trace s) ≤ 5 * (s.h.ms i).buf.len + 4 * (tag.length + (strLen x + strLen y)) := by
  have hll := hl.lens
  have hlen : (s.h.ms i).buf.len = A.length + (pay.length + B.length) := by
    rw [← World.slice_len hw, hl.data, List.length_append, List.length_append]
  obtain ⟨es1, o1, o2, o3⟩ := oldLen_at hw hl hp
  have hmx : maxLen < 2 ^ 63 + 1 := by decide
  have ebeg : BitVec.ofNat 64 A.length - BitVec.ofNat 64 tag.length = BitVec.ofNat 64 (A.length - tag.length) := by
    apply BitVec.eq_of_toNat_eq
    rw [BitVec.toNat_sub, ofNat64_toNat (by omega), ofNat64_toNat (by omega), ofNat64_toNat (by omega)]
    omega
  have eend : BitVec.ofNat 64 A.length + intToU64 (pay.length : Int) = BitVec.ofNat 64 (A.length + pay.length) := by
    rw [BitVec.ofNat_add]
    rfl
  unfold setSingleP at h ⊢
  obtain ⟨o, t1, f1, h, e1⟩ := run_bind_ok h
  have f1 := (find_at hl.get).1.symm.trans f1
  injection f1 with f1
  injection f1 with f1 f2
  rw [if_pos rfl] at f1
  subst f1 f2
  dsimp only at h e1
  obtain ⟨n, t2, f3, h, e2⟩ := run_bind_ok h
  have f3 := o1.1.symm.trans f3
  injection f3 with f3
  injection f3 with f3 f4
  subst f3 f4
  rw [if_neg (by rw [Zeropb.addInt_nat hm]; omega), ebeg, eend] at h e2
  obtain ⟨_, s1, h1, h2, e3⟩ := run_bind_ok h
  obtain ⟨r1, r0, r2, r3, r4⟩ := remove_written hi hw (by omega) (by omega) (by omega) h1
  have gr := grows_run h1
  have ht := tail_bytes h2 r4 (gr.wfsrc hx) (gr.wfsrc hy)
  rw [r2] at ht
  dsimp only at ht
  rw [e1, ebeg, e2, e3]
  simp only [touched_append]
  have y1 : touched ((find i f).trace s) = 0 := by rw [(find_at hl.get).2]; unfold touched; rw [bytesRead_finding, (onlyReads_finding s i f).written]; rfl
  have y2 : touched ((oldLenP i v.wireType (BitVec.ofNat 64 A.length)).trace s) ≤ pay.length := by
    rw [o1.2]; unfold touched; rw [o3, o2.written]; simp [markLen_le]
  have y3 : touched ((removeP rt i (BitVec.ofNat 64 (A.length - tag.length)) (BitVec.ofNat 64 (A.length + pay.length))).trace s) = 2 * B.length := by
    unfold touched; rw [r1, r0]; simp; omega
  omega

end Zeropb.GoSrc.Conc
