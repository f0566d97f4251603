import Verif.Conc.Access
/-!
# What `Decode` and `FindNextField` access
-/

set_option linter.constructorNameAsVariable false
set_option linter.unusedSimpArgs false

namespace Zeropb.GoSrc.Conc
open Zeropb.GoSrc.G Zeropb.Wire

theorem bytesRead_cells (a q n : Nat) : bytesRead (cells a q n) = (List.range' q n).map fun j => (a, j) := by
  unfold bytesRead cells
  rw [List.filterMap_map]
  induction List.range' q n with
  | nil => rfl
  | cons x xs ih => simp only [List.filterMap_cons, Function.comp, Event.byteRead, List.map_cons, ih]

theorem cells_length (a q n : Nat) : (cells a q n).length = n := by simp [cells]

theorem cells_append (a q n m : Nat) : cells a q n ++ cells a (q + n) m = cells a q (n + m) := by
  unfold cells
  rw [← List.map_append, List.range'_append_1]

/-- The bytes of buffers are as before, and the struct has as many offsets. -/
structure Same (i : Nat) (s s' : GSt) : Prop where
  arrs : s'.h.w.arrs = s.h.w.arrs
  slots : (s'.h.ms i).a.length = (s.h.ms i).a.length

theorem Same.refl (i : Nat) (s : GSt) : Same i s s := ⟨rfl, rfl⟩

theorem Same.trans {i : Nat} {s s' s'' : GSt} (h : Same i s s') (h' : Same i s' s'') : Same i s s'' := ⟨h'.arrs.trans h.arrs, h'.slots.trans h.slots⟩

theorem slice_arrs {w w' : World} (h : w'.arrs = w.arrs) (b : HSlice) : w'.slice b = w.slice b := by
  unfold World.slice World.full World.arr; rw [h]

theorem wfs_arrs {w w' : World} (h : w'.arrs = w.arrs) {b : HSlice} (hb : w.WFs b) : w'.WFs b := by
  refine ⟨hb.1, ?_⟩
  have := hb.2
  unfold World.arr at this ⊢
  rw [h]
  exact this

section
variable {s : GSt} {i f : Nat}

theorem find_run (h : f < (s.h.ms i).a.length) : ∃ o, (find i f).run s = .ok (o, s) := by
  have hx : (read (.slot i f) s : Option U16) = some (s.h.ms i).a[f] := List.getElem?_eq_getElem h
  unfold find
  simp only [Prog.run, hx]
  split
  · have e2 : (read (.ref i) s : Option Nat) = (s.h.ms i).m := rfl
    simp only [Prog.run]
    rw [e2]
    cases (s.h.ms i).m with
    | none => exact ⟨_, rfl⟩
    | some id => exact ⟨_, rfl⟩
  · split <;> exact ⟨_, rfl⟩

theorem table_setP (i f : Nat) (x : U64) : Table 7 (setP i f x) := by
  have := table_Set Rt.exact 0 0 i f x
  rwa [prog_Set] at this

theorem setP_run (x : U64) (h : f < (s.h.ms i).a.length) : ∃ s', (setP i f x).run s = .ok ([], s') ∧ Same i s s' := by
  have hput : ∀ (y : U16) (t : GSt), Same i s t → ∃ s', (Prog.load (.slots i) fun (n : Nat) => if f < n then .store (.slot i f y) (.done ([] : List Val)) else .stop (.fail .indexOutOfRange)).run t = .ok ([], s') ∧
      Same i s s' := by
    intro y t ht
    have e : (read (.slots i) t : Nat) = (s.h.ms i).a.length := ht.slots
    simp only [Prog.run, e, if_pos h]
    refine ⟨_, rfl, ht.trans ⟨rfl, ?_⟩⟩
    simp [Write.apply, Heap.put]
  have hx : (read (.slot i f) s : Option U16) = some (s.h.ms i).a[f] := List.getElem?_eq_getElem h
  unfold setP
  split
  · simp only [Prog.run, hx]
    split
    · have e2 : (read (.ref i) s : Option Nat) = (s.h.ms i).m := rfl
      simp only [Prog.run]
      rw [e2]
      cases (s.h.ms i).m with
      | none => exact hput _ _ (.refl _ _)
      | some id =>
        simp only [Prog.run]
        exact hput _ _ ⟨rfl, rfl⟩
    · exact hput _ _ (.refl _ _)
  · have e : (read (.slots i) s : Nat) = (s.h.ms i).a.length := rfl
    simp only [Prog.run, e, if_pos h]
    have hm : ∀ (t : GSt), Same i s t → (t.h.ms i).m ≠ none → ∃ s', (Prog.load (.ref i) fun (r : Option Nat) => match r with
        | none => .stop .stuck
        | some id => .load (.map id) fun (m : GoMap) => .store (.map id (m.put f x)) (.done ([] : List Val))).run t = .ok ([], s') ∧ Same i s s' := by
      intro t ht hn
      have e2 : (read (.ref i) t : Option Nat) = (t.h.ms i).m := rfl
      simp only [Prog.run]
      rw [e2]
      cases hr : (t.h.ms i).m with
      | none => exact absurd hr hn
      | some id => exact ⟨_, rfl, ht.trans ⟨rfl, rfl⟩⟩
    have s1 : Same i s ((Write.slot i f 65535#16).apply s) := ⟨rfl, by simp [Write.apply, Heap.put]⟩
    have e2 : (read (.ref i) ((Write.slot i f 65535#16).apply s) : Option Nat) = (((Write.slot i f 65535#16).apply s).h.ms i).m := rfl
    rw [e2]
    cases hr : (((Write.slot i f 65535#16).apply s).h.ms i).m with
    | none =>
      simp only [Prog.run]
      refine hm _ (s1.trans ⟨rfl, ?_⟩) ?_
      · simp [Write.apply, Heap.put, newMap, withW]
      · simp [Write.apply, Heap.put]
    | some id => exact hm _ s1 (by rw [hr]; simp)

theorem table_noteP (rep : Nat → Bool) (i f : Nat) (x : U64) : Table 10 (noteP rep i f x) := by
  unfold noteP
  split
  · refine (table_find i f).bind (m := 7) fun o => ?_
    show Table 7 (ite _ _ _)
    split
    · exact .done
    · exact table_setP i f x
  · exact (table_setP i f x).mono (by omega)

theorem noteP_run (rep : Nat → Bool) (x : U64) (h : f < (s.h.ms i).a.length) : ∃ s', (noteP rep i f x).run s = .ok ([], s') ∧ Same i s s' := by
  unfold noteP
  split
  · obtain ⟨o, ho⟩ := find_run h
    rw [Prog.run_bind, ho]
    show ∃ s', Prog.run (ite _ _ _) s = _ ∧ _
    split
    · exact ⟨_, rfl, .refl _ _⟩
    · exact setP_run x h
  · exact setP_run x h

/-! ## Clear -/

theorem table_clear1 (i k : Nat) : Table 2 (clear1 i k) := by
  refine .load (by simp) fun (x : Option U16) => ?_
  cases x with
  | none => exact .stop
  | some x =>
    refine .size fun (n : Nat) => ?_
    show Table 1 (ite _ _ _)
    split
    · exact .store (by simp [Write.loc]) .done
    · exact .stop

theorem table_clear2 (i id k : Nat) : Table 4 (clear2 i id k) := by
  refine .load (by simp) fun (m : GoMap) => ?_
  show Table 3 (match m.find k with | none => _ | some _ => _)
  cases m.find k with
  | none => exact .done
  | some x =>
    refine .load (by simp) fun (r : Option Nat) => ?_
    cases r with
    | none => exact .done
    | some id => exact .load (by simp) fun m => .store (by simp [Write.loc]) .done

theorem clear1_run (ks : List Nat) : ∀ {s : GSt}, (∀ k ∈ ks, k < (s.h.ms i).a.length) →
    ∃ s', (forP (clear1 i) ks).run s = .ok ((), s') ∧ s'.h.w = s.h.w ∧ (s'.h.ms i).a.length = (s.h.ms i).a.length ∧ (s'.h.ms i).m = (s.h.ms i).m := by
  induction ks with
  | nil => intro s _; exact ⟨s, rfl, rfl, rfl, rfl⟩
  | cons k ks ih =>
    intro s h
    have hk := h k (by simp)
    have hx : (read (.slot i k) s : Option U16) = some (s.h.ms i).a[k] := List.getElem?_eq_getElem hk
    have e : (read (.slots i) s : Nat) = (s.h.ms i).a.length := rfl
    have e1 : (clear1 i k).run s = .ok ((), (Write.slot i k 0#16).apply s) := by
      unfold clear1
      simp only [Prog.run, hx, e, if_pos hk]
    have hl : (((Write.slot i k 0#16).apply s).h.ms i).a.length = (s.h.ms i).a.length := by simp [Write.apply, Heap.put]
    obtain ⟨s', r1, r2, r3, r4⟩ := ih (s := (Write.slot i k 0#16).apply s) (by intro j hj; rw [hl]; exact h j (by simp [hj]))
    refine ⟨s', ?_, r2, r3.trans hl, r4.trans ?_⟩
    · show Prog.run (clear1 i k >>= fun _ => forP (clear1 i) ks) s = _
      rw [Prog.run_bind, e1]
      exact r1
    · simp [Write.apply, Heap.put]

theorem clear2_run (id : Nat) (ks : List Nat) : ∀ {s : GSt}, ∃ s', (forP (clear2 i id) ks).run s = .ok ((), s') ∧ Same i s s' := by
  induction ks with
  | nil => intro s; exact ⟨s, rfl, .refl _ _⟩
  | cons k ks ih =>
    intro s
    have : ∃ s', (clear2 i id k).run s = .ok ((), s') ∧ Same i s s' := by
      unfold clear2
      simp only [Prog.run]
      cases GoMap.find (read (.map id) s : GoMap) k with
      | none => exact ⟨_, rfl, .refl _ _⟩
      | some x =>
        simp only [Prog.run]
        have e2 : (read (.ref i) s : Option Nat) = (s.h.ms i).m := rfl
        rw [e2]
        cases (s.h.ms i).m with
        | none => exact ⟨_, rfl, .refl _ _⟩
        | some id => exact ⟨_, rfl, ⟨rfl, rfl⟩⟩
    obtain ⟨s1, h1, h2⟩ := this
    obtain ⟨s', r1, r2⟩ := ih (s := s1)
    refine ⟨s', ?_, h2.trans r2⟩
    show Prog.run (clear2 i id k >>= fun _ => forP (clear2 i id) ks) s = _
    rw [Prog.run_bind, h1]
    exact r1

/-- The number of positions that are in the map of a struct. -/
def spilled (s : GSt) (i : Nat) : Nat := match (s.h.ms i).m with
  | none => 0
  | some id => (s.h.w.maps.getD id []).length

theorem clear_at (rt : Rt) (i : Nat) (s : GSt) : ∃ s', (clearP rt i).run s = .ok ([], s') ∧ Same i s s' ∧ bytesRead ((clearP rt i).trace s) = [] ∧
    ((clearP rt i).trace s).length ≤ 2 * (s.h.ms i).a.length + 4 * spilled s i + 3 := by
  have e : (read (.slots i) s : Nat) = (s.h.ms i).a.length := rfl
  obtain ⟨s1, h1, h2, h3, h4⟩ := clear1_run (i := i) (List.range (s.h.ms i).a.length) (s := s) (by simp)
  have t1 := (table_forP (table_clear1 i) (List.range (s.h.ms i).a.length)).length s
  have b1 := (table_forP (table_clear1 i) (List.range (s.h.ms i).a.length)).bytes s
  rw [List.length_range] at t1
  have e2 : (read (.ref i) s1 : Option Nat) = (s.h.ms i).m := h4
  have es : ∀ (k : Nat → Prog (List Val)), (Prog.load (.slots i) k).run s = (k (s.h.ms i).a.length).run s ∧ (Prog.load (.slots i) k).trace s = (k (s.h.ms i).a.length).trace s := fun k => ⟨rfl, rfl⟩
  have S1 : Same i s s1 := ⟨by rw [h2], h3⟩
  unfold clearP
  rw [(es _).1, (es _).2]
  rw [Prog.run_bind, h1, trace_bind h1]
  simp only [Except.bind, bind, Prog.run, Prog.trace, Event.ofLoad, bytesRead_append, List.length_append, b1, List.nil_append]
  rw [e2]
  unfold spilled
  cases hm : (s.h.ms i).m with
  | none => exact ⟨s1, rfl, S1, rfl, by simp [Prog.trace]; omega⟩
  | some id =>
    simp only [Prog.run, Prog.trace, Event.ofLoad]
    rw [e2, hm]
    simp only [Prog.run, Prog.trace, Event.ofLoad]
    have e3 : (read (.map id) s1 : GoMap) = s.h.w.maps.getD id [] := by show s1.h.w.maps.getD id [] = _; rw [h2]
    rw [e3]
    obtain ⟨s2, g1, g2⟩ := clear2_run (i := i) id (rt.perm (GoMap.keys (s.h.w.maps.getD id []))) (s := s1)
    have t2 := (table_forP (table_clear2 i id) (rt.perm (GoMap.keys (s.h.w.maps.getD id [])))).length s1
    have b2 := (table_forP (table_clear2 i id) (rt.perm (GoMap.keys (s.h.w.maps.getD id [])))).bytes s1
    rw [(rt.perm_ok _).length_eq] at t2
    have hk : (GoMap.keys (s.h.w.maps.getD id [])).length = (s.h.w.maps.getD id []).length := by simp [GoMap.keys]
    have et := trace_bind (f := fun _ => (Prog.done [] : Prog (List Val))) g1
    have er : Prog.run (forP (clear2 i id) (rt.perm (GoMap.keys (s.h.w.maps.getD id []))) >>= fun _ => (Prog.done [] : Prog (List Val))) s1 = .ok ([], s2) := by
      rw [Prog.run_bind, g1]; rfl
    refine ⟨s2, er, S1.trans g2, ?_, ?_⟩
    · rw [bindEq, et]; simp only [bytesRead_append, b2]; rfl
    · rw [bindEq, et]; simp only [List.length_append, List.length_cons, List.length_nil, Prog.trace]; omega

/-! ## Records -/

/-- The number of bytes at the start of the encoding of a value that tell where it ends: all of a varint, the length of a string. -/
def markLen : Wire.Val → List Byte → Nat
  | .varint _, pay => pay.length
  | .bytes bs, pay => pay.length - bs.length
  | _, _ => 0

/-- The positions of the bytes that have to be read to find the ends of the records, if the first one is at `q`. -/
def marks : Nat → List Chunk → List Nat
  | _, [] => []
  | q, c :: cs => List.range' q (c.tag.length + markLen c.val c.pay) ++ marks (q + c.bytes.length) cs

theorem sizeP_at {t : HSlice} (hw : s.h.w.WFs t) {v : Wire.Val} {pay rest : List Byte} (hd : (s.h.w.slice t).data = pay ++ rest) (hp : IsPayload v pay) (hlen : pay.length < maxLen)
    {tag : U64} (ht : tagType tag = v.wireType) :
    (sizeP (tag &&& 7#64) t).run s = .ok ((pay.length : Int), s) ∧ (sizeP (tag &&& 7#64) t).trace s = cells t.arr t.off (markLen v pay) := by
  have et : tag &&& 7#64 = BitVec.ofNat 64 v.wireType := by
    apply BitVec.eq_of_toNat_eq
    rw [show (tag &&& 7#64).toNat = _ from ht, ofNat64_toNat]
    have := wireType_lt v
    omega
  rw [et]
  cases v with
  | varint u =>
    have := trace_bind_of (f := fun bs => .done (uvarint bs).2) (readVarint_at hw hd hp) (b := (pay.length : Int)) (s2 := s) (es2 := []) (by
      have := uvarint_of_isVarint hp []
      rw [List.append_nil] at this
      rw [this]
      exact ⟨rfl, rfl⟩)
    rw [List.append_nil] at this
    exact this
  | fixed64 u => rw [show pay = _ from hp, leBytes_length]; exact ⟨rfl, rfl⟩
  | fixed32 u => rw [show pay = _ from hp, leBytes_length]; exact ⟨rfl, rfl⟩
  | bytes bs =>
    obtain ⟨lb, h1, rfl⟩ := hp
    simp only [List.length_append] at hlen
    have hpos := h1.length_pos
    have := trace_bind_of (f := fun x => .done (if (uvarint x).2 = 0 then 0 else addInt (uvarint x).2 (u64ToInt (uvarint x).1)))
      (readVarint_at (rest := bs ++ rest) hw (by rw [hd, List.append_assoc]) h1) (b := ((lb ++ bs).length : Int)) (s2 := s) (es2 := []) (by
        have := uvarint_of_isVarint h1 []
        rw [List.append_nil] at this
        rw [this]
        dsimp only
        rw [if_neg (by omega), u64ToInt_nat (by omega), addInt_nat (by omega), List.length_append]
        exact ⟨rfl, rfl⟩)
    rw [List.append_nil] at this
    rw [show markLen (.bytes bs) (lb ++ bs) = lb.length by simp [markLen]]
    exact this

theorem markLen_le (v : Wire.Val) (pay : List Byte) : markLen v pay ≤ pay.length := by
  cases v <;> simp [markLen]

/-- One round of the loop of `Decode`. -/
theorem decStep_at (rep : Nat → Bool) {b : HSlice} (hw : s.h.w.WFs b) {P rest : List Byte} {c : Chunk} (hc : c.WF) (hd : (s.h.w.slice b).data = P ++ (c.bytes ++ rest))
    (hlen : b.len < maxLen) (hn : c.num < (s.h.ms i).a.length) :
    ∃ s', (decStep b i rep (P.length : Int)).run s = .ok ((((P ++ c.bytes).length : Nat), none), s') ∧ Same i s s' ∧
      bytesRead ((decStep b i rep (P.length : Int)).trace s) = (List.range' (b.off + P.length) (c.tag.length + markLen c.val c.pay)).map (fun j => (b.arr, j)) ∧
      ((decStep b i rep (P.length : Int)).trace s).length ≤ c.tag.length + markLen c.val c.pay + 10 := by
  have htp := hc.tag_pos
  have hpp := hc.pay_pos
  have hl : b.len = P.length + c.tag.length + c.pay.length + rest.length := by
    rw [← s.h.w.slice_len hw, hd]; simp [Chunk.bytes]; omega
  obtain ⟨tag, ht, hf, hty⟩ := hc.uvarint_tag []
  obtain ⟨t, d1, d2, d3, d4⟩ := drop_at hw hd
  have hb1 : (s.h.w.slice t).data = c.tag ++ (c.pay ++ rest) := by rw [d4, Chunk.bytes, List.append_assoc]
  have hr := readVarint_at d3 hb1 hc.tag
  have hu : uvarint c.tag = (tag, (c.tag.length : Int)) := by
    have h1 := uvarint_of_isVarint hc.tag []
    have h2 := uvarint_of_isVarint hc.tag c.pay
    rw [List.append_nil] at h1 ht
    rw [h1, ← h2, ← ht]; rfl
  have n1 : ¬ ((P.length : Int) = (b.len : Int)) := by omega
  have n2 : ¬ ((P.length : Int) > (b.len : Int)) := by omega
  have n3 : ¬ ((c.tag.length : Int) = 0) := by omega
  have n4 : ¬ (((P.length + c.tag.length : Nat) : Int) ≥ (b.len : Int)) := by omega
  have n5 : ¬ ((c.pay.length : Int) = 0) := by omega
  obtain ⟨s', m1, m2⟩ := noteP_run rep (intToU64 ((P.length + c.tag.length : Nat) : Int)) hn
  have hw' := wfs_arrs m2.arrs hw
  obtain ⟨t2, g1, g2, g3, g4⟩ := drop_at (P := P ++ c.tag) (Q := c.pay ++ rest) hw' (by rw [slice_arrs m2.arrs, hd, Chunk.bytes]; simp only [List.append_assoc])
  have hz := sizeP_at g3 g4 hc.pay (by omega) (tag := tag) hty
  have tail : (lift (GoSrc.lift (b.dropFrom ((P.length + c.tag.length : Nat) : Int))) >>= fun t => sizeP (tag &&& 7#64) t >>= fun n =>
      if n = 0 then .done ((((P.length + c.tag.length : Nat) : Int)), some (some DecErr.unexpectedEOF)) else .done (addInt ((P.length + c.tag.length : Nat) : Int) n, none) : Prog (Int × Option (Option DecErr))).run s' =
      .ok ((((P ++ c.bytes).length : Nat), none), s') ∧ (lift (GoSrc.lift (b.dropFrom ((P.length + c.tag.length : Nat) : Int))) >>= fun t => sizeP (tag &&& 7#64) t >>= fun n =>
      if n = 0 then .done ((((P.length + c.tag.length : Nat) : Int)), some (some DecErr.unexpectedEOF)) else .done (addInt ((P.length + c.tag.length : Nat) : Int) n, none) : Prog (Int × Option (Option DecErr))).trace s' =
      cells b.arr (b.off + (P.length + c.tag.length)) (markLen c.val c.pay) := by
    rw [List.length_append] at g1
    rw [lift_bind_of (a := t2) (by rw [g1]; rfl)]
    have := trace_bind_of (f := fun n => if n = 0 then .done ((((P.length + c.tag.length : Nat) : Int)), some (some DecErr.unexpectedEOF)) else .done (addInt ((P.length + c.tag.length : Nat) : Int) n, none)) hz
      (b := ((((P ++ c.bytes).length : Nat) : Int), none)) (s2 := s') (es2 := []) (by
        rw [if_neg n5, addInt_nat (by omega), show (P ++ c.bytes).length = P.length + c.tag.length + c.pay.length by simp [Chunk.bytes]; omega]
        exact ⟨rfl, rfl⟩)
    rwa [List.append_nil, g2.arr, g2.off, List.length_append (as := P) (bs := c.tag)] at this
  have body := trace_bind_of (f := fun bs => if (uvarint bs).2 = 0 then .done ((P.length : Int), some (some DecErr.unexpectedEOF))
    else if addInt (P.length : Int) (uvarint bs).2 ≥ (b.len : Int) then .done (addInt (P.length : Int) (uvarint bs).2, some (some .unexpectedEOF))
    else noteP rep i (tagField (uvarint bs).1) (intToU64 (addInt (P.length : Int) (uvarint bs).2)) >>= fun _ =>
      lift (GoSrc.lift (b.dropFrom (addInt (P.length : Int) (uvarint bs).2))) >>= fun t => sizeP ((uvarint bs).1 &&& 7#64) t >>= fun n =>
        if n = 0 then .done (addInt (P.length : Int) (uvarint bs).2, some (some .unexpectedEOF)) else .done (addInt (addInt (P.length : Int) (uvarint bs).2) n, none)) hr
      (b := ((((P ++ c.bytes).length : Nat) : Int), none)) (s2 := s')
      (es2 := (noteP rep i c.num (intToU64 ((P.length + c.tag.length : Nat) : Int))).trace s ++ cells b.arr (b.off + (P.length + c.tag.length)) (markLen c.val c.pay)) (by
        rw [hu]
        dsimp only
        rw [if_neg n3, addInt_nat (by omega), if_neg n4, hf]
        exact trace_bind_of ⟨m1, rfl⟩ tail)
  have e : decStep b i rep (P.length : Int) = (readVarint (.mem t) >>= fun bs => if (uvarint bs).2 = 0 then .done ((P.length : Int), some (some DecErr.unexpectedEOF))
    else if addInt (P.length : Int) (uvarint bs).2 ≥ (b.len : Int) then .done (addInt (P.length : Int) (uvarint bs).2, some (some .unexpectedEOF))
    else noteP rep i (tagField (uvarint bs).1) (intToU64 (addInt (P.length : Int) (uvarint bs).2)) >>= fun _ =>
      lift (GoSrc.lift (b.dropFrom (addInt (P.length : Int) (uvarint bs).2))) >>= fun t => sizeP ((uvarint bs).1 &&& 7#64) t >>= fun n =>
        if n = 0 then .done (addInt (P.length : Int) (uvarint bs).2, some (some .unexpectedEOF)) else .done (addInt (addInt (P.length : Int) (uvarint bs).2) n, none)) := by
    unfold decStep
    rw [if_neg n1, if_neg n2, lift_bind_of (a := t) (by rw [d1]; rfl)]
  rw [e]
  have hb := (table_noteP rep i c.num (intToU64 ((P.length + c.tag.length : Nat) : Int))).bytes s
  have hll := (table_noteP rep i c.num (intToU64 ((P.length + c.tag.length : Nat) : Int))).length s
  refine ⟨s', body.1, m2, ?_, ?_⟩
  · rw [body.2]
    simp only [bytesRead_append, bytesRead_cells, hb, List.nil_append, d2.arr, d2.off]
    rw [← List.map_append, ← Nat.add_assoc, List.range'_append_1]
  · rw [body.2]
    simp only [List.length_append, cells_length]
    omega

/-- The loop of `Decode`. -/
theorem decLoop_at (rep : Nat → Bool) {b : HSlice} (hlen : b.len < maxLen) (cs : List Chunk) : ∀ (P : List Byte) {s : GSt}, s.h.w.WFs b →
    (s.h.w.slice b).data = P ++ flat cs → (∀ c ∈ cs, c.WF) → (∀ c ∈ cs, c.num < (s.h.ms i).a.length) →
    ∃ n s', Same i s s' ∧ ∀ fuel, cs.length < fuel → (decLoop b i rep fuel (P.length : Int)).run s = .ok ((n, none), s') ∧
      bytesRead ((decLoop b i rep fuel (P.length : Int)).trace s) = (marks (b.off + P.length) cs).map (fun j => (b.arr, j)) ∧
      ((decLoop b i rep fuel (P.length : Int)).trace s).length ≤ (marks (b.off + P.length) cs).length + 10 * cs.length := by
  induction cs with
  | nil =>
    intro P s hw hd _ _
    have hl : b.len = P.length := by rw [← s.h.w.slice_len hw, hd]; simp
    have e : decStep b i rep (P.length : Int) = .done ((P.length : Int), some none) := by
      unfold decStep; rw [if_pos (by omega)]
    refine ⟨(P.length : Int), s, .refl _ _, fun fuel hf => ?_⟩
    obtain ⟨n, rfl⟩ := Nat.exists_eq_add_of_lt hf
    simp only [List.length_nil, Nat.zero_add, decLoop, e, done_bind]
    exact ⟨rfl, rfl, Nat.le_refl _⟩
  | cons c cs ih =>
    intro P s hw hd hwf hnum
    obtain ⟨s1, g1, g2, g3, g4⟩ := decStep_at (i := i) rep hw (hwf c (by simp)) hd hlen (hnum c (by simp))
    obtain ⟨n, s', k2, ih⟩ := ih (P ++ c.bytes) (s := s1) (wfs_arrs g2.arrs hw) (by rw [slice_arrs g2.arrs, hd, flat_cons, List.append_assoc])
      (fun d hd => hwf d (by simp [hd])) (fun d hd => by rw [g2.slots]; exact hnum d (by simp [hd]))
    refine ⟨n, s', g2.trans k2, fun fuel hf => ?_⟩
    obtain ⟨k, rfl⟩ : ∃ k, fuel = k + 1 := ⟨fuel - 1, by simp at hf; omega⟩
    obtain ⟨k1, k3, k4⟩ := ih k (by simp at hf; omega)
    have h := trace_bind_of (f := fun r : Int × Option (Option DecErr) => match r.2 with
      | none => decLoop b i rep k r.1
      | some v => .done (r.1, v)) ⟨g1, rfl⟩ ⟨k1, rfl⟩
    have e : decLoop b i rep (k + 1) (P.length : Int) = (decStep b i rep (P.length : Int) >>= fun r => match r.2 with
      | none => decLoop b i rep k r.1
      | some v => .done (r.1, v)) := rfl
    rw [e]
    rw [List.length_append, ← Nat.add_assoc] at k3 k4
    refine ⟨h.1, ?_, ?_⟩
    · rw [h.2, bytesRead_append, g3, marks, List.map_append]
      congr 1
      rw [← k3, List.length_append]
    · rw [h.2, List.length_append, marks, List.length_append (as := P) (bs := c.bytes), List.length_append, List.length_range', List.length_cons]
      show _ + ((decLoop b i rep k ((P.length + c.bytes.length : Nat) : Int)).trace s1).length ≤ _
      omega

/-- `Decode`. -/
theorem decode_at (rt : Rt) (d : Nat) (rep : Nat → Bool) {b : HSlice} (hlen : b.len < maxLen) {cs : List Chunk} (hw : s.h.w.WFs b)
    (hd : (s.h.w.slice b).data = flat cs) (hwf : ∀ c ∈ cs, c.WF) (hn : ∀ c ∈ cs, c.num < (s.h.ms i).a.length) :
    ∃ s', Same i s s' ∧ ∀ fuel, cs.length < fuel → (goCall rt fuel (d + 2) .Decode [.bytes (.mem b), .offs i, .reps rep]).run s = .ok ([.nil], s') ∧
      bytesRead ((goCall rt fuel (d + 2) .Decode [.bytes (.mem b), .offs i, .reps rep]).trace s) = (marks b.off cs).map (fun j => (b.arr, j)) ∧
      ((goCall rt fuel (d + 2) .Decode [.bytes (.mem b), .offs i, .reps rep]).trace s).length ≤
        (marks b.off cs).length + 10 * cs.length + 2 * (s.h.ms i).a.length + 4 * spilled s i + 3 := by
  obtain ⟨s1, c1, c2, c3, c4⟩ := clear_at rt i s
  obtain ⟨n, s', k2, hl⟩ := decLoop_at (i := i) rep hlen cs [] (s := s1) (wfs_arrs c2.arrs hw) (by rw [slice_arrs c2.arrs, hd]; rfl) hwf
    (fun c hc => by rw [c2.slots]; exact hn c hc)
  refine ⟨s', c2.trans k2, fun fuel hf => ?_⟩
  obtain ⟨k1, k3, k4⟩ := hl fuel hf
  rw [prog_Decode]
  have h := trace_bind_of (f := fun _ => decLoop b i rep fuel 0 >>= fun r => .done [errVal r.2]) ⟨c1, rfl⟩
    (trace_bind_of (f := fun r : Int × Option DecErr => .done [errVal r.2]) ⟨k1, rfl⟩ (b := [.nil]) (s2 := s') (es2 := []) ⟨rfl, rfl⟩)
  refine ⟨h.1, ?_, ?_⟩
  · rw [h.2, List.append_nil, bytesRead_append, c3, List.nil_append]
    exact k3
  · rw [h.2, List.append_nil, List.length_append]
    simp only [List.length_nil, Nat.add_zero] at k4
    have : ((decLoop b i rep fuel 0).trace s1).length ≤ (marks b.off cs).length + 10 * cs.length := k4
    show _ + ((decLoop b i rep fuel 0).trace s1).length ≤ _
    omega

/-! ## FindNextField -/

/-- The positions of the bytes that `FindNextField` reads to find the next record of field `f`. -/
def seek (f : Nat) : Nat → List Chunk → List Nat
  | _, [] => []
  | q, c :: cs => if c.num = f then List.range' q c.tag.length else List.range' q (c.tag.length + markLen c.val c.pay) ++ seek f (q + c.bytes.length) cs

/-- Reads of the bytes at given positions. -/
def cellsAt (a : Nat) (ps : List Nat) : List Event := ps.map fun j => .reads (.cell a j)

theorem cells_at (a q n : Nat) : cells a q n = cellsAt a (List.range' q n) := rfl

theorem findLoop_at {b : HSlice} (hlen : b.len < maxLen) (hw : s.h.w.WFs b) (f : Nat) (cs : List Chunk) : ∀ (P : List Byte),
    (s.h.w.slice b).data = P ++ flat cs → (∀ c ∈ cs, c.WF) →
    ∃ n o, (∀ fuel, cs.length < fuel → (findLoop b f fuel (P.length : Int)).run s = .ok ((n, o), s) ∧ (findLoop b f fuel (P.length : Int)).trace s = cellsAt b.arr (seek f (b.off + P.length) cs)) ∧
      match splitFirst f cs with
      | none => o = none
      | some (c, post) => ∃ t, o = some t ∧ t.arr = b.arr ∧ s.h.w.WFs t ∧ (s.h.w.slice t).data = c.pay ++ flat post := by
  induction cs with
  | nil =>
    intro P hd _
    have hl : b.len = P.length := by rw [← s.h.w.slice_len hw, hd]; simp
    refine ⟨(P.length : Int), none, fun fuel hf => ?_, rfl⟩
    obtain ⟨n, rfl⟩ := Nat.exists_eq_add_of_lt hf
    simp only [List.length_nil, Nat.zero_add, findLoop, if_neg (show ¬ ((P.length : Int) < (b.len : Int)) by omega)]
    exact ⟨rfl, rfl⟩
  | cons c cs ih =>
    intro P hd hwf
    have hc := hwf c (by simp)
    have htp := hc.tag_pos
    have hpp := hc.pay_pos
    have hl : b.len = P.length + c.tag.length + c.pay.length + (flat cs).length := by
      rw [← s.h.w.slice_len hw, hd]; simp [Chunk.bytes]; omega
    obtain ⟨tag, ht, htf, hty⟩ := hc.uvarint_tag []
    obtain ⟨t, d1, d2, d3, d4⟩ := drop_at hw hd
    have hr := readVarint_at (rest := c.pay ++ flat cs) d3 (by rw [d4, flat_cons, Chunk.bytes, List.append_assoc]) hc.tag
    have hu : uvarint c.tag = (tag, (c.tag.length : Int)) := by
      have h1 := uvarint_of_isVarint hc.tag []
      have h2 := uvarint_of_isVarint hc.tag c.pay
      rw [List.append_nil] at h1 ht
      rw [h1, ← h2, ← ht]; rfl
    obtain ⟨t2, g1, g2, g3, g4⟩ := drop_at (P := P ++ c.tag) (Q := c.pay ++ flat cs) hw (by rw [hd, flat_cons, Chunk.bytes]; simp only [List.append_assoc])
    rw [List.length_append] at g1
    rw [d2.arr, d2.off] at hr
    have e : ∀ k, findLoop b f (k + 1) (P.length : Int) = (findStepP b f (P.length : Int) >>= fun r => match r.2 with
      | none => findLoop b f k r.1
      | some t => .done (r.1, some t)) := by intro k; simp only [findLoop]; rw [if_pos (by omega)]; rfl
    have e2 : findStepP b f (P.length : Int) = (readVarint (.mem t) >>= fun bs =>
      lift (GoSrc.lift (b.dropFrom (addInt (P.length : Int) (uvarint bs).2))) >>= fun t =>
      if tagField (uvarint bs).1 = f then .done (addInt (P.length : Int) (uvarint bs).2, some t)
      else sizeP ((uvarint bs).1 &&& 7#64) t >>= fun n => .done (addInt (addInt (P.length : Int) (uvarint bs).2) n, none)) := by
      unfold findStepP
      rw [lift_bind_of (a := t) (by rw [d1]; rfl)]
    simp only [splitFirst, seek]
    by_cases hcf : c.num = f
    · rw [if_pos hcf, if_pos hcf]
      have h := trace_bind_of (f := fun bs =>
        lift (GoSrc.lift (b.dropFrom (addInt (P.length : Int) (uvarint bs).2))) >>= fun t =>
        if tagField (uvarint bs).1 = f then .done (addInt (P.length : Int) (uvarint bs).2, some t)
        else sizeP ((uvarint bs).1 &&& 7#64) t >>= fun n => .done (addInt (addInt (P.length : Int) (uvarint bs).2) n, none)) hr
        (b := (((P.length + c.tag.length : Nat) : Int), some t2)) (s2 := s) (es2 := []) (by
          rw [hu]
          dsimp only
          rw [addInt_nat (by omega), lift_bind_of (a := t2) (by rw [g1]; rfl), if_pos (by rw [htf, hcf])]
          exact ⟨rfl, rfl⟩)
      rw [← e2] at h
      refine ⟨((P.length + c.tag.length : Nat) : Int), some t2, fun fuel hf => ?_, t2, rfl, g2.arr, g3, g4⟩
      obtain ⟨k, rfl⟩ : ∃ k, fuel = k + 1 := ⟨fuel - 1, by simp at hf; omega⟩
      rw [e]
      have h' := trace_bind_of (f := fun r : Int × Option HSlice => match r.2 with
        | none => findLoop b f k r.1
        | some t => .done (r.1, some t)) h (b := (((P.length + c.tag.length : Nat) : Int), some t2)) (s2 := s) (es2 := []) ⟨rfl, rfl⟩
      rw [List.append_nil, List.append_nil] at h'
      exact h'
    · rw [if_neg hcf, if_neg hcf]
      have hz := sizeP_at g3 g4 hc.pay (by omega) (tag := tag) hty
      have h := trace_bind_of (f := fun bs =>
        lift (GoSrc.lift (b.dropFrom (addInt (P.length : Int) (uvarint bs).2))) >>= fun t =>
        if tagField (uvarint bs).1 = f then .done (addInt (P.length : Int) (uvarint bs).2, some t)
        else sizeP ((uvarint bs).1 &&& 7#64) t >>= fun n => .done (addInt (addInt (P.length : Int) (uvarint bs).2) n, none)) hr
        (b := ((((P ++ c.bytes).length : Nat) : Int), none)) (s2 := s) (es2 := cells b.arr (b.off + P.length + c.tag.length) (markLen c.val c.pay)) (by
          rw [hu]
          dsimp only
          rw [addInt_nat (by omega), lift_bind_of (a := t2) (by rw [g1]; rfl), if_neg (by rw [htf]; exact hcf)]
          have := trace_bind_of (f := fun n => .done (addInt ((P.length + c.tag.length : Nat) : Int) n, none)) hz (b := ((((P ++ c.bytes).length : Nat) : Int), (none : Option HSlice))) (s2 := s) (es2 := []) (by
            rw [addInt_nat (by omega), show (P ++ c.bytes).length = P.length + c.tag.length + c.pay.length by simp [Chunk.bytes]; omega]
            exact ⟨rfl, rfl⟩)
          rwa [List.append_nil, g2.arr, g2.off, List.length_append (as := P) (bs := c.tag), ← Nat.add_assoc] at this)
      rw [← e2, cells_append] at h
      obtain ⟨n, o, ih, k3⟩ := ih (P ++ c.bytes) (by rw [hd, flat_cons, List.append_assoc]) (fun d hd => hwf d (by simp [hd]))
      refine ⟨n, o, fun fuel hf => ?_, k3⟩
      obtain ⟨k, rfl⟩ : ∃ k, fuel = k + 1 := ⟨fuel - 1, by simp at hf; omega⟩
      obtain ⟨k1, k2⟩ := ih k (by simp at hf; omega)
      rw [e]
      have h' := trace_bind_of (f := fun r : Int × Option HSlice => match r.2 with
        | none => findLoop b f k r.1
        | some t => .done (r.1, some t)) h ⟨k1, k2⟩
      refine ⟨h'.1, ?_⟩
      rw [h'.2, cells_at, cellsAt, cellsAt, cellsAt, ← List.map_append, List.length_append, Nat.add_assoc]

/-- What is left to iterate over. -/
def optVal : Option HSlice → Val
  | none => .nil
  | some t => .bytes (.mem t)

/-- `FindNextField`. -/
theorem findNext_at {b : HSlice} (hlen : b.len < maxLen) (hw : s.h.w.WFs b) (f : Nat) {lb bs : List Byte} {cs : List Chunk} (hv : IsVarint bs.length lb)
    (hd : (s.h.w.slice b).data = lb ++ (bs ++ flat cs)) (hwf : ∀ c ∈ cs, c.WF) :
    ∃ o v, (∀ rt d fuel, cs.length < fuel → (goCall rt fuel (d + 2) .FindNextField [.bytes (.mem b), .const f]).run s = .ok ([optVal o, .bytes (.mem v)], s) ∧
      (goCall rt fuel (d + 2) .FindNextField [.bytes (.mem b), .const f]).trace s = cells b.arr b.off lb.length ++ cellsAt b.arr (seek f (b.off + lb.length + bs.length) cs)) ∧
      (v.arr = b.arr ∧ v.off = b.off + lb.length ∧ v.len = bs.length ∧ s.h.w.WFs v ∧ (s.h.w.slice v).data = bs) ∧
      match splitFirst f cs with
      | none => o = none
      | some (c, post) => ∃ t, o = some t ∧ t.arr = b.arr ∧ s.h.w.WFs t ∧ (s.h.w.slice t).data = c.pay ++ flat post := by
  have hl : b.len = lb.length + (bs.length + (flat cs).length) := by rw [← s.h.w.slice_len hw, hd]; simp
  obtain ⟨v, g1, g2⟩ := range_at hw hd
  obtain ⟨n, o, hl2, k3⟩ := findLoop_at hlen hw f cs (lb ++ bs) (by rw [hd, List.append_assoc]) hwf
  have hr := readVarint_at hw hd hv
  have hu : uvarint lb = (BitVec.ofNat 64 bs.length, (lb.length : Int)) := by have := uvarint_of_isVarint hv []; rwa [List.append_nil] at this
  refine ⟨o, v, fun rt d fuel hf => ?_, g2, k3⟩
  obtain ⟨k1, k2⟩ := hl2 fuel hf
  have e : goCall rt fuel (d + 2) .FindNextField [.bytes (.mem b), .const f] = findNextP b f fuel := prog_FindNextField rt fuel d b f
  rw [e]
  have h := trace_bind_of (f := fun x => lift (GoSrc.lift (b.range (uvarint x).2 (addInt (uvarint x).2 (u64ToInt (uvarint x).1)))) >>= fun msg =>
      findLoop b f fuel (addInt (uvarint x).2 (u64ToInt (uvarint x).1)) >>= fun r =>
        .done [optVal r.2, Val.bytes (.mem msg)]) hr
      (b := [optVal o, Val.bytes (.mem v)]) (s2 := s) (es2 := cellsAt b.arr (seek f (b.off + lb.length + bs.length) cs)) (by
        rw [hu]
        dsimp only
        rw [u64ToInt_nat (by omega), addInt_nat (by omega), lift_bind_of (a := v) (by rw [g1]; rfl)]
        have := trace_bind_of (f := fun r : Int × Option HSlice => .done [optVal r.2, Val.bytes (.mem v)]) ⟨k1, k2⟩
          (b := [optVal o, Val.bytes (.mem v)]) (s2 := s) (es2 := []) ⟨rfl, rfl⟩
        rwa [List.append_nil, List.length_append, ← Nat.add_assoc] at this)
  exact h

end

end Zeropb.GoSrc.Conc
