import Verif.Props.Writes
import Verif.Conc.SetCost
/-!
# C74: how many accesses the setters make

Every access to memory counts: to a byte of a buffer, to an offset, to the header of a slice; and every allocation. A setter that replaces a value by one of the same length makes a number of accesses that
depends on the two values alone, however long the message is and however many fields the type has. The same is true of setting a field that was not there, and of `AppendTo`, if the buffer has room. If the length of
a value changes, the bytes behind it are moved and all offsets are looked at. In no case are there more accesses than a linear function of the message, the value and the number of fields.
-/

set_option linter.constructorNameAsVariable false

namespace Zeropb.GoSrc.Conc
open Zeropb.Gen Zeropb.GoSrc.G Zeropb.Wire
open Zeropb.GoSrc.E (ScalarField MessageField RepeatedField goName goType iterOf num Compilable programOf decl_get decl_message decl_repeated sub_of Compilable.program Compilable.target Runs
  Conforms Shows C65_program scalar_schema message_schema repeated_schema runs_ran conforms_typed)

section
variable {U : Unicode} {fs : List FileDesc} {pkg : Text} (hc : Compilable U fs pkg) {f : FileDesc} (hf : f ∈ fs) {m : Desc} (hm : some m ∈ f.messageType)
include hc hf hm

theorem made_slots {i : Nat} {s : GSt} (h : Made U fs m i s) : (s.h.ms i).a.length = slotsOf m := by
  obtain ⟨hv, rs, c, a1, a2, a3⟩ := made_tracks hc hf hm h
  exact a3.1.off_length

omit hc hf hm in
theorem length_le_bound : ∀ {n : Nat} {l : List Nat}, l.Nodup → (∀ x ∈ l, x < n) → l.length ≤ n
  | 0, l, _, h => by
    cases l with
    | nil => exact Nat.le_refl _
    | cons x l => exact absurd (h x (by simp)) (by omega)
  | n + 1, l, hn, h => by
    have h1 : (l.erase n).length ≤ n := length_le_bound (hn.erase n) fun x hx => by
      have := h x (List.mem_of_mem_erase hx)
      have := (hn.mem_erase_iff.1 hx).1
      omega
    rw [List.length_erase] at h1
    split at h1 <;> omega

/-- No more offsets are in the map than there are fields. -/
theorem made_spilled {i : Nat} {s : GSt} (h : Made U fs m i s) : spilled s i ≤ slotsOf m := by
  obtain ⟨hv, rs, c, a1, a2, a3⟩ := made_tracks hc hf hm h
  obtain ⟨cs, r1, r2⟩ := a3.1.holds
  have hi := r1.inv
  have hl : (s.h.w.offs (s.h.ms i)).a.length = slotsOf m := a3.1.off_length
  have e : spilled s i = (((s.h.w.offs (s.h.ms i)).m.getD []).keys).length := by
    unfold spilled World.offs GoMap.keys
    cases (s.h.ms i).m <;> simp
  rw [e]
  refine length_le_bound hi.nodup fun x hx => ?_
  have h1 : ((s.h.w.offs (s.h.ms i)).mfind x).isSome := by
    unfold Offsets.mfind
    cases hm : (s.h.w.offs (s.h.ms i)).m with
    | none => rw [hm] at hx; exact absurd hx (by simp [GoMap.keys])
    | some g => rw [hm] at hx; exact (GoMap.find_isSome g x).2 hx
  have h2 := (hi.iff x).1 h1
  rw [← hl]
  exact (List.getElem?_eq_some_iff.1 h2).1

theorem argPlaces_length {v' : Wire.Val} {pay' : List Byte} (hp : IsMinPayload v' pay') {i : Nat} {s : GSt} {fd : Field} {name : Text} {args : List GVal} {ps : List (Nat × Nat)} (ha : Assigns U m i s fd name args v' ps) (hi : i < s.next) :
    ps.length ≤ pay'.length := by
  obtain ⟨tag', vl, y, t, b1, b2, b3, b4, _⟩ := assign_becomes hc hf hm ha hi
  rw [← b4, hp.unique b3, List.length_append, src_length b2]
  have := srcBytes_length y
  omega

/-- C74: a value is replaced by one of the same length. -/
theorem C74_overwrite {i : Nat} {s s' : GSt} (h : Made U fs m i s) {fd : Field} {v v' : Wire.Val} {A tag pay pay' B : List Byte}
    (hl : LastRecord (num fd) v (s.h.w.slice (s.h.ms i).buf).data A tag pay B) {name : Text} {args out : List GVal} {ps : List (Nat × Nat)} (ha : Assigns U m i s fd name args v' ps)
    (hp : IsMinPayload v' pay') (hn : pay'.length = pay.length) {rt : Rt} {d : Nat} (hr : G.run (programOf U fs) rt d m.getName name args s = .ok (out, s')) (fuel : Nat) :
    ∃ es, Does (grun (programOf U fs) rt fuel d m.getName name args) s [] s' es ∧ es.length ≤ copied s args + 3 * pay'.length + 6 := by
  obtain ⟨es, g1, g2, g3, _⟩ := C72_overwrite hc hf hm h hl ha hp hn hr fuel
  refine ⟨es, g1, ?_⟩
  obtain ⟨a1, a2⟩ := made_wf hc hf hm h
  have hps := argPlaces_length hc hf hm hp ha a2
  obtain ⟨tag', vl, y, t, b1, b2, b3, b4, ⟨k, e1, e2, e3⟩, t1, t2, t3, b6, b7⟩ := assign_becomes hc hf hm ha a2
  obtain ⟨l1, l2, l3⟩ := made_located hc hf hm h e1 e2 hl
  have hpay : vl.length + strLen y = pay.length := by
    rw [← hn, hp.unique b3, List.length_append, src_length b2]
  have ho := set_same_others (s := t) (i := i) (f := num fd) (x := .lit vl) (y := y) (by rw [t1, t2]; exact a1) (by rw [t1, t2]; exact l1) hl.payload hpay.symm rt tag'
  rw [l3, e3] at ho
  obtain ⟨es0, c1, c2, c3, c4, c5⟩ := b7 rt d fuel
  have ht := c5.trace
  rw [g1.2] at ht
  have hoe : others es ≤ copied s args + 6 := by
    rw [ht, others_append]
    have := others_le es0
    omega
  have hmk := markLen_le v pay
  rw [length_split, g2, g3]
  simp only [inArr, List.length_append, List.length_map, List.length_range']
  omega

/-- C74: a field that the message did not have is set, and the buffer has room. -/
theorem C74_first {i : Nat} {s s' : GSt} (h : Made U fs m i s) {fd : Field} {v' : Wire.Val} {tag' pay' : List Byte}
    (hl : NoRecord (num fd) (s.h.w.slice (s.h.ms i).buf).data) {name : Text} {args out : List GVal} {ps : List (Nat × Nat)} (ha : Assigns U m i s fd name args v' ps)
    (ht : IsMinVarint (num fd * 8 + v'.wireType) tag') (hp : IsMinPayload v' pay') (hroom : (s.h.ms i).buf.len + (tag' ++ pay').length ≤ (s.h.ms i).buf.cap) {rt : Rt} {d : Nat}
    (hr : G.run (programOf U fs) rt d m.getName name args s = .ok (out, s')) (fuel : Nat) :
    ∃ es, Does (grun (programOf U fs) rt fuel d m.getName name args) s [] s' es ∧ es.length ≤ copied s args + tag'.length + 2 * pay'.length + 20 := by
  obtain ⟨es, g1, _, g2⟩ := C72_first hc hf hm h hl ha ht hp hr fuel
  obtain ⟨g2, g3, _⟩ := g2 hroom
  refine ⟨es, g1, ?_⟩
  obtain ⟨a1, a2⟩ := made_wf hc hf hm h
  have hps := argPlaces_length hc hf hm hp ha a2
  obtain ⟨tag, vl, y, t, b1, b2, b3, b4, ⟨k, e1, e2, e3⟩, t1, t2, t3, b6, b7⟩ := assign_becomes hc hf hm ha a2
  obtain ⟨hv, rs, c, c1, c2, c3⟩ := made_tracks hc hf hm h
  obtain ⟨cs, r1, r2⟩ := c3.1.holds
  obtain ⟨rs', h1, h2⟩ := hl
  have hrs : rs' = rs := isMessage_unique h1 c3.1.holds.isMessage
  subst hrs
  have hg : (t.h.w.offs (t.h.ms i)).get (num fd) = .ok (0#64, false) := by
    rw [t1, t2]
    exact r1.get_none ((schemaOf m hv).kind_lt _ (by rw [e1]; simp)) (fun c hc => h2 c.record (by rw [← r2]; exact List.mem_map_of_mem hc))
  have ho := set_first_others hg rt v'.wireType tag (.lit vl) y
  obtain ⟨es0, k1, k2, k3, k4, k5⟩ := b7 rt d fuel
  have ht' := k5.trace
  rw [g1.2] at ht'
  have hoe : others es ≤ copied s args + 20 := by
    rw [ht', others_append]
    have := others_le es0
    omega
  rw [length_split, g2, g3]
  simp only [inArr, List.length_append, List.length_map, List.length_range']
  omega

/-- What `AppendTo` does. -/
theorem append_becomes {i j : Nat} {s s' : GSt} (h : Made U fs m i s) {fd : Field} (hfd : RepeatedField m fd) (hw : s.h.w.WFs (s.h.ms j).buf) (hlen : (s.h.ms j).buf.len + 10 < maxLen)
    {tag' pay' : List Byte} (ht : IsMinVarint (num fd * 8 + 2) tag') (hp : IsMinPayload (.bytes (s.h.w.slice (s.h.ms j).buf).data) pay') {rt : Rt} {d : Nat} {out : List GVal}
    (hr : G.run (programOf U fs) rt d m.getName (t!"AppendTo" ++ goName U fd) [.ptr m.getName i, .struct (goType fd) j] s = .ok (out, s')) :
    ∃ vl u t, t.h.w = s.h.w ∧ t.h.ms i = s.h.ms i ∧ i < t.next ∧ pay'.length = vl.length + (s.h.ms j).buf.len ∧
      (appendSingleP rt i (num fd) tag' (.lit vl) (.mem (s.h.ms j).buf)).run t = .ok (u, s') ∧
      ∀ fuel, ∃ es, es.length = (s.h.ms j).a.length + 4 ∧ (∀ l, .writes l ∉ es) ∧ bytesRead es = [] ∧ Does (grun (programOf U fs) rt fuel d m.getName (t!"AppendTo" ++ goName U fd) [.ptr m.getName i, .struct (goType fd) j]) s [] s'
        (es ++ (appendSingleP rt i (num fd) tag' (.lit vl) (.mem (s.h.ms j).buf)).trace t) := by
  have hv := hc.valid f hf m hm
  obtain ⟨a1, a2⟩ := made_wf hc hf hm h
  obtain ⟨e1, e2⟩ := repeated_schema hv hfd
  have hn := num_small hc hf hm e1
  obtain ⟨tag, t1, t2⟩ := putUvarint64 (tagOf (num fd) 2)
  rw [tagOf_toNat hn (by decide)] at t2
  have et : tag' = tag := ht.unique t2
  subst et
  obtain ⟨vl, h1, h2⟩ := putUvarint64 (BitVec.ofNat 64 (strLen (.mem (s.h.ms j).buf)))
  have hsl : (s.h.w.slice (s.h.ms j).buf).data.length = (s.h.ms j).buf.len := World.slice_len hw
  have hm3 : IsMinPayload (.bytes (s.h.w.slice (s.h.ms j).buf).data) (vl ++ (s.h.w.slice (s.h.ms j).buf).data) := by
    refine ⟨vl, ?_, rfl⟩
    rw [BitVec.toNat_ofNat, Nat.mod_eq_of_lt (by show (s.h.ms j).buf.len < _; unfold maxLen at hlen; omega)] at h2
    rw [hsl]; exact h2
  have ep : pay'.length = vl.length + (s.h.ms j).buf.len := by rw [hp.unique hm3, List.length_append, hsl]
  have hp := hc.program
  obtain ⟨c1, _, ⟨n, c2⟩, _⟩ := hc.target hf hm (.inr hfd)
  have hb : ∀ fuel, ∃ es, (∀ l, .writes l ∉ es) ∧ bytesRead es = [] ∧ es.length = (s.h.ms j).a.length + 4 ∧
      Becomes (grun (programOf U fs) rt fuel d m.getName (t!"AppendTo" ++ goName U fd) [.ptr m.getName i, .struct (goType fd) j]) s
        (appendSingleP rt i (num fd) tag' (.lit vl) (.mem (s.h.ms j).buf)) ⟨s.h.put s.next (s.h.ms j), s.next + 1, s.its⟩ es := fun fuel => by
    obtain ⟨es, b1, b2, b0, b3⟩ := becomes_setBuf (m := fuel) (d := d + 2) (n := d) (rt := rt) (i := i) (j := j) (hp.method (sub_of hf hm _ (decl_repeated hv hfd).2.2.2) rfl) (hp.method c1 rfl)
        (by rw [hp.slots c2]; rfl) (F := t!"AppendBytes") (q := .AppendBytes) rfl s
    refine ⟨es, b1, b2, b0, ?_⟩
    rw [← prog_AppendBytes rt fuel d i (num fd) t1 (CArg.bytes _) h1]
    exact b3
  obtain ⟨⟨u, hu⟩, _⟩ := becomes_does hr fun fuel => (hb fuel).imp fun es he => ⟨he.1, he.2.1, he.2.2.2⟩
  refine ⟨vl, u, ⟨s.h.put s.next (s.h.ms j), s.next + 1, s.its⟩, rfl, ?_, Nat.lt_succ_of_lt a2, ep, hu, fun fuel => ?_⟩
  · simp only [Heap.put]; rw [if_neg (by omega)]
  · obtain ⟨es, b1, b2, b0, b3⟩ := hb fuel
    exact ⟨es, b0, b1, b2, b3.outer hu, b3.trace⟩

/-- C74: an element is appended, and the buffer has room. -/
theorem C74_append {i j : Nat} {s s' : GSt} (h : Made U fs m i s) {fd : Field} (hfd : RepeatedField m fd) (hw : s.h.w.WFs (s.h.ms j).buf) (hlen : (s.h.ms j).buf.len + 10 < maxLen)
    {tag' pay' : List Byte} (ht : IsMinVarint (num fd * 8 + 2) tag') (hp : IsMinPayload (.bytes (s.h.w.slice (s.h.ms j).buf).data) pay')
    (hroom : (s.h.ms i).buf.len + (tag' ++ pay').length ≤ (s.h.ms i).buf.cap) {rt : Rt} {d : Nat} {out : List GVal}
    (hr : G.run (programOf U fs) rt d m.getName (t!"AppendTo" ++ goName U fd) [.ptr m.getName i, .struct (goType fd) j] s = .ok (out, s')) (fuel : Nat) :
    ∃ es, Does (grun (programOf U fs) rt fuel d m.getName (t!"AppendTo" ++ goName U fd) [.ptr m.getName i, .struct (goType fd) j]) s [] s' es ∧
      es.length ≤ (s.h.ms j).a.length + tag'.length + 2 * pay'.length + 24 := by
  obtain ⟨es, g1, _, g2⟩ := C72_append hc hf hm h hfd hw hlen ht hp hr fuel
  obtain ⟨g2, g3, _⟩ := g2 hroom
  refine ⟨es, g1, ?_⟩
  obtain ⟨vl, u, t, k1, k2, k3, k4, k5, k6⟩ := append_becomes hc hf hm h hfd hw hlen ht hp hr
  obtain ⟨es0, m1, _, _, m2⟩ := k6 fuel
  have ho := (upto_appendSingleP rt i (num fd) tag' (.lit vl) (.mem (s.h.ms j).buf)).others t
  have hoe : others es ≤ (s.h.ms j).a.length + 24 := by
    rw [← g1.2, m2.2, others_append]
    have := others_le es0
    omega
  rw [length_split, g2, g3]
  simp only [inArr, placesOf, List.length_append, List.length_map, List.length_range']
  omega

/-- C74: a value is replaced by one of another length, and the buffer has room. The bytes behind the old record are moved, and every offset is looked at. -/
theorem C74_move {i : Nat} {s s' : GSt} (h : Made U fs m i s) {fd : Field} {v v' : Wire.Val} {A tag pay pay' B : List Byte}
    (hl : LastRecord (num fd) v (s.h.w.slice (s.h.ms i).buf).data A tag pay B) {name : Text} {args out : List GVal} {ps : List (Nat × Nat)} (ha : Assigns U m i s fd name args v' ps)
    (hp : IsMinPayload v' pay') (hn : pay'.length ≠ pay.length) (hroom : (A ++ B ++ tag ++ pay').length ≤ (s.h.ms i).buf.cap) {rt : Rt} {d : Nat}
    (hr : G.run (programOf U fs) rt d m.getName name args s = .ok (out, s')) (fuel : Nat) :
    ∃ es, Does (grun (programOf U fs) rt fuel d m.getName name args) s [] s' es ∧
      es.length ≤ copied s args + markLen v pay + 2 * B.length + tag.length + 2 * pay'.length + 10 * slotsOf m + 28 := by
  have hspill := made_spilled hc hf hm h
  obtain ⟨es, g1, _, g2⟩ := C72_move hc hf hm h hl ha hp hn hr fuel
  obtain ⟨g2, g3, _⟩ := g2 hroom
  refine ⟨es, g1, ?_⟩
  obtain ⟨a1, a2⟩ := made_wf hc hf hm h
  have hsl := made_slots hc hf hm h
  have hps := argPlaces_length hc hf hm hp ha a2
  obtain ⟨tag', vl, y, t, b1, b2, b3, b4, ⟨k, e1, e2, e3⟩, t1, t2, t3, b6, b7⟩ := assign_becomes hc hf hm ha a2
  obtain ⟨⟨u, hu⟩, hd⟩ := becomes_does hr fun fuel => (b7 rt d fuel).imp fun es he => ⟨he.1, he.2.1, he.2.2.2.2⟩
  have ho := setSingle_others hu
  have hsp : spilled t i = spilled s i := by unfold spilled; rw [t1, t2]
  rw [t2, hsl, hsp] at ho
  obtain ⟨es0, k1, k2, k3, k4, k5⟩ := b7 rt d fuel
  have ht' := k5.trace
  rw [g1.2] at ht'
  have hoe : others es ≤ copied s args + 2 * slotsOf m + 8 * spilled s i + 28 := by
    rw [ht', others_append]
    have := others_le es0
    omega
  rw [length_split, g2, g3]
  simp only [inArr, List.length_append, List.length_map, List.length_range']
  omega

/-- The message has a record of the field, or it has none. -/
theorem made_record {i : Nat} {s : GSt} (h : Made U fs m i s) (n : Nat) :
    NoRecord n (s.h.w.slice (s.h.ms i).buf).data ∨ ∃ v A tag pay B, LastRecord n v (s.h.w.slice (s.h.ms i).buf).data A tag pay B := by
  obtain ⟨hv, rs, c, a1, a2, a3⟩ := made_tracks hc hf hm h
  obtain ⟨cs, r1, r2⟩ := a3.1.holds
  have hdata : (s.h.w.slice (s.h.ms i).buf).data = flat cs := r1.data
  have hwf := r1.wf
  by_cases hp : ∃ c ∈ cs, c.num = n
  · obtain ⟨pre, c, post, hcs, hcn, hpost⟩ := exists_last hp
    have hcw := hwf c (by rw [hcs]; simp)
    refine .inr ⟨c.val, flat pre, c.tag, c.pay, flat post, ?_, ⟨records pre, ?_⟩, ?_, hcw.pay, records post, ?_, ?_⟩
    · rw [hdata, hcs]; simp [Chunk.bytes]
    · exact isMessage_iff.2 ⟨pre, rfl, fun d hd => hwf d (by rw [hcs]; simp [hd]), rfl⟩
    · rw [← hcn]; exact hcw.tag
    · exact isMessage_iff.2 ⟨post, rfl, fun d hd => hwf d (by rw [hcs]; simp [hd]), rfl⟩
    · intro r hr
      obtain ⟨d, hd, rfl⟩ := List.mem_map.1 hr
      exact hpost d hd
  · refine .inl ⟨records cs, isMessage_iff.2 ⟨cs, hdata.symm, hwf, rfl⟩, ?_⟩
    intro r hr
    obtain ⟨d, hd, rfl⟩ := List.mem_map.1 hr
    exact fun e => hp ⟨d, hd, e⟩

/-- C74: in any case, and whether or not the buffer has room, the number of accesses of a setter is bounded by a linear function of the sizes of the message and of the value and of the number of fields. -/
theorem C74_linear {i : Nat} {s s' : GSt} (h : Made U fs m i s) {fd : Field} {v' : Wire.Val} {pay' : List Byte} {name : Text} {args out : List GVal} {ps : List (Nat × Nat)}
    (ha : Assigns U m i s fd name args v' ps) (hp : IsMinPayload v' pay') {rt : Rt} {d : Nat}
    (hr : G.run (programOf U fs) rt d m.getName name args s = .ok (out, s')) (fuel : Nat) :
    ∃ es, Does (grun (programOf U fs) rt fuel d m.getName name args) s [] s' es ∧
      es.length ≤ copied s args + 5 * (s.h.ms i).buf.len + 4 * pay'.length + 10 * slotsOf m + 68 := by
  have hspill := made_spilled hc hf hm h
  obtain ⟨a1, a2⟩ := made_wf hc hf hm h
  have hsl := made_slots hc hf hm h
  rcases made_record hc hf hm h (num fd) with hno | ⟨v, A, tag, pay, B, hl⟩
  · obtain ⟨tag, vl, y, t, b1, b2, b3, b4, ⟨k, e1, e2, e3⟩, t1, t2, t3, b6, b7⟩ := assign_becomes hc hf hm ha a2
    have ep : pay'.length = vl.length + strLen y := by rw [hp.unique b3, List.length_append, src_length b2]
    obtain ⟨⟨u, hu⟩, hd⟩ := becomes_does hr fun fuel => (b7 rt d fuel).imp fun es he => ⟨he.1, he.2.1, he.2.2.2.2⟩
    obtain ⟨hv, rs, c, c1, c2, c3⟩ := made_tracks hc hf hm h
    obtain ⟨cs, r1, r2⟩ := c3.1.holds
    obtain ⟨rs', h1, h2⟩ := hno
    have hrs : rs' = rs := isMessage_unique h1 c3.1.holds.isMessage
    subst hrs
    have hg : (t.h.w.offs (t.h.ms i)).get (num fd) = .ok (0#64, false) := by
      rw [t1, t2]
      exact r1.get_none ((schemaOf m hv).kind_lt _ (by rw [e1]; simp)) (fun c hc => h2 c.record (by rw [← r2]; exact List.mem_map_of_mem hc))
    have hgo : Goes (setSingleP rt i (num fd) v'.wireType tag (.lit vl) y) t (tailP rt i (num fd) tag (.lit vl) y) t (finding t i (num fd)) := by
      unfold setSingleP
      exact goes_bind (a := (none : Option U64)) (find_at hg)
    have hb := tail_bytes (x := .lit vl) (hgo.1.symm.trans hu) t3 trivial (by rw [t1]; exact b2)
    have ho := set_first_others hg rt v'.wireType tag (.lit vl) y
    obtain ⟨es0, k1, k2, k3, k4, k5⟩ := b7 rt d fuel
    refine ⟨_, ⟨k5.outer hu, k5.trace⟩, ?_⟩
    have ht := b1.1.length_le
    have hs := touched_split ((setSingleP rt i (num fd) v'.wireType tag (.lit vl) y).trace t)
    have hgt := congrArg touched hgo.2
    rw [touched_append] at hgt
    rw [List.length_append, k4]
    have z : touched (finding t i (num fd)) = 0 := by unfold touched; rw [bytesRead_finding, (onlyReads_finding t i _).written]; rfl
    rw [t2] at hb
    rw [show strLen (.lit vl) = vl.length from rfl] at hb
    omega
  · by_cases hn : pay'.length = pay.length
    · obtain ⟨es, g1, g2⟩ := C74_overwrite hc hf hm h hl ha hp hn hr fuel
      exact ⟨es, g1, by omega⟩
    · obtain ⟨tag', vl, y, t, b1, b2, b3, b4, ⟨k, e1, e2, e3⟩, t1, t2, t3, b6, b7⟩ := assign_becomes hc hf hm ha a2
      obtain ⟨l1, l2, l3⟩ := made_located hc hf hm h e1 e2 hl
      have et : tag' = tag := by rw [l3, e3] at l2; exact b1.unique l2
      subst et
      have ep : pay'.length = vl.length + strLen y := by rw [hp.unique b3, List.length_append, src_length b2]
      obtain ⟨⟨u, hu⟩, hd⟩ := becomes_does hr fun fuel => (b7 rt d fuel).imp fun es he => ⟨he.1, he.2.1, he.2.2.2.2⟩
      have hwt : v'.wireType = v.wireType := by rw [l3, e3]
      rw [hwt] at hu
      have hb := moved_bytes (s := t) (i := i) (f := num fd) (x := .lit vl) (y := y) t3 (by rw [t1, t2]; exact a1) (by rw [t1, t2]; exact l1) hl.payload trivial (by rw [t1]; exact b2) b6
        (fun e => hn (ep.trans e.symm)) (by rw [List.length_append]; omega) hu
      have ho := setSingle_others hu
      have hsp : spilled t i = spilled s i := by unfold spilled; rw [t1, t2]
      rw [t2, hsl, hsp] at ho
      rw [t2] at hb
      obtain ⟨es0, k1, k2, k3, k4, k5⟩ := b7 rt d fuel
      rw [hwt] at k5
      refine ⟨_, ⟨k5.outer hu, k5.trace⟩, ?_⟩
      have ht := b1.1.length_le
      rw [List.length_append, touched_split ((setSingleP ..).trace t), k4]
      rw [show strLen (.lit vl) = vl.length from rfl] at hb
      omega

/-- C74: the same for `AppendTo`; the offsets are not looked at. -/
theorem C74_append_linear {i j : Nat} {s s' : GSt} (h : Made U fs m i s) {fd : Field} (hfd : RepeatedField m fd) (hw : s.h.w.WFs (s.h.ms j).buf) (hlen : (s.h.ms j).buf.len + 10 < maxLen)
    {rt : Rt} {d : Nat} {out : List GVal}
    (hr : G.run (programOf U fs) rt d m.getName (t!"AppendTo" ++ goName U fd) [.ptr m.getName i, .struct (goType fd) j] s = .ok (out, s')) (fuel : Nat) :
    ∃ es, Does (grun (programOf U fs) rt fuel d m.getName (t!"AppendTo" ++ goName U fd) [.ptr m.getName i, .struct (goType fd) j]) s [] s' es ∧
      es.length ≤ (s.h.ms j).a.length + 3 * (s.h.ms i).buf.len + 4 * (s.h.ms j).buf.len + 104 := by
  obtain ⟨e1, _⟩ := repeated_schema (hc.valid f hf m hm) hfd
  have hn := num_small hc hf hm e1
  obtain ⟨tag, _, t2⟩ := putUvarint64 (tagOf (num fd) 2)
  rw [tagOf_toNat hn (by decide)] at t2
  obtain ⟨vl, _, h2⟩ := putUvarint64 (BitVec.ofNat 64 (strLen (.mem (s.h.ms j).buf)))
  have hsl : (s.h.w.slice (s.h.ms j).buf).data.length = (s.h.ms j).buf.len := World.slice_len hw
  have hm3 : IsMinPayload (.bytes (s.h.w.slice (s.h.ms j).buf).data) (vl ++ (s.h.w.slice (s.h.ms j).buf).data) := by
    refine ⟨vl, ?_, rfl⟩
    rw [BitVec.toNat_ofNat, Nat.mod_eq_of_lt (by show (s.h.ms j).buf.len < _; unfold maxLen at hlen; omega)] at h2
    rw [hsl]; exact h2
  have l1 := t2.1.length_le
  have l2 := h2.1.length_le
  obtain ⟨vl', u, t, k1, k2, k3, k4, k5, k6⟩ := append_becomes hc hf hm h hfd hw hlen t2 hm3 hr
  obtain ⟨es0, m1, _, _, m2⟩ := k6 fuel
  have ho := (upto_appendSingleP rt i (num fd) tag (.lit vl') (.mem (s.h.ms j).buf)).others t
  have hb := appendSingle_bytes (x := .lit vl') (y := .mem (s.h.ms j).buf) k5 k3 trivial (by rw [k1]; exact hw)
  have hs := touched_split ((appendSingleP rt i (num fd) tag (.lit vl') (.mem (s.h.ms j).buf)).trace t)
  rw [k2] at hb
  simp only [strLen] at hb
  rw [List.length_append, hsl] at k4
  refine ⟨_, m2, ?_⟩
  rw [List.length_append]
  omega

end

open Zeropb.GoSrc.E (testFile_compilable testFile_has)

/-! The message of test.proto of `Props/Writes.lean`, 22 bytes in a buffer of 42: field 14 is overwritten, moved, field 1 is set for the first time and an element of field 34 is appended. -/
example (rt : Rt) : ∃ s, Made asciiUnicode [testFile] testDesc 0 s ∧ slotsOf testDesc = 35 ∧
    (∃ fd s' es, num fd = 14 ∧ Does (grun (programOf asciiUnicode [testFile]) rt 0 0 testDesc.getName (t!"Set" ++ goName asciiUnicode fd) [.ptr testDesc.getName 0, .val (.str (.mem ⟨1, 0, 3, 3⟩))]) s [] s' es ∧
      es.length ≤ 18) ∧
    (∃ fd s' es, num fd = 14 ∧ Does (grun (programOf asciiUnicode [testFile]) rt 0 0 testDesc.getName (t!"Set" ++ goName asciiUnicode fd) [.ptr testDesc.getName 0, .val (.str (.mem ⟨2, 0, 5, 5⟩))]) s [] s' es ∧
      es.length ≤ 76 + 10 * 35) ∧
    (∃ fd s' es, num fd = 14 ∧ Does (grun (programOf asciiUnicode [testFile]) rt 0 0 testDesc.getName (t!"Set" ++ goName asciiUnicode fd) [.ptr testDesc.getName 0, .val (.str (.mem ⟨2, 0, 5, 5⟩))]) s [] s' es ∧
      es.length ≤ 5 * 22 + 4 * 6 + 10 * 35 + 68) ∧
    (∃ fd s' es, num fd = 1 ∧ Does (grun (programOf asciiUnicode [testFile]) rt 0 0 testDesc.getName (t!"Set" ++ goName asciiUnicode fd) [.ptr testDesc.getName 0, .val (.bool true)]) s [] s' es ∧
      es.length ≤ 23) ∧
    ∃ fd s' es, num fd = 34 ∧ Does (grun (programOf asciiUnicode [testFile]) rt 0 0 testDesc.getName (t!"AppendTo" ++ goName asciiUnicode fd) [.ptr testDesc.getName 0, .struct (goType fd) 1]) s [] s' es ∧
      es.length ≤ (s.h.ms 1).a.length + 28 ∧ es.length ≤ (s.h.ms 1).a.length + 3 * 22 + 4 * 0 + 104 := by
  have hc := testFile_compilable
  obtain ⟨hf, hm⟩ := testFile_has
  obtain ⟨s, hmade, harr, hbuf, hd, h1⟩ := room_decoded
  have hlast := room_last hd
  have hw1 : s.h.w.WFs ⟨1, 0, 3, 3⟩ := ⟨by decide, by unfold World.arr; rw [harr]; decide +kernel⟩
  have hw2 : s.h.w.WFs ⟨2, 0, 5, 5⟩ := ⟨by decide, by unfold World.arr; rw [harr]; decide +kernel⟩
  have hs1 : s.h.w.src (.mem ⟨1, 0, 3, 3⟩) = [0x61#8, 0x62#8, 0x63#8] := by
    show (s.h.w.slice _).data = _; rw [slice_arrs harr]; decide +kernel
  have hs2 : s.h.w.src (.mem ⟨2, 0, 5, 5⟩) = [0x68#8, 0x65#8, 0x6c#8, 0x6c#8, 0x6f#8] := by
    show (s.h.w.slice _).data = _; rw [slice_arrs harr]; decide +kernel
  have ha : ∀ {k n c : Nat}, k ≠ 0 → s.h.w.WFs ⟨k, 0, n, c⟩ → (Val.str (.mem ⟨k, 0, n, c⟩)).Apart s.h.w (s.h.ms 0).buf := by
    intro k n c hk hw y hy
    have : y = .mem ⟨k, 0, n, c⟩ := by rcases hy with hy | hy <;> cases hy; rfl
    subst this
    refine ⟨hw, fun p _ _ ho => ?_⟩
    rw [hbuf] at ho
    exact hk ho.1.symm
  have hsl : slotsOf testDesc = 35 := by decide +kernel
  obtain ⟨fd, hn, hfd⟩ := room_string
  obtain ⟨fb, hnb, hfb⟩ := room_bool
  obtain ⟨fr, hnr, hfr⟩ := room_repeated
  rw [← hn] at hlast
  refine ⟨s, hmade, hsl, ?_, ?_, ?_, ?_, ?_⟩
  · obtain ⟨s', r, _⟩ := C72_succeeds hc hf hm hmade (rt := rt) (.set hfd ⟨_, rfl, hs1⟩ (ha (by decide) hw1) (by decide)) (by rw [hbuf]; show 22 + (20 + _) < maxLen; decide) 0
    obtain ⟨es, g1, g2⟩ := C74_overwrite hc hf hm hmade hlast (.scalar (k := .string) hfd ⟨_, rfl, hs1⟩ (fun y hy => apart_wfsrc (ha (by decide) hw1 y hy)) (by decide))
      (pay' := [0x03#8, 0x61#8, 0x62#8, 0x63#8]) ⟨[0x03#8], skim1 0x03#8 (by decide), rfl⟩ rfl r 0
    exact ⟨fd, s', es, hn, g1, g2⟩
  · obtain ⟨s', r, _⟩ := C72_succeeds hc hf hm hmade (rt := rt) (.set hfd ⟨_, rfl, hs2⟩ (ha (by decide) hw2) (by decide)) (by rw [hbuf]; show 22 + (20 + _) < maxLen; decide) 0
    obtain ⟨es, g1, g2⟩ := C74_move hc hf hm hmade hlast (.scalar (k := .string) hfd ⟨_, rfl, hs2⟩ (fun y hy => apart_wfsrc (ha (by decide) hw2 y hy)) (by decide))
      (pay' := [0x05#8, 0x68#8, 0x65#8, 0x6c#8, 0x6c#8, 0x6f#8]) ⟨[0x05#8], skim1 0x05#8 (by decide), rfl⟩ (by decide) (by rw [hbuf]; decide) r 0
    exact ⟨fd, s', es, hn, g1, Nat.le_trans g2 (by rw [hsl]; simp only [copied]; decide +kernel)⟩
  · obtain ⟨s', r, _⟩ := C72_succeeds hc hf hm hmade (rt := rt) (.set hfd ⟨_, rfl, hs2⟩ (ha (by decide) hw2) (by decide)) (by rw [hbuf]; show 22 + (20 + _) < maxLen; decide) 0
    obtain ⟨es, g1, g2⟩ := C74_linear hc hf hm hmade (.scalar (k := .string) hfd ⟨_, rfl, hs2⟩ (fun y hy => apart_wfsrc (ha (by decide) hw2 y hy)) (by decide))
      (pay' := [0x05#8, 0x68#8, 0x65#8, 0x6c#8, 0x6c#8, 0x6f#8]) ⟨[0x05#8], skim1 0x05#8 (by decide), rfl⟩ r 0
    exact ⟨fd, s', es, hn, g1, Nat.le_trans g2 (by rw [hsl, hbuf]; simp only [copied]; decide +kernel)⟩
  · have hno : NoRecord (num fb) (s.h.w.slice (s.h.ms 0).buf).data := by
      rw [hd, hnb]
      exact ⟨_, skimmed_skims.isMessage, by decide⟩
    obtain ⟨s', r, _⟩ := C72_succeeds hc hf hm hmade (rt := rt) (.set (k := .bool) (x := true) hfb rfl (fun _ h => by rcases h with h | h <;> cases h) (by decide)) (by rw [hbuf]; show 22 + (20 + _) < maxLen; decide) 0
    obtain ⟨es, g1, g2⟩ := C74_first hc hf hm hmade hno (.scalar (k := .bool) (x := true) hfb rfl (fun _ h => by rcases h with h | h <;> cases h) (by decide))
      (tag' := [0x08#8]) (pay' := [0x01#8]) (by rw [hnb]; exact skim1 0x08#8 (by decide)) (skim1 0x01#8 (by decide)) (by rw [hbuf]; decide) r 0
    exact ⟨fb, s', es, hnb, g1, g2⟩
  · have hz : (s.h.ms 1).buf = ⟨0, 0, 0, 0⟩ := by rw [h1]; rfl
    have hwz : s.h.w.WFs (s.h.ms 1).buf := by rw [hz]; exact ⟨by decide, Nat.zero_le _⟩
    obtain ⟨s', r, _⟩ := C72_succeeds hc hf hm hmade (rt := rt) (.append hfr (j := 1) ⟨hwz, fun p _ hp => by rw [hz] at hp; exact absurd hp (by simp)⟩ (by rw [hz]; decide))
      (by
        have := World.slice_len hwz
        rw [hz] at this
        simp only [Zeropb.Op.cost, World.src, hz, hbuf]
        unfold maxLen; simp only at this; omega) 0
    obtain ⟨es, g1, g2⟩ := C74_append hc hf hm hmade hfr hwz (by rw [hz]; decide) (tag' := [0x92#8, 0x02#8]) (pay' := [0x00#8]) (by
        rw [hnr]; exact ⟨t274, .inr (by decide)⟩) (by
        have : (s.h.w.slice (s.h.ms 1).buf).data = [] := by
          have := World.slice_len hwz
          rw [hz] at this ⊢
          exact List.length_eq_zero_iff.1 this
        rw [this]
        exact ⟨[0x00#8], skim1 0x00#8 (by decide), rfl⟩) (by rw [hbuf]; decide) r 0
    obtain ⟨es', g3, g4⟩ := C74_append_linear hc hf hm hmade hfr hwz (by rw [hz]; decide) r 0
    have : es' = es := g3.2.symm.trans g1.2
    subst this
    rw [hz, hbuf] at g4
    exact ⟨fr, s', es', hnr, g1, g2, g4⟩

end Zeropb.GoSrc.Conc
