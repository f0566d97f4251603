import Verif.Conc.GenSafe
import Verif.Conc.SetHalt
/-!
# What a goroutine may use after a panic

The counterparts of the theorems of `Conc/GenSafe` for calls that panic: the goroutine may use the same structs and iterators as if the call had returned.
-/

set_option linter.constructorNameAsVariable false

namespace Zeropb.GoSrc.Conc
open Zeropb.Gen Zeropb.GoSrc.G

section
variable {p : Program} {R W : Loc → Prop} {s : GSt} {i m d n lv : Nat} {rt : Rt} {msg : Text} {g : Rights}

theorem OnStop.on {lv : Nat} {s' : GSt} (h : OnStop R W lv i s s') : Keeps (On lv i) s s' := h.keeps.mono fun _ x => x.2

/-- A call of a function of package zeropb without structs. -/
theorem safez_off (hf : Fresh R W s) {f : Id} (hc : callable 0 f = true) {args : List Val} (ha : ∀ v ∈ args, Readable R v) (m d : Nat) :
    (goCall rt m d f args).SafeZ (Keeps (On 0 i) s) R W (fun rs s' => Keeps (On 0 i) s s' ∧ ∀ t, .bytes (.mem t) ∈ rs ∨ .str (.mem t) ∈ rs → Reaches R t) s := by
  have cell : ∀ a q, s.h.w.arrs.length ≤ a → R (.cell a q) ∧ W (.cell a q) := fun a q h => hf.new (.cell a q) (by simp only [Loc.Old, Base.of]; omega)
  have mp : ∀ id, s.h.w.maps.length ≤ id → R (.map id) ∧ W (.map id) := fun id h => hf.new (.map id) (by simp only [Loc.Old, Base.of]; omega)
  have hP : (permOf R (fun l => W l ∧ On 0 i l) s 0 (fun _ => False)).Ok :=
    ⟨Nat.zero_le _, nofun, nofun, nofun, nofun, nofun, nofun, nofun, fun a q h => (cell a q h).1, fun a q h => ⟨(cell a q h).2, trivial⟩,
      fun id hi => ⟨(mp id hi).1, fun _ => ⟨(mp id hi).2, trivial⟩⟩⟩
  have hI : (permOf R (fun l => W l ∧ On 0 i l) s 0 (fun _ => False)).Inv s := ⟨nofun, nofun, nofun, Nat.le_refl _, Nat.le_refl _, nofun⟩
  refine (safe_goCall hP m d f args s hc hI ?_).keeps.mono (fun _ x => x.2.mono fun l y => y.2) (fun _ x => x) (fun _ x => x.1) ?_
  · intro v hv
    rcases ha v hv with h | ⟨t, rfl | rfl, h⟩
    · exact .plain h
    · exact .bytes h
    · exact .str h
  · rintro rs s' ⟨⟨hi, hv⟩, hk⟩
    refine ⟨hk.mono fun l x => x.2, ?_⟩
    rintro t (ht | ht)
    · exact (hv _ ht).bytes_inv
    · cases hv _ ht with
      | plain h => cases h
      | str h => exact h

/-- `Encode`. -/
theorem gholds_encode {call : Calls} (hm : method p msg t!"Encode" = some (srcEncode msg)) (h : Holds R W g s) (hi : g.level i = some lv) :
    (gcallMethod p call (n + 1) msg t!"Encode" [.ptr msg i]).SafeZ (Holds R W g) R W (After R W g) s := by
  have := gsafe_encode (call := call) (n := n) hm h hi
  rw [gcallMethod, hm] at this ⊢
  exact ⟨this.1, this.2⟩

/-- A getter of a scalar field. -/
theorem gholds_get (h : Holds R W g s) (hi : g.level i = some lv) {name goType fn : Text} {f : Nat} {q : Id} (hm : method p msg name = some (G.srcGet msg name goType fn f))
    (hg : pkgFunc (t!"Get" ++ fn) = some q) (hc : callable 0 q = true) :
    (gcallMethod p (goCall rt m (d + 1)) (n + 1) msg name [.ptr msg i]).SafeZ (Holds R W g) R W (After R W g) s := by
  obtain ⟨_, _, hh⟩ := h.struct i lv hi
  rw [gcallMethod, hm]
  have he := geval_getter (p := p) (meth := gcallMethod p (goCall rt m (d + 1)) n) (env := [(t!"m", .ptr msg i)]) (t := msg) (conc_WrapOffsets rt m d i) rfl hg f
  simp only [ginvoke, G.srcGet, gbindAll, block, gexec, Prog.bind_done]
  rw [geval, he]
  refine Prog.safez_bind (Prog.safez_bind (Prog.safez_bind ⟨hh.buf, ?_⟩))
  refine Prog.safez_bind ((safez_on (Nat.zero_le _) h.fresh (hh.mono (Nat.zero_le _)) hc (getter_args hh) m (d + 1)).mono (fun s' hr => h.quiet hr.on) (fun _ x => x) (fun _ x => x) fun rs s' hr => ?_)
  exact safez_ite ⟨h.quiet hr.1.on, outOk_map hr.2⟩ (h.quiet hr.1.on)

/-- A setter of a scalar field. -/
theorem gholds_set (h : Holds R W g s) (hi : g.level i = some 2) {name goType fn : Text} {f : Nat} {q : Id} (hm : method p msg (t!"Set" ++ name) = some (G.srcSet msg name goType fn f))
    (hg : pkgFunc (t!"Set" ++ fn) = some q) (ht : slots p goType = none) {v : Val} (hv : Readable R v) :
    (gcallMethod p (goCall rt m (d + 1)) (n + 1) msg (t!"Set" ++ name) [.ptr msg i, .val v]).SafeZ (Holds R W (g.set i 2)) R W (fun _ s' => Holds R W (g.set i 2) s') s := by
  obtain ⟨_, hlt, hh⟩ := h.struct i 2 hi
  have ok : ∀ s', OnStop R W 2 i s s' → Holds R W (g.set i 2) s' := fun s' hr => h.change hr.on (Nat.le_refl _) (Nat.lt_of_lt_of_le hlt hr.on.next) hr.has
  exact (gsafez_set h.fresh hh hm hg ht hv).mono ok (fun _ x => x) (fun _ x => x) fun _ => ok

/-- Setters of message fields. -/
theorem gholds_setBuf (h : Holds R W g s) (hi : g.level i = some 2) {mname typ F : Text} {f j lj : Nat} (hj : g.level j = some lj) {q : Id}
    (hm : method p msg mname = some ⟨(t!"m", msg), mname, [(t!"x", .name typ)], [],
      block [.define t!"buf" (.method (.id t!"x") t!"Encode" .noArgs),
        .expr (.pkg F (.args (.addr mbuf) (.args wrap (.args (.num f) (.arg (.id t!"buf"))))))]⟩)
    (he : method p typ t!"Encode" = some (G.srcEncode typ)) (hs : (slots p typ).isSome) (hF : pkgFunc F = some q) :
    (gcallMethod p (goCall rt m (d + 1)) (n + 2) msg mname [.ptr msg i, .struct typ j]).SafeZ (Holds R W (g.set i 2)) R W (fun _ s' => Holds R W (g.set i 2) s') s := by
  obtain ⟨_, hlt, hh⟩ := h.struct i 2 hi
  obtain ⟨_, _, hhj⟩ := h.struct j lj hj
  have hk : Keeps (On 0 i) s ⟨s.h.put s.next (s.h.ms j), s.next + 1, s.its⟩ := keeps_newStruct (s.h.ms j) s
  have ok : ∀ s', OnStop R W 2 i ⟨s.h.put s.next (s.h.ms j), s.next + 1, s.its⟩ s' → Holds R W (g.set i 2) s' := fun s' hr =>
    (h.quiet hk).change hr.on (Nat.le_refl _) (Nat.lt_of_lt_of_le hlt (Nat.le_trans hk.next hr.on.next)) hr.has
  exact (gsafez_setBuf h.fresh hlt hh hhj hm he hs hF).mono ok (fun _ x => x) (fun _ x => x) fun _ => ok

/-- The getter of a repeated message field. -/
theorem gholds_getRepeated (h : Holds R W g s) (hi : g.level i = some lv) {name it : Text} {f : Nat} (hm : method p msg name = some (srcGetRepeated msg name it f)) :
    (gcallMethod p (goCall rt m (d + 1)) (n + 1) msg name [.ptr msg i]).SafeZ (Holds R W g) R W (fun _ s' => Holds R W g s') s := by
  obtain ⟨_, _, hh⟩ := h.struct i lv hi
  rw [gcallMethod, hm]
  have he := geval_getter (p := p) (meth := gcallMethod p (goCall rt m (d + 1)) n) (env := [(t!"m", .ptr msg i)]) (t := msg) (conc_WrapOffsets rt m d i) rfl
    (f := t!"GetRepeatedNonPacked") (g := .GetRepeatedNonPacked) rfl f
  simp only [ginvoke, srcGetRepeated, gbindAll, block, gexec, Prog.bind_done]
  rw [geval, geval, he]
  refine Prog.safez_bind (Prog.safez_bind (Prog.safez_bind (Prog.safez_bind ⟨hh.buf, ?_⟩)))
  refine Prog.safez_bind ((safez_on (Nat.zero_le _) h.fresh (hh.mono (Nat.zero_le _)) rfl (getter_args hh) m (d + 1)).mono (fun s' hr => h.quiet hr.on) (fun _ x => x) (fun _ x => x) fun rs s' hr => ?_)
  have hq := h.quiet hr.1.on
  refine Prog.safez_bind (safez_lift (fun x hx => ?_) hq)
  split
  · split
    · exact safez_ite hq hq
    · exact safez_ite hq hq
    · exact hq
  · exact hq

/-- `Decode`. -/
theorem gholds_decode (h : Holds R W g s) (hi : g.level i = some lv) (hlv : 1 ≤ lv) {rep : Nat → Bool} (hm : method p msg t!"Decode" = some (G.srcDecode msg))
    (hg : global p (t!"repeatedFields_" ++ msg) = some (.val (.reps rep))) {b : HSlice} (hb : Reaches R b) {lv' : Nat} (h2 : lv' ≤ 2) (hw : 2 ≤ lv' → Reaches W b) :
    (gcallMethod p (goCall rt m (d + 1)) (n + 1) msg t!"Decode" [.ptr msg i, .val (.bytes (.mem b))]).SafeZ (Holds R W (g.set i lv')) R W (fun _ _ => True) s := by
  obtain ⟨_, hlt, hh⟩ := h.struct i lv hi
  have hs1 : Has R W lv' ((Write.buf i b).apply s) i := hh.fill hlv hb hw
  have hk1 : Keeps (On 2 i) s ((Write.buf i b).apply s) := keeps_write s ⟨rfl, Nat.le_refl _⟩
  refine (gsafez_decode h.fresh (hh.mono hlv) hm hg hb).mono (fun s' hr => ?_) (fun _ x => x) (fun _ x => x) fun _ _ x => x
  refine h.change (hk1.trans (hr.on.mono fun l x => x.mono (by decide))) h2 ?_ ?_
  · exact Nat.lt_of_lt_of_le hlt (Nat.le_trans hk1.next hr.on.next)
  · exact hs1.kept (Nat.lt_of_lt_of_le hlt hk1.next) hr.has (Nat.le_refl _) hr.on

/-- What follows a program that is safe, and whose result is as it should be. -/
theorem Prog.SafeZ.both {α : Type} {Z : GSt → Prop} {Q Q' : α → GSt → Prop} {p : Prog α} (h : p.SafeZ Z R W Q s) (h' : p.Safe R W Q' s) : p.SafeZ Z R W (fun a s' => Q a s' ∧ Q' a s') s := by
  induction p generalizing s with
  | done a => exact ⟨h, h'⟩
  | stop e => exact h
  | load l k ih => exact ⟨h.1, ih _ h.2 h'.2⟩
  | store w k ih => exact ⟨h.1, ih h.2 h'.2⟩
  | newArr bs k ih => exact ih _ h h'
  | newMap k ih => exact ih _ h h'
  | newStruct m k ih => exact ih _ h h'

/-- `Decode` of something that is not bytes. -/
theorem gholds_decode_stuck {Z : GSt → Prop} (hz : Z s) (hm : method p msg t!"Decode" = some (G.srcDecode msg)) {v : Val} (hv : ∀ env, gstore (.buf i) (.val v) env = .stop .stuck) {Q : List GVal → GSt → Prop} :
    (gcallMethod p (goCall rt m (d + 1)) (n + 1) msg t!"Decode" [.ptr msg i, .val v]).SafeZ Z R W Q s := by
  rw [gcallMethod, hm]
  have h3 : geval p (goCall rt m (d + 1)) (gcallMethod p (goCall rt m (d + 1)) n) [(t!"m", .ptr msg i), (t!"buf", .val v)] (.id t!"buf") = .done [.val v] := rfl
  simp only [ginvoke, G.srcDecode, gbindAll, gbindArg, block, gexec, Prog.bind_done]
  rw [h3]
  simp only [Prog.bind_done, single, lift, place_mbuf (t := msg) (i := i) (env := [(t!"m", .ptr msg i), (t!"buf", .val v)]) rfl, hv]
  exact hz

/-- `if buf == nil { return false, nil }; return true, x.Decode(buf)` -/
theorem gholds_tail (h : Holds R W g s) {typ x : Text} {env : Env} {j : Nat} (hj : g.level j = some lv) (hlv : 1 ≤ lv) {rep : Nat → Bool}
    (hm : method p typ t!"Decode" = some (G.srcDecode typ)) (hg : global p (t!"repeatedFields_" ++ typ) = some (.val (.reps rep)))
    {v : Val} (hb : ∀ b, v = .bytes (.mem b) → Reaches R b)
    (hbuf : G.get t!"buf" env = some (.val v)) (hx : G.get x env = some (.ptr typ j)) :
    (gexec p (goCall rt m (d + 1)) (gcallMethod p (goCall rt m (d + 1)) (n + 1)) (block [ifNil, retDecode x]) env).SafeZ (Holds R W (g.set j 1)) R W (fun _ s' => Holds R W (g.set j 1) s') s := by
  have hz : Holds R W (g.set j 1) s := h.lower hj hlv
  have hc : geval p (goCall rt m (d + 1)) (gcallMethod p (goCall rt m (d + 1)) (n + 1)) env (.eq (.id t!"buf") .nil) =
      (lift (binop .eq v .nil) >>= fun u => .done [.val u]) := by
    simp only [geval, hbuf]; rfl
  rw [block, gexec, ifNil, gexec, hc]
  refine Prog.safez_bind (Prog.safez_bind (Prog.safez_bind (safez_lift (fun u hu => ?_) hz)))
  simp only [Prog.SafeZ, singleVal, lift, Prog.bind_done]
  split
  · simp only [block, gexec, geval, Prog.bind_done]
    exact hz
  · next hv =>
    simp only [Prog.SafeZ, block, retDecode, gexec]
    simp only [geval, hbuf, hx, Prog.bind_done, single, lift]
    have hd : (gcallMethod p (goCall rt m (d + 1)) (n + 1) typ t!"Decode" [.ptr typ j, .val v]).SafeZ (Holds R W (g.set j 1)) R W (fun _ s' => Holds R W (g.set j 1) s') s := by
      cases v with
      | bytes y =>
        cases y with
        | mem b =>
          exact ((gholds_decode h hj hlv hm hg (hb b rfl) (by decide) (fun h => by omega)).both
            (gsafe_decode h hj hlv hm hg hb (lv' := 1) (by decide) (by decide) (fun h => by omega))).imp fun _ _ x => x.2.1
        | lit bs => exact gholds_decode_stuck hz hm fun _ => rfl
      | nil => injection hu with hu; injection hu with hu; cases hu
      | _ => exact gholds_decode_stuck hz hm fun _ => rfl
    exact Prog.safez_bind (Prog.safez_bind (Prog.safez_bind (hd.imp fun out s' ho => ho)))
  · exact hz

/-- The getter of a message field. -/
theorem gholds_getMessage (h : Holds R W g s) (hi : g.level i = some lv) {name typ : Text} {f j lj : Nat} (hj : g.level j = some lj) (hlj : 1 ≤ lj) {rep : Nat → Bool}
    (hm : method p msg name = some (G.srcGetMessage msg name typ f)) (hd : method p typ t!"Decode" = some (G.srcDecode typ))
    (hg : global p (t!"repeatedFields_" ++ typ) = some (.val (.reps rep))) :
    (gcallMethod p (goCall rt m (d + 1)) (n + 2) msg name [.ptr msg i, .ptr typ j]).SafeZ (Holds R W (g.set j 1)) R W (fun _ s' => Holds R W (g.set j 1) s') s := by
  obtain ⟨_, _, hh⟩ := h.struct i lv hi
  rw [gcallMethod, hm]
  have he := geval_getter (p := p) (meth := gcallMethod p (goCall rt m (d + 1)) (n + 1)) (env := [(t!"m", .ptr msg i), (t!"x", .ptr typ j)]) (t := msg) (conc_WrapOffsets rt m d i) rfl
    (f := t!"GetBytes") (g := .GetBytes) rfl f
  simp only [ginvoke, G.srcGetMessage, gbindAll, gbindArg, if_true, Prog.bind_done]
  rw [block, gexec, gexec, he]
  refine Prog.safez_bind (Prog.safez_bind (Prog.safez_bind ⟨hh.buf, ?_⟩))
  refine Prog.safez_bind ((safez_on (Nat.zero_le _) h.fresh (hh.mono (Nat.zero_le _)) rfl (getter_args hh) m (d + 1)).mono
    (fun s' hr => (h.quiet hr.on).lower hj hlj) (fun _ x => x) (fun _ x => x) fun rs s' hr => ?_)
  have hq := h.quiet hr.1.on
  refine Prog.safez_bind (safez_lift (fun x hx => ?_) (hq.lower hj hlj))
  obtain ⟨v, rfl, rfl⟩ := one_result hx
  refine (gholds_tail (p := p) (m := m) (d := d) (n := n) (rt := rt) (x := t!"x") (env := [(t!"buf", .val v), (t!"m", .ptr msg i), (t!"x", .ptr typ j)]) hq hj hlj hd hg ?_ rfl rfl).imp ?_
  · rintro b rfl; exact hr.2 b (by simp)
  · intro o s' ho
    cases o with
    | next env => exact ho
    | ret out => exact safez_ite ho ho

/-- `Next` of an iterator. -/
theorem gholds_next (h : Holds R W g s) {it typ : Text} {f v j lj : Nat} (hv : g.iter v) (hj : g.level j = some lj) (hlj : 1 ≤ lj) {rep : Nat → Bool}
    (hm : method p it t!"Next" = some (G.srcNext it typ f)) (hd : method p typ t!"Decode" = some (G.srcDecode typ))
    (hg : global p (t!"repeatedFields_" ++ typ) = some (.val (.reps rep))) :
    (gcallMethod p (goCall rt m (d + 1)) (n + 2) it t!"Next" [.iter it v, .ptr typ j]).SafeZ (Holds R W (g.set j 1)) R W (fun _ s' => Holds R W (g.set j 1) s') s := by
  obtain ⟨hr1, hw1, hb⟩ := h.iter v hv
  rw [gcallMethod, hm]
  have hl : geval p (goCall rt m (d + 1)) (gcallMethod p (goCall rt m (d + 1)) (n + 1))
      [(t!"buf", .val .nil), (t!"i", .iter it v), (t!"m", .ptr typ j)] (.args (.paren (.star (.id t!"i"))) (.arg (.num f))) =
      .load (.iter v) fun (o : Option HSlice) => .done [.val (match o with | none => .nil | some b => .bytes (.mem b)), .val (.const f)] := by
    have h0 : (0 : Int) ≤ (f : Int) := Int.natCast_nonneg f
    simp only [geval, h0, if_true, Int.toNat_natCast,
      show place [(t!"buf", .val .nil), (t!"i", .iter it v), (t!"m", .ptr typ j)] (.star (.id t!"i")) = .ok (.iter v) from rfl]
    rfl
  simp only [ginvoke, G.srcNext, gbindAll, gbindArg, if_true, Prog.bind_done]
  rw [block, gexec, gexec, Prog.bind_done]
  dsimp only
  rw [block, gexec, gexec, geval, hl]
  simp only [show place [(t!"buf", .val .nil), (t!"i", .iter it v), (t!"m", .ptr typ j)] (.star (.id t!"i")) = .ok (.iter v) from rfl,
    show place [(t!"buf", .val .nil), (t!"i", .iter it v), (t!"m", .ptr typ j)] (.id t!"buf") = .ok (.var t!"buf") from rfl, lift, Prog.bind_done]
  refine Prog.safez_bind (Prog.safez_bind (Prog.safez_bind (Prog.safez_bind ⟨hr1, ?_⟩)))
  have hx := gruntime_eq (call := goCall rt m (d + 1)) (f := t!"FindNextField") (g := .FindNextField) rfl
    [(match s.its v with | none => .nil | some b => .bytes (.mem b)), .const f]
  show Prog.SafeZ _ _ _ _ (gruntime _ _ ([(match s.its v with | none => .nil | some b => .bytes (.mem b)), .const f].map GVal.val)) _
  rw [hx]
  refine Prog.safez_bind ((safez_off (i := 0) h.fresh (f := .FindNextField) rfl ?_ m (d + 1)).mono (fun s' hr => (h.quiet hr).lower hj hlj) (fun _ x => x) (fun _ x => x) fun rs s' hr => ?_)
  · intro x hx
    simp only [List.mem_cons, List.not_mem_nil, or_false] at hx
    rcases hx with rfl | rfl
    · cases e : s.its v with
      | none => exact Or.inl rfl
      | some b => exact Or.inr ⟨b, Or.inl rfl, hb b e⟩
    · exact Or.inl rfl
  have hq := h.quiet hr.1
  have hz := hq.lower hj hlj
  match rs, hr with
  | [], _ => exact hz
  | [_], _ => exact hz
  | _ :: _ :: _ :: _, _ => exact hz
  | [x1, x2], hr =>
    simp only [List.map_cons, List.map_nil]
    rcases gstore_iter v x1 [(t!"buf", .val .nil), (t!"i", .iter it v), (t!"m", .ptr typ j)] with hst | ⟨o, hst, ho⟩
    · simp only [Prog.SafeZ]; rw [hst]; exact hz
    simp only [Prog.SafeZ]
    rw [hst]
    refine ⟨hw1, ?_⟩
    have hq2 := hq.point (v := v) (o := o) fun b e => hr.2 b (Or.inl (by rw [ho b e]; simp))
    refine (gholds_tail (p := p) (m := m) (d := d) (n := n) (rt := rt) (x := t!"m") (env := [(t!"buf", .val x2), (t!"i", .iter it v), (t!"m", .ptr typ j)]) hq2 hj hlj hd hg ?_ rfl rfl).imp ?_
    · rintro b rfl; exact hr.2 b (by simp)
    · intro o s' ho
      cases o with
      | next env => exact ho
      | ret out => exact safez_ite ho ho

/-- The end of `Reset`. -/
theorem gholds_clear (h : Holds R W g s) (hi : g.level i = some lv) (hlv : 1 ≤ lv) {meth : Methods} {env : Env} (he : G.get t!"m" env = some (.ptr msg i))
    {b : HSlice} (hb : Reaches R b) {lv' : Nat} (h1 : 1 ≤ lv') (h2 : lv' ≤ 2) (hw : 2 ≤ lv' → Reaches W b) :
    (Prog.store (.buf i b) (gexec p (goCall rt m (d + 1)) meth (block [.expr (.method wrap t!"Clear" .noArgs)]) env)).SafeZ (Holds R W (g.set i lv')) R W
      (fun o s' => (∃ env, o = .next env) ∧ Holds R W (g.set i lv') s') s := by
  obtain ⟨_, hlt, hh⟩ := h.struct i lv hi
  have hs1 : Has R W lv' ((Write.buf i b).apply s) i := hh.fill hlv hb hw
  have hk1 : Keeps (On 2 i) s ((Write.buf i b).apply s) := keeps_write s ⟨rfl, Nat.le_refl _⟩
  have ok : ∀ s', OnStop R W 1 i ((Write.buf i b).apply s) s' → Holds R W (g.set i lv') s' := fun s' hr =>
    h.change (hk1.trans (hr.on.mono fun l x => x.mono (by decide))) h2 (Nat.lt_of_lt_of_le hlt (Nat.le_trans hk1.next hr.on.next))
      (hs1.kept (Nat.lt_of_lt_of_le hlt hk1.next) hr.has (Nat.le_refl _) hr.on)
  refine ⟨hh.wbuf hlv, ?_⟩
  have hwr := geval_wrap (p := p) (call := goCall rt m (d + 1)) (meth := meth) (env := env) (t := msg) (i := i) (conc_WrapOffsets rt m d i) he
  have hr := gruntime_eq (call := goCall rt m (d + 1)) (f := t!"Clear") (g := .Clear) rfl [.offs i]
  simp only [block, gexec, geval, hwr, Prog.bind_done, single, lift]
  rw [show ([.val (.offs i)] : List GVal) = [.offs i].map GVal.val from rfl, hr]
  refine Prog.safez_bind (Prog.safez_bind (Prog.safez_bind ((safez_on (lv := 1) (by decide) (h.fresh.keeps hk1) (hs1.mono h1) rfl ?_ m (d + 1)).mono ok (fun _ x => x) (fun _ x => x) fun rs s' hr => ?_)))
  · intro v hv
    simp only [List.mem_cons, List.not_mem_nil, or_false] at hv
    exact Or.inl hv
  · exact ⟨⟨_, rfl⟩, ok s' hr.1⟩

/-- `Reset`. If there are bytes, it panics at once. -/
theorem gholds_reset (h : Holds R W g s) (hi : g.level i = some lv) (hlv : 1 ≤ lv) (hm : method p msg t!"Reset" = some (G.srcReset msg))
    {b : HSlice} (hb : Reaches R b) {lv' : Nat} (h1 : 1 ≤ lv') (h2 : lv' ≤ 2) (hw : 2 ≤ lv' → Reaches W b) :
    (gcallMethod p (goCall rt m (d + 1)) (n + 1) msg t!"Reset" [.ptr msg i, .val (.bytes (.mem b))]).SafeZ (fun s' => s' = s ∨ Holds R W (g.set i lv') s') R W (fun _ s' => Holds R W (g.set i lv') s') s := by
  rw [gcallMethod, hm]
  have hc := gholds_clear (p := p) (m := m) (d := d) (rt := rt) (meth := gcallMethod p (goCall rt m (d + 1)) n)
    (env := [(t!"m", .ptr msg i), (t!"buf", .val (.bytes (.mem b)))]) h hi hlv rfl hb h1 h2 hw
  have hcond : geval p (goCall rt m (d + 1)) (gcallMethod p (goCall rt m (d + 1)) n) [(t!"m", .ptr msg i), (t!"buf", .val (.bytes (.mem b)))]
      (.gt (.len (.id t!"buf")) (.num 0)) = .done [.val (.bool (decide ((b.len : Int) > 0)))] := by
    simp only [geval]; rfl
  have h3 : geval p (goCall rt m (d + 1)) (gcallMethod p (goCall rt m (d + 1)) n) [(t!"m", .ptr msg i), (t!"buf", .val (.bytes (.mem b)))] (.id t!"buf") =
    .done [.val (.bytes (.mem b))] := rfl
  simp only [ginvoke, G.srcReset, gbindAll, gbindArg, Prog.bind_done]
  rw [block, gexec, gexec, hcond]
  by_cases hl : (b.len : Int) > 0
  · simp only [hl, decide_true]; exact .inl rfl
  · simp only [hl, decide_false, Prog.bind_done, singleVal, lift]
    rw [block, gexec, gexec, h3]
    simp only [Prog.bind_done, single, lift, place_mbuf (t := msg) (i := i) (env := [(t!"m", .ptr msg i), (t!"buf", .val (.bytes (.mem b)))]) rfl, gstore]
    refine Prog.safez_bind (hc.mono (fun _ x => .inr x) (fun _ x => x) (fun _ x => x) ?_)
    rintro _ s' ⟨⟨env, rfl⟩, hq⟩
    exact hq

/-- `Reset(nil)`. -/
theorem gholds_reset_nil (h : Holds R W g s) (hi : g.level i = some lv) (hlv : 1 ≤ lv) (hm : method p msg t!"Reset" = some (G.srcReset msg)) :
    (gcallMethod p (goCall rt m (d + 1)) (n + 1) msg t!"Reset" [.ptr msg i, .val .nil]).SafeZ (Holds R W (g.set i 2)) R W (fun _ s' => Holds R W (g.set i 2) s') s := by
  rw [gcallMethod, hm]
  have hc := gholds_clear (p := p) (m := m) (d := d) (rt := rt) (meth := gcallMethod p (goCall rt m (d + 1)) n)
    (env := [(t!"m", .ptr msg i), (t!"buf", .val .nil)]) h hi hlv rfl (reaches_nil R) (lv' := 2) (by decide) (by decide) (fun _ => reaches_nil W)
  have hcond : geval p (goCall rt m (d + 1)) (gcallMethod p (goCall rt m (d + 1)) n) [(t!"m", .ptr msg i), (t!"buf", .val .nil)]
      (.gt (.len (.id t!"buf")) (.num 0)) = .done [.val (.bool false)] := by
    simp only [geval]; rfl
  have h3 : geval p (goCall rt m (d + 1)) (gcallMethod p (goCall rt m (d + 1)) n) [(t!"m", .ptr msg i), (t!"buf", .val .nil)] (.id t!"buf") =
    .done [.val .nil] := rfl
  simp only [ginvoke, G.srcReset, gbindAll, gbindArg, Prog.bind_done]
  rw [block, gexec, gexec, hcond]
  simp only [Prog.bind_done, singleVal, lift]
  rw [block, gexec, gexec, h3]
  simp only [Prog.bind_done, single, lift, place_mbuf (t := msg) (i := i) (env := [(t!"m", .ptr msg i), (t!"buf", .val .nil)]) rfl, gstore]
  refine Prog.safez_bind (hc.imp ?_)
  rintro _ s' ⟨⟨env, rfl⟩, hq⟩
  exact hq

end

end Zeropb.GoSrc.Conc
