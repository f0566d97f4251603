import Verif.Props.Programs
import Verif.Conc.GenSafe
/-!
# C67: goroutines

Any number of goroutines run code that uses messages: each one is a program that makes structs and buffers, calls methods of generated types, reads and
writes bytes, and decides from all it has seen what to do next. The methods run on the Go source of the generated file and of package zeropb, one memory access after the other, and
at any moment any goroutine makes its next access. Every memory location that exists when they are started belongs to one goroutine or is shared; a goroutine keeps to
the rules if it changes only what belongs to it and what it allocated, and reads, besides, only what is shared. Then there is no data race, and every goroutine gets the
results that it gets when it runs alone.
-/

set_option linter.constructorNameAsVariable false

namespace Zeropb.GoSrc.Conc
open Zeropb.Gen Zeropb.GoSrc.G
open Zeropb.GoSrc.E (ScalarField MessageField RepeatedField goName goType iterOf num Compilable programOf decl_get decl_message decl_repeated sub_of Compilable.program Compilable.target)

/-! ## Specification: what a goroutine does -/

/-- What a goroutine does, and what it makes of the things it sees; in the end it has a result. -/
inductive Client (α : Type) where
  | done (a : α)
  /-- `var x T`: a struct with `n` entries in its offset array -/
  | new (n : Nat) (k : Nat → Client α)
  /-- `y := *x` -/
  | copy (i : Nat) (k : Nat → Client α)
  /-- `b := []byte{…}` -/
  | make (bs : List Byte) (k : HSlice → Client α)
  /-- the bytes of `b` -/
  | peek (b : HSlice) (k : List Byte → Client α)
  /-- `b[q] = x` -/
  | poke (a q : Nat) (x : Byte) (k : Client α)
  /-- an iterator variable gets a value -/
  | point (v : Nat) (o : Option HSlice) (k : Client α)
  /-- the value of an iterator variable -/
  | look (v : Nat) (k : Option HSlice → Client α)
  /-- the method `name` of type `t` is called; `rt` is how the runtime grows slices and orders maps in this call, `d` how much deeper than necessary calls may be nested -/
  | call (rt : Rt) (d : Nat) (t name : Text) (args : List GVal) (k : List GVal → Client α)

/-- The goroutine runs alone: methods are run by the interpreter of `GoSrc/GenSem`, to which the theorems C63 to C66 apply. -/
noncomputable def Client.alone {α : Type} (p : Program) : Client α → GSt → M (α × GSt)
  | .done a, s => .ok (a, s)
  | .new n k, s => (k s.next).alone p ⟨s.h.put s.next (.zero n), s.next + 1, s.its⟩
  | .copy i k, s => (k s.next).alone p ⟨s.h.put s.next (s.h.ms i), s.next + 1, s.its⟩
  | .make bs k, s => (k ⟨s.h.w.arrs.length, 0, bs.length, bs.length⟩).alone p { s with h := { s.h with w := { s.h.w with arrs := s.h.w.arrs ++ [bs] } } }
  | .peek b k, s => (k (s.h.w.slice b).data).alone p s
  | .poke a q x k, s => k.alone p { s with h := { s.h with w := s.h.w.write a q [x] } }
  | .point v o k, s => k.alone p { s with its := fun u => if u = v then o else s.its u }
  | .look v k, s => (k (s.its v)).alone p s
  | .call rt d t name args k, s => G.run p rt d t name args s >>= fun r => (k r.1).alone p r.2

/-- Its memory accesses. Loops of the source are cut off after `m` rounds. -/
def Client.prog {α : Type} (p : Program) (m : Nat) : Client α → Prog α
  | .done a => .done a
  | .new n k => .newStruct (.zero n) fun i => (k i).prog p m
  | .copy i k => copyStruct i >>= fun j => (k j).prog p m
  | .make bs k => .newArr bs fun a => (k ⟨a, 0, bs.length, bs.length⟩).prog p m
  | .peek b k => readSlice b >>= fun bs => (k bs).prog p m
  | .poke a q x k => .store (.cell a q x) (k.prog p m)
  | .point v o k => .store (.iter v o) (k.prog p m)
  | .look v k => .load (.iter v) fun (o : Option HSlice) => (k o).prog p m
  | .call rt d t name args k => grun p rt m d t name args >>= fun out => (k out).prog p m

/-! ## Specification: the rules -/

/-- The owner of every location, if it has one. -/
abbrev Owner := Loc → Option Nat

/-- A goroutine may write what belongs to it and what was allocated after the start. -/
def MayWrite (b : Base) (o : Owner) (t : Nat) (l : Loc) : Prop := ¬ l.Old b ∨ o l = some t

/-- It may read, besides, what belongs to nobody. -/
def MayRead (b : Base) (o : Owner) (t : Nat) (l : Loc) : Prop := MayWrite b o t l ∨ o l = none

/-- The call of method `name` of type `t` with `args` is allowed to a goroutine that may use the structs and iterators `g`; afterwards it may use those of `g'`. Getters
need a struct that may be read. Setters need a struct that may be changed with its bytes. `Reset` and `Decode` need a struct that may be filled; afterwards it may be
changed if the new bytes may be. Getters of message fields and iterators fill a struct with bytes that may be read. -/
inductive May (U : Unicode) (fs : List FileDesc) (R W : Loc → Prop) (g : Rights) : Text → Text → List GVal → Rights → Prop
  /-- `x.Name()` -/
  | get {f m fd k i lv} : f ∈ fs → some m ∈ f.messageType → ScalarField m fd k → g.level i = some lv →
      May U fs R W g m.getName (goName U fd) [.ptr m.getName i] g
  /-- `x.Encode()` -/
  | encode {f m i lv} : f ∈ fs → some m ∈ f.messageType → g.level i = some lv → May U fs R W g m.getName t!"Encode" [.ptr m.getName i] g
  /-- `x.SetName(v)` -/
  | set {f m fd k i v} : f ∈ fs → some m ∈ f.messageType → ScalarField m fd k → g.level i = some 2 → Readable R v →
      May U fs R W g m.getName (t!"Set" ++ goName U fd) [.ptr m.getName i, .val v] g
  /-- `x.SetName(y)` -/
  | setMessage {f m fd i j lj} : f ∈ fs → some m ∈ f.messageType → MessageField m fd → g.level i = some 2 → g.level j = some lj →
      May U fs R W g m.getName (t!"Set" ++ goName U fd) [.ptr m.getName i, .struct (goType fd) j] g
  /-- `x.AppendToName(y)` -/
  | append {f m fd i j lj} : f ∈ fs → some m ∈ f.messageType → RepeatedField m fd → g.level i = some 2 → g.level j = some lj →
      May U fs R W g m.getName (t!"AppendTo" ++ goName U fd) [.ptr m.getName i, .struct (goType fd) j] g
  /-- `x.Name(&y)` -/
  | message {f m fd i j lv lj} : f ∈ fs → some m ∈ f.messageType → MessageField m fd → g.level i = some lv → g.level j = some lj → 1 ≤ lj →
      May U fs R W g m.getName (goName U fd) [.ptr m.getName i, .ptr (goType fd) j] (g.set j 1)
  /-- `x.Name()` of a repeated field -/
  | iterate {f m fd i lv} : f ∈ fs → some m ∈ f.messageType → RepeatedField m fd → g.level i = some lv →
      May U fs R W g m.getName (goName U fd) [.ptr m.getName i] g
  /-- `it.Next(&y)` -/
  | next {f m fd v j lj} : f ∈ fs → some m ∈ f.messageType → RepeatedField m fd → g.iter v → g.level j = some lj → 1 ≤ lj →
      May U fs R W g (iterOf m fd) t!"Next" [.iter (iterOf m fd) v, .ptr (goType fd) j] (g.set j 1)
  /-- `x.Reset(nil)` -/
  | resetNil {f m i lv} : f ∈ fs → some m ∈ f.messageType → g.level i = some lv → 1 ≤ lv →
      May U fs R W g m.getName t!"Reset" [.ptr m.getName i, .val .nil] (g.set i 2)
  /-- `x.Reset(b)` -/
  | reset {f m i lv b lv'} : f ∈ fs → some m ∈ f.messageType → g.level i = some lv → 1 ≤ lv → Reaches R b → 1 ≤ lv' → lv' ≤ 2 → (2 ≤ lv' → Reaches W b) →
      May U fs R W g m.getName t!"Reset" [.ptr m.getName i, .val (.bytes (.mem b))] (g.set i lv')
  /-- `x.Decode(b)` -/
  | decode {f m i lv b lv'} : f ∈ fs → some m ∈ f.messageType → g.level i = some lv → 1 ≤ lv → Reaches R b → 1 ≤ lv' → lv' ≤ 2 → (2 ≤ lv' → Reaches W b) →
      May U fs R W g m.getName t!"Decode" [.ptr m.getName i, .val (.bytes (.mem b))] (g.set i lv')

/-- The goroutine keeps to the rules, and its calls return. -/
def Follows {α : Type} (U : Unicode) (fs : List FileDesc) (R W : Loc → Prop) : Client α → Rights → GSt → Prop
  | .done _, _, _ => True
  | .new n k, g, s => Follows U fs R W (k s.next) (g.set s.next 2) ⟨s.h.put s.next (.zero n), s.next + 1, s.its⟩
  | .copy i k, g, s => ∃ lv, g.level i = some lv ∧ Follows U fs R W (k s.next) (g.set s.next lv) ⟨s.h.put s.next (s.h.ms i), s.next + 1, s.its⟩
  | .make bs k, g, s => Follows U fs R W (k ⟨s.h.w.arrs.length, 0, bs.length, bs.length⟩) g { s with h := { s.h with w := { s.h.w with arrs := s.h.w.arrs ++ [bs] } } }
  | .peek b k, g, s => Reaches R b ∧ Follows U fs R W (k (s.h.w.slice b).data) g s
  | .poke a q x k, g, s => W (.cell a q) ∧ Follows U fs R W k g { s with h := { s.h with w := s.h.w.write a q [x] } }
  | .point v o k, g, s => g.iter v ∧ (∀ b, o = some b → Reaches R b) ∧ Follows U fs R W k g { s with its := fun u => if u = v then o else s.its u }
  | .look v k, g, s => g.iter v ∧ Follows U fs R W (k (s.its v)) g s
  | .call rt d t name args k, g, s => ∃ g' out s', May U fs R W g t name args g' ∧ G.run (programOf U fs) rt d t name args s = .ok (out, s') ∧ Follows U fs R W (k out) g' s'

/-! ## Methods keep to what they may use -/

section
variable {U : Unicode} {fs : List FileDesc} {pkg : Text} {R W : Loc → Prop} {g g' : Rights} {s : GSt}

theorem Rights.set_self {i lv : Nat} (h : g.level i = some lv) : g.set i lv = g := by
  unfold Rights.set
  have : (fun k => if k = i then some lv else g.level k) = g.level := by
    funext k
    split
    · next e => rw [e, h]
    · rfl
  rw [this]

theorem getter_callable (k : Kind) : callable 0 (getterOf k) = true := by cases k <;> rfl

/-- An allowed call keeps to the locations that the goroutine may use. -/
theorem May.safe (hc : Compilable U fs pkg) {t name : Text} {args : List GVal} (h : May U fs R W g t name args g') (hh : Holds R W g s) (rt : Rt) (m d : Nat) :
    (grun (programOf U fs) rt m d t name args).Safe R W (After R W g') s := by
  have hp := hc.program
  unfold grun
  cases h with
  | get hf hm hfd hi =>
    exact gsafe_get hh hi (hp.method (sub_of hf hm _ (decl_get (hc.valid _ hf _ hm) hfd).1) rfl) (pkg_get _) (getter_callable _)
  | @encode _ m _ _ hf hm hi => exact gsafe_encode (hp.method (sub_of hf hm (.encode m.getName) (by simp [messageDecls])) rfl) hh hi
  | set hf hm hfd hi hv =>
    have := gsafe_set (m := m) (d := d + 2) (n := d + 1) (rt := rt) hh hi (hp.method (sub_of hf hm _ (decl_get (hc.valid _ hf _ hm) hfd).2) rfl) (pkg_set _) (goType_slots hp _) hv
    rwa [Rights.set_self hi] at this
  | setMessage hf hm hfd hi hj =>
    obtain ⟨c1, _, ⟨n, c2⟩, _⟩ := hc.target hf hm (Or.inl hfd)
    have := gsafe_setBuf (m := m) (d := d + 2) (n := d) (rt := rt) hh hi hj (hp.method (sub_of hf hm _ (decl_message (hc.valid _ hf _ hm) hfd).2) rfl) (hp.method c1 rfl)
      (by rw [hp.slots c2]; rfl) (F := t!"SetBytes") (q := .SetBytes) rfl
    rwa [Rights.set_self hi] at this
  | append hf hm hfd hi hj =>
    obtain ⟨c1, _, ⟨n, c2⟩, _⟩ := hc.target hf hm (Or.inr hfd)
    have := gsafe_setBuf (m := m) (d := d + 2) (n := d) (rt := rt) hh hi hj (hp.method (sub_of hf hm _ (decl_repeated (hc.valid _ hf _ hm) hfd).2.2.2) rfl) (hp.method c1 rfl)
      (by rw [hp.slots c2]; rfl) (F := t!"AppendBytes") (q := .AppendBytes) rfl
    rwa [Rights.set_self hi] at this
  | message hf hm hfd hi hj hlj =>
    obtain ⟨_, c1, _, nums, c2⟩ := hc.target hf hm (Or.inl hfd)
    exact gsafe_getMessage hh hi hj hlj (hp.method (sub_of hf hm _ (decl_message (hc.valid _ hf _ hm) hfd).1) rfl) (hp.method c1 rfl) (hp.table c2)
  | iterate hf hm hfd hi => exact gsafe_getRepeated hh hi (hp.method (sub_of hf hm _ (decl_repeated (hc.valid _ hf _ hm) hfd).2.2.1) rfl)
  | next hf hm hfd hv hj hlj =>
    obtain ⟨_, c1, _, nums, c2⟩ := hc.target hf hm (Or.inr hfd)
    exact gsafe_next hh hv hj hlj (hp.method (sub_of hf hm _ (decl_repeated (hc.valid _ hf _ hm) hfd).2.1) rfl) (hp.method c1 rfl) (hp.table c2)
  | @resetNil _ m _ _ hf hm hi hlv => exact gsafe_reset_nil hh hi hlv (hp.method (sub_of hf hm (.reset m.getName) (by simp [messageDecls])) rfl)
  | @reset _ m _ _ _ _ hf hm hi hlv hb h1 h2 hw => exact gsafe_reset hh hi hlv (hp.method (sub_of hf hm (.reset m.getName) (by simp [messageDecls])) rfl) hb h1 h2 hw
  | @decode _ m _ _ _ _ hf hm hi hlv hb h1 h2 hw =>
    have ht := sub_of (U := U) hf hm _ (List.mem_append_left _ (List.mem_cons_of_mem _ (List.mem_cons_self ..)))
    exact gsafe_decode hh hi hlv (hp.method (sub_of hf hm (.decode m.getName) (by simp [messageDecls])) rfl) (hp.table ht) (by rintro _ ⟨⟩; exact hb) h1 h2 (fun h => by rintro _ ⟨⟩; exact hw h)

/-- A struct that was just allocated, with the references of a struct `i` that may be used. -/
theorem Holds.newStruct (h : Holds R W g s) {m : HMsg} {lv : Nat} (hlv : lv ≤ 2) (h1 : Reaches R m.buf) (h2 : ∀ id, m.m = some id → R (.map id))
    (h3 : ∀ id, 1 ≤ lv → m.m = some id → W (.map id)) (h4 : 2 ≤ lv → Reaches W m.buf) : Holds R W (g.set s.next lv) (newStruct m s) := by
  have new := h.fresh.new
  have e : (Conc.newStruct m s).h.ms s.next = m := by simp [Conc.newStruct, Heap.put]
  refine h.change (lv' := 0) (keeps_newStruct m s) hlv (Nat.lt_succ_self _) ⟨?_, ?_, ?_, ?_, ?_, ?_, ?_, ?_, ?_, ?_, ?_⟩
  · exact (new (.buf s.next) (by simp [Loc.Old, Base.of])).1
  · exact fun k => (new (.slot s.next k) (by simp [Loc.Old, Base.of])).1
  · exact (new (.slots s.next) (by simp [Loc.Old, Base.of])).1
  · exact (new (.ref s.next) (by simp [Loc.Old, Base.of])).1
  · rw [e]; exact h1
  · rw [e]; exact h2
  · exact fun _ => (new (.buf s.next) (by simp [Loc.Old, Base.of])).2
  · exact fun k _ => (new (.slot s.next k) (by simp [Loc.Old, Base.of])).2
  · exact fun _ => (new (.ref s.next) (by simp [Loc.Old, Base.of])).2
  · rw [e]; exact h3
  · rw [e]; exact h4

theorem Holds.cell (h : Holds R W g s) (a q : Nat) (x : Byte) : Holds R W g ((Write.cell a q x).apply s) :=
  h.quiet (i := 0) (keeps_write s trivial)

/-- A goroutine that keeps to the rules ends when it runs alone, access by access, with the same result as method by method; and it uses only what it may. -/
theorem Follows.ends {α : Type} (hc : Compilable U fs pkg) (c : Client α) : ∀ {g : Rights} {s : GSt}, Holds R W g s → Follows U fs R W c g s →
    ∃ a s', c.alone (programOf U fs) s = .ok (a, s') ∧
      Ev fun m => (c.prog (programOf U fs) m).Safe R W (fun _ _ => True) s ∧ (c.prog (programOf U fs) m).run s = .ok (a, s') := by
  induction c with
  | done a => exact fun _ _ => ⟨a, _, rfl, .of fun _ => ⟨trivial, rfl⟩⟩
  | new n k ih =>
    intro g s hh hf
    obtain ⟨a, s', h1, h2⟩ := ih _ (hh.newStruct (m := .zero n) (Nat.le_refl _) (reaches_nil R) nofun nofun fun _ => reaches_nil W) hf
    exact ⟨a, s', h1, h2⟩
  | copy i k ih =>
    intro g s hh hf
    obtain ⟨lv, hi, hf⟩ := hf
    obtain ⟨hl, _, hs⟩ := hh.struct i lv hi
    obtain ⟨a, s', h1, h2⟩ := ih _ (hh.newStruct hl hs.bytes hs.map hs.wmap hs.wbytes) hf
    refine ⟨a, s', h1, h2.mono fun m hm => ⟨?_, ?_⟩⟩
    · refine Prog.safe_bind ((safe_copyStruct hs).imp ?_)
      rintro _ _ ⟨rfl, rfl⟩
      exact hm.1
    · exact (to_copyStruct i s).bind hm.2
  | make bs k ih =>
    intro g s hh hf
    obtain ⟨a, s', h1, h2⟩ := ih _ (hh.quiet (i := 0) (keeps_newArr bs s)) hf
    exact ⟨a, s', h1, h2⟩
  | peek b k ih =>
    intro g s hh hf
    obtain ⟨a, s', h1, h2⟩ := ih _ hh hf.2
    refine ⟨a, s', h1, h2.mono fun m hm => ⟨?_, ?_⟩⟩
    · refine Prog.safe_bind ((safe_readSlice (Z := fun _ => True) hf.1 s).safe.and_run.imp ?_)
      rintro bs _ ⟨rfl, hr⟩
      rw [ends_readSlice b _] at hr
      injection hr with hr; injection hr with hr _
      rw [← hr]
      exact hm.1
    · exact To.bind (ends_readSlice b s) hm.2
  | poke a q x k ih =>
    intro g s hh hf
    obtain ⟨a, s', h1, h2⟩ := ih (hh.cell _ _ _) hf.2
    exact ⟨a, s', h1, h2.mono fun m hm => ⟨⟨hf.1, hm.1⟩, hm.2⟩⟩
  | point v o k ih =>
    intro g s hh hf
    obtain ⟨hv, ho, hf⟩ := hf
    obtain ⟨a, s', h1, h2⟩ := ih (hh.point ho) hf
    exact ⟨a, s', h1, h2.mono fun m hm => ⟨⟨(hh.iter v hv).2.1, hm.1⟩, hm.2⟩⟩
  | look v k ih =>
    intro g s hh hf
    obtain ⟨a, s', h1, h2⟩ := ih _ hh hf.2
    exact ⟨a, s', h1, h2.mono fun m hm => ⟨⟨(hh.iter v hf.1).1, hm.1⟩, hm.2⟩⟩
  | call rt d t name args k ih =>
    intro g s hh hf
    obtain ⟨g', out, s1, hmay, hrun, hf⟩ := hf
    have hsafe := fun m => hmay.safe hc hh rt m d
    have hto := to_grun hrun
    obtain ⟨n0, hn0⟩ := hto
    have hafter := (hsafe n0).run (hn0 n0 (Nat.le_refl _))
    obtain ⟨a, s', h1, h2⟩ := ih out hafter.1 hf
    refine ⟨a, s', ?_, ((Ev.and ⟨n0, hn0⟩ h2).mono fun m hm => ⟨?_, ?_⟩)⟩
    · simp only [Client.alone, hrun]; exact h1
    · refine Prog.safe_bind ((hsafe m).and_run.imp ?_)
      rintro out' s2 ⟨_, hr⟩
      rw [hm.1] at hr
      injection hr with hr; injection hr with hr1 hr2
      rw [← hr1, ← hr2]
      exact hm.2.1
    · exact To.bind hm.1 hm.2.2

theorem separate (b : Base) (o : Owner) : Separate b (MayRead b o) (MayWrite b o) := by
  intro t u l hne ho hw
  have hw : o l = some t := hw.resolve_left fun h => h ho
  have h2 : ¬ MayWrite b o u l := by
    rintro (h | h)
    · exact h ho
    · rw [hw] at h; injection h with h; exact hne h
  exact ⟨fun h => h.elim h2 fun h => (by rw [hw] at h; cases h), h2⟩

/-- A program that makes no further access, and does not panic, is done. -/
theorem done_of_size {α : Type} {p : Prog α} {s s' : GSt} {a : α} (h : p.size s = 0) (hr : p.run s = .ok (a, s')) : p = .done a ∧ s' = s := by
  cases p with
  | done b => injection hr with hr; injection hr with h1 h2; exact ⟨by rw [h1], h2.symm⟩
  | stop e => cases hr
  | load | store | newArr | newMap | newStruct => cases h

/-- A program that is not done makes an access. -/
theorem move_of_size {α : Type} {b : Base} {t : Nat} {c : Pool α} {s : GSt} (h : 0 < (c t).1.size s) : ∃ c', Move b t c c' := by
  cases e : c t with
  | mk p x =>
    rw [e] at h
    cases p with
    | done a => cases h
    | stop e => cases h
    | load l k => exact ⟨_, .load e⟩
    | store w k => exact ⟨_, .store e⟩
    | newArr bs k => exact ⟨_, .newArr e⟩
    | newMap k => exact ⟨_, .newMap e⟩
    | newStruct m k => exact ⟨_, .newStruct e⟩

end

/-! ## C67 -/

/-- What is true whenever goroutines `c` have been started in memory `s`, whatever the order of their accesses so far: there is no data race; all see the same memory, besides what they
allocated themselves; and goroutine `t` makes `n t` accesses, is never stuck before, and then has the result that it has alone, and where it may read, the
memory is as if it were alone. -/
def RunsAsAlone {α : Type} (p : Program) (o : Owner) (c : Nat → Client α) (s : GSt) : Prop :=
  ∃ (a : Nat → α) (s' : Nat → GSt), (∀ t, (c t).alone p s = .ok (a t, s' t)) ∧
    ∃ m0 : Nat → Nat, ∀ m : Nat → Nat, (∀ t, m0 t ≤ m t) → ∃ n : Nat → Nat, ∀ ts pool, Moves (Base.of s) (start (fun t => (c t).prog p (m t)) s) ts pool →
      Raceless (Base.of s) pool ∧ (∀ t u, OneMemory (Base.of s) (pool t).2 (pool u).2) ∧
      ∀ t, ts.count t ≤ n t ∧ (ts.count t < n t → ∃ pool', Move (Base.of s) t pool pool') ∧
        (ts.count t = n t → (pool t).1 = .done (a t) ∧ Agree (MayRead (Base.of s) o t) (s' t) (pool t).2)

section
variable {U : Unicode} {fs : List FileDesc} {pkg : Text} {s : GSt} {α : Type}

/-- C67: goroutines that keep to the rules do not race, and each one gets the results that it gets alone. -/
theorem C67_races (hc : Compilable U fs pkg) (o : Owner) (c : Nat → Client α) (g : Nat → Rights)
    (hh : ∀ t, Holds (MayRead (Base.of s) o t) (MayWrite (Base.of s) o t) (g t) s)
    (hf : ∀ t, Follows U fs (MayRead (Base.of s) o t) (MayWrite (Base.of s) o t) (c t) (g t) s) : RunsAsAlone (programOf U fs) o c s := by
  have hall := fun t => (hf t).ends hc (c t) (hh t)
  obtain ⟨a, hall⟩ := Classical.axiomOfChoice hall
  obtain ⟨s', hall⟩ := Classical.axiomOfChoice hall
  have h1 := fun t => (hall t).1
  obtain ⟨m0, hm0⟩ := Classical.axiomOfChoice fun t => (hall t).2
  refine ⟨a, s', h1, m0, fun m hm => ⟨fun t => ((c t).prog (programOf U fs) (m t)).size s, fun ts pool hmv => ?_⟩⟩
  have hsafe := fun t => (hm0 t (m t) (hm t)).1
  have hrun := fun t => (hm0 t (m t) (hm t)).2
  have hsep := separate (Base.of s) o
  refine ⟨raceless hsep (fun t l => Or.inl) hsafe hmv, oneMemory hmv, fun t => ?_⟩
  obtain ⟨s1, r1, _, r3, r4⟩ := interleave hsep hsafe hmv t
  have r5 : (pool t).1.run s1 = .ok (a t, s' t) := by rw [← r1.run]; exact hrun t
  dsimp only
  refine ⟨by omega, fun hlt => move_of_size (s := s1) (by omega), fun he => ?_⟩
  obtain ⟨e1, e2⟩ := done_of_size (by omega) r5
  exact ⟨e1, e2 ▸ r3⟩

/-- C67: after an allowed call, what the goroutine may use is `g'`, and the bytes of the results may be read: a client may go on with them. -/
theorem C67_call (hc : Compilable U fs pkg) {R W : Loc → Prop} {g g' : Rights} (hh : Holds R W g s) {t name : Text} {args out : List GVal} {s' : GSt} {rt : Rt} {d : Nat}
    (h : May U fs R W g t name args g') (hr : G.run (programOf U fs) rt d t name args s = .ok (out, s')) : Holds R W g' s' ∧ OutOk R out := by
  obtain ⟨n, hn⟩ := to_grun hr
  exact (h.safe hc hh rt n d).run (hn n (Nat.le_refl _))

end

/-! ## After a program with many messages -/

open Zeropb.GoSrc.E (Known Entry reach_inv Within Inv)

/-- The owner of every location when the structs that a program knows are handed out to goroutines: `mine i` has struct `i`, with its buffer and its map, and `its v` has iterator
variable `v`. -/
noncomputable def handOut (k : Known) (s : GSt) (mine its : Nat → Option Nat) : Owner
  | .buf i | .slot i _ | .slots i | .ref i => mine i
  | .iter v => its v
  | .cell a q =>
    open Classical in
    if h : ∃ i e, k.structs i = some e ∧ e.view = none ∧ (s.h.ms i).buf.owns a q then mine h.choose else none
  | .map id =>
    open Classical in
    if h : ∃ i e, k.structs i = some e ∧ (s.h.ms i).m = some id then mine h.choose else none

/-- What goroutine `t` may use at the start: structs that it has, for everything; structs that nobody has, for reading; iterator variables that it has, if they are nil
or are over a struct that it may read. -/
def rightsOf (k : Known) (s : GSt) (mine its : Nat → Option Nat) (t : Nat) : Rights where
  level i := match k.structs i, mine i with
    | some _, none => some 0
    | some _, some u => if u = t then some 2 else none
    | none, _ => none
  iter v := its v = some t ∧ ∀ b, s.its v = some b → b.len ≤ b.cap ∧ ∃ i e, k.structs i = some e ∧ (mine i = none ∨ mine i = some t) ∧ Within b (s.h.ms i).buf

section
variable {U : Unicode} {fs : List FileDesc} {pkg : Text} {s : GSt} {α : Type} {k : Known} {mine its : Nat → Option Nat}

theorem handOut_cell (hinv : Inv U fs s k) (hm : ∀ i e, k.structs i = some e → mine i = mine (e.root i)) {i : Nat} {e : Entry} (hi : k.structs i = some e) {a q : Nat}
    (ho : (s.h.ms i).buf.owns a q) : handOut k s mine its (.cell a q) = mine i := by
  obtain ⟨r, er, h1, h2, h3, h4⟩ : ∃ r er, k.structs r = some er ∧ er.view = none ∧ (s.h.ms r).buf.owns a q ∧ mine i = mine r := by
    cases hv : e.view with
    | none => exact ⟨i, e, hi, hv, ho, rfl⟩
    | some r =>
      obtain ⟨er, e1, e2, e3⟩ := hinv.views i e r hi hv
      exact ⟨r, er, e1, e2, e3 a q ho, by rw [hm i e hi]; simp [Entry.root, hv]⟩
  have hex : ∃ i e, k.structs i = some e ∧ e.view = none ∧ (s.h.ms i).buf.owns a q := ⟨r, er, h1, h2, h3⟩
  simp only [handOut, dif_pos hex]
  obtain ⟨e', c1, c2, c3⟩ := hex.choose_spec
  have : hex.choose = r := by
    apply Classical.byContradiction
    intro hne
    exact hinv.bufs _ _ _ _ hne c1 h1 c2 h2 a q c3 h3
  rw [this, h4]

theorem handOut_map (hinv : Inv U fs s k) {i : Nat} {e : Entry} (hi : k.structs i = some e) {id : Nat}
    (ho : (s.h.ms i).m = some id) : handOut k s mine its (.map id) = mine i := by
  have hex : ∃ i e, k.structs i = some e ∧ (s.h.ms i).m = some id := ⟨i, e, hi, ho⟩
  simp only [handOut, dif_pos hex]
  obtain ⟨e', c1, c2⟩ := hex.choose_spec
  have : hex.choose = i := by
    apply Classical.byContradiction
    intro hne
    exact hinv.maps _ _ _ _ hne c1 hi id c2 ho
  rw [this]

/-- Bytes within the buffer of a struct that goroutine `t` has, or nobody. -/
theorem handOut_reaches (hinv : Inv U fs s k) (hm : ∀ i e, k.structs i = some e → mine i = mine (e.root i)) {i : Nat} {e : Entry} (hi : k.structs i = some e) {b : HSlice}
    (hl : b.len ≤ b.cap) (hb : Within b (s.h.ms i).buf) (t : Nat) :
    (mine i = none ∨ mine i = some t → Reaches (MayRead (Base.of s) (handOut k s mine its) t) b) ∧ (mine i = some t → Reaches (MayWrite (Base.of s) (handOut k s mine its) t) b) := by
  have key : ∀ q, b.off ≤ q → q < b.off + max b.len b.cap → handOut k s mine its (.cell b.arr q) = mine i := by
    intro q h1 h2
    exact handOut_cell hinv hm hi (hb _ _ ⟨rfl, h1, by omega⟩)
  refine ⟨fun h q h1 h2 => ?_, fun h q h1 h2 => Or.inr (by rw [key q h1 h2]; exact h)⟩
  rcases h with h | h
  · exact Or.inr (by rw [key q h1 h2]; exact h)
  · exact Or.inl (Or.inr (by rw [key q h1 h2]; exact h))

theorem holds_rightsOf (hinv : Inv U fs s k) (hm : ∀ i e, k.structs i = some e → mine i = mine (e.root i)) (t : Nat) :
    Holds (MayRead (Base.of s) (handOut k s mine its) t) (MayWrite (Base.of s) (handOut k s mine its) t) (rightsOf k s mine its t) s := by
  refine ⟨⟨fun l hl => ⟨Or.inl (Or.inl hl), Or.inl hl⟩⟩, ?_, ?_⟩
  · intro i lv hi
    simp only [rightsOf] at hi
    cases hk : k.structs i with
    | none => rw [hk] at hi; cases hi
    | some e =>
      rw [hk] at hi
      obtain ⟨_, hlt, hw, _⟩ := hinv.struct i e hk
      have hr := handOut_reaches (its := its) hinv hm hk hw.1.1 (fun _ _ h => h) t
      have hmap := fun id (h : (s.h.ms i).m = some id) => handOut_map (mine := mine) (its := its) hinv hk h
      cases ho : mine i with
      | none =>
        rw [ho] at hi
        injection hi with hi
        subst hi
        refine ⟨by omega, hlt, ⟨Or.inr ho, fun _ => Or.inr ho, Or.inr ho, Or.inr ho, hr.1 (Or.inl ho), ?_, ?_, ?_, ?_, ?_, ?_⟩⟩
        · intro id h; exact Or.inr (by rw [hmap id h]; exact ho)
        all_goals (intros; omega)
      | some u =>
        rw [ho] at hi
        dsimp only at hi
        split at hi
        · next e1 =>
          subst e1
          injection hi with hi
          subst hi
          refine ⟨by omega, hlt, ⟨Or.inl (Or.inr ho), fun _ => Or.inl (Or.inr ho), Or.inl (Or.inr ho), Or.inl (Or.inr ho), hr.1 (Or.inr ho), ?_, fun _ => Or.inr ho, fun _ _ => Or.inr ho,
            fun _ => Or.inr ho, ?_, fun _ => hr.2 ho⟩⟩
          · intro id h; exact Or.inl (Or.inr (by rw [hmap id h]; exact ho))
          · intro id _ h; exact Or.inr (by rw [hmap id h]; exact ho)
        · cases hi
  · intro v hv
    obtain ⟨h1, h2⟩ := hv
    refine ⟨Or.inl (Or.inr h1), Or.inr h1, ?_⟩
    intro b hb
    obtain ⟨b1, i, e, b2, b3, b4⟩ := h2 b hb
    exact (handOut_reaches hinv hm b2 b1 b4 t).1 b3

/-- C67: a program that kept to the rules of C66 hands out its structs to goroutines, every struct with its views; structs that no goroutine has, all may read. The goroutines do
not race, and each one gets the results that it gets alone. -/
theorem C67_fork (hc : Compilable U fs pkg) {s0 : GSt} (h : E.Reach U fs s0 s k) (hm : ∀ i e, k.structs i = some e → mine i = mine (e.root i)) (c : Nat → Client α)
    (hf : ∀ t, Follows U fs (MayRead (Base.of s) (handOut k s mine its) t) (MayWrite (Base.of s) (handOut k s mine its) t) (c t) (rightsOf k s mine its t) s) :
    RunsAsAlone (programOf U fs) (handOut k s mine its) c s :=
  C67_races hc _ c _ (fun t => holds_rightsOf (reach_inv hc h) hm t) hf

/-- Everything is shared but the iterator variables. -/
def onlyIters (its : Nat → Option Nat) : Owner
  | .iter v => its v
  | _ => none

/-- All structs may be read; iterator variables that are nil may be used by the goroutine that has them. -/
def readingRights (s : GSt) (its : Nat → Option Nat) (t : Nat) : Rights where
  level i := if i < s.next then some 0 else none
  iter v := its v = some t ∧ s.its v = none

/-- C67: in any memory, any number of goroutines may read any messages that exist, with getters, `Encode`, iterators, and `Decode` into structs of their own; they
do not race, and each one gets the results that it gets alone. -/
theorem C67_readers (hc : Compilable U fs pkg) (c : Nat → Client α)
    (hf : ∀ t, Follows U fs (MayRead (Base.of s) (onlyIters its) t) (MayWrite (Base.of s) (onlyIters its) t) (c t) (readingRights s its t) s) :
    RunsAsAlone (programOf U fs) (onlyIters its) c s := by
  refine C67_races hc _ c _ (fun t => ?_) hf
  refine ⟨⟨fun l hl => ⟨Or.inl (Or.inl hl), Or.inl hl⟩⟩, ?_, ?_⟩
  · intro i lv hi
    simp only [readingRights] at hi
    split at hi
    · next hlt =>
      injection hi with hi
      subst hi
      refine ⟨by omega, hlt, ⟨Or.inr rfl, fun _ => Or.inr rfl, Or.inr rfl, Or.inr rfl, fun _ _ _ => Or.inr rfl, fun _ _ => Or.inr rfl, ?_, ?_, ?_, ?_, ?_⟩⟩
      all_goals (intros; omega)
    · cases hi
  · intro v hv
    exact ⟨Or.inl (Or.inr hv.1), Or.inr hv.1, fun b hb => by rw [hv.2] at hb; cases hb⟩

/-- C67: the rules are needed. If a goroutine calls `x.Reset(nil)` while another one calls `x.Encode()`, there is a data race. -/
theorem C67_rules_needed (hc : Compilable U fs pkg) {f : FileDesc} {m : Desc} (hf : f ∈ fs) (hm : some m ∈ f.messageType) (s : GSt) {i : Nat} (hi : i < s.next) (rt : Rt) (d : Nat)
    (c : Nat → Client (List GVal)) (h0 : c 0 = .call rt d m.getName t!"Reset" [.ptr m.getName i, .val .nil] .done)
    (h1 : c 1 = .call rt d m.getName t!"Encode" [.ptr m.getName i] .done) (n : Nat → Nat) :
    ∃ ts pool, Moves (Base.of s) (start (fun t => (c t).prog (programOf U fs) (n t)) s) ts pool ∧ ¬ Raceless (Base.of s) pool := by
  refine ⟨_, _, .refl, fun hr => ?_⟩
  have hp := hc.program
  have m0 : method (programOf U fs) m.getName t!"Reset" = some (G.srcReset m.getName) := hp.method (sub_of (U := U) hf hm (.reset m.getName) (by simp [messageDecls])) rfl
  have m1 : method (programOf U fs) m.getName t!"Encode" = some (G.srcEncode m.getName) := hp.method (sub_of (U := U) hf hm (.encode m.getName) (by simp [messageDecls])) rfl
  have n0 : Next ((c 0).prog (programOf U fs) (n 0)) (.buf i) true := by
    rw [h0]
    simp only [Client.prog, grun]
    rw [gcallMethod, m0]
    simp only [ginvoke, G.srcReset, gbindAll, gbindArg, Prog.bind_done]
    exact .store (w := .buf i ⟨0, 0, 0, 0⟩)
  have n1 : Next ((c 1).prog (programOf U fs) (n 1)) (.buf i) false := by
    rw [h1]
    simp only [Client.prog, grun]
    rw [gcallMethod, m1]
    exact .load
  have := hr 0 1 (.buf i) true false (by decide) n0 n1 hi
  cases this.1

end

/-! ## The hypotheses are met -/

open Zeropb.GoSrc.E (testFile_compilable testFile_has testField nothingYet C66_programs)

/-- `C67_fork`, on golden/test.proto, after `var x, y TestMessage`: goroutine 0 has `x` and calls `x.SetInt32(7)`, then `x.Int32()`; all the others call `y.Int32()`. -/
example (rt : Rt) : ∃ s k mine fi, ∃ c : Nat → Client (List GVal), E.Reach asciiUnicode [testFile] nothingYet s k ∧ ScalarField testDesc fi .int32 ∧
    c 0 = .call rt 0 testDesc.getName (t!"Set" ++ goName asciiUnicode fi) [.ptr testDesc.getName 0, .val (.i32 7#32)]
      (fun _ => .call rt 0 testDesc.getName (goName asciiUnicode fi) [.ptr testDesc.getName 0] .done) ∧
    (∀ t, c (t + 1) = .call rt 0 testDesc.getName (goName asciiUnicode fi) [.ptr testDesc.getName 1] .done) ∧
    RunsAsAlone (programOf asciiUnicode [testFile]) (handOut k s mine (fun _ => none)) c s := by
  have hc := testFile_compilable
  obtain ⟨hf, hm⟩ := testFile_has
  obtain ⟨fi, i1, i2, i3, i4⟩ := testField (P := fun fd => (getLabel (some fd) = 1 ∨ getLabel (some fd) = 2) ∧ protoKind (getType (some fd)) = some .int32 ∧ E.num fd = 2) (by decide +kernel)
  have hfi : ScalarField testDesc fi .int32 := ⟨i1, i2, i3⟩
  have r0 := E.Reach.start (U := asciiUnicode) (fs := [testFile]) (s0 := nothingYet)
  have r1 := (r0.step (.new hf hm)).step (.new hf hm)
  refine ⟨_, _, fun i => if i = 0 then some 0 else none, fi, fun t => match t with
    | 0 => .call rt 0 testDesc.getName (t!"Set" ++ goName asciiUnicode fi) [.ptr testDesc.getName 0, .val (.i32 7#32)]
      (fun _ => .call rt 0 testDesc.getName (goName asciiUnicode fi) [.ptr testDesc.getName 0] .done)
    | _ + 1 => .call rt 0 testDesc.getName (goName asciiUnicode fi) [.ptr testDesc.getName 1] .done, r1, hfi, rfl, fun _ => rfl, ?_⟩
  refine C67_fork hc r1 ?_ _ ?_
  · intro i e hi
    have : e.view = none := by
      simp only [Known.put] at hi
      split at hi
      · injection hi with hi; rw [← hi]
      · split at hi
        · injection hi with hi; rw [← hi]
        · cases hi
    simp [Entry.root, this]
  · intro t
    cases t with
    | zero =>
      have c : ∀ s, E.Calls asciiUnicode testDesc rt 0 s (t!"Set" ++ goName asciiUnicode fi) [.ptr testDesc.getName 0, .val (.i32 7#32)] (.set rt (E.num fi) .int32 7#32) :=
        fun _ => .set hfi rfl (by intro _ h; rcases h with h | h <;> cases h) (by decide)
      obtain ⟨s1, q1, _⟩ := ((C66_programs hc r1).1 0 ⟨testDesc, none, .empty⟩ rfl).calls rt 0 _ _ _ (c _) (by show 0 + (20 + Kind.size .int32 7#32) < maxLen; decide)
      have r2 := r1.step (.set (i := 0) (c := .empty) rfl (c _) trivial q1)
      obtain ⟨x, v, g1, _⟩ := ((C66_programs hc r2).1 0 ⟨testDesc, none, _⟩ rfl).scalar fi .int32 hfi rt 0
      exact ⟨_, _, _, .set hf hm hfi rfl (Or.inl rfl), q1, _, _, _, .get hf hm hfi rfl, g1, trivial⟩
    | succ t =>
      obtain ⟨x, v, g1, _⟩ := ((C66_programs hc r1).1 1 ⟨testDesc, none, .empty⟩ rfl).scalar fi .int32 hfi rt 0
      exact ⟨_, _, _, .get hf hm hfi rfl, g1, trivial⟩

end Zeropb.GoSrc.Conc
