import Verif.Conc.GenSim
import Verif.GoSrc.GenRun
/-!
# What the methods of generated types access
-/

set_option linter.constructorNameAsVariable false

namespace Zeropb.GoSrc.Conc
open Zeropb.GoSrc.G
open Zeropb.Gen (Text)

/-! ## What does not change -/

/-- From `s` to `s'`, of what existed only `X` changed. -/
structure Keeps (X : Loc → Prop) (s s' : GSt) : Prop where
  arrs : s.h.w.arrs.length ≤ s'.h.w.arrs.length
  maps : s.h.w.maps.length ≤ s'.h.w.maps.length
  next : s.next ≤ s'.next
  same : ∀ l, l.Old (Base.of s) → ¬ X l → read l s' = read l s

theorem Keeps.refl {X : Loc → Prop} (s : GSt) : Keeps X s s := ⟨Nat.le_refl _, Nat.le_refl _, Nat.le_refl _, fun _ _ _ => rfl⟩

theorem Loc.Old.grow {b b' : Base} (h1 : b.arrs ≤ b'.arrs) (h2 : b.maps ≤ b'.maps) (h3 : b.structs ≤ b'.structs) {l : Loc} (h : l.Old b) : l.Old b' := by
  cases l <;> simp only [Loc.Old] at h ⊢ <;> omega

theorem Keeps.trans {X : Loc → Prop} {s s' s'' : GSt} (h : Keeps X s s') (h' : Keeps X s' s'') : Keeps X s s'' :=
  ⟨Nat.le_trans h.arrs h'.arrs, Nat.le_trans h.maps h'.maps, Nat.le_trans h.next h'.next,
    fun l ho hx => (h'.same l (ho.grow h.arrs h.maps h.next) hx).trans (h.same l ho hx)⟩

theorem Keeps.mono {X Y : Loc → Prop} {s s' : GSt} (h : Keeps X s s') (hxy : ∀ l, X l → Y l) : Keeps Y s s' :=
  ⟨h.arrs, h.maps, h.next, fun l ho hy => h.same l ho fun hx => hy (hxy l hx)⟩

theorem keeps_write {X : Loc → Prop} {w : Write} (s : GSt) (h : X w.loc) : Keeps X s (w.apply s) := by
  have z := w.sameSize s
  exact ⟨Nat.le_of_eq z.arrs.symm, Nat.le_of_eq z.maps.symm, Nat.le_of_eq z.next.symm, fun l _ hx => read_apply_ne (by rintro rfl; exact hx h)⟩

theorem keeps_newArr {X : Loc → Prop} (bs : List Byte) (s : GSt) : Keeps X s (newArr bs s) := by
  refine ⟨by simp [newArr, withW], Nat.le_refl _, Nat.le_refl _, ?_⟩
  intro l ho _
  cases l <;> try rfl
  case cell a q =>
    simp only [Loc.Old, Base.of] at ho
    simp only [read, World.cell, World.arr, newArr, withW, List.getD_eq_getElem?_getD]
    rw [List.getElem?_append_left ho]

theorem keeps_newMap {X : Loc → Prop} (s : GSt) : Keeps X s (newMap s) := by
  refine ⟨Nat.le_refl _, by simp [newMap, withW], Nat.le_refl _, ?_⟩
  intro l ho _
  cases l <;> try rfl
  case map id =>
    simp only [Loc.Old, Base.of] at ho
    simp only [read, newMap, withW, List.getD_eq_getElem?_getD]
    rw [List.getElem?_append_left ho]

theorem keeps_newStruct {X : Loc → Prop} (m : HMsg) (s : GSt) : Keeps X s (newStruct m s) := by
  refine ⟨Nat.le_refl _, Nat.le_refl _, Nat.le_succ _, ?_⟩
  intro l ho _
  cases l <;> (try rfl) <;> (simp only [Loc.Old, Base.of] at ho; simp only [read, newStruct, Heap.put]; rw [if_neg (by omega)])

/-- A program changes only what it may write. -/
theorem Prog.Safe.keeps {α : Type} {R W : Loc → Prop} {Q : α → GSt → Prop} {p : Prog α} {s : GSt} (h : p.Safe R W Q s) :
    p.Safe R W (fun a s' => Q a s' ∧ Keeps W s s') s := by
  suffices H : ∀ s0, Keeps W s0 s → p.Safe R W (fun a s' => Q a s' ∧ Keeps W s0 s') s from H s (.refl s)
  induction p generalizing s with
  | done a => exact fun s0 hk => ⟨h, hk⟩
  | stop e => exact fun s0 hk => trivial
  | load l k ih => exact fun s0 hk => ⟨h.1, ih _ h.2 s0 hk⟩
  | store w k ih => exact fun s0 hk => ⟨h.1, ih h.2 s0 (hk.trans (keeps_write s h.1))⟩
  | newArr bs k ih => exact fun s0 hk => ih _ h s0 (hk.trans (keeps_newArr bs s))
  | newMap k ih => exact fun s0 hk => ih _ h s0 (hk.trans (keeps_newMap s))
  | newStruct m k ih => exact fun s0 hk => ih _ h s0 (hk.trans (keeps_newStruct m s))

/-- The same for panics. -/
theorem Prog.SafeZ.keeps {α : Type} {Z : GSt → Prop} {R W : Loc → Prop} {Q : α → GSt → Prop} {p : Prog α} {s : GSt} (h : p.SafeZ Z R W Q s) :
    p.SafeZ (fun s' => Z s' ∧ Keeps W s s') R W (fun a s' => Q a s' ∧ Keeps W s s') s := by
  suffices H : ∀ s0, Keeps W s0 s → p.SafeZ (fun s' => Z s' ∧ Keeps W s0 s') R W (fun a s' => Q a s' ∧ Keeps W s0 s') s from H s (.refl s)
  induction p generalizing s with
  | done a => exact fun s0 hk => ⟨h, hk⟩
  | stop e => exact fun s0 hk => ⟨h, hk⟩
  | load l k ih => exact fun s0 hk => ⟨h.1, ih _ h.2 s0 hk⟩
  | store w k ih => exact fun s0 hk => ⟨h.1, ih h.2 s0 (hk.trans (keeps_write s h.1))⟩
  | newArr bs k ih => exact fun s0 hk => ih _ h s0 (hk.trans (keeps_newArr bs s))
  | newMap k ih => exact fun s0 hk => ih _ h s0 (hk.trans (keeps_newMap s))
  | newStruct m k ih => exact fun s0 hk => ih _ h s0 (hk.trans (keeps_newStruct m s))

/-! ## Permissions -/

/-- Struct `i` may be read (level 0), filled with other contents (1), or changed in place, with the bytes of its buffer (2). -/
structure Has (R W : Loc → Prop) (lv : Nat) (s : GSt) (i : Nat) : Prop where
  buf : R (.buf i)
  slot : ∀ k, R (.slot i k)
  slots : R (.slots i)
  ref : R (.ref i)
  bytes : Reaches R (s.h.ms i).buf
  map : ∀ id, (s.h.ms i).m = some id → R (.map id)
  wbuf : 1 ≤ lv → W (.buf i)
  wslot : ∀ k, 1 ≤ lv → W (.slot i k)
  wref : 1 ≤ lv → W (.ref i)
  wmap : ∀ id, 1 ≤ lv → (s.h.ms i).m = some id → W (.map id)
  wbytes : 2 ≤ lv → Reaches W (s.h.ms i).buf

theorem Has.mono {R W : Loc → Prop} {lv lv' : Nat} {s : GSt} {i : Nat} (h : Has R W lv s i) (hl : lv' ≤ lv) : Has R W lv' s i :=
  ⟨h.buf, h.slot, h.slots, h.ref, h.bytes, h.map, fun x => h.wbuf (by omega), fun k x => h.wslot k (by omega), fun x => h.wref (by omega),
    fun id x => h.wmap id (by omega), fun x => h.wbytes (by omega)⟩

/-- What is allocated from now on may be read and written. -/
structure Fresh (R W : Loc → Prop) (s : GSt) : Prop where
  new : ∀ l, ¬ l.Old (Base.of s) → R l ∧ W l

theorem Fresh.keeps {R W X : Loc → Prop} {s s' : GSt} (h : Fresh R W s) (hk : Keeps X s s') : Fresh R W s' :=
  ⟨fun l hl => h.new l fun ho => hl (ho.grow hk.arrs hk.maps hk.next)⟩

/-- Bytes of a value may be read. -/
def Readable (R : Loc → Prop) (v : Val) : Prop := plain v = true ∨ ∃ t, (v = .bytes (.mem t) ∨ v = .str (.mem t)) ∧ Reaches R t

/-- What a function may change that works on struct `i`. -/
def On (lv i : Nat) : Loc → Prop
  | .cell _ _ | .map _ => True
  | .buf k => k = i ∧ 2 ≤ lv
  | .slot k _ | .ref k => k = i ∧ 1 ≤ lv
  | .slots _ | .iter _ => False

theorem On.mono {lv lv' i : Nat} (h : lv ≤ lv') {l : Loc} (ho : On lv i l) : On lv' i l := by
  cases l <;> simp only [On] at ho ⊢ <;> omega

section
variable {R W : Loc → Prop} {s : GSt} {i : Nat} {rt : Rt}

theorem Has.keeps {lv lv' k : Nat} {s' : GSt} (h : Has R W lv s k) (hlt : k < s.next) (hk : Keeps (On lv' i) s s') (hne : k ≠ i ∨ lv' = 0) : Has R W lv s' k := by
  have h1 : (s'.h.ms k).buf = (s.h.ms k).buf := hk.same (.buf k) hlt (by simp only [On]; omega)
  have h2 : (s'.h.ms k).m = (s.h.ms k).m := hk.same (.ref k) hlt (by simp only [On]; omega)
  refine ⟨h.buf, h.slot, h.slots, h.ref, ?_, ?_, h.wbuf, h.wslot, h.wref, ?_, ?_⟩
  · rw [h1]; exact h.bytes
  · rw [h2]; exact h.map
  · rw [h2]; exact h.wmap
  · rw [h1]; exact h.wbytes

/-- The permissions of a call with arguments that belong to struct `i`. -/
def permOf (R W : Loc → Prop) (s : GSt) (lv : Nat) (S : Nat → Prop) : Perm :=
  ⟨lv, S, R, W, s.h.w.arrs.length, s.h.w.maps.length, fun id => ∃ i, S i ∧ (s.h.ms i).m = some id⟩

/-- What holds when a function panics that works on struct `i`. -/
structure OnStop (R W : Loc → Prop) (lv i : Nat) (s s' : GSt) : Prop where
  has : Has R W lv s' i
  keeps : Keeps (fun l => W l ∧ On lv i l) s s'
  live : ∀ id, (s'.h.ms i).m = some id → (s.h.ms i).m = some id ∨ id < s'.h.w.maps.length

/-- A call of a function of package zeropb, with struct `i`. -/
theorem safez_on {lv : Nat} (hl : lv ≤ 2) (hf : Fresh R W s) (h : Has R W lv s i) {f : Id} (hc : callable lv f = true) {args : List Val}
    (ha : ∀ v ∈ args, v = .offs i ∨ v = .bufPtr i ∨ Readable R v) (m d : Nat) :
    (goCall rt m d f args).SafeZ (OnStop R W lv i s) R W (fun rs s' => OnStop R W lv i s s' ∧ ∀ t, .bytes (.mem t) ∈ rs ∨ .str (.mem t) ∈ rs → Reaches R t) s := by
  have cell : ∀ a q, s.h.w.arrs.length ≤ a → R (.cell a q) ∧ W (.cell a q) := fun a q h => hf.new (.cell a q) (by simp only [Loc.Old, Base.of]; omega)
  have mp : ∀ id, s.h.w.maps.length ≤ id → R (.map id) ∧ W (.map id) := fun id h => hf.new (.map id) (by simp only [Loc.Old, Base.of]; omega)
  have hP : (permOf R (fun l => W l ∧ On lv i l) s lv (· = i)).Ok := by
    refine ⟨hl, ?_, ?_, ?_, ?_, ?_, ?_, ?_, fun a q h => (cell a q h).1, fun a q h => ⟨(cell a q h).2, trivial⟩, fun id hi => ⟨(mp id hi).1, fun _ => ⟨(mp id hi).2, trivial⟩⟩⟩
    · rintro _ rfl; exact h.buf
    · rintro _ k rfl; exact h.slot k
    · rintro _ rfl; exact h.slots
    · rintro _ rfl; exact h.ref
    · intro _ e (h2 : 2 ≤ lv); cases e; exact ⟨h.wbuf (by omega), rfl, h2⟩
    · intro _ k e (h2 : 1 ≤ lv); cases e; exact ⟨h.wslot k h2, rfl, h2⟩
    · intro _ e (h2 : 1 ≤ lv); cases e; exact ⟨h.wref h2, rfl, h2⟩
  have hI : (permOf R (fun l => W l ∧ On lv i l) s lv (· = i)).Inv s := by
    refine ⟨?_, ?_, ?_, Nat.le_refl _, Nat.le_refl _, fun k id hk hid => .inl ⟨k, hk, hid⟩⟩
    · rintro _ rfl; exact h.bytes
    · intro _ e (h2 : 2 ≤ lv); cases e; exact fun q h3 h4 => ⟨h.wbytes h2 q h3 h4, trivial⟩
    · intro _ id e he; cases e; exact ⟨h.map id he, fun h2 => ⟨h.wmap id h2 he, trivial⟩⟩
  have back : ∀ s', (permOf R (fun l => W l ∧ On lv i l) s lv (· = i)).Inv s' → Has R W lv s' i := fun s' hi =>
    ⟨h.buf, h.slot, h.slots, h.ref, hi.buf i rfl, fun id e => (hi.ref i id rfl e).1, h.wbuf, h.wslot, h.wref, fun id h1 e => ((hi.ref i id rfl e).2 h1).1,
      fun h2 q h3 h4 => (hi.wbuf i rfl h2 q h3 h4).1⟩
  have stop : ∀ s', (permOf R (fun l => W l ∧ On lv i l) s lv (· = i)).Inv s' → Keeps (fun l => W l ∧ On lv i l) s s' → OnStop R W lv i s s' := fun s' hi hk => by
    refine ⟨back s' hi, hk, fun id hid => ?_⟩
    rcases hi.live i id rfl hid with ⟨_, rfl, h1⟩ | h1
    · exact .inl h1
    · exact .inr h1
  refine (safe_goCall hP m d f args s hc hI ?_).keeps.mono (fun s' h => stop s' h.1 h.2) (fun _ x => x) (fun _ x => x.1) ?_
  · intro v hv
    rcases ha v hv with rfl | rfl | h | ⟨t, rfl | rfl, h⟩
    · exact .offs rfl
    · exact .bufPtr rfl
    · exact .plain h
    · exact .bytes h
    · exact .str h
  · rintro rs s' ⟨⟨hi, hv⟩, hk⟩
    refine ⟨stop s' hi hk, ?_⟩
    rintro t (ht | ht)
    · exact (hv _ ht).bytes_inv
    · cases hv _ ht with
      | plain h => cases h
      | str h => exact h

theorem safe_on {lv : Nat} (hl : lv ≤ 2) (hf : Fresh R W s) (h : Has R W lv s i) {f : Id} (hc : callable lv f = true) {args : List Val}
    (ha : ∀ v ∈ args, v = .offs i ∨ v = .bufPtr i ∨ Readable R v) (m d : Nat) :
    (goCall rt m d f args).Safe R W (fun rs s' => Has R W lv s' i ∧ Keeps (On lv i) s s' ∧ ∀ t, .bytes (.mem t) ∈ rs ∨ .str (.mem t) ∈ rs → Reaches R t) s :=
  ((safez_on hl hf h hc ha m d).imp fun _ _ x => ⟨x.1.has, x.1.keeps.mono fun _ y => y.2, x.2⟩).safe

/-- A call of a function that works on no struct. -/
theorem safe_off (hf : Fresh R W s) {f : Id} (hc : callable 0 f = true) {args : List Val} (ha : ∀ v ∈ args, Readable R v) (m d : Nat) :
    (goCall rt m d f args).Safe R W (fun rs s' => Keeps (On 0 i) s s' ∧ ∀ t, .bytes (.mem t) ∈ rs ∨ .str (.mem t) ∈ rs → Reaches R t) s := by
  have cell : ∀ a q, s.h.w.arrs.length ≤ a → R (.cell a q) ∧ W (.cell a q) := fun a q h => hf.new (.cell a q) (by simp only [Loc.Old, Base.of]; omega)
  have mp : ∀ id, s.h.w.maps.length ≤ id → R (.map id) ∧ W (.map id) := fun id h => hf.new (.map id) (by simp only [Loc.Old, Base.of]; omega)
  have hP : (permOf R (fun l => W l ∧ On 0 i l) s 0 (fun _ => False)).Ok :=
    ⟨Nat.zero_le _, nofun, nofun, nofun, nofun, nofun, nofun, nofun, fun a q h => (cell a q h).1, fun a q h => ⟨(cell a q h).2, trivial⟩,
      fun id hi => ⟨(mp id hi).1, fun _ => ⟨(mp id hi).2, trivial⟩⟩⟩
  have hI : (permOf R (fun l => W l ∧ On 0 i l) s 0 (fun _ => False)).Inv s := ⟨nofun, nofun, nofun, Nat.le_refl _, Nat.le_refl _, nofun⟩
  refine (safe_goCall hP m d f args s hc hI ?_).safe.keeps.mono (fun _ x => x) (fun _ x => x.1) ?_
  · intro v hv
    rcases ha v hv with h | ⟨t, rfl | rfl, h⟩
    · exact .plain h
    · exact .bytes h
    · exact .str h
  · rintro rs s' ⟨⟨hi, hv⟩, hk⟩
    refine ⟨hk.mono fun l x => x.2, ?_⟩
    rintro t (ht | ht)
    · exact (hv _ ht).bytes_inv
    · cases hv _ ht with
      | plain h => cases h
      | str h => exact h

theorem conc_WrapOffsets (rt : Rt) (m d i : Nat) : goCall rt m (d + 1) .WrapOffsets [.arrOf i, .mapPtr i] = .done [.offs i] := by
  have h : (if i = i then (.done (Val.offs i, [(Id.a, Val.arrOf i), (Id.m, Val.mapPtr i)]) : Prog (Val × Vars)) else .stop .stuck) =
      .done (Val.offs i, [(Id.a, Val.arrOf i), (Id.m, Val.mapPtr i)]) := if_pos rfl
  show (((if i = i then (.done (Val.offs i, [(Id.a, Val.arrOf i), (Id.m, Val.mapPtr i)]) : Prog (Val × Vars)) else .stop .stuck) >>= fun x =>
      (.done (.many [x.1], x.2) : Prog (Val × Vars))) >>= fun r => (.done (.ret r.1.flat, r.2) : Prog (Out × Vars))) >>= _ >>= _ = _
  rw [h]
  rfl

/-! ## Expressions -/

section
variable {p : Program} {call : Calls} {meth : Methods} {env : Env} {t : Text}

theorem geval_wrap (hw : call .WrapOffsets [.arrOf i, .mapPtr i] = .done [.offs i]) (hm : get t!"m" env = some (.ptr t i)) :
    geval p call meth env wrap = .done [.val (.offs i)] := by
  have h2 : geval p call meth env (.args (.all (.sel (.sel (.id t!"m") t!"offsets") t!"a")) (.arg (.addr (.sel (.sel (.id t!"m") t!"offsets") t!"m")))) =
      .done [.val (.arrOf i), .val (.mapPtr i)] := by
    simp only [geval, place, hm]; rfl
  unfold wrap
  rw [geval, h2]
  show (call .WrapOffsets [.arrOf i, .mapPtr i] >>= fun rs => .done (rs.map GVal.val)) = _
  rw [hw]
  rfl

theorem geval_mbuf (hm : get t!"m" env = some (.ptr t i)) :
    geval p call meth env mbuf = .load (.buf i) fun (b : HSlice) => .done [.val (.bytes (.mem b))] := by
  unfold mbuf
  simp only [geval, place, hm]; rfl

theorem vals_map (vs : List Val) : vals (vs.map GVal.val) = .ok vs := by
  induction vs with
  | nil => rfl
  | cons v vs ih => simp only [List.map_cons, vals, ih]; rfl

theorem gruntime_eq {f : Text} {g : Id} (hf : pkgFunc f = some g) (vs : List Val) :
    gruntime call f (vs.map GVal.val) = (call g vs >>= fun rs => .done (rs.map GVal.val)) := by
  unfold gruntime
  simp only [hf, vals_map]
  rfl

/-- A getter-like call: `zeropb.f(m.buf, WrapOffsets(…), num)`. -/
theorem geval_getter (hw : call .WrapOffsets [.arrOf i, .mapPtr i] = .done [.offs i]) (hm : get t!"m" env = some (.ptr t i))
    {f : Text} {g : Id} (hf : pkgFunc f = some g) (n : Nat) :
    geval p call meth env (.pkg f (.args mbuf (.args wrap (.arg (.num n))))) =
    .load (.buf i) fun (b : HSlice) => call g [.bytes (.mem b), .offs i, .const n] >>= fun rs => .done (rs.map GVal.val) := by
  have h0 : (0 : Int) ≤ (n : Int) := Int.natCast_nonneg n
  simp only [geval, geval_mbuf hm, geval_wrap hw hm, h0, if_true, Int.toNat_natCast]
  show Prog.load (.buf i) (fun (b : HSlice) => gruntime call f ([.bytes (.mem b), .offs i, .const n].map GVal.val)) = _
  congr 1
  funext b
  exact gruntime_eq hf _

/-- A setter-like call: `zeropb.f(&m.buf, WrapOffsets(…), num, x)`. -/
theorem geval_setter (hw : call .WrapOffsets [.arrOf i, .mapPtr i] = .done [.offs i]) (hm : get t!"m" env = some (.ptr t i))
    {f x : Text} {g : Id} (hf : pkgFunc f = some g) (n : Nat) {v : Val} (hx : get x env = some (.val v)) :
    geval p call meth env (.pkg f (.args (.addr mbuf) (.args wrap (.args (.num n) (.arg (.id x)))))) =
    (call g [.bufPtr i, .offs i, .const n, v] >>= fun rs => .done (rs.map GVal.val)) := by
  have h0 : (0 : Int) ≤ (n : Int) := Int.natCast_nonneg n
  rw [geval]
  simp only [geval, place_mbuf hm, geval_wrap hw hm, h0, if_true, Int.toNat_natCast, hx]
  exact gruntime_eq hf [.bufPtr i, .offs i, .const n, v]

theorem geval_decode {g : Text} {rep : Nat → Bool} (hw : call .WrapOffsets [.arrOf i, .mapPtr i] = .done [.offs i]) (hm : get t!"m" env = some (.ptr t i))
    (hn : get g env = none) (hg : global p g = some (.val (.reps rep))) :
    geval p call meth env (.pkg t!"Decode" (.args mbuf (.args wrap (.arg (.id g))))) =
    .load (.buf i) fun (b : HSlice) => call .Decode [.bytes (.mem b), .offs i, .reps rep] >>= fun rs => .done (rs.map GVal.val) := by
  simp only [geval, geval_mbuf hm, geval_wrap hw hm, hn, hg]
  show Prog.load (.buf i) (fun (b : HSlice) => gruntime call t!"Decode" ([.bytes (.mem b), .offs i, .reps rep].map GVal.val)) = _
  congr 1

end

/-! ## What a goroutine may use -/

/-- What a goroutine may use: structs, with the level of `Has`, and iterator variables. -/
structure Rights where
  level : Nat → Option Nat
  iter : Nat → Prop

/-- Struct `i` may now be used at level `lv`. -/
def Rights.set (g : Rights) (i lv : Nat) : Rights := { g with level := fun k => if k = i then some lv else g.level k }

/-- The rights are within `R` and `W`. -/
structure Holds (R W : Loc → Prop) (g : Rights) (s : GSt) : Prop where
  fresh : Fresh R W s
  struct : ∀ i lv, g.level i = some lv → lv ≤ 2 ∧ i < s.next ∧ Has R W lv s i
  iter : ∀ v, g.iter v → R (.iter v) ∧ W (.iter v) ∧ ∀ b, s.its v = some b → Reaches R b

/-- The bytes of results may be read. -/
def OutOk (R : Loc → Prop) (out : List GVal) : Prop := ∀ t, .val (.bytes (.mem t)) ∈ out ∨ .val (.str (.mem t)) ∈ out → Reaches R t

/-- What holds after a method. -/
def After (R W : Loc → Prop) (g : Rights) (out : List GVal) (s : GSt) : Prop := Holds R W g s ∧ OutOk R out

theorem Holds.quiet {g : Rights} {s' : GSt} (h : Holds R W g s) (hk : Keeps (On 0 i) s s') : Holds R W g s' := by
  refine ⟨h.fresh.keeps hk, ?_, ?_⟩
  · intro k lv e
    obtain ⟨h1, h2, h3⟩ := h.struct k lv e
    exact ⟨h1, Nat.lt_of_lt_of_le h2 hk.next, h3.keeps h2 hk (Or.inr rfl)⟩
  · intro v hv
    obtain ⟨h1, h2, h3⟩ := h.iter v hv
    refine ⟨h1, h2, ?_⟩
    rw [show s'.its v = s.its v from hk.same (.iter v) trivial id]
    exact h3

theorem Holds.change {g : Rights} {s' : GSt} {lv lv' : Nat} (h : Holds R W g s) (hk : Keeps (On lv' i) s s') (hlv : lv ≤ 2) (hi : i < s'.next) (hh : Has R W lv s' i) :
    Holds R W (g.set i lv) s' := by
  refine ⟨h.fresh.keeps hk, ?_, ?_⟩
  · intro k lv2 e
    simp only [Rights.set] at e
    split at e
    · next e1 => subst e1; injection e with e; subst e; exact ⟨hlv, hi, hh⟩
    · next e1 =>
      obtain ⟨h1, h2, h3⟩ := h.struct k lv2 e
      exact ⟨h1, Nat.lt_of_lt_of_le h2 hk.next, h3.keeps h2 hk (Or.inl e1)⟩
  · intro v hv
    obtain ⟨h1, h2, h3⟩ := h.iter v hv
    refine ⟨h1, h2, ?_⟩
    rw [show s'.its v = s.its v from hk.same (.iter v) trivial id]
    exact h3

theorem outOk_map {rs : List Val} (h : ∀ t, .bytes (.mem t) ∈ rs ∨ .str (.mem t) ∈ rs → Reaches R t) : OutOk R (rs.map GVal.val) := by
  intro t ht
  apply h t
  simpa using ht

/-! ## Methods -/

section
variable {p : Program} {d n m : Nat} {msg : Text} {g : Rights} {lv : Nat}

theorem safe_ite {α : Type} {c : Prop} [Decidable c] {a : α} {e : Stop} {Q : α → GSt → Prop} (h : Q a s) : (if c then (.done a : Prog α) else .stop e).Safe R W Q s := by
  split
  · exact h
  · trivial

/-- `Encode`. -/
theorem gsafe_encode {call : Calls} (hm : method p msg t!"Encode" = some (srcEncode msg)) (h : Holds R W g s) (hi : g.level i = some lv) :
    (gcallMethod p call (n + 1) msg t!"Encode" [.ptr msg i]).Safe R W (After R W g) s := by
  rw [gcallMethod, hm]
  refine ⟨(h.struct i lv hi).2.2.buf, h, ?_⟩
  intro t ht
  simp only [List.mem_cons, List.not_mem_nil, or_false, GVal.val.injEq, Val.bytes.injEq, reduceCtorEq] at ht
  injection ht with ht
  subst ht
  exact (h.struct i lv hi).2.2.bytes

/-- The arguments of a getter. -/
theorem getter_args {f : Nat} (h : Has R W lv s i) : ∀ v ∈ [Val.bytes (.mem (s.h.ms i).buf), .offs i, .const f], v = .offs i ∨ v = .bufPtr i ∨ Readable R v := by
  intro v hv
  simp only [List.mem_cons, List.not_mem_nil, or_false] at hv
  rcases hv with rfl | rfl | rfl
  · exact Or.inr (Or.inr (Or.inr ⟨_, Or.inl rfl, h.bytes⟩))
  · exact Or.inl rfl
  · exact Or.inr (Or.inr (Or.inl rfl))

/-- A getter of a scalar field. -/
theorem gsafe_get (h : Holds R W g s) (hi : g.level i = some lv) {name goType fn : Text} {f : Nat} {q : Id} (hm : method p msg name = some (G.srcGet msg name goType fn f))
    (hg : pkgFunc (t!"Get" ++ fn) = some q) (hc : callable 0 q = true) :
    (gcallMethod p (goCall rt m (d + 1)) (n + 1) msg name [.ptr msg i]).Safe R W (After R W g) s := by
  obtain ⟨_, _, hh⟩ := h.struct i lv hi
  rw [gcallMethod, hm]
  have he := geval_getter (p := p) (meth := gcallMethod p (goCall rt m (d + 1)) n) (env := [(t!"m", .ptr msg i)]) (t := msg) (conc_WrapOffsets rt m d i) rfl hg f
  simp only [ginvoke, G.srcGet, gbindAll, block, gexec, Prog.bind_done]
  rw [geval, he]
  refine Prog.safe_bind (Prog.safe_bind (Prog.safe_bind ⟨hh.buf, ?_⟩))
  refine Prog.safe_bind ((safe_on (Nat.zero_le _) h.fresh (hh.mono (Nat.zero_le _)) hc (getter_args hh) m (d + 1)).imp fun rs s' hr => ?_)
  exact safe_ite ⟨h.quiet hr.2.1, outOk_map hr.2.2⟩

/-- A setter of a scalar field. -/
theorem gsafe_set (h : Holds R W g s) (hi : g.level i = some 2) {name goType fn : Text} {f : Nat} {q : Id} (hm : method p msg (t!"Set" ++ name) = some (G.srcSet msg name goType fn f))
    (hg : pkgFunc (t!"Set" ++ fn) = some q) (ht : slots p goType = none) {v : Val} (hv : Readable R v) :
    (gcallMethod p (goCall rt m (d + 1)) (n + 1) msg (t!"Set" ++ name) [.ptr msg i, .val v]).Safe R W (After R W (g.set i 2)) s := by
  obtain ⟨_, hlt, hh⟩ := h.struct i 2 hi
  rw [gcallMethod, hm]
  have hb : gbindArg p (scalarTy goType) (.val v) = .done (.val v) := by
    unfold scalarTy
    split
    · rfl
    · simp only [gbindArg, ht]; rfl
  have he := geval_setter (p := p) (meth := gcallMethod p (goCall rt m (d + 1)) n) (env := [(t!"m", .ptr msg i), (t!"x", .val v)]) (t := msg)
    (x := t!"x") (conc_WrapOffsets rt m d i) rfl hg f rfl
  simp only [ginvoke, G.srcSet, gbindAll, hb, block, gexec, Prog.bind_done]
  rw [he]
  refine Prog.safe_bind (Prog.safe_bind (Prog.safe_bind (Prog.safe_bind ((safe_on (Nat.le_refl _) h.fresh hh rfl ?_ m (d + 1)).imp fun rs s' hr => ?_))))
  · intro x hx
    simp only [List.mem_cons, List.not_mem_nil, or_false] at hx
    rcases hx with rfl | rfl | rfl | rfl
    · exact Or.inr (Or.inl rfl)
    · exact Or.inl rfl
    · exact Or.inr (Or.inr (Or.inl rfl))
    · exact Or.inr (Or.inr hv)
  · exact ⟨h.change hr.2.1 (Nat.le_refl _) (Nat.lt_of_lt_of_le hlt hr.2.1.next) hr.1, fun t ht => by simp at ht⟩

/-- The getter of a repeated message field. -/
theorem gsafe_getRepeated (h : Holds R W g s) (hi : g.level i = some lv) {name it : Text} {f : Nat} (hm : method p msg name = some (srcGetRepeated msg name it f)) :
    (gcallMethod p (goCall rt m (d + 1)) (n + 1) msg name [.ptr msg i]).Safe R W (After R W g) s := by
  obtain ⟨_, _, hh⟩ := h.struct i lv hi
  rw [gcallMethod, hm]
  have he := geval_getter (p := p) (meth := gcallMethod p (goCall rt m (d + 1)) n) (env := [(t!"m", .ptr msg i)]) (t := msg) (conc_WrapOffsets rt m d i) rfl
    (f := t!"GetRepeatedNonPacked") (g := .GetRepeatedNonPacked) rfl f
  simp only [ginvoke, srcGetRepeated, gbindAll, block, gexec, Prog.bind_done]
  rw [geval, geval, he]
  refine Prog.safe_bind (Prog.safe_bind (Prog.safe_bind (Prog.safe_bind ⟨hh.buf, ?_⟩)))
  refine Prog.safe_bind ((safe_on (Nat.zero_le _) h.fresh (hh.mono (Nat.zero_le _)) rfl (getter_args hh) m (d + 1)).imp fun rs s' hr => ?_)
  have hq := h.quiet hr.2.1
  refine Prog.safe_bind (safe_lift fun x hx => ?_)
  split
  · have hx : ∀ t, x = .bytes (.mem t) → Reaches R t := by
      rintro t rfl
      apply hr.2.2 t
      left
      cases rs with
      | nil => cases hx
      | cons r rs =>
        cases rs with
        | nil => simp only [List.map_cons, List.map_nil, singleVal] at hx; injection hx with hx; subst hx; simp
        | cons r' rs => cases hx
    split
    · exact safe_ite ⟨hq, fun t ht => by simp at ht⟩
    · next b =>
      refine safe_ite ⟨hq, fun t ht => ?_⟩
      simp only [List.mem_cons, List.not_mem_nil, or_false, GVal.val.injEq, Val.bytes.injEq, reduceCtorEq] at ht
      subst ht
      exact hx t rfl
    · trivial
  · trivial

theorem decode_args {b : HSlice} {rep : Nat → Bool} (hb : Reaches R b) : ∀ v ∈ [Val.bytes (.mem b), .offs i, .reps rep], v = .offs i ∨ v = .bufPtr i ∨ Readable R v := by
  intro v hv
  simp only [List.mem_cons, List.not_mem_nil, or_false] at hv
  rcases hv with rfl | rfl | rfl
  · exact Or.inr (Or.inr (Or.inr ⟨_, Or.inl rfl, hb⟩))
  · exact Or.inl rfl
  · exact Or.inr (Or.inr (Or.inl rfl))

/-- The struct gets another buffer. -/
theorem Has.fill {b : HSlice} (hh : Has R W lv s i) (hlv : 1 ≤ lv) {lv' : Nat} (hb : Reaches R b) (hw : 2 ≤ lv' → Reaches W b) : Has R W lv' ((Write.buf i b).apply s) i := by
  have e : ((Write.buf i b).apply s).h.ms i = { s.h.ms i with buf := b } := by simp [Write.apply, Heap.put]
  refine ⟨hh.buf, hh.slot, hh.slots, hh.ref, ?_, ?_, fun _ => hh.wbuf hlv, fun k _ => hh.wslot k hlv, fun _ => hh.wref hlv, ?_, ?_⟩
  · rw [e]; exact hb
  · rw [e]; exact hh.map
  · rw [e]; exact fun id _ => hh.wmap id hlv
  · rw [e]; exact hw

/-- A function that fills the struct leaves its buffer alone. -/
theorem Has.kept {lv' : Nat} {s' : GSt} (hh : Has R W lv s i) (hi : i < s.next) (h1 : Has R W lv' s' i) (hlv : 1 ≤ lv') (hk : Keeps (On 1 i) s s') : Has R W lv s' i := by
  have e : (s'.h.ms i).buf = (s.h.ms i).buf := hk.same (.buf i) hi (by simp [On])
  exact ⟨h1.buf, h1.slot, h1.slots, h1.ref, h1.bytes, h1.map, fun _ => h1.wbuf hlv, fun k _ => h1.wslot k hlv, fun _ => h1.wref hlv, fun id _ => h1.wmap id hlv,
    by rw [e]; exact hh.wbytes⟩

/-- Assign to `m.buf`. -/
theorem gstore_buf (v : Val) (env : Env) (hv : ∀ b, v = .bytes (.mem b) → Reaches R b) :
    gstore (.buf i) (.val v) env = .stop .stuck ∨
    ∃ b, gstore (.buf i) (.val v) env = .store (.buf i b) (.done env) ∧ Reaches R b ∧ (v = .bytes (.mem b) ∨ b = ⟨0, 0, 0, 0⟩) := by
  cases v with
  | bytes x =>
    cases x with
    | mem b => exact Or.inr ⟨b, rfl, hv b rfl, Or.inl rfl⟩
    | lit bs => exact Or.inl rfl
  | nil => exact Or.inr ⟨_, rfl, (fun q _ h => by simp at h), Or.inr rfl⟩
  | _ => exact Or.inl rfl

theorem safez_ite {α : Type} {Z : GSt → Prop} {c : Prop} [Decidable c] {a : α} {e : Stop} {Q : α → GSt → Prop} (h : Q a s) (hz : Z s) :
    (if c then (.done a : Prog α) else .stop e).SafeZ Z R W Q s := by
  split
  · exact h
  · exact hz

/-- At the moment `Decode` panics, the buffer has been assigned and the function of package zeropb has done part of its work. -/
theorem gsafez_decode {b : HSlice} (hf : Fresh R W s) (hh : Has R W 1 s i) {rep : Nat → Bool} (hm : method p msg t!"Decode" = some (G.srcDecode msg))
    (hg : global p (t!"repeatedFields_" ++ msg) = some (.val (.reps rep))) (hb : Reaches R b) :
    (gcallMethod p (goCall rt m (d + 1)) (n + 1) msg t!"Decode" [.ptr msg i, .val (.bytes (.mem b))]).SafeZ (OnStop R W 1 i ((Write.buf i b).apply s)) R W (fun _ _ => True) s := by
  rw [gcallMethod, hm]
  have hgl : get (t!"repeatedFields_" ++ msg) [(t!"m", GVal.ptr msg i), (t!"buf", .val (.bytes (.mem b)))] = none := by
    simp [G.get]
  have he := geval_decode (p := p) (call := goCall rt m (d + 1)) (meth := gcallMethod p (goCall rt m (d + 1)) n) (t := msg) (i := i)
    (conc_WrapOffsets rt m d i) rfl hgl hg
  have h3 : geval p (goCall rt m (d + 1)) (gcallMethod p (goCall rt m (d + 1)) n) [(t!"m", .ptr msg i), (t!"buf", .val (.bytes (.mem b)))] (.id t!"buf") =
    .done [.val (.bytes (.mem b))] := rfl
  simp only [ginvoke, G.srcDecode, gbindAll, gbindArg, block, gexec, Prog.bind_done]
  rw [h3]
  simp only [Prog.bind_done, single, lift, place_mbuf (t := msg) (i := i) (env := [(t!"m", .ptr msg i), (t!"buf", .val (.bytes (.mem b)))]) rfl]
  refine Prog.safez_bind (show Prog.SafeZ _ _ _ _ (Prog.store (.buf i b) _) s from ⟨hh.wbuf (Nat.le_refl _), ?_⟩)
  have hs1 : Has R W 1 ((Write.buf i b).apply s) i := hh.fill (Nat.le_refl _) hb (fun h => absurd h (by decide))
  have hk1 : Keeps (On 2 i) s ((Write.buf i b).apply s) := keeps_write s ⟨rfl, Nat.le_refl _⟩
  show Prog.SafeZ _ _ _ _ ((geval _ _ _ _ _ >>= _) >>= _) _
  rw [geval, he]
  have hrb : read (.buf i) ((Write.buf i b).apply s) = b := by simp only [read, Write.apply, Heap.put, if_true]; rfl
  refine Prog.safez_bind (Prog.safez_bind ⟨hh.buf, ?_⟩)
  rw [hrb]
  refine Prog.safez_bind ((safez_on (lv := 1) (by decide) (hf.keeps hk1) hs1 rfl (decode_args hb) m (d + 1)).imp fun rs s' hr => ?_)
  exact safez_ite trivial hr.1

/-- `Decode`. -/
theorem gsafe_decode (h : Holds R W g s) (hi : g.level i = some lv) (hlv : 1 ≤ lv) {rep : Nat → Bool} (hm : method p msg t!"Decode" = some (G.srcDecode msg))
    (hg : global p (t!"repeatedFields_" ++ msg) = some (.val (.reps rep))) {v : Val} (hb : ∀ b, v = .bytes (.mem b) → Reaches R b) {lv' : Nat} (h1 : 1 ≤ lv') (h2 : lv' ≤ 2)
    (hw : 2 ≤ lv' → ∀ b, v = .bytes (.mem b) → Reaches W b) :
    (gcallMethod p (goCall rt m (d + 1)) (n + 1) msg t!"Decode" [.ptr msg i, .val v]).Safe R W (After R W (g.set i lv')) s := by
  obtain ⟨_, hlt, hh⟩ := h.struct i lv hi
  rw [gcallMethod, hm]
  have hgl : get (t!"repeatedFields_" ++ msg) [(t!"m", GVal.ptr msg i), (t!"buf", .val v)] = none := by
    simp [G.get]
  have he := geval_decode (p := p) (call := goCall rt m (d + 1)) (meth := gcallMethod p (goCall rt m (d + 1)) n) (t := msg) (i := i)
    (conc_WrapOffsets rt m d i) rfl hgl hg
  have h3 : geval p (goCall rt m (d + 1)) (gcallMethod p (goCall rt m (d + 1)) n) [(t!"m", .ptr msg i), (t!"buf", .val v)] (.id t!"buf") =
    .done [.val v] := rfl
  simp only [ginvoke, G.srcDecode, gbindAll, gbindArg, block, gexec, Prog.bind_done]
  rw [h3]
  simp only [Prog.bind_done, single, lift, place_mbuf (t := msg) (i := i) (env := [(t!"m", .ptr msg i), (t!"buf", .val v)]) rfl]
  rcases gstore_buf v [(t!"m", GVal.ptr msg i), (t!"buf", .val v)] hb with hst | ⟨b, hst, hb', hor⟩
  · rw [hst]; trivial
  have hw' : 2 ≤ lv' → Reaches W b := by
    intro h
    rcases hor with e | rfl
    · exact hw h b e
    · exact fun q _ h => by simp at h
  rw [hst]
  have hs1 : Has R W lv' ((Write.buf i b).apply s) i := hh.fill hlv hb' hw'
  have hk1 : Keeps (On 2 i) s ((Write.buf i b).apply s) := keeps_write s ⟨rfl, Nat.le_refl _⟩
  refine Prog.safe_bind ⟨hh.wbuf hlv, ?_⟩
  show Prog.Safe _ _ _ ((geval _ _ _ _ _ >>= _) >>= _) _
  rw [geval, he]
  have hrb : read (.buf i) ((Write.buf i b).apply s) = b := by simp only [read, Write.apply, Heap.put, if_true]; rfl
  refine Prog.safe_bind (Prog.safe_bind ⟨hh.buf, ?_⟩)
  rw [hrb]
  refine Prog.safe_bind ((safe_on (lv := 1) (by decide) (h.fresh.keeps hk1) (hs1.mono h1) rfl (decode_args hb') m (d + 1)).imp fun rs s' hr => ?_)
  refine safe_ite ⟨h.change (hk1.trans (hr.2.1.mono fun l x => x.mono (by decide))) h2 ?_ ?_, outOk_map hr.2.2⟩
  · exact Nat.lt_of_lt_of_le hlt (Nat.le_trans hk1.next hr.2.1.next)
  · exact hs1.kept (Nat.lt_of_lt_of_le hlt hk1.next) hr.1 (Nat.le_refl _) hr.2.1

theorem Holds.lower (h : Holds R W g s) (hi : g.level i = some lv) {lv' : Nat} (hl : lv' ≤ lv) : Holds R W (g.set i lv') s := by
  obtain ⟨h1, h2, h3⟩ := h.struct i lv hi
  exact h.change (lv' := 0) (.refl s) (by omega) h2 (h3.mono hl)

theorem reaches_nil (X : Loc → Prop) : Reaches X ⟨0, 0, 0, 0⟩ := fun q _ h => by simp at h

/-- The end of `Reset`. -/
theorem gsafe_clear (h : Holds R W g s) (hi : g.level i = some lv) (hlv : 1 ≤ lv) {meth : Methods} {env : Env} (he : G.get t!"m" env = some (.ptr msg i))
    {b : HSlice} (hb : Reaches R b) {lv' : Nat} (h1 : 1 ≤ lv') (h2 : lv' ≤ 2) (hw : 2 ≤ lv' → Reaches W b) :
    (Prog.store (.buf i b) (gexec p (goCall rt m (d + 1)) meth (block [.expr (.method wrap t!"Clear" .noArgs)]) env)).Safe R W
      (fun o s' => (∃ env, o = .next env) ∧ Holds R W (g.set i lv') s') s := by
  obtain ⟨_, hlt, hh⟩ := h.struct i lv hi
  have hs1 : Has R W lv' ((Write.buf i b).apply s) i := hh.fill hlv hb hw
  have hk1 : Keeps (On 2 i) s ((Write.buf i b).apply s) := keeps_write s ⟨rfl, Nat.le_refl _⟩
  refine ⟨hh.wbuf hlv, ?_⟩
  have hwr := geval_wrap (p := p) (call := goCall rt m (d + 1)) (meth := meth) (env := env) (t := msg) (i := i) (conc_WrapOffsets rt m d i) he
  have hr := gruntime_eq (call := goCall rt m (d + 1)) (f := t!"Clear") (g := .Clear) rfl [.offs i]
  simp only [block, gexec, geval, hwr, Prog.bind_done, single, lift]
  rw [show ([.val (.offs i)] : List GVal) = [.offs i].map GVal.val from rfl, hr]
  refine Prog.safe_bind (Prog.safe_bind (Prog.safe_bind ((safe_on (lv := 1) (by decide) (h.fresh.keeps hk1) (hs1.mono h1) rfl ?_ m (d + 1)).imp fun rs s' hr => ?_)))
  · intro v hv
    simp only [List.mem_cons, List.not_mem_nil, or_false] at hv
    exact Or.inl hv
  · refine ⟨⟨_, rfl⟩, h.change (hk1.trans (hr.2.1.mono fun l x => x.mono (by decide))) h2 ?_ ?_⟩
    · exact Nat.lt_of_lt_of_le hlt (Nat.le_trans hk1.next hr.2.1.next)
    · exact hs1.kept (Nat.lt_of_lt_of_le hlt hk1.next) hr.1 (Nat.le_refl _) hr.2.1

/-- `Reset`. -/
theorem gsafe_reset (h : Holds R W g s) (hi : g.level i = some lv) (hlv : 1 ≤ lv) (hm : method p msg t!"Reset" = some (G.srcReset msg))
    {b : HSlice} (hb : Reaches R b) {lv' : Nat} (h1 : 1 ≤ lv') (h2 : lv' ≤ 2) (hw : 2 ≤ lv' → Reaches W b) :
    (gcallMethod p (goCall rt m (d + 1)) (n + 1) msg t!"Reset" [.ptr msg i, .val (.bytes (.mem b))]).Safe R W (After R W (g.set i lv')) s := by
  rw [gcallMethod, hm]
  have hc := gsafe_clear (p := p) (m := m) (d := d) (rt := rt) (meth := gcallMethod p (goCall rt m (d + 1)) n)
    (env := [(t!"m", .ptr msg i), (t!"buf", .val (.bytes (.mem b)))]) h hi hlv rfl hb h1 h2 hw
  have hcond : geval p (goCall rt m (d + 1)) (gcallMethod p (goCall rt m (d + 1)) n) [(t!"m", .ptr msg i), (t!"buf", .val (.bytes (.mem b)))]
      (.gt (.len (.id t!"buf")) (.num 0)) = .done [.val (.bool (decide ((b.len : Int) > 0)))] := by
    simp only [geval]; rfl
  have h3 : geval p (goCall rt m (d + 1)) (gcallMethod p (goCall rt m (d + 1)) n) [(t!"m", .ptr msg i), (t!"buf", .val (.bytes (.mem b)))] (.id t!"buf") =
    .done [.val (.bytes (.mem b))] := rfl
  simp only [ginvoke, G.srcReset, gbindAll, gbindArg, Prog.bind_done]
  rw [block, gexec, gexec, hcond]
  by_cases hl : (b.len : Int) > 0
  · simp only [hl, decide_true]; trivial
  · simp only [hl, decide_false, Prog.bind_done, singleVal, lift]
    rw [block, gexec, gexec, h3]
    simp only [Prog.bind_done, single, lift, place_mbuf (t := msg) (i := i) (env := [(t!"m", .ptr msg i), (t!"buf", .val (.bytes (.mem b)))]) rfl, gstore]
    refine Prog.safe_bind (hc.imp ?_)
    rintro _ s' ⟨⟨env, rfl⟩, hq⟩
    exact ⟨hq, fun t ht => by simp at ht⟩

/-- `Reset(nil)`. -/
theorem gsafe_reset_nil (h : Holds R W g s) (hi : g.level i = some lv) (hlv : 1 ≤ lv) (hm : method p msg t!"Reset" = some (G.srcReset msg)) :
    (gcallMethod p (goCall rt m (d + 1)) (n + 1) msg t!"Reset" [.ptr msg i, .val .nil]).Safe R W (After R W (g.set i 2)) s := by
  rw [gcallMethod, hm]
  have hc := gsafe_clear (p := p) (m := m) (d := d) (rt := rt) (meth := gcallMethod p (goCall rt m (d + 1)) n)
    (env := [(t!"m", .ptr msg i), (t!"buf", .val .nil)]) h hi hlv rfl (reaches_nil R) (lv' := 2) (by decide) (by decide) (fun _ => reaches_nil W)
  have hcond : geval p (goCall rt m (d + 1)) (gcallMethod p (goCall rt m (d + 1)) n) [(t!"m", .ptr msg i), (t!"buf", .val .nil)]
      (.gt (.len (.id t!"buf")) (.num 0)) = .done [.val (.bool false)] := by
    simp only [geval]; rfl
  have h3 : geval p (goCall rt m (d + 1)) (gcallMethod p (goCall rt m (d + 1)) n) [(t!"m", .ptr msg i), (t!"buf", .val .nil)] (.id t!"buf") =
    .done [.val .nil] := rfl
  simp only [ginvoke, G.srcReset, gbindAll, gbindArg, Prog.bind_done]
  rw [block, gexec, gexec, hcond]
  simp only [Prog.bind_done, singleVal, lift]
  rw [block, gexec, gexec, h3]
  simp only [Prog.bind_done, single, lift, place_mbuf (t := msg) (i := i) (env := [(t!"m", .ptr msg i), (t!"buf", .val .nil)]) rfl, gstore]
  refine Prog.safe_bind (hc.imp ?_)
  rintro _ s' ⟨⟨env, rfl⟩, hq⟩
  exact ⟨hq, fun t ht => by simp at ht⟩

/-- `if buf == nil { return false, nil }; return true, x.Decode(buf)` -/
theorem gsafe_tail (h : Holds R W g s) {typ x : Text} {env : Env} {j : Nat} (hj : g.level j = some lv) (hlv : 1 ≤ lv) {rep : Nat → Bool}
    (hm : method p typ t!"Decode" = some (G.srcDecode typ)) (hg : global p (t!"repeatedFields_" ++ typ) = some (.val (.reps rep)))
    {v : Val} (hb : ∀ b, v = .bytes (.mem b) → Reaches R b)
    (hbuf : G.get t!"buf" env = some (.val v)) (hx : G.get x env = some (.ptr typ j)) :
    (gexec p (goCall rt m (d + 1)) (gcallMethod p (goCall rt m (d + 1)) (n + 1)) (block [ifNil, retDecode x]) env).Safe R W
      (fun o s' => ∃ out, o = .ret out ∧ After R W (g.set j 1) out s') s := by
  have hc : geval p (goCall rt m (d + 1)) (gcallMethod p (goCall rt m (d + 1)) (n + 1)) env (.eq (.id t!"buf") .nil) =
      (lift (binop .eq v .nil) >>= fun u => .done [.val u]) := by
    simp only [geval, hbuf]; rfl
  have hr := gsafe_decode (m := m) (d := d) (n := n) (rt := rt) h hj hlv hm hg hb (lv' := 1) (by decide) (by decide) (fun h => by omega)
  rw [block, gexec, ifNil, gexec, hc]
  refine Prog.safe_bind (Prog.safe_bind (Prog.safe_bind (safe_lift fun u hu => ?_)))
  simp only [Prog.Safe, singleVal, lift, Prog.bind_done]
  split
  · simp only [block, gexec, geval, Prog.bind_done]
    exact ⟨_, rfl, h.lower hj hlv, fun t ht => by simp at ht⟩
  · simp only [Prog.Safe, block, retDecode, gexec]
    simp only [geval, hbuf, hx, Prog.bind_done, single, lift]
    refine Prog.safe_bind (Prog.safe_bind (Prog.safe_bind (hr.imp fun out s' ho => ?_)))
    refine ⟨_, rfl, ho.1, ?_⟩
    intro t ht
    apply ho.2 t
    simpa using ht
  · trivial

/-- One result. -/
theorem one_result {rs : List Val} {x : GVal} (h : single (rs.map GVal.val) = .ok x) : ∃ v, rs = [v] ∧ x = .val v := by
  match rs, h with
  | [v], h => injection h with h; exact ⟨v, rfl, h.symm⟩

/-- The getter of a message field. -/
theorem gsafe_getMessage (h : Holds R W g s) (hi : g.level i = some lv) {name typ : Text} {f j lj : Nat} (hj : g.level j = some lj) (hlj : 1 ≤ lj) {rep : Nat → Bool}
    (hm : method p msg name = some (G.srcGetMessage msg name typ f)) (hd : method p typ t!"Decode" = some (G.srcDecode typ))
    (hg : global p (t!"repeatedFields_" ++ typ) = some (.val (.reps rep))) :
    (gcallMethod p (goCall rt m (d + 1)) (n + 2) msg name [.ptr msg i, .ptr typ j]).Safe R W (After R W (g.set j 1)) s := by
  obtain ⟨_, _, hh⟩ := h.struct i lv hi
  rw [gcallMethod, hm]
  have he := geval_getter (p := p) (meth := gcallMethod p (goCall rt m (d + 1)) (n + 1)) (env := [(t!"m", .ptr msg i), (t!"x", .ptr typ j)]) (t := msg) (conc_WrapOffsets rt m d i) rfl
    (f := t!"GetBytes") (g := .GetBytes) rfl f
  simp only [ginvoke, G.srcGetMessage, gbindAll, gbindArg, if_true, Prog.bind_done]
  rw [block, gexec, gexec, he]
  refine Prog.safe_bind (Prog.safe_bind (Prog.safe_bind ⟨hh.buf, ?_⟩))
  refine Prog.safe_bind ((safe_on (Nat.zero_le _) h.fresh (hh.mono (Nat.zero_le _)) rfl (getter_args hh) m (d + 1)).imp fun rs s' hr => ?_)
  have hq := h.quiet hr.2.1
  refine Prog.safe_bind (safe_lift fun x hx => ?_)
  obtain ⟨v, rfl, rfl⟩ := one_result hx
  refine (gsafe_tail (p := p) (m := m) (d := d) (n := n) (rt := rt) (x := t!"x") (env := [(t!"buf", .val v), (t!"m", .ptr msg i), (t!"x", .ptr typ j)]) hq hj hlj hd hg ?_ rfl rfl).imp ?_
  · rintro b rfl; exact hr.2.2 b (by simp)
  · rintro _ s' ⟨out, rfl, ho⟩
    exact safe_ite ho

/-- Copy a struct. -/
theorem safe_copyStruct {j : Nat} (h : Has R W lv s j) : (copyStruct j).Safe R W (fun k s' => k = s.next ∧ s' = ⟨s.h.put s.next (s.h.ms j), s.next + 1, s.its⟩) s := by
  have slots : ∀ n k, (readSlots j k n).Safe R W (fun _ s' => s' = s) s := by
    intro n
    induction n with
    | zero => exact fun _ => rfl
    | succ n ih =>
      intro k
      exact ⟨h.slot k, Prog.safe_bind ((ih (k + 1)).imp fun _ _ e => e)⟩
  have : (copyStruct j).Safe R W (fun _ _ => True) s := by
    refine ⟨h.buf, h.slots, Prog.safe_bind ((slots _ 0).imp fun a s' e => ?_)⟩
    subst e
    exact ⟨h.ref, trivial⟩
  refine this.and_run.imp fun k s' hr => ?_
  have e := (to_copyStruct j s).symm.trans hr.2
  injection e with e
  injection e with e1 e2
  exact ⟨e1.symm, e2.symm⟩

/-- `buf := x.Encode(); zeropb.f(&m.buf, WrapOffsets(…), num, buf)` -/
theorem gsafe_setBuf (h : Holds R W g s) (hi : g.level i = some 2) {mname typ F : Text} {f j lj : Nat} (hj : g.level j = some lj) {q : Id}
    (hm : method p msg mname = some ⟨(t!"m", msg), mname, [(t!"x", .name typ)], [],
      block [.define t!"buf" (.method (.id t!"x") t!"Encode" .noArgs),
        .expr (.pkg F (.args (.addr mbuf) (.args wrap (.args (.num f) (.arg (.id t!"buf"))))))]⟩)
    (he : method p typ t!"Encode" = some (G.srcEncode typ)) (hs : (slots p typ).isSome) (hF : pkgFunc F = some q) :
    (gcallMethod p (goCall rt m (d + 1)) (n + 2) msg mname [.ptr msg i, .struct typ j]).Safe R W (After R W (g.set i 2)) s := by
  obtain ⟨_, hlt, hh⟩ := h.struct i 2 hi
  obtain ⟨_, hltj, hhj⟩ := h.struct j lj hj
  rw [gcallMethod, hm]
  have hb : gbindArg p (.name typ) (.struct typ j) = (copyStruct j >>= fun k => .done (.struct typ k)) := by
    simp only [gbindArg, hs, and_self, if_true]
  simp only [ginvoke, gbindAll, hb]
  refine Prog.safe_bind (Prog.safe_bind (Prog.safe_bind ((safe_copyStruct hhj).imp ?_)))
  rintro _ _ ⟨rfl, rfl⟩
  have hk : Keeps (On 0 i) s ⟨s.h.put s.next (s.h.ms j), s.next + 1, s.its⟩ := keeps_newStruct (s.h.ms j) s
  have hq := h.quiet hk
  obtain ⟨_, _, hh'⟩ := hq.struct i 2 hi
  have hen : gcallMethod p (goCall rt m (d + 1)) (n + 1) typ t!"Encode" [.ptr typ s.next] =
      .load (.buf s.next) fun (b : HSlice) => .done [.val (.bytes (.mem b))] := by
    rw [gcallMethod, he]; rfl
  have hev : geval p (goCall rt m (d + 1)) (gcallMethod p (goCall rt m (d + 1)) (n + 1)) [(t!"m", .ptr msg i), (t!"x", .struct typ s.next)]
      (.method (.id t!"x") t!"Encode" .noArgs) = .load (.buf s.next) fun (b : HSlice) => .done [.val (.bytes (.mem b))] := by
    simp only [geval]
    exact hen
  have hse := fun b : HSlice => geval_setter (p := p) (meth := gcallMethod p (goCall rt m (d + 1)) (n + 1))
    (env := [(t!"buf", .val (.bytes (.mem b))), (t!"m", .ptr msg i), (t!"x", .struct typ s.next)]) (t := msg)
    (x := t!"buf") (conc_WrapOffsets rt m d i) rfl hF f rfl
  show Prog.Safe _ _ _ (gexec _ _ _ _ _ >>= _) _
  rw [block, gexec, gexec, hev]
  refine Prog.safe_bind (Prog.safe_bind (Prog.safe_bind ⟨(h.fresh.new (.buf s.next) (by simp [Loc.Old, Base.of])).1, ?_⟩))
  have hx : read (.buf s.next) ⟨s.h.put s.next (s.h.ms j), s.next + 1, s.its⟩ = (s.h.ms j).buf := by simp only [read, Heap.put, if_true]; rfl
  rw [hx]
  simp only [Prog.Safe, single, lift, Prog.bind_done, block, gexec]
  rw [hse]
  refine Prog.safe_bind (Prog.safe_bind (Prog.safe_bind ((safe_on (Nat.le_refl _) hq.fresh hh' rfl ?_ m (d + 1)).imp fun rs s' hr => ?_)))
  · intro x hx
    simp only [List.mem_cons, List.not_mem_nil, or_false] at hx
    rcases hx with rfl | rfl | rfl | rfl
    · exact Or.inr (Or.inl rfl)
    · exact Or.inl rfl
    · exact Or.inr (Or.inr (Or.inl rfl))
    · exact Or.inr (Or.inr (Or.inr ⟨_, Or.inl rfl, hhj.bytes⟩))
  · exact ⟨hq.change hr.2.1 (Nat.le_refl _) (Nat.lt_of_lt_of_le hlt (Nat.le_trans hk.next hr.2.1.next)) hr.1, fun t ht => by simp at ht⟩


/-- Assign to an iterator variable. -/
theorem gstore_iter (j : Nat) (x : Val) (env : Env) :
    gstore (.iter j) (.val x) env = .stop .stuck ∨ ∃ o, gstore (.iter j) (.val x) env = .store (.iter j o) (.done env) ∧ ∀ b, o = some b → x = .bytes (.mem b) := by
  cases x with
  | bytes x =>
    cases x with
    | mem b => exact Or.inr ⟨some b, rfl, fun _ h => by injection h with h; rw [h]⟩
    | lit bs => exact Or.inl rfl
  | nil => exact Or.inr ⟨none, rfl, nofun⟩
  | _ => exact Or.inl rfl

theorem Holds.point (h : Holds R W g s) {v : Nat} {o : Option HSlice} (ho : ∀ b, o = some b → Reaches R b) : Holds R W g ((Write.iter v o).apply s) := by
  have z := (Write.iter v o).sameSize s
  refine ⟨h.fresh.keeps (X := fun _ => True) (keeps_write s trivial), fun i lv e => ?_, ?_⟩
  · obtain ⟨h1, h2, h3⟩ := h.struct i lv e
    exact ⟨h1, h2, h3.buf, h3.slot, h3.slots, h3.ref, h3.bytes, h3.map, h3.wbuf, h3.wslot, h3.wref, h3.wmap, h3.wbytes⟩
  · intro u hu
    obtain ⟨h1, h2, h3⟩ := h.iter u hu
    refine ⟨h1, h2, ?_⟩
    intro b hb
    simp only [Write.apply] at hb
    split at hb
    · exact ho b hb
    · exact h3 b hb

/-- `Next` of an iterator. -/
theorem gsafe_next (h : Holds R W g s) {it typ : Text} {f v j lj : Nat} (hv : g.iter v) (hj : g.level j = some lj) (hlj : 1 ≤ lj) {rep : Nat → Bool}
    (hm : method p it t!"Next" = some (G.srcNext it typ f)) (hd : method p typ t!"Decode" = some (G.srcDecode typ))
    (hg : global p (t!"repeatedFields_" ++ typ) = some (.val (.reps rep))) :
    (gcallMethod p (goCall rt m (d + 1)) (n + 2) it t!"Next" [.iter it v, .ptr typ j]).Safe R W (After R W (g.set j 1)) s := by
  obtain ⟨hr1, hw1, hb⟩ := h.iter v hv
  rw [gcallMethod, hm]
  have hl : geval p (goCall rt m (d + 1)) (gcallMethod p (goCall rt m (d + 1)) (n + 1))
      [(t!"buf", .val .nil), (t!"i", .iter it v), (t!"m", .ptr typ j)] (.args (.paren (.star (.id t!"i"))) (.arg (.num f))) =
      .load (.iter v) fun (o : Option HSlice) => .done [.val (match o with | none => .nil | some b => .bytes (.mem b)), .val (.const f)] := by
    have h0 : (0 : Int) ≤ (f : Int) := Int.natCast_nonneg f
    simp only [geval, h0, if_true, Int.toNat_natCast,
      show place [(t!"buf", .val .nil), (t!"i", .iter it v), (t!"m", .ptr typ j)] (.star (.id t!"i")) = .ok (.iter v) from rfl]
    rfl
  simp only [ginvoke, G.srcNext, gbindAll, gbindArg, if_true, Prog.bind_done]
  rw [block, gexec, gexec, Prog.bind_done]
  dsimp only
  rw [block, gexec, gexec, geval, hl]
  simp only [show place [(t!"buf", .val .nil), (t!"i", .iter it v), (t!"m", .ptr typ j)] (.star (.id t!"i")) = .ok (.iter v) from rfl,
    show place [(t!"buf", .val .nil), (t!"i", .iter it v), (t!"m", .ptr typ j)] (.id t!"buf") = .ok (.var t!"buf") from rfl, lift, Prog.bind_done]
  refine Prog.safe_bind (Prog.safe_bind (Prog.safe_bind (Prog.safe_bind ⟨hr1, ?_⟩)))
  have hx := gruntime_eq (call := goCall rt m (d + 1)) (f := t!"FindNextField") (g := .FindNextField) rfl
    [(match s.its v with | none => .nil | some b => .bytes (.mem b)), .const f]
  show Prog.Safe _ _ _ (gruntime _ _ ([(match s.its v with | none => .nil | some b => .bytes (.mem b)), .const f].map GVal.val)) _
  rw [hx]
  refine Prog.safe_bind ((safe_off (i := 0) h.fresh (f := .FindNextField) rfl ?_ m (d + 1)).imp fun rs s' hr => ?_)
  · intro x hx
    simp only [List.mem_cons, List.not_mem_nil, or_false] at hx
    rcases hx with rfl | rfl
    · cases e : s.its v with
      | none => exact Or.inl rfl
      | some b => exact Or.inr ⟨b, Or.inl rfl, hb b e⟩
    · exact Or.inl rfl
  have hq := h.quiet hr.1
  match rs, hr with
  | [], _ => trivial
  | [_], _ => trivial
  | _ :: _ :: _ :: _, _ => trivial
  | [x1, x2], hr =>
    simp only [List.map_cons, List.map_nil]
    rcases gstore_iter v x1 [(t!"buf", .val .nil), (t!"i", .iter it v), (t!"m", .ptr typ j)] with hst | ⟨o, hst, ho⟩
    · simp only [Prog.Safe]; rw [hst]; trivial
    simp only [Prog.Safe]
    rw [hst]
    refine ⟨hw1, ?_⟩
    have hq2 := hq.point (v := v) (o := o) fun b e => hr.2 b (Or.inl (by rw [ho b e]; simp))
    refine (gsafe_tail (p := p) (m := m) (d := d) (n := n) (rt := rt) (x := t!"m") (env := [(t!"buf", .val x2), (t!"i", .iter it v), (t!"m", .ptr typ j)]) hq2 hj hlj hd hg ?_ rfl rfl).imp ?_
    · rintro b rfl; exact hr.2 b (by simp)
    · rintro _ s' ⟨out, rfl, ho⟩
      exact safe_ite ho

end
end

end Zeropb.GoSrc.Conc
