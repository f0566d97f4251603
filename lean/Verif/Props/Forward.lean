import Verif.Props.Versions
/-!
# C83: a message passes through many programs

A message is built by one program, and then passed on from program to program, each generated from a version of its own of the .proto file. Each program decodes what the one before has
encoded, may set fields and append to fields that its version knows, and encodes the message again. What is seen at the end is told here from the calls alone, whoever made them: the
last value set counts, whether or not the programs on the way knew the field.
-/

set_option linter.constructorNameAsVariable false

namespace Zeropb.GoSrc.E
open Zeropb.Gen Wire Zeropb.GoSrc.G

/-! ## Specification -/

/-- Fields have different numbers. -/
def Numbered (m : Desc) : Prop := ∀ fd fd', some fd ∈ m.field → some fd' ∈ m.field → num fd = num fd' → fd = fd'

/-- The call is one of a setter or an append of message type `m`. -/
inductive Issued (m : Desc) : Zeropb.Op → Prop
  | set {fd k x rt} : ScalarField m fd k → Issued m (.set rt (num fd) k x)
  | message {fd x rt} : MessageField m fd → Issued m (.set rt (num fd) .bytes x)
  | append {fd x rt} : RepeatedField m fd → Issued m (.append rt (num fd) x)

/-- A program on the way: the message type that it has, and the setters and appends that it called, in order. -/
structure Visit where
  type : Desc
  ops : List Zeropb.Op

/-- The value that a call gives to the field number `n`, if it does. -/
def puts (n : Nat) : Zeropb.Op → List Wire.Val
  | .set _ f k x => if f = n then [encodeVal k x] else []
  | .append _ f x => if f = n then [.bytes x] else []
  | .reset _ | .decode _ _ => []

/-- All values that the programs on the way (the last one comes first in the list) gave to the field number `n`, in order. -/
def written (n : Nat) : List Visit → List Wire.Val
  | [] => []
  | v :: h => written n h ++ v.ops.flatMap (puts n)

/-- The message has been in these programs (the last one comes first in the list), and has these contents now. -/
inductive Journey : List Visit → Contents → Prop
  | start {m ops} : Numbered m → (∀ op ∈ ops, Issued m op) → Journey [⟨m, ops⟩] (applyAll ops .empty)
  | hop {v h c m c' ops} : Journey (v :: h) c → Carried v.type m c c' → Numbered m → (∀ op ∈ ops, Issued m op) → Journey (⟨m, ops⟩ :: v :: h) (applyAll ops c')

/-! ## Proof -/

theorem numbered_of {m : Desc} (hv : ValidDesc m) : Numbered m := by
  intro fd fd' h h' e
  have h1 := fieldWith_unique hv h
  have h2 := fieldWith_unique hv h'
  have e : (getNumber (some fd)).toNat = (getNumber (some fd')).toNat := e
  rw [e, h2] at h1
  cases h1
  rfl

theorem accessor_of {m : Desc} {fd : Field} {k : Kind} (h : Accessor m fd k) : Single m fd ∨ RepeatedField m fd := by
  cases h with
  | scalar h => exact .inl (.inl ⟨_, h⟩)
  | message h => exact .inl (.inr h)
  | repeated h => exact .inr h

theorem knows (m : Desc) (n : Nat) : Lacks m n ∨ (∃ fd, Single m fd ∧ num fd = n) ∨ ∃ fd, RepeatedField m fd ∧ num fd = n := by
  by_cases h : Lacks m n
  · exact .inl h
  · unfold Lacks at h
    simp only [Classical.not_forall] at h
    obtain ⟨fd, k, ha, hn⟩ := h
    have hn : num fd = n := Classical.not_not.1 hn
    rcases accessor_of ha with h | h
    · exact .inr (.inl ⟨fd, h, hn⟩)
    · exact .inr (.inr ⟨fd, h, hn⟩)

theorem single_in {m : Desc} {fd : Field} (h : Single m fd) : some fd ∈ m.field ∧ (getLabel (some fd) = 1 ∨ getLabel (some fd) = 2) := by
  rcases h with ⟨k, h⟩ | h
  · exact ⟨h.1, h.2.1⟩
  · exact ⟨h.1, h.2.1⟩

theorem single_not_repeated {m : Desc} (hn : Numbered m) {fd fd' : Field} (h : Single m fd) (h' : RepeatedField m fd') : num fd' ≠ num fd := by
  intro e
  obtain ⟨h1, h2⟩ := single_in h
  cases hn _ _ h1 h'.1 e.symm
  rw [h'.2.1] at h2
  rcases h2 with h2 | h2 <;> cases h2

/-- What calls do to a field that is not repeated. -/
theorem ops_sing {m : Desc} (hn : Numbered m) {fd : Field} (hs : Single m fd) {ops : List Zeropb.Op} (hi : ∀ op ∈ ops, Issued m op) (c : Contents) :
    (applyAll ops c).sing (num fd) = (ops.flatMap (puts (num fd))).getLast?.or (c.sing (num fd)) := by
  induction ops generalizing c with
  | nil => rfl
  | cons op ops ih =>
    show (applyAll ops (op.apply c)).sing (num fd) = _
    rw [ih (fun o ho => hi o (by simp [ho])), List.flatMap_cons, List.getLast?_append, Option.or_assoc]
    congr 1
    have key : ∀ f v, ((c.set f v).sing (num fd)) = ((if f = num fd then [v] else []).getLast?).or (c.sing (num fd)) := by
      intro f v
      simp only [Contents.set]
      by_cases h : num fd = f
      · simp [h]
      · simp [h, Ne.symm h]
    cases hi op (by simp) with
    | set h => exact key _ _
    | message h => exact key _ _
    | append h =>
      have := single_not_repeated hn hs h
      simp [puts, this, Op.apply, Contents.append]

/-- What calls do to a repeated field. -/
theorem ops_elems {m : Desc} (hn : Numbered m) {fd : Field} (hs : RepeatedField m fd) {ops : List Zeropb.Op} (hi : ∀ op ∈ ops, Issued m op) (c : Contents) :
    ((applyAll ops c).elems (num fd)).map Wire.Val.bytes = (c.elems (num fd)).map .bytes ++ ops.flatMap (puts (num fd)) := by
  induction ops generalizing c with
  | nil => simp [applyAll]
  | cons op ops ih =>
    show ((applyAll ops (op.apply c)).elems (num fd)).map _ = _
    rw [ih (fun o ho => hi o (by simp [ho])), List.flatMap_cons, ← List.append_assoc]
    congr 1
    cases hi op (by simp) with
    | set h =>
      have := single_not_repeated hn (.inl ⟨_, h⟩) hs
      simp [puts, Ne.symm this, Op.apply, Contents.set]
    | message h =>
      have := single_not_repeated hn (.inr h) hs
      simp [puts, Ne.symm this, Op.apply, Contents.set]
    | @append fd' x rt h =>
      simp only [Op.apply, Contents.append, puts]
      by_cases h : num fd = num fd'
      · simp [h]
      · simp [h, Ne.symm h]

/-- Calls do nothing to fields that their version lacks. -/
theorem ops_lacks {m : Desc} {n : Nat} (hl : Lacks m n) {ops : List Zeropb.Op} (hi : ∀ op ∈ ops, Issued m op) : ops.flatMap (puts n) = [] := by
  rw [List.flatMap_eq_nil_iff]
  intro op ho
  cases hi op ho with
  | set h => exact if_neg (hl _ _ (.scalar h))
  | message h => exact if_neg (hl _ _ (.message h))
  | append h => exact if_neg (hl _ _ (.repeated h))

theorem issued_writes {m : Desc} {op : Zeropb.Op} (h : Issued m op) : Writes op := by cases h <;> trivial

theorem ops_rest {m : Desc} {ops : List Zeropb.Op} (hi : ∀ op ∈ ops, Issued m op) (c : Contents) : (applyAll ops c).rest = c.rest :=
  writes_rest (fun op h => issued_writes (hi op h)) c

/-- The last value counts. -/
structure Follows (m : Desc) (c : Contents) (last : Nat → Option Wire.Val) : Prop where
  single : ∀ fd, Single m fd → c.sing (num fd) = last (num fd)
  repeated : ∀ fd, RepeatedField m fd → (c.elems (num fd)).getLast?.map .bytes = last (num fd)
  rest : ∀ n, Lacks m n → (c.rest n).getLast? = last n

theorem Follows.ops {m : Desc} (hn : Numbered m) {c : Contents} {last : Nat → Option Wire.Val} (h : Follows m c last) {ops : List Zeropb.Op} (hi : ∀ op ∈ ops, Issued m op) :
    Follows m (applyAll ops c) (fun n => (ops.flatMap (puts n)).getLast?.or (last n)) := by
  refine ⟨fun fd hs => ?_, fun fd hs => ?_, fun n hl => ?_⟩
  · rw [ops_sing hn hs hi, h.single fd hs]
  · rw [← List.getLast?_map, ops_elems hn hs hi, List.getLast?_append, List.getLast?_map, h.repeated fd hs]
  · rw [ops_rest hi, ops_lacks hl hi, h.rest n hl]; rfl

theorem Follows.carried {m1 m2 : Desc} {c1 c2 : Contents} (hc : Carried m1 m2 c1 c2) {last : Nat → Option Wire.Val} (h : Follows m1 c1 last) : Follows m2 c2 last := by
  refine ⟨fun fd hs => ?_, fun fd hs => ?_, fun n hl => ?_⟩
  · rcases knows m1 (num fd) with h1 | ⟨fd1, h1, e⟩ | ⟨fd1, h1, e⟩
    · rw [(hc.adopted fd h1).1 hs, h.rest _ h1]
    · rw [hc.single fd1 fd h1 hs e, h.single fd1 h1, e]
    · rw [hc.last fd1 fd h1 hs e, h.repeated fd1 h1, e]
  · rcases knows m1 (num fd) with h1 | ⟨fd1, h1, e⟩ | ⟨fd1, h1, e⟩
    · rw [← h.rest _ h1, ← (hc.adopted fd h1).2 hs, List.getLast?_map]
    · rw [hc.spread fd1 fd h1 hs e, h.single fd1 h1, e]
    · rw [hc.repeated fd1 fd h1 hs e, h.repeated fd1 h1, e]
  · rcases knows m1 n with h1 | ⟨fd1, h1, e⟩ | ⟨fd1, h1, e⟩
    · rw [hc.neither n h1 hl, h.rest n h1]
    · subst e; rw [(hc.kept fd1 hl).1 h1, h.single fd1 h1]
    · subst e; rw [(hc.kept fd1 hl).2 h1, List.getLast?_map, h.repeated fd1 h1]

theorem journey_follows {h : List Visit} {c : Contents} (J : Journey h c) : ∀ v, h.head? = some v → Numbered v.type ∧ Follows v.type c (fun n => (written n h).getLast?) := by
  induction J with
  | @start m ops hn hi =>
    rintro v ⟨⟩
    refine ⟨hn, ?_⟩
    have := Follows.ops hn (c := .empty) (last := fun _ => none) ⟨fun _ _ => rfl, fun _ _ => rfl, fun _ _ => rfl⟩ hi
    simpa [written] using this
  | @hop v h c m c' ops J hc hn hi ih =>
    rintro v ⟨⟩
    refine ⟨hn, ?_⟩
    have := (((ih v rfl).2).carried hc).ops hn hi
    simpa only [written, List.getLast?_append] using this

/-- Values that were passed on are of a type that a program on the way had. -/
theorem journey_origin {h : List Visit} {c : Contents} (J : Journey h c) : ∀ v, h.head? = some v → ∀ n, Lacks v.type n → ∀ x ∈ c.rest n,
    ∃ u ∈ h, ∃ fd k y, Accessor u.type fd k ∧ num fd = n ∧ decodeVal k x = some y := by
  induction J with
  | @start m ops hn hi =>
    rintro v ⟨⟩ n hl x hx
    rw [ops_rest hi] at hx
    cases hx
  | @hop v h c m c' ops J hc hn hi ih =>
    rintro v' ⟨⟩ n hl x hx
    rw [ops_rest hi] at hx
    by_cases h1 : Lacks v.type n
    · rw [hc.neither n h1 hl] at hx
      obtain ⟨u, hu, r⟩ := ih v rfl n h1 x hx
      exact ⟨u, List.mem_cons_of_mem _ hu, r⟩
    · unfold Lacks at h1
      simp only [Classical.not_forall] at h1
      obtain ⟨fd, k, ha, hnum⟩ := h1
      have hnum : num fd = n := Classical.not_not.1 hnum
      subst hnum
      obtain ⟨y, hy⟩ := hc.returns fd k ha hl x hx
      exact ⟨v, by simp, fd, k, y, ha, rfl, hy⟩

/-- A value of a type is a value of every type that a field may be changed to. -/
theorem becomes {k l : Kind} (h : MayBecome k l) {v : Wire.Val} {x : k.Ty} (hv : decodeVal k v = some x) : ∃ y, decodeVal l v = some y := by
  rcases h with rfl | ⟨h1, h2⟩ | ⟨rfl, rfl⟩ | ⟨rfl, rfl⟩ | ⟨rfl, rfl⟩ | ⟨rfl, rfl⟩ | ⟨rfl, rfl⟩ | ⟨rfl, rfl⟩ | ⟨rfl, rfl⟩
  · exact ⟨x, hv⟩
  · have : ∃ w, v = .varint w := by
      rcases h1 with rfl | rfl | rfl | rfl | rfl <;> cases v <;> first | exact ⟨_, rfl⟩ | cases hv
    obtain ⟨w, rfl⟩ := this
    rcases h2 with rfl | rfl | rfl | rfl | rfl <;> exact ⟨_, rfl⟩
  all_goals (cases v <;> first | exact ⟨_, rfl⟩ | cases hv)

theorem journey_fits {v : Visit} {h : List Visit} {c : Contents} (J : Journey (v :: h) c) {m : Desc} (hev : ∀ u ∈ v :: h, Evolves u.type m)
    (hnum : ∀ n, written n (v :: h) ≠ [] → Covers m n) : Fits v.type m c := by
  obtain ⟨_, hf⟩ := journey_follows J v rfl
  constructor
  · intro n x hu
    refine hnum n fun e => ?_
    have e : (written n (v :: h)).getLast? = none := by rw [e]; rfl
    cases hu with
    | single hs hx =>
      have := hf.single _ hs
      rw [hx] at this
      rw [← this] at e; cases e
    | repeated hs hx =>
      have := hf.repeated _ hs
      have e : (c.elems _).getLast?.map Wire.Val.bytes = none := this.trans e
      rw [Option.map_eq_none_iff, List.getLast?_eq_none_iff] at e
      rw [e] at hx; cases hx
    | rest hl hx =>
      have e : (c.rest n).getLast? = none := (hf.rest _ hl).trans e
      rw [List.getLast?_eq_none_iff] at e
      rw [e] at hx; cases hx
  · intro fd l ha hl x hx
    obtain ⟨u, hu, fd0, k, y, a1, a2, a3⟩ := journey_origin J v rfl _ hl x hx
    exact becomes (hev u hu fd0 k fd l a1 ha a2) a3

/-- C83: of the values given to a field number, the last one is what the field has, whichever program gave it, and whichever programs knew the field. -/
theorem C83_values {v : Visit} {h : List Visit} {c : Contents} (J : Journey (v :: h) c) {fd : Field} (hs : Single v.type fd) :
    c.sing (num fd) = (written (num fd) (v :: h)).getLast? := (journey_follows J v rfl).2.single fd hs

theorem journey_elems {h : List Visit} {c : Contents} (J : Journey h c) (n : Nat) (hall : ∀ u ∈ h, ∀ fd k, Accessor u.type fd k → num fd = n → RepeatedField u.type fd) :
    ∀ v, h.head? = some v → (∀ fd, RepeatedField v.type fd → num fd = n → (c.elems n).map Wire.Val.bytes = written n h) ∧ (Lacks v.type n → c.rest n = written n h) := by
  induction J with
  | @start m ops hn hi =>
    rintro v ⟨⟩
    refine ⟨fun fd hr e => ?_, fun hl => ?_⟩
    · subst e; rw [ops_elems hn hr hi]; simp [written, Contents.empty]
    · rw [ops_rest hi]; simp [written, ops_lacks hl hi, Contents.empty]
  | @hop v h c m c' ops J hc hn hi ih =>
    rintro v' ⟨⟩
    obtain ⟨i1, i2⟩ := ih (fun u hu => hall u (List.mem_cons_of_mem _ hu)) v rfl
    refine ⟨fun fd hr e => ?_, fun hl => ?_⟩
    · subst e
      rw [ops_elems hn hr hi]
      show _ = written _ (v :: h) ++ _
      congr 1
      rcases knows v.type (num fd) with h1 | ⟨fd1, h1, e⟩ | ⟨fd1, h1, e⟩
      · rw [(hc.adopted fd h1).2 hr, i2 h1]
      · obtain ⟨k, hk⟩ := single_accessor h1
        have hr1 := hall v (by simp) fd1 k hk e
        rw [hc.repeated fd1 fd hr1 hr e, e, i1 fd1 hr1 e]
      · rw [hc.repeated fd1 fd h1 hr e, e, i1 fd1 h1 e]
    · rw [ops_rest hi]
      show _ = written n (v :: h) ++ ops.flatMap (puts n)
      rw [ops_lacks hl hi, List.append_nil]
      rcases knows v.type n with h1 | ⟨fd1, h1, e⟩ | ⟨fd1, h1, e⟩
      · rw [hc.neither n h1 hl, i2 h1]
      · obtain ⟨k, hk⟩ := single_accessor h1
        have hr1 := hall v (by simp) fd1 k hk e
        rw [← i1 fd1 hr1 e]; subst e; exact (hc.kept fd1 hl).2 hr1
      · rw [← i1 fd1 h1 e]; subst e; exact (hc.kept fd1 hl).2 h1

/-- C83: a field that is repeated in all versions that have it, has the elements that were appended by all programs, in order. -/
theorem C83_elements {v : Visit} {h : List Visit} {c : Contents} (J : Journey (v :: h) c) {fd : Field} (hr : RepeatedField v.type fd)
    (hall : ∀ u ∈ v :: h, ∀ fd' k, Accessor u.type fd' k → num fd' = num fd → RepeatedField u.type fd') :
    (c.elems (num fd)).map Wire.Val.bytes = written (num fd) (v :: h) := (journey_elems J (num fd) hall v rfl).1 fd hr rfl

section
variable {U : Unicode} {fs : List FileDesc} {pkg : Text}

/-- C83: a journey begins with a new struct. -/
theorem C83_new (hc : Compilable U fs pkg) {s0 s : GSt} {g : Known} (hr : Reach U fs s0 s g) {f : FileDesc} (hf : f ∈ fs) {m : Desc} (hm : some m ∈ f.messageType) :
    ∃ s' g', Reach U fs s0 s' g' ∧ g'.structs s.next = some ⟨m, none, .empty⟩ ∧ Journey [⟨m, []⟩] .empty := by
  have r := hr.step (.new hf hm)
  have h1 : (g.put s.next ⟨m, none, .empty⟩).structs s.next = some ⟨m, none, .empty⟩ := by simp [Known.put]
  obtain ⟨_, _, _, hv, _⟩ := (reach_inv hc r).struct _ _ h1
  exact ⟨_, _, r, h1, .start (numbered_of hv) (by simp)⟩

/-- C83: setters and appends are entered in the journey. -/
theorem C83_set {m : Desc} {ops : List Zeropb.Op} {h : List Visit} {c : Contents} (J : Journey (⟨m, ops⟩ :: h) c) {rt : Rt} {i : Nat} {s : GSt} {name : Text} {args : List GVal} {op : Zeropb.Op}
    (hcall : Calls U m rt i s name args op) (hw : Writes op) : Journey (⟨m, ops ++ [op]⟩ :: h) (op.apply c) := by
  have hi : Issued m op := by
    cases hcall with
    | set h _ _ _ => exact .set h
    | setMessage h _ _ => exact .message h
    | append h _ _ => exact .append h
    | reset _ _ => exact absurd hw (fun h => h)
    | resetNil => exact absurd hw (fun h => h)
    | decode _ _ _ _ => exact absurd hw (fun h => h)
  have happ : ∀ c, op.apply (applyAll ops c) = applyAll (ops ++ [op]) c := by
    clear J hi hcall hw
    intro c
    induction ops generalizing c with
    | nil => rfl
    | cons o ops ih => exact ih _
  have hall : (∀ o ∈ ops, Issued m o) → ∀ o ∈ ops ++ [op], Issued m o := fun h o ho => by
    rcases List.mem_append.1 ho with ho | ho
    · exact h o ho
    · rw [List.mem_singleton.1 ho]; exact hi
  cases J with
  | start hn ho => rw [happ]; exact .start hn (hall ho)
  | hop J hc hn ho => rw [happ]; exact .hop J hc hn (hall ho)

/-- C83: what a program on the way encoded, the next program decodes, if its version can have evolved from all versions on the way, and knows high enough numbers. `Decode` returns nil, and the
message is one program further. -/
theorem C83_decode {U2 : Unicode} {fs2 : List FileDesc} {pkg2 : Text} (hc : Compilable U fs pkg) {s0 s : GSt} {g : Known} (hr : Reach U fs s0 s g) {i : Nat} {w : Option Nat} {v : Visit}
    {h : List Visit} {c : Contents} (hi : g.structs i = some ⟨v.type, w, c⟩) (J : Journey (v :: h) c)
    (hc2 : Compilable U2 fs2 pkg2) {s02 s2 : GSt} {g2 : Known} (h2 : Reach U2 fs2 s02 s2 g2) {j : Nat} {e2 : Entry} (hj : g2.structs j = some e2)
    (hev : ∀ u ∈ v :: h, Evolves u.type e2.type) (hnum : ∀ n, written n (v :: h) ≠ [] → Covers e2.type n)
    {b : HSlice} (hb : s2.h.w.WFs b) (hfree : g2.Free s2 j b) (hdata : Encoded (programOf U fs) v.type i s (s2.h.w.slice b).data) (rt : Rt) (d : Nat) :
    ∃ s' c', G.run (programOf U2 fs2) rt d e2.type.getName t!"Decode" [.ptr e2.type.getName j, .val (.bytes (.mem b))] s2 = .ok ([.val .nil], s') ∧
      Reach U2 fs2 s02 s' ((g2.drop j).put j ⟨e2.type, none, c'⟩) ∧ Shows U2 (programOf U2 fs2) e2.type j s' c' ∧ Journey (⟨e2.type, []⟩ :: v :: h) c' ∧
      (s'.h.ms j).buf.len ≤ b.len := by
  obtain ⟨s', c', r1, r2, r3, r4, r5⟩ := C82_decode hc hr (i := i) (e1 := ⟨v.type, w, c⟩) hi hc2 h2 hj (hev v (by simp)) (journey_fits J hev hnum) hb hfree hdata rt d
  obtain ⟨_, _, _, hv, _⟩ := (reach_inv hc2 h2).struct _ _ hj
  exact ⟨s', c', r1, r3, r4, .hop (ops := []) J r2 (numbered_of hv) (by simp), r5⟩

/-- C83: what the getter of a scalar field returns in a program on the way: the default if no program gave a value to its number; otherwise the last value `x` given, read as the type that the
field has here. -/
theorem C83_read {p : Program} {v : Visit} {h : List Visit} {c : Contents} (J : Journey (v :: h) c) {j : Nat} {s : GSt} (hsh : Shows U p v.type j s c) {fd : Field} {l : Kind}
    (hfd : ScalarField v.type fd l)
    (rt : Rt) (d : Nat) :
    ∃ y r, G.run p rt d v.type.getName (goName U fd) [.ptr v.type.getName j] s = .ok ([.val r], s) ∧ IsVal s.h.w l y r ∧
      (written (num fd) (v :: h) = [] → y = l.dflt) ∧
      (∀ k x, (written (num fd) (v :: h)).getLast? = some (encodeVal k x) → MayBecome k l → ReadAs k l x y) := by
  obtain ⟨y, r, r1, r2, r3⟩ := hsh.scalar fd l hfd rt d
  rw [C83_values J (.inl ⟨l, hfd⟩)] at r3
  refine ⟨y, r, r1, r2, fun h => ?_, fun k x h hm => ?_⟩
  · rw [h] at r3; cases r3; rfl
  · obtain ⟨y', y1, y2⟩ := C82_values hm x
    rw [h] at r3
    have : decodeVal l (encodeVal k x) = some y := r3
    rw [y1] at this
    cases this
    exact y2

end

/-! ## The hypotheses are met -/

/-- From one program to the next: `y.Decode(x.Encode())`. -/
theorem passes {U U2 : Unicode} {fs fs2 : List FileDesc} {pkg pkg2 : Text} (hc : Compilable U fs pkg) {s0 s : GSt} {g : Known} (hr : Reach U fs s0 s g) {w : Option Nat} {v : Visit}
    {h : List Visit} {c : Contents} (hi : g.structs 0 = some ⟨v.type, w, c⟩) (J : Journey (v :: h) c) (hc2 : Compilable U2 fs2 pkg2) {f2 : FileDesc} (hf2 : f2 ∈ fs2) {m2 : Desc}
    (hm2 : some m2 ∈ f2.messageType) (hev : ∀ u ∈ v :: h, Evolves u.type m2) (hnum : ∀ n, written n (v :: h) ≠ [] → Covers m2 n) (rt : Rt) :
    ∃ s02 s' g' c', Reach U2 fs2 s02 s' g' ∧ g'.structs 0 = some ⟨m2, none, c'⟩ ∧ Shows U2 (programOf U2 fs2) m2 0 s' c' ∧ Journey (⟨m2, []⟩ :: v :: h) c' ∧
      (s'.h.ms 0).buf.len ≤ (s.h.ms 0).buf.len := by
  obtain ⟨⟨f, hf, hm⟩, _, hw, _⟩ := (reach_inv hc hr).struct 0 _ hi
  have p1 : ∀ rt d, G.run (programOf U fs) rt d v.type.getName t!"Encode" [.ptr v.type.getName 0] s = .ok ([.val (.bytes (.mem (s.h.ms 0).buf))], s) :=
    fun rt d => C63_encode hc.program rt d s (i := 0) (sub_of (U := U) hf hm _ (by simp [messageDecls]))
  obtain ⟨_, s2, g2, r2, h2, w2, d2, f2⟩ := receives (U := U2) hf2 hm2 (s.h.w.slice (s.h.ms 0).buf).data
  obtain ⟨s', c', _, a2, a3, a4, a5⟩ := C83_decode hc hr hi J hc2 r2 h2 hev hnum w2 f2 ⟨_, p1, d2.symm⟩ rt 0
  refine ⟨_, s', _, c', a2, by simp [Known.put], a3, a4, ?_⟩
  rw [← slice_data_length hw.1]
  exact a5

/-- `C83`, on golden/test.proto. The first program: `x.SetBool(true)`. The second one, of another version, which has no field 1: `y.Decode(x.Encode())`, `y.SetCount(5)`. The third one, of that
version: `z.Decode(y.Encode())`. The fourth one, of the first version: `u.Decode(z.Encode())`; then `u.Bool()` is true, and `u.Int32()` is 5. -/
example (rt : Rt) : ∃ (fb fi : Field) (s4 : GSt), ScalarField testDesc fb .bool ∧ ScalarField testDesc fi .int32 ∧
    (∃ v, G.run (programOf asciiUnicode [testFile]) rt 0 testDesc.getName (goName asciiUnicode fb) [.ptr testDesc.getName 0] s4 = .ok ([.val v], s4) ∧ IsVal s4.h.w .bool true v) ∧
    (∃ v, G.run (programOf asciiUnicode [testFile]) rt 0 testDesc.getName (goName asciiUnicode fi) [.ptr testDesc.getName 0] s4 = .ok ([.val v], s4) ∧ IsVal s4.h.w .int32 5#32 v) := by
  have hc := testFile_compilable
  have hc' := newFile_compilable
  obtain ⟨hf, hm⟩ := testFile_has
  obtain ⟨hf', hm'⟩ := newFile_has
  obtain ⟨fb, b1, b2, b3, bn⟩ := testField (P := fun fd => (getLabel (some fd) = 1 ∨ getLabel (some fd) = 2) ∧ protoKind (getType (some fd)) = some .bool ∧ num fd = 1) (by decide +kernel)
  obtain ⟨fi, i1, i2, i3, iN⟩ := testField (P := fun fd => (getLabel (some fd) = 1 ∨ getLabel (some fd) = 2) ∧ protoKind (getType (some fd)) = some .int32 ∧ num fd = 2) (by decide +kernel)
  obtain ⟨fc, c1, c2, c3, cn⟩ := newField (P := fun fd => (getLabel (some fd) = 1 ∨ getLabel (some fd) = 2) ∧ protoKind (getType (some fd)) = some .int64 ∧ num fd = 2) (by decide +kernel)
  obtain ⟨ft, t1, tn⟩ := testField (P := fun fd => num fd = 34) (by decide +kernel)
  obtain ⟨fn, n1, nn⟩ := newField (P := fun fd => num fd = 34) (by decide +kernel)
  have hfb : ScalarField testDesc fb .bool := ⟨b1, b2, b3⟩
  have hfi : ScalarField testDesc fi .int32 := ⟨i1, i2, i3⟩
  have hfc : ScalarField newDesc fc .int64 := ⟨c1, c2, c3⟩
  have hself : Evolves testDesc testDesc ∧ Evolves newDesc newDesc := ⟨evolves_of (by decide +kernel), evolves_of (by decide +kernel)⟩
  have hmx : (1000 : Nat) < maxLen := by decide
  -- the first program
  obtain ⟨s0, g0, r0, h0, e0, J0⟩ : ∃ s g, Reach asciiUnicode [testFile] nothingYet s g ∧ g.structs 0 = some ⟨testDesc, none, .empty⟩ ∧ s.h.ms 0 = .zero (slotsOf testDesc) ∧
      Journey [⟨testDesc, []⟩] .empty := by
    refine ⟨_, _, Reach.step .start (.new hf hm), by simp [Known.put, nothingYet], rfl, ?_⟩
    have r := Reach.step (U := asciiUnicode) (fs := [testFile]) (s0 := nothingYet) .start (.new hf hm)
    obtain ⟨_, _, _, hv, _⟩ := (reach_inv hc r).struct 0 ⟨testDesc, none, .empty⟩ (by simp [Known.put, nothingYet])
    exact .start (ops := []) (numbered_of hv) (by simp)
  have k1 : Calls asciiUnicode testDesc rt 0 s0 (t!"Set" ++ goName asciiUnicode fb) [.ptr testDesc.getName 0, .val (.bool true)] (.set rt (num fb) .bool true) :=
    .set hfb rfl (by intro _ h; rcases h with h | h <;> cases h) (by decide)
  obtain ⟨s1, q1, _, l1⟩ := ((C66_programs hc r0).1 0 _ h0).calls rt 0 _ _ _ k1 (by rw [e0]; show 0 + (20 + 0) < maxLen; decide)
  have r1 := r0.step (.set h0 k1 trivial q1)
  have J1 := C83_set J0 k1 trivial
  have hl1 : (s1.h.ms 0).buf.len ≤ 20 := by rw [e0] at l1; exact l1
  have w1 : ∀ n, written n [⟨testDesc, [] ++ [.set rt (num fb) .bool true]⟩] = if n = 1 then [encodeVal .bool true] else [] := by
    intro n
    by_cases h : n = 1 <;> simp [written, puts, bn, h, eq_comm]
  -- the second one
  obtain ⟨_, s2, g2, cy, r2, h2, z2, J2, l2⟩ := passes hc r1 (w := none) (v := ⟨testDesc, _⟩) (by simp [Known.put]) J1 hc' hf' hm' (by intro u hu; rw [List.mem_singleton.1 hu]; exact test_evolves.1)
    (fun n hn => by
      refine .inr ⟨fn, n1, ?_⟩
      rw [w1] at hn
      by_cases h : n = 1
      · omega
      · simp [h] at hn) rt
  have k2 : Calls asciiUnicode newDesc rt 0 s2 (t!"Set" ++ goName asciiUnicode fc) [.ptr newDesc.getName 0, .val (.i64 5#64)] (.set rt (num fc) .int64 5#64) :=
    .set hfc rfl (by intro _ h; rcases h with h | h <;> cases h) (by decide)
  obtain ⟨s2', q2, _, _⟩ := z2.calls rt 0 _ _ _ k2 (by show _ + (20 + 0) < maxLen; omega)
  have r2' := r2.step (.set h2 k2 trivial q2)
  have J2' := C83_set J2 k2 trivial
  have w2 : ∀ n, written n [⟨newDesc, [] ++ [.set rt (num fc) .int64 5#64]⟩, ⟨testDesc, [] ++ [.set rt (num fb) .bool true]⟩] =
      (if n = 1 then [encodeVal .bool true] else []) ++ if n = 2 then [encodeVal .int64 5#64] else [] := by
    intro n
    show written n [_] ++ _ = _
    rw [w1]
    congr 1
    by_cases h : n = 2 <;> simp [puts, cn, h, eq_comm]
  have hcov : ∀ n, ((if n = 1 then [encodeVal .bool true] else []) ++ if n = 2 then [encodeVal .int64 5#64] else []) ≠ [] → n ≤ 34 := by
    intro n h
    by_cases h1 : n = 1
    · omega
    · by_cases h2 : n = 2
      · omega
      · simp [h1, h2] at h
  -- the third one
  obtain ⟨_, s3, g3, cz, r3, h3, _, J3, _⟩ := passes hc' r2' (w := none) (v := ⟨newDesc, _⟩) (by simp [Known.put]) J2' hc' hf' hm' (by
      intro u hu
      rcases List.mem_cons.1 hu with rfl | hu
      · exact hself.2
      · rw [List.mem_singleton.1 hu]; exact test_evolves.1)
    (fun n hn => by rw [w2] at hn; have := hcov n hn; exact .inr ⟨fn, n1, by omega⟩) rt
  have w3 : ∀ n, written n [⟨newDesc, []⟩, ⟨newDesc, [] ++ [.set rt (num fc) .int64 5#64]⟩, ⟨testDesc, [] ++ [.set rt (num fb) .bool true]⟩] =
      (if n = 1 then [encodeVal .bool true] else []) ++ if n = 2 then [encodeVal .int64 5#64] else [] := by
    intro n
    show written n [_, _] ++ [] = _
    rw [w2, List.append_nil]
  -- the fourth one
  obtain ⟨_, s4, g4, cu, r4, h4, z4, J4, _⟩ := passes hc' r3 (v := ⟨newDesc, []⟩) h3 J3 hc hf hm (by
      intro u hu
      rcases List.mem_cons.1 hu with rfl | hu
      · exact test_evolves.2
      · rcases List.mem_cons.1 hu with rfl | hu
        · exact test_evolves.2
        · rw [List.mem_singleton.1 hu]; exact hself.1)
    (fun n hn => by rw [w3] at hn; have := hcov n hn; exact .inr ⟨ft, t1, by omega⟩) rt
  have w4 : ∀ n, written n [⟨testDesc, []⟩, ⟨newDesc, []⟩, ⟨newDesc, [] ++ [.set rt (num fc) .int64 5#64]⟩, ⟨testDesc, [] ++ [.set rt (num fb) .bool true]⟩] =
      (if n = 1 then [encodeVal .bool true] else []) ++ if n = 2 then [encodeVal .int64 5#64] else [] := by
    intro n
    show written n [_, _, _] ++ [] = _
    rw [w3, List.append_nil]
  refine ⟨fb, fi, s4, hfb, hfi, ?_, ?_⟩
  · obtain ⟨y, r, a1, a2, _, a4⟩ := C83_read (v := ⟨testDesc, []⟩) J4 z4 hfb rt 0
    refine ⟨r, a1, ?_⟩
    have hy := a4 .bool true (by rw [w4, bn]; rfl) (.inl rfl)
    have : y = true := by
      cases hy with
      | same => rfl
      | integer ha hb =>
        have ha : some (if true = true then (1 : Int) else 0) = some _ := ha
        cases ha
        have hb : some (decide ((1 : Int) ≠ 0)) = some y := hb
        cases hb
        rfl
    rw [← this]; exact a2
  · obtain ⟨y, r, a1, a2, _, a4⟩ := C83_read (v := ⟨testDesc, []⟩) J4 z4 hfi rt 0
    refine ⟨r, a1, ?_⟩
    have hy := a4 .int64 5#64 (by rw [w4, iN]; rfl) (by decide)
    have : y = 5#32 := by
      cases hy with
      | integer ha hb =>
        have ha : some ((5#64 : U64).toInt) = some _ := ha
        cases ha
        have hb : some (BitVec.ofInt 32 _) = some y := hb
        cases hb
        decide
    rw [← this]; exact a2

end Zeropb.GoSrc.E
