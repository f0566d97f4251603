import Verif.Props.Programs
/-!
# C82: two versions of a .proto file

One program was generated from one version of a .proto file, another program from another version. The first encodes a message, the second decodes it. What the second program
sees is told here from the two message types alone: which changes of a message type are safe, what happens to values whose type changed, and what happens to fields that only one
version has. The rules are those of "Updating a message type" in the protobuf documentation, except for one: zeropb has to know a field with a number at least as high as any
number that occurs.
-/

set_option linter.constructorNameAsVariable false

namespace Zeropb.GoSrc.E
open Zeropb.Gen Wire Zeropb.GoSrc.G

/-! ## Specification -/

/-- A field with accessors, and the type of its values on the wire: messages are bytes. (Repeated fields of scalar types have no accessors.) -/
inductive Accessor (m : Desc) : Field → Kind → Prop
  | scalar {fd k} : ScalarField m fd k → Accessor m fd k
  | message {fd} : MessageField m fd → Accessor m fd .bytes
  | repeated {fd} : RepeatedField m fd → Accessor m fd .bytes

/-- A field with accessors that is not repeated. -/
def Single (m : Desc) (fd : Field) : Prop := (∃ k, ScalarField m fd k) ∨ MessageField m fd

/-- The message type has no accessors for the number `n`. -/
def Lacks (m : Desc) (n : Nat) : Prop := ∀ fd k, Accessor m fd k → num fd ≠ n

/-- Integer types that are written as they are, as varints. -/
def Kind.Plain (k : Kind) : Prop := k = .bool ∨ k = .int32 ∨ k = .int64 ∨ k = .uint32 ∨ k = .uint64

/-- A field of type `k` may be changed to type `l`. -/
def MayBecome (k l : Kind) : Prop :=
  k = l ∨ (Kind.Plain k ∧ Kind.Plain l) ∨ (k = .sint32 ∧ l = .sint64) ∨
  (k = .fixed32 ∧ l = .sfixed32) ∨ (k = .sfixed32 ∧ l = .fixed32) ∨ (k = .fixed64 ∧ l = .sfixed64) ∨ (k = .sfixed64 ∧ l = .fixed64) ∨
  (k = .string ∧ l = .bytes) ∨ (k = .bytes ∧ l = .string)

/-- The number that a value of an integer type stands for. -/
def numberOf : (k : Kind) → k.Ty → Option Int
  | .bool, b => some (if b then 1 else 0)
  | .int32, x | .sint32, x | .sfixed32, x => some x.toInt
  | .uint32, x | .fixed32, x => some x.toNat
  | .int64, x | .sint64, x | .sfixed64, x => some x.toInt
  | .uint64, x | .fixed64, x => some x.toNat
  | .float, _ | .double, _ | .string, _ | .bytes, _ => none

/-- The number `n` as a value of an integer type: what does not fit is cut off, as by a cast in C++. -/
def castTo : (k : Kind) → Int → Option k.Ty
  | .bool, n => some (decide (n ≠ 0))
  | .int32, n | .sint32, n | .sfixed32, n | .uint32, n | .fixed32, n => some (BitVec.ofInt 32 n)
  | .int64, n | .sint64, n | .sfixed64, n | .uint64, n | .fixed64, n => some (BitVec.ofInt 64 n)
  | .float, _ | .double, _ | .string, _ | .bytes, _ => none

/-- The value `x` of type `k`, read as type `l`, is `y`. -/
inductive ReadAs : (k l : Kind) → k.Ty → l.Ty → Prop
  | same {k} {x : k.Ty} : ReadAs k k x x
  | integer {k l} {x : k.Ty} {n : Int} {y : l.Ty} : numberOf k x = some n → castTo l n = some y → ReadAs k l x y
  | text {x} : ReadAs .string .bytes x x
  | binary {x} : ReadAs .bytes .string x x

/-- The fields that both versions have changed to types they may be changed to. -/
def Evolves (m1 m2 : Desc) : Prop :=
  ∀ fd1 k fd2 l, Accessor m1 fd1 k → Accessor m2 fd2 l → num fd1 = num fd2 → MayBecome k l

/-- A message of type `m` with the contents `c` has the value `v` under the number `n`. -/
inductive Used (m : Desc) (c : Contents) : Nat → Wire.Val → Prop
  | single {fd v} : Single m fd → c.sing (num fd) = some v → Used m c (num fd) v
  | repeated {fd b} : RepeatedField m fd → b ∈ c.elems (num fd) → Used m c (num fd) (.bytes b)
  | rest {n v} : Lacks m n → v ∈ c.rest n → Used m c n v

/-- Type `m` has a field with a number at least as high. -/
def Covers (m : Desc) (n : Nat) : Prop := n = 0 ∨ ∃ fd, some fd ∈ m.field ∧ n ≤ num fd

/-- A message of type `m1` can be decoded as a message of type `m2`. -/
structure Fits (m1 m2 : Desc) (c : Contents) : Prop where
  /-- no value has a number higher than all numbers of `m2` -/
  numbers : ∀ n v, Used m1 c n v → Covers m2 n
  /-- values that the sender itself had only passed on have the types that the receiver knows -/
  foreign : ∀ fd l, Accessor m2 fd l → Lacks m1 (num fd) → ∀ v ∈ c.rest (num fd), ∃ x, decodeVal l v = some x

/-- What was `c1` in a message of type `m1` is `c2` in a message of type `m2`. -/
structure Carried (m1 m2 : Desc) (c1 c2 : Contents) : Prop where
  /-- fields of both -/
  single : ∀ fd1 fd2, Single m1 fd1 → Single m2 fd2 → num fd1 = num fd2 → c2.sing (num fd2) = c1.sing (num fd1)
  /-- repeated fields of both -/
  repeated : ∀ fd1 fd2, RepeatedField m1 fd1 → RepeatedField m2 fd2 → num fd1 = num fd2 → c2.elems (num fd2) = c1.elems (num fd1)
  /-- of a field that was repeated, the last element is seen -/
  last : ∀ fd1 fd2, RepeatedField m1 fd1 → Single m2 fd2 → num fd1 = num fd2 → c2.sing (num fd2) = (c1.elems (num fd1)).getLast?.map .bytes
  /-- of a field that is repeated now, the value is seen as the last element; and there are none if there was no value -/
  spread : ∀ fd1 fd2, Single m1 fd1 → RepeatedField m2 fd2 → num fd1 = num fd2 → (c2.elems (num fd2)).getLast?.map .bytes = c1.sing (num fd1)
  /-- fields that only the receiver has: what the sender passed on; not set, if that was nothing -/
  adopted : ∀ fd2, Lacks m1 (num fd2) → (Single m2 fd2 → c2.sing (num fd2) = (c1.rest (num fd2)).getLast?) ∧
    (RepeatedField m2 fd2 → (c2.elems (num fd2)).map .bytes = c1.rest (num fd2))
  /-- fields that only the sender has: passed on -/
  kept : ∀ fd1, Lacks m2 (num fd1) → (Single m1 fd1 → (c2.rest (num fd1)).getLast? = c1.sing (num fd1)) ∧
    (RepeatedField m1 fd1 → c2.rest (num fd1) = (c1.elems (num fd1)).map .bytes)
  /-- fields of neither: passed on -/
  neither : ∀ n, Lacks m1 n → Lacks m2 n → c2.rest n = c1.rest n
  /-- what is passed on has no numbers that the sender does not have -/
  covered : ∀ n v, Lacks m2 n → v ∈ c2.rest n → Covers m1 n
  /-- what is passed on fits the sender's types -/
  returns : ∀ fd k, Accessor m1 fd k → Lacks m2 (num fd) → ∀ v ∈ c2.rest (num fd), ∃ x, decodeVal k v = some x

/-! ## Proof -/

theorem single_accessor {m : Desc} {fd : Field} (h : Single m fd) : ∃ k, Accessor m fd k := by
  rcases h with ⟨k, h⟩ | h
  · exact ⟨k, .scalar h⟩
  · exact ⟨_, .message h⟩

/-- Records hold the contents. -/
structure Carries (m : Desc) (rs : List Record) (c : Contents) : Prop where
  single : ∀ fd, Single m fd → lastVal (num fd) rs = c.sing (num fd)
  repeated : ∀ fd, RepeatedField m fd → allVals (num fd) rs = (c.elems (num fd)).map .bytes
  rest : ∀ n, Lacks m n → allVals n rs = c.rest n

theorem lacks_kind {m : Desc} (hv : ValidDesc m) {n : Nat} : Lacks m n ↔ (schemaOf m hv).kind n = none := by
  constructor
  · intro h
    cases hk : (schemaOf m hv).kind n with
    | none => rfl
    | some k =>
      obtain ⟨fd, e1, _, e2⟩ := schema_kind hv hk
      rcases e2 with e2 | ⟨rfl, e2 | e2⟩
      · exact absurd e1 (h fd k (.scalar e2))
      · exact absurd e1 (h fd _ (.message e2))
      · exact absurd e1 (h fd _ (.repeated e2))
  · rintro h fd k ha rfl
    cases ha with
    | scalar ha => rw [(scalar_schema hv ha).1] at h; cases h
    | message ha => rw [(message_schema hv ha).1] at h; cases h
    | repeated ha => rw [(repeated_schema hv ha).1] at h; cases h

theorem covers_of_lt {m : Desc} {n : Nat} (h : n < slotsOf m) : Covers m n := by
  have hle : ∀ (l : List Nat), 1 ≤ n → n ≤ l.foldr max 0 → ∃ x ∈ l, n ≤ x := by
    intro l h1
    induction l with
    | nil => intro h; simp at h; omega
    | cons a l ih =>
      intro h
      rw [List.foldr_cons] at h
      by_cases ha : n ≤ a
      · exact ⟨a, by simp, ha⟩
      · obtain ⟨x, hx, hn⟩ := ih (by omega)
        exact ⟨x, by simp [hx], hn⟩
  by_cases h0 : n = 0
  · exact .inl h0
  obtain ⟨x, hx, hn⟩ := hle _ (by omega) (Nat.le_of_lt_succ h)
  obtain ⟨fd, hfd, rfl⟩ := List.mem_map.1 hx
  obtain ⟨f, hf, rfl⟩ := List.mem_filterMap.1 hfd
  exact .inr ⟨fd, hf, hn⟩

theorem getLast_allVals (f : Nat) (rs : List Record) : (allVals f rs).getLast? = lastVal f rs := by
  unfold allVals lastVal
  rw [List.getLast?_map]

section
variable {U : Unicode} {fs : List FileDesc} {pkg : Text} {s : GSt} {g : Known}

/-- What `Encode` returns. -/
theorem encodes (hc : Compilable U fs pkg) (h : Inv U fs s g) {i : Nat} {e : Entry} (hi : g.structs i = some e) :
    ∃ b rs, (∀ rt d, G.run (programOf U fs) rt d e.type.getName t!"Encode" [.ptr e.type.getName i] s = .ok ([.val (.bytes (.mem b))], s)) ∧
      (s.h.w.slice b).data.length < maxLen ∧ IsMinTagMessage rs (s.h.w.slice b).data ∧ Conforms e.type rs ∧ Carries e.type rs e.contents := by
  obtain ⟨⟨f, hf, hm⟩, _, _, hv, rs, h1, h2, h3, h4, h5⟩ := h.struct i e hi
  have hl : (s.h.w.msg (s.h.ms i)).buf.data.length < maxLen := by obtain ⟨cs, hr, _⟩ := h1; exact hr.len
  refine ⟨(s.h.ms i).buf, rs, fun rt d => C63_encode hc.program rt d s (sub_of hf hm _ (by simp [messageDecls])), hl, h1.isMessage, (conforms_typed hv).2 h2, ?_, ?_, ?_⟩
  · rintro fd (⟨k, hk⟩ | hk)
    · exact h3 _ (scalar_schema hv hk).2
    · exact h3 _ (message_schema hv hk).2
  · intro fd hk
    exact h4 _ (repeated_schema hv hk).2 (repeated_schema hv hk).1
  · intro n hn
    exact h5 n ((lacks_kind hv).1 hn)

theorem encoded_carries (hc : Compilable U fs pkg) (h : Inv U fs s g) {i : Nat} {e : Entry} (hi : g.structs i = some e) {bs : List Byte} (hb : Encoded (programOf U fs) e.type i s bs) :
    ∃ rs, bs.length < maxLen ∧ IsMinTagMessage rs bs ∧ Conforms e.type rs ∧ Carries e.type rs e.contents := by
  obtain ⟨b1, rs, p1, p2, p3, p4, p5⟩ := encodes hc h hi
  obtain ⟨b', q1, rfl⟩ := hb
  have : b' = b1 := by
    have hh := q1 Rt.exact 0
    rw [p1 Rt.exact 0] at hh
    cases hh; rfl
  subst this
  exact ⟨rs, p2, p3, p4, p5⟩

end

/-- What is stored as one type can be read as a type it may be changed to. -/
theorem mayBecome_decodes {k l : Kind} (h : MayBecome k l) {v : Wire.Val} {x : k.Ty} (hx : decodeVal k v = some x) : ∃ y, decodeVal l v = some y := by
  rcases h with rfl | ⟨h1, h2⟩ | ⟨rfl, rfl⟩ | ⟨rfl, rfl⟩ | ⟨rfl, rfl⟩ | ⟨rfl, rfl⟩ | ⟨rfl, rfl⟩ | ⟨rfl, rfl⟩ | ⟨rfl, rfl⟩
  · exact ⟨x, hx⟩
  · have : ∃ u, v = .varint u := by
      rcases h1 with rfl | rfl | rfl | rfl | rfl <;> cases v <;> first | exact ⟨_, rfl⟩ | (simp [decodeVal] at hx)
    obtain ⟨u, rfl⟩ := this
    rcases h2 with rfl | rfl | rfl | rfl | rfl <;> exact ⟨_, rfl⟩
  all_goals cases v <;> first | exact ⟨_, rfl⟩ | (simp [decodeVal] at hx)

theorem lastVal_of_mem {r : Record} {rs : List Record} (h : r ∈ rs) : ∃ v, lastVal r.num rs = some v := by
  unfold lastVal
  cases hl : (rs.filter (fun r' => decide (r'.num = r.num))).getLast? with
  | none =>
    rw [List.getLast?_eq_none_iff] at hl
    have : r ∈ rs.filter (fun r' => decide (r'.num = r.num)) := List.mem_filter.2 ⟨h, by simp⟩
    rw [hl] at this; cases this
  | some v => exact ⟨_, rfl⟩

theorem mem_allVals {r : Record} {rs : List Record} (h : r ∈ rs) : r.val ∈ allVals r.num rs :=
  List.mem_map.2 ⟨r, List.mem_filter.2 ⟨h, by simp⟩, rfl⟩

/-- The message fits the receiver's type. -/
theorem conforms_fits {m1 m2 : Desc} {c : Contents} {rs : List Record} (hcf : Conforms m1 rs) (hcr : Carries m1 rs c) (he : Evolves m1 m2) (hf : Fits m1 m2 c) : Conforms m2 rs := by
  intro r hr
  by_cases hL : Lacks m1 r.num
  · have hm := mem_allVals hr
    rw [hcr.rest _ hL] at hm
    refine ⟨hf.numbers _ _ (.rest hL hm), fun fd hfd hn => ⟨fun l hl => ?_, fun hl => ?_⟩⟩
    · exact hf.foreign fd l (.scalar hl) (hn ▸ hL) _ (hn ▸ hm)
    · have : ∃ x, decodeVal .bytes r.val = some x := by
        rcases hl with hl | hl
        · exact hf.foreign fd _ (.message hl) (hn ▸ hL) _ (hn ▸ hm)
        · exact hf.foreign fd _ (.repeated hl) (hn ▸ hL) _ (hn ▸ hm)
      obtain ⟨x, hx⟩ := this
      cases hv : r.val <;> rw [hv] at hx <;> simp [decodeVal] at hx
      exact ⟨_, rfl⟩
  · obtain ⟨fd1, k, ha, hn1⟩ : ∃ fd1 k, Accessor m1 fd1 k ∧ num fd1 = r.num := by
      refine Classical.byContradiction fun h => hL fun fd1 k ha hn => h ⟨fd1, k, ha, hn⟩
    have hx : ∃ x, decodeVal k r.val = some x := by
      cases ha with
      | scalar ha => exact ((hcf r hr).2 fd1 ha.1 hn1).1 k ha
      | message ha => obtain ⟨b, hb⟩ := ((hcf r hr).2 fd1 ha.1 hn1).2 (.inl ha); exact ⟨b, by rw [hb]; rfl⟩
      | repeated ha => obtain ⟨b, hb⟩ := ((hcf r hr).2 fd1 ha.1 hn1).2 (.inr ha); exact ⟨b, by rw [hb]; rfl⟩
    obtain ⟨x, hx⟩ := hx
    refine ⟨?_, fun fd hfd hn => ⟨fun l hl => mayBecome_decodes (he fd1 k fd l ha (.scalar hl) (by omega)) hx, fun hl => ?_⟩⟩
    · have hs : Single m1 fd1 → ∃ v, Used m1 c (num fd1) v := fun h => by
        obtain ⟨v, hv⟩ := lastVal_of_mem hr
        rw [← hn1, hcr.single fd1 h] at hv
        exact ⟨v, .single h hv⟩
      have : ∃ v, Used m1 c (num fd1) v := by
        cases ha with
        | scalar ha => exact hs (.inl ⟨_, ha⟩)
        | message ha => exact hs (.inr ha)
        | repeated ha =>
          have hm := mem_allVals hr
          rw [← hn1, hcr.repeated fd1 ha] at hm
          obtain ⟨b, hb, _⟩ := List.mem_map.1 hm
          exact ⟨_, .repeated ha hb⟩
      obtain ⟨v, hv⟩ := this
      rw [← hn1]
      exact hf.numbers _ v hv
    · have hk : MayBecome k .bytes := by
        rcases hl with hl | hl
        · exact he fd1 k fd _ ha (.message hl) (by omega)
        · exact he fd1 k fd _ ha (.repeated hl) (by omega)
      obtain ⟨y, hy⟩ := mayBecome_decodes hk hx
      cases hv : r.val <;> rw [hv] at hy <;> simp [decodeVal] at hy
      exact ⟨_, rfl⟩

/-- The elements of a repeated field are all its values. -/
theorem elems_of_conforms {m : Desc} {rs : List Record} (hcf : Conforms m rs) {fd : Field} (h : RepeatedField m fd) :
    ((Contents.ofRecords rs).elems (num fd)).map Wire.Val.bytes = allVals (num fd) rs := by
  have : ∀ v ∈ allVals (num fd) rs, ∃ b, v = .bytes b := by
    intro v hv
    obtain ⟨r, hr, rfl⟩ := List.mem_map.1 hv
    obtain ⟨hr, hn⟩ := List.mem_filter.1 hr
    exact ((hcf r hr).2 fd h.1 (of_decide_eq_true hn).symm).2 (.inr h)
  simp only [Contents.ofRecords]
  generalize allVals (num fd) rs = l at this
  induction l with
  | nil => rfl
  | cons v l ih =>
    obtain ⟨b, rfl⟩ := this v (by simp)
    rw [List.filterMap_cons_some (by rfl), List.map_cons, ih fun v hv => this v (by simp [hv])]

theorem map_bytes_inj {a b : List (List Byte)} (h : a.map Wire.Val.bytes = b.map Wire.Val.bytes) : a = b := by
  rw [← filterMap_bytes a, ← filterMap_bytes b, h]

theorem carried_of {m1 m2 : Desc} {c : Contents} {rs : List Record} (hcf : Conforms m1 rs) (hcr : Carries m1 rs c) (hcf2 : Conforms m2 rs) :
    Carried m1 m2 c (.ofRecords rs) where
  single fd1 fd2 h1 _ hn := by rw [← hn]; exact hcr.single fd1 h1
  repeated fd1 fd2 h1 h2 hn := map_bytes_inj (by rw [elems_of_conforms hcf2 h2, ← hn, hcr.repeated fd1 h1])
  last fd1 fd2 h1 _ hn := by
    rw [← hn, ← List.getLast?_map, ← hcr.repeated fd1 h1, getLast_allVals]; rfl
  spread fd1 fd2 h1 h2 hn := by
    rw [← List.getLast?_map, elems_of_conforms hcf2 h2, ← hn, getLast_allVals, hcr.single fd1 h1]
  adopted fd2 hl := ⟨fun _ => by rw [← hcr.rest _ hl, getLast_allVals]; rfl, fun h2 => by rw [elems_of_conforms hcf2 h2, hcr.rest _ hl]⟩
  kept fd1 _ := ⟨fun h1 => by rw [← hcr.single fd1 h1, ← getLast_allVals]; rfl, fun h1 => hcr.repeated fd1 h1⟩
  neither n hl _ := hcr.rest n hl
  covered n v _ hv := by
    obtain ⟨r, hr, rfl⟩ := List.mem_map.1 (show v ∈ allVals n rs from hv)
    obtain ⟨hr, hn⟩ := List.mem_filter.1 hr
    rw [← of_decide_eq_true hn]
    exact (hcf r hr).1
  returns fd k ha _ v hv := by
    obtain ⟨r, hr, rfl⟩ := List.mem_map.1 (show v ∈ allVals (num fd) rs from hv)
    obtain ⟨hr, hn⟩ := List.mem_filter.1 hr
    have hn : num fd = r.num := (of_decide_eq_true hn).symm
    cases ha with
    | scalar ha => exact ((hcf r hr).2 fd ha.1 hn).1 k ha
    | message ha => obtain ⟨b, hb⟩ := ((hcf r hr).2 fd ha.1 hn).2 (.inl ha); exact ⟨b, by rw [hb]; rfl⟩
    | repeated ha => obtain ⟨b, hb⟩ := ((hcf r hr).2 fd ha.1 hn).2 (.inr ha); exact ⟨b, by rw [hb]; rfl⟩

theorem plain_encode {k : Kind} (h : Kind.Plain k) (x : k.Ty) : ∃ n, numberOf k x = some n ∧ encodeVal k x = .varint (BitVec.ofInt 64 n) ∧ -(2 ^ 63) ≤ n ∧ n < 2 ^ 64 := by
  rcases h with rfl | rfl | rfl | rfl | rfl
  · cases x
    · exact ⟨0, rfl, rfl, by decide, by decide⟩
    · exact ⟨1, rfl, rfl, by decide, by decide⟩
  · refine ⟨_, rfl, rfl, ?_, ?_⟩
    · have := BitVec.le_toInt (w := 32) x; omega
    · have := BitVec.toInt_lt (w := 32) (x := x); omega
  · refine ⟨_, rfl, by rw [BitVec.ofInt_toInt]; rfl, ?_, ?_⟩
    · have := BitVec.le_toInt (w := 64) x; omega
    · have := BitVec.toInt_lt (w := 64) (x := x); omega
  · refine ⟨_, rfl, by rw [BitVec.ofInt_natCast]; rfl, ?_, ?_⟩
    · omega
    · have := BitVec.isLt (w := 32) x; omega
  · refine ⟨_, rfl, by rw [BitVec.ofInt_natCast, BitVec.ofNat_toNat]; simp [encodeVal], ?_, ?_⟩
    · omega
    · have := BitVec.isLt (w := 64) x; omega

theorem plain_decode {l : Kind} (h : Kind.Plain l) {n : Int} (h1 : -(2 ^ 63) ≤ n) (h2 : n < 2 ^ 64) :
    ∃ y, decodeVal l (.varint (BitVec.ofInt 64 n)) = some y ∧ castTo l n = some y := by
  have ht : (((BitVec.ofInt 64 n).toNat : Nat) : Int) = n % (2 ^ 64) := by
    rw [BitVec.toNat_ofInt]; omega
  have h32 : BitVec.ofNat 32 (BitVec.ofInt 64 n).toNat = BitVec.ofInt 32 n := by
    apply BitVec.eq_of_toNat_eq
    rw [BitVec.toNat_ofNat, BitVec.toNat_ofInt, BitVec.toNat_ofInt]
    omega
  rcases h with rfl | rfl | rfl | rfl | rfl
  · refine ⟨_, rfl, ?_⟩
    simp only [castTo, Option.some.injEq]
    by_cases hn : n = 0
    · subst hn; decide
    · rw [decide_eq_true hn, decide_eq_true]
      omega
  · exact ⟨_, rfl, by rw [h32]; rfl⟩
  · exact ⟨_, rfl, rfl⟩
  · exact ⟨_, rfl, by rw [h32]; rfl⟩
  · exact ⟨_, rfl, rfl⟩

/-- C82: a value that was set as a field of type `k` is read as a field of a type `l` that the field may be changed to, and then it is the same number, or what a cast makes of it; or the same
bytes. -/
theorem C82_values {k l : Kind} (h : MayBecome k l) (x : k.Ty) : ∃ y, decodeVal l (encodeVal k x) = some y ∧ ReadAs k l x y := by
  rcases h with rfl | ⟨h1, h2⟩ | ⟨rfl, rfl⟩ | ⟨rfl, rfl⟩ | ⟨rfl, rfl⟩ | ⟨rfl, rfl⟩ | ⟨rfl, rfl⟩ | ⟨rfl, rfl⟩ | ⟨rfl, rfl⟩
  · exact ⟨x, decodeVal_encodeVal k x, .same⟩
  · obtain ⟨n, n1, n2, n3, n4⟩ := plain_encode h1 x
    obtain ⟨y, y1, y2⟩ := plain_decode h2 n3 n4
    exact ⟨y, by rw [n2, y1], .integer n1 y2⟩
  · have h1 := BitVec.le_toInt (w := 32) x
    have h2 := BitVec.toInt_lt (w := 32) (x := x)
    have hz : (BitVec.ofNat 64 (zigzag (BitVec.toInt (n := 32) x))).toNat = zigzag (BitVec.toInt (n := 32) x) := by
      rw [BitVec.toNat_ofNat]
      apply Nat.mod_eq_of_lt
      unfold zigzag
      split <;> omega
    refine ⟨BitVec.ofInt 64 (BitVec.toInt (n := 32) x), ?_, .integer (n := BitVec.toInt (n := 32) x) rfl rfl⟩
    simp only [encodeVal, decodeVal, hz, unzigzag_zigzag]
  · exact ⟨x, rfl, .integer (n := x.toNat) rfl (by simp [castTo])⟩
  · exact ⟨x, rfl, .integer (n := x.toInt) rfl (by simp [castTo])⟩
  · exact ⟨x, rfl, .integer (n := x.toNat) rfl (by simp [castTo])⟩
  · exact ⟨x, rfl, .integer (n := x.toInt) rfl (by simp [castTo])⟩
  · exact ⟨x, rfl, .text⟩
  · exact ⟨x, rfl, .binary⟩

section
variable {U1 U2 : Unicode} {fs1 fs2 : List FileDesc} {pkg1 pkg2 : Text}

/-- C82: what a program encoded, another program decodes, if its version of the message type can have evolved from that of the first, and the message fits. `Decode` returns nil, and then the
struct has what the first one had, as far as both versions know it. -/
theorem C82_decode (hc1 : Compilable U1 fs1 pkg1) {s01 s1 : GSt} {g1 : Known} (h1 : Reach U1 fs1 s01 s1 g1) {i : Nat} {e1 : Entry} (hi : g1.structs i = some e1)
    (hc2 : Compilable U2 fs2 pkg2) {s02 s2 : GSt} {g2 : Known} (h2 : Reach U2 fs2 s02 s2 g2) {j : Nat} {e2 : Entry} (hj : g2.structs j = some e2)
    (hev : Evolves e1.type e2.type) (hfit : Fits e1.type e2.type e1.contents)
    {b : HSlice} (hb : s2.h.w.WFs b) (hfree : g2.Free s2 j b) (hdata : Encoded (programOf U1 fs1) e1.type i s1 (s2.h.w.slice b).data) (rt : Rt) (d : Nat) :
    ∃ s c, G.run (programOf U2 fs2) rt d e2.type.getName t!"Decode" [.ptr e2.type.getName j, .val (.bytes (.mem b))] s2 = .ok ([.val .nil], s) ∧
      Carried e1.type e2.type e1.contents c ∧ Reach U2 fs2 s02 s ((g2.drop j).put j ⟨e2.type, none, c⟩) ∧ Shows U2 (programOf U2 fs2) e2.type j s c ∧
      (s.h.ms j).buf.len ≤ b.len := by
  obtain ⟨rs, p2, p3, p4, p5⟩ := encoded_carries hc1 (reach_inv hc1 h1) hi hdata
  have hl : b.len < maxLen := by rw [← slice_data_length hb]; exact p2
  have hcf2 := conforms_fits p4 p5 hev hfit
  obtain ⟨s, r1⟩ := (reach_inv hc2 h2).decode_ok hc2 hj hb hl p3 hcf2 rt d
  have r2 := Reach.step h2 (.fill (op := .decode (s2.h.w.slice b) rs) hj (.decode (rt := rt) hb hl p3 hcf2) (fun h => h)
    (fun b' hb' => by have e : b' = b := by simpa using hb'
                      rw [e]; exact hfree) r1)
  refine ⟨s, .ofRecords rs, r1, carried_of p4 p5 hcf2, r2, (C66_programs hc2 r2).1 j ⟨e2.type, none, .ofRecords rs⟩ (by simp [Known.put, Op.apply]), ?_⟩
  obtain ⟨⟨f, hf, hm⟩, hn, hw, hv, _⟩ := (reach_inv hc2 h2).struct j e2 hj
  obtain ⟨⟨_, _, h⟩, _⟩ := call_effect hc2.program hc2.closed (decls_implements U2 e2.type hv) (sub_of (U := U2) hf hm) hw hn
    (calls_issues (U := U2) (rt := rt) (i := j) hv (.decode hb hl p3 hcf2)) r1
  rcases h with h | h
  · rw [h]; exact Nat.zero_le _
  · have e : (s.h.ms j).buf = b := by simpa using h
    rw [e]; exact Nat.le_refl _

/-- C82: the same for a message in a field: the getter decodes what the first program had put into the field, if its type can have evolved likewise. -/
theorem C82_message (hc1 : Compilable U1 fs1 pkg1) {s01 s1 : GSt} {g1 : Known} (h1 : Reach U1 fs1 s01 s1 g1) {i : Nat} {e1 : Entry} (hi : g1.structs i = some e1) {bs : List Byte}
    (hdata : Encoded (programOf U1 fs1) e1.type i s1 bs)
    (hc2 : Compilable U2 fs2 pkg2) {s02 s2 : GSt} {g2 : Known} (h2 : Reach U2 fs2 s02 s2 g2) {o : Nat} {eo : Entry} {fd : Field} (ho : g2.structs o = some eo) (hfd : MessageField eo.type fd)
    (hs : eo.contents.sing (num fd) = some (.bytes bs)) {j : Nat} {e2 : Entry} (hj : g2.structs j = some e2) (hname : e2.type.getName = goType fd) (hne : j ≠ eo.root o)
    (hev : Evolves e1.type e2.type) (hfit : Fits e1.type e2.type e1.contents) (rt : Rt) (d : Nat) :
    ∃ s c, G.run (programOf U2 fs2) rt d eo.type.getName (goName U2 fd) [.ptr eo.type.getName o, .ptr (goType fd) j] s2 = .ok ([.val (.bool true), .val .nil], s) ∧
      Carried e1.type e2.type e1.contents c ∧ Reach U2 fs2 s02 s ((g2.drop j).put j ⟨e2.type, some (eo.root o), c⟩) ∧ Shows U2 (programOf U2 fs2) e2.type j s c := by
  obtain ⟨rs, _, p3, p4, p5⟩ := encoded_carries hc1 (reach_inv hc1 h1) hi hdata
  have hcf2 := conforms_fits p4 p5 hev hfit
  obtain ⟨s, r1⟩ := C66_message hc2 h2 ho hfd hj hname hs p3 hcf2 rt d
  have r2 := Reach.step h2 (.message ho hfd hj hname hne hs p3 hcf2 r1)
  exact ⟨s, .ofRecords rs, r1, carried_of p4 p5 hcf2, r2, (C66_programs hc2 r2).1 j ⟨e2.type, some (eo.root o), .ofRecords rs⟩ (by simp [Known.put])⟩

/-- C82: and for the elements of a repeated field. -/
theorem C82_next (hc1 : Compilable U1 fs1 pkg1) {s01 s1 : GSt} {g1 : Known} (h1 : Reach U1 fs1 s01 s1 g1) {i : Nat} {e1 : Entry} (hi : g1.structs i = some e1) {bs : List Byte}
    (hdata : Encoded (programOf U1 fs1) e1.type i s1 bs)
    (hc2 : Compilable U2 fs2 pkg2) {s02 s2 : GSt} {g2 : Known} (h2 : Reach U2 fs2 s02 s2 g2) {v o : Nat} {m : Desc} {fd : Field} {rest : List (List Byte)}
    (hv : g2.iters v = some ⟨m, fd, o, bs :: rest⟩) {j : Nat} {e2 : Entry} (hj : g2.structs j = some e2) (hname : e2.type.getName = goType fd) (hne : j ≠ o)
    (hev : Evolves e1.type e2.type) (hfit : Fits e1.type e2.type e1.contents) (rt : Rt) (d : Nat) :
    ∃ s c, G.run (programOf U2 fs2) rt d (iterOf m fd) t!"Next" [.iter (iterOf m fd) v, .ptr (goType fd) j] s2 = .ok ([.val (.bool true), .val .nil], s) ∧
      Carried e1.type e2.type e1.contents c ∧ Reach U2 fs2 s02 s (((g2.point v ⟨m, fd, o, rest⟩).drop j).put j ⟨e2.type, some o, c⟩) ∧ Shows U2 (programOf U2 fs2) e2.type j s c := by
  obtain ⟨rs, _, p3, p4, p5⟩ := encoded_carries hc1 (reach_inv hc1 h1) hi hdata
  have hcf2 := conforms_fits p4 p5 hev hfit
  obtain ⟨s, r1⟩ := C66_next hc2 h2 hv hj hname p3 hcf2 rt d
  have r2 := Reach.step h2 (.next hv hj hname hne p3 hcf2 r1)
  exact ⟨s, .ofRecords rs, r1, carried_of p4 p5 hcf2, r2, (C66_programs hc2 r2).1 j ⟨e2.type, some o, .ofRecords rs⟩ (by simp [Known.put])⟩

/-- C82: what the getter of a scalar field returns then: if the first program had set the field to `x`, then `x`, read as the type that the field has now; if the field was not set, the
default of the type. -/
theorem C82_read {p : Program} {m1 m2 : Desc} {c1 c2 : Contents} {j : Nat} {s : GSt} (hcar : Carried m1 m2 c1 c2) (hev : Evolves m1 m2) (hsh : Shows U2 p m2 j s c2)
    {fd1 fd2 : Field} {k l : Kind} (h1 : ScalarField m1 fd1 k) (h2 : ScalarField m2 fd2 l) (hn : num fd1 = num fd2) (rt : Rt) (d : Nat) :
    ∃ y v, G.run p rt d m2.getName (goName U2 fd2) [.ptr m2.getName j] s = .ok ([.val v], s) ∧ IsVal s.h.w l y v ∧
      (c1.sing (num fd1) = none → y = l.dflt) ∧ (∀ x, c1.sing (num fd1) = some (encodeVal k x) → ReadAs k l x y) ∧
      (k = l → readVal l (c1.sing (num fd1)) = some y) := by
  obtain ⟨y, v, r1, r2, r3⟩ := hsh.scalar fd2 l h2 rt d
  rw [hcar.single fd1 fd2 (.inl ⟨k, h1⟩) (.inl ⟨l, h2⟩) hn] at r3
  refine ⟨y, v, r1, r2, fun h => ?_, fun x h => ?_, fun _ => r3⟩
  · rw [h] at r3; cases r3; rfl
  · obtain ⟨y', y1, y2⟩ := C82_values (hev fd1 k fd2 l (.scalar h1) (.scalar h2) hn) x
    rw [h] at r3
    have : decodeVal l (encodeVal k x) = some y := r3
    rw [y1] at this
    cases this
    exact y2

/-- Setters and appends leave alone what is passed on. -/
theorem writes_rest {ops : List Zeropb.Op} (h : ∀ op ∈ ops, Writes op) (c : Contents) : (applyAll ops c).rest = c.rest := by
  induction ops generalizing c with
  | nil => rfl
  | cons op ops ih =>
    simp only [applyAll]
    rw [ih (fun o ho => h o (by simp [ho]))]
    have := h op (by simp)
    cases op <;> first | rfl | exact absurd this (fun h => h)

/-- C82: a message goes from a program of one version to a program of another version, which sets and appends to fields that it knows, and encodes the message again; a program of the first
version decodes it. Then the fields that only the first version has are what they were at first, and the fields that both versions have are what the program in between made of them. -/
theorem C82_return (hc1 : Compilable U1 fs1 pkg1) {m1 m2 : Desc} {c1 c2 : Contents} (hcar : Carried m1 m2 c1 c2)
    (hc2 : Compilable U2 fs2 pkg2) {s02 s2 : GSt} {g2 : Known} (h2 : Reach U2 fs2 s02 s2 g2) {j : Nat} {v : Option Nat} {ops : List Zeropb.Op} (hw : ∀ op ∈ ops, Writes op)
    (hj : g2.structs j = some ⟨m2, v, applyAll ops c2⟩)
    {s03 s3 : GSt} {g3 : Known} (h3 : Reach U1 fs1 s03 s3 g3) {k : Nat} {e3 : Entry} (hk : g3.structs k = some e3) (htype : e3.type = m1)
    (hev : Evolves m2 m1) (hnum : ∀ fd l v, Accessor m2 fd l → Used m2 (applyAll ops c2) (num fd) v → Covers m1 (num fd))
    {b : HSlice} (hb : s3.h.w.WFs b) (hfree : g3.Free s3 k b) (hdata : Encoded (programOf U2 fs2) m2 j s2 (s3.h.w.slice b).data) (rt : Rt) (d : Nat) :
    ∃ s c, G.run (programOf U1 fs1) rt d m1.getName t!"Decode" [.ptr m1.getName k, .val (.bytes (.mem b))] s3 = .ok ([.val .nil], s) ∧
      Reach U1 fs1 s03 s ((g3.drop k).put k ⟨m1, none, c⟩) ∧ Shows U1 (programOf U1 fs1) m1 k s c ∧
      (∀ fd, Single m1 fd → Lacks m2 (num fd) → c.sing (num fd) = c1.sing (num fd)) ∧
      (∀ fd, RepeatedField m1 fd → Lacks m2 (num fd) → c.elems (num fd) = c1.elems (num fd)) ∧
      (∀ n, Lacks m1 n → Lacks m2 n → c.rest n = c1.rest n) ∧
      Carried m2 m1 (applyAll ops c2) c := by
  subst htype
  have hrest := writes_rest hw c2
  have hfit : Fits m2 e3.type (applyAll ops c2) := by
    refine ⟨fun n v hu => ?_, fun fd l ha hl v hv => hcar.returns fd l ha hl v (by rw [← hrest]; exact hv)⟩
    cases hu with
    | @single fd v hs hv =>
      obtain ⟨k, hk⟩ := single_accessor hs
      exact hnum fd k v hk (.single hs hv)
    | @repeated fd b hr hm => exact hnum fd _ _ (.repeated hr) (.repeated hr hm)
    | @rest n v hl hm => exact hcar.covered _ v hl (by rw [← hrest]; exact hm)
  obtain ⟨s, c, r1, r2, r3, r4, _⟩ := C82_decode hc2 h2 hj hc1 h3 hk hev hfit hb hfree hdata rt d
  · refine ⟨s, c, r1, r3, r4, fun fd hf hl => ?_, fun fd hf hl => ?_, fun n h1 h2 => ?_, r2⟩
    · rw [(r2.adopted fd hl).1 hf]
      show ((applyAll ops c2).rest _).getLast? = _
      rw [hrest, (hcar.kept fd hl).1 hf]
    · have h := (r2.adopted fd hl).2 hf
      have e : (applyAll ops c2).rest (num fd) = (c1.elems (num fd)).map .bytes := by rw [hrest, (hcar.kept fd hl).2 hf]
      exact map_bytes_inj (h.trans e)
    · rw [r2.neither n h2 h1]
      show (applyAll ops c2).rest n = _
      rw [hrest, hcar.neither n h1 h2]

/-- C82: but a value with a number higher than all numbers of the receiver's version makes its `Decode` panic. -/
theorem C82_panics (hc1 : Compilable U1 fs1 pkg1) {s01 s1 : GSt} {g1 : Known} (h1 : Reach U1 fs1 s01 s1 g1) {i : Nat} {e1 : Entry} (hi : g1.structs i = some e1)
    (hc2 : Compilable U2 fs2 pkg2) {s02 s2 : GSt} {g2 : Known} (h2 : Reach U2 fs2 s02 s2 g2) {j : Nat} {e2 : Entry} (hj : g2.structs j = some e2)
    {n : Nat} {v : Wire.Val} (hu : Used e1.type e1.contents n v) (hn : ¬ Covers e2.type n)
    {b : HSlice} (hb : s2.h.w.WFs b) (hdata : Encoded (programOf U1 fs1) e1.type i s1 (s2.h.w.slice b).data) (rt : Rt) (d : Nat) :
    G.run (programOf U2 fs2) rt d e2.type.getName t!"Decode" [.ptr e2.type.getName j, .val (.bytes (.mem b))] s2 = .error (.fail .indexOutOfRange) := by
  obtain ⟨rs, p2, p3, p4, p5⟩ := encoded_carries hc1 (reach_inv hc1 h1) hi hdata
  obtain ⟨⟨f, hf, hm⟩, _, hw, hv, _, h3, _⟩ := (reach_inv hc2 h2).struct j e2 hj
  have hr : ∃ r ∈ rs, r.num = n := by
    have key : ∀ v', v' ∈ allVals n rs → ∃ r ∈ rs, r.num = n := fun v' hv' => by
      obtain ⟨r, hr, _⟩ := List.mem_map.1 hv'
      obtain ⟨hr, hn⟩ := List.mem_filter.1 hr
      exact ⟨r, hr, of_decide_eq_true hn⟩
    cases hu with
    | single hs hv => exact key v (List.mem_of_getLast? (by rw [getLast_allVals, p5.single _ hs, hv]))
    | repeated hs hv => exact key _ (by rw [p5.repeated _ hs]; exact List.mem_map_of_mem hv)
    | rest hs hv => exact key v (by rw [p5.rest _ hs]; exact hv)
  obtain ⟨r, hr, hrn⟩ := hr
  have hns : (schemaOf e2.type hv).n ≤ r.num := by
    rcases Nat.lt_or_ge r.num (schemaOf e2.type hv).n with h | h
    · exact absurd (covers_of_lt (hrn ▸ h)) hn
    · exact h
  obtain ⟨nums, t1, t2⟩ := (decls_implements U2 e2.type hv).table
  have hsub := sub_of (U := U2) hf hm
  have hl : (s2.h.w.slice b).len < maxLen := p2
  have hq := C63_decode hc2.program rt d s2 (hsub _ (decls_implements U2 e2.type hv).fixed.2.1) (hsub _ ((t1 _ _).2 ⟨rfl, rfl⟩)) b hb hw
  have hd := C29_false_unknown_panics (S := schemaOf e2.type hv) (m0 := s2.h.w.msg (s2.h.ms j)) h3.off_length hl (IsMinTagMessage_isMessage p3) ⟨r, hr, hns⟩
  have hrf := decode_refines (schemaOf e2.type hv).rep hw hb
  rw [hd] at hrf
  rw [hq, rep_table t2, hrf]
  rfl

end

/-! ## The hypotheses are met -/

instance (k : Kind) : Decidable (Kind.Plain k) := by unfold Kind.Plain; infer_instance

instance (k l : Kind) : Decidable (MayBecome k l) := by unfold MayBecome; infer_instance

theorem accessor_kind {m : Desc} {fd : Field} {k : Kind} (h : Accessor m fd k) : some fd ∈ m.field ∧ fieldKind fd = some k := by
  cases h with
  | scalar h =>
    obtain ⟨h1, h2, h3⟩ := h
    have h11 : getType (some fd) ≠ 11 := by intro e; rw [e] at h3; cases h3
    refine ⟨h1, ?_⟩
    unfold fieldKind
    rw [if_neg h11, if_neg (by omega), h3]
  | message h => exact ⟨h.1, by unfold fieldKind; rw [if_pos h.2.2]⟩
  | repeated h => exact ⟨h.1, by unfold fieldKind; rw [if_pos h.2.2]⟩

/-- A check that can be run. -/
theorem evolves_of {m1 m2 : Desc} (h : ∀ f1 ∈ m1.field.filterMap id, ∀ f2 ∈ m2.field.filterMap id, num f1 = num f2 → ∀ k ∈ fieldKind f1, ∀ l ∈ fieldKind f2, MayBecome k l) : Evolves m1 m2 := by
  intro fd1 k fd2 l h1 h2 hn
  obtain ⟨a1, a2⟩ := accessor_kind h1
  obtain ⟨b1, b2⟩ := accessor_kind h2
  exact h fd1 (List.mem_filterMap.2 ⟨_, a1, rfl⟩) fd2 (List.mem_filterMap.2 ⟨_, b1, rfl⟩) hn k (by simp [a2]) l (by simp [b2])

/-- Another version of golden/test.proto: `int32` has become the int64 `count`, `string` is bytes, and most fields do not exist. -/
def newFile : FileDesc :=
  { name := some t!"test2.proto", package := some t!"testzeropb", messageType := [
    some { name := some t!"TestMessage", field := [
      some { name := some t!"count", number := some 2#32, label := some 1, type := some 3 },
      some { name := some t!"string", number := some 14#32, label := some 1, type := some 12 },
      some { name := some t!"message", number := some 17#32, label := some 1, type := some 11, typeName := some t!".testzeropb.TestMessage" },
      some { name := some t!"added", number := some 33#32, label := some 1, type := some 12 },
      some { name := some t!"messages", number := some 34#32, label := some 3, type := some 11, typeName := some t!".testzeropb.TestMessage" }] }] }

/-- Its message type. -/
def newDesc : Desc := (newFile.messageType.filterMap id).headD {}

theorem newFile_names : GoNames asciiUnicode newFile where
  package := by decide +kernel
  messages := by
    have : ∀ m ∈ newFile.messageType.filterMap id, IsIdent m.getName := by decide +kernel
    exact fun m hm => this m (List.mem_filterMap.2 ⟨_, hm, rfl⟩)
  fields := by
    have : ∀ m ∈ newFile.messageType.filterMap id, ∀ fd ∈ m.field.filterMap id, IsIdent (toGoCase asciiUnicode (getName (some fd))) := by decide +kernel
    exact fun m hm fd hf _ => this m (List.mem_filterMap.2 ⟨_, hm, rfl⟩) fd (List.mem_filterMap.2 ⟨_, hf, rfl⟩)
  types := by
    have : ∀ m ∈ newFile.messageType.filterMap id, ∀ fd ∈ m.field.filterMap id, getType (some fd) = 11 →
        IsIdent (fieldToGoTypeMessage (getTypeName (some fd))) := by decide +kernel
    exact fun m hm fd hf => this m (List.mem_filterMap.2 ⟨_, hm, rfl⟩) fd (List.mem_filterMap.2 ⟨_, hf, rfl⟩)
  numbers := by
    have : ∀ m ∈ newFile.messageType.filterMap id, ∀ fd ∈ m.field.filterMap id,
        0 ≤ (getNumber (some fd)).toInt ∧ (getNumber (some fd)).toInt < 2 ^ 31 - 1 := by decide +kernel
    exact fun m hm fd hf => this m (List.mem_filterMap.2 ⟨_, hm, rfl⟩) fd (List.mem_filterMap.2 ⟨_, hf, rfl⟩)

theorem newFile_compilable : Compilable asciiUnicode [newFile] newFile.getPackage :=
  compilable_of newFile_names (by decide +kernel) (by decide +kernel) (by decide +kernel)

theorem test_evolves : Evolves testDesc newDesc ∧ Evolves newDesc testDesc := ⟨evolves_of (by decide +kernel), evolves_of (by decide +kernel)⟩

theorem newFile_has : newFile ∈ [newFile] ∧ some newDesc ∈ newFile.messageType := ⟨by simp, by rw [show newFile.messageType = [some newDesc] from rfl]; simp⟩

theorem newField {P : Field → Prop} [DecidablePred P] (h : ∃ fd ∈ newDesc.field.filterMap id, P fd) : ∃ fd, some fd ∈ newDesc.field ∧ P fd := by
  obtain ⟨fd, h1, h2⟩ := h
  obtain ⟨o, ho, e⟩ := List.mem_filterMap.1 h1
  subst e
  exact ⟨fd, ho, h2⟩

/-- Messages to which nothing was appended and in which nothing was passed on. -/
theorem fits_of {m1 m2 : Desc} {c : Contents} (h1 : ∀ n, c.elems n = []) (h2 : ∀ n, c.rest n = []) (h3 : ∀ n v, c.sing n = some v → Covers m2 n) : Fits m1 m2 c where
  numbers n v h := by
    cases h with
    | single _ h => exact h3 _ _ h
    | repeated _ h => rw [h1] at h; cases h
    | rest _ h => rw [h2] at h; cases h
  foreign fd l _ _ v h := by rw [h2] at h; cases h

/-- A program in which some bytes arrive, and a struct for them. -/
theorem receives {U : Unicode} {fs : List FileDesc} {f : FileDesc} (hf : f ∈ fs) {m : Desc} (hm : some m ∈ f.messageType) (D : List Byte) :
    ∃ s0 s g, Reach U fs s0 s g ∧ g.structs 0 = some ⟨m, none, .empty⟩ ∧ s.h.w.WFs ⟨0, 0, D.length, D.length⟩ ∧ (s.h.w.slice ⟨0, 0, D.length, D.length⟩).data = D ∧
      g.Free s 0 ⟨0, 0, D.length, D.length⟩ := by
  refine ⟨⟨⟨⟨[D], []⟩, fun _ => .zero 0⟩, 0, fun _ => none⟩, _, _, Reach.step .start (.new hf hm), by simp [Known.put], ⟨Nat.le_refl _, ?_⟩, ?_, ?_⟩
  · show 0 + D.length ≤ ([D].getD 0 []).length
    simp
  · show ((([D].getD 0 []).drop 0).take D.length).take D.length = D
    simp
  · intro j e hj _ hne
    simp only [Known.put, Known.nothing] at hj
    split at hj
    · rename_i h; exact absurd h hne
    · cases hj

/-- `C82`, on golden/test.proto. The first program: `var x TestMessage; x.SetBool(true); x.SetInt32(-7)`. The second one, of the other version: `var y TestMessage; y.Decode(x.Encode())`; then
`y.Count()` is -7, an int64. It does `y.SetCount(5)`. The first again: `var z TestMessage; z.Decode(y.Encode())`; then `z.Int32()` is 5, and `z.Bool()` is true. -/
example (rt : Rt) : ∃ (fb fi fc : Field) (s2 s3 : GSt), ScalarField testDesc fb .bool ∧ ScalarField testDesc fi .int32 ∧ ScalarField newDesc fc .int64 ∧
    (∃ v, G.run (programOf asciiUnicode [newFile]) rt 0 newDesc.getName (goName asciiUnicode fc) [.ptr newDesc.getName 0] s2 = .ok ([.val v], s2) ∧
      IsVal s2.h.w .int64 (BitVec.ofInt 64 (-7)) v) ∧
    (∃ v, G.run (programOf asciiUnicode [testFile]) rt 0 testDesc.getName (goName asciiUnicode fi) [.ptr testDesc.getName 0] s3 = .ok ([.val v], s3) ∧ IsVal s3.h.w .int32 5#32 v) ∧
    (∃ v, G.run (programOf asciiUnicode [testFile]) rt 0 testDesc.getName (goName asciiUnicode fb) [.ptr testDesc.getName 0] s3 = .ok ([.val v], s3) ∧ IsVal s3.h.w .bool true v) := by
  have hc := testFile_compilable
  have hc' := newFile_compilable
  obtain ⟨hf, hm⟩ := testFile_has
  obtain ⟨hf', hm'⟩ := newFile_has
  obtain ⟨fb, b1, b2, b3, bn⟩ := testField (P := fun fd => (getLabel (some fd) = 1 ∨ getLabel (some fd) = 2) ∧ protoKind (getType (some fd)) = some .bool ∧ num fd = 1) (by decide +kernel)
  obtain ⟨fi, i1, i2, i3, iN⟩ := testField (P := fun fd => (getLabel (some fd) = 1 ∨ getLabel (some fd) = 2) ∧ protoKind (getType (some fd)) = some .int32 ∧ num fd = 2) (by decide +kernel)
  obtain ⟨fc, c1, c2, c3, cn⟩ := newField (P := fun fd => (getLabel (some fd) = 1 ∨ getLabel (some fd) = 2) ∧ protoKind (getType (some fd)) = some .int64 ∧ num fd = 2) (by decide +kernel)
  obtain ⟨ft, t1, tn⟩ := testField (P := fun fd => num fd = 34) (by decide +kernel)
  obtain ⟨fn, n1, nn⟩ := newField (P := fun fd => num fd = 34) (by decide +kernel)
  have hlack : Lacks newDesc 1 := by
    intro fd k ha
    have : ∀ fd ∈ newDesc.field.filterMap id, num fd ≠ 1 := by decide +kernel
    exact this fd (List.mem_filterMap.2 ⟨_, (accessor_kind ha).1, rfl⟩)
  have hfb : ScalarField testDesc fb .bool := ⟨b1, b2, b3⟩
  have hfi : ScalarField testDesc fi .int32 := ⟨i1, i2, i3⟩
  have hfc : ScalarField newDesc fc .int64 := ⟨c1, c2, c3⟩
  -- the first program
  obtain ⟨s0, g0, r0, h0, e0⟩ : ∃ s g, Reach asciiUnicode [testFile] nothingYet s g ∧ g.structs 0 = some ⟨testDesc, none, .empty⟩ ∧ s.h.ms 0 = .zero (slotsOf testDesc) :=
    ⟨_, _, Reach.step .start (.new hf hm), by simp [Known.put, nothingYet], rfl⟩
  have k1 : Calls asciiUnicode testDesc rt 0 s0 (t!"Set" ++ goName asciiUnicode fb) [.ptr testDesc.getName 0, .val (.bool true)] (.set rt (num fb) .bool true) :=
    .set hfb rfl (by intro _ h; rcases h with h | h <;> cases h) (by decide)
  obtain ⟨s1, q1, _, l1⟩ := ((C66_programs hc r0).1 0 _ h0).calls rt 0 _ _ _ k1 (by rw [e0]; show 0 + (20 + 0) < maxLen; decide)
  have r1 := r0.step (.set h0 k1 trivial q1)
  have h1 : ((g0.drop 0).put 0 ⟨testDesc, none, Op.apply (.set rt (num fb) .bool true) .empty⟩).structs 0 = some ⟨testDesc, none, Op.apply (.set rt (num fb) .bool true) .empty⟩ := by simp [Known.put]
  have k2 : Calls asciiUnicode testDesc rt 0 s1 (t!"Set" ++ goName asciiUnicode fi) [.ptr testDesc.getName 0, .val (.i32 (BitVec.ofInt 32 (-7)))] (.set rt (num fi) .int32 (BitVec.ofInt 32 (-7))) :=
    .set hfi rfl (by intro _ h; rcases h with h | h <;> cases h) (by decide)
  have hl1 : (s1.h.ms 0).buf.len ≤ 20 := by rw [e0] at l1; exact l1
  have hmx : (1000 : Nat) < maxLen := by decide
  obtain ⟨s1', q2, _, l2⟩ := ((C66_programs hc r1).1 0 _ h1).calls rt 0 _ _ _ k2 (by show _ + (20 + 0) < maxLen; omega)
  have r1' := r1.step (.set h1 k2 trivial q2)
  generalize hcon : Op.apply (.set rt (num fi) .int32 (BitVec.ofInt 32 (-7))) (Op.apply (.set rt (num fb) .bool true) .empty) = cx at r1'
  have hs : cx.sing = fun n => if n = 2 then some (encodeVal .int32 (BitVec.ofInt 32 (-7))) else if n = 1 then some (encodeVal .bool true) else none := by
    subst hcon; simp only [Op.apply, Contents.set, iN, bn, Contents.empty]
  have he : cx.elems = fun _ => [] := by subst hcon; rfl
  have hr : cx.rest = fun _ => [] := by subst hcon; rfl
  have hx := (C66_programs hc r1').1 0 ⟨testDesc, none, cx⟩ (by simp [Known.put])
  have p1 : ∀ rt d, G.run (programOf asciiUnicode [testFile]) rt d testDesc.getName t!"Encode" [.ptr testDesc.getName 0] s1' = .ok ([.val (.bytes (.mem (s1'.h.ms 0).buf))], s1') :=
    fun rt d => C63_encode hc.program rt d s1' (i := 0) (sub_of (U := asciiUnicode) hf hm _ (by simp [messageDecls]))
  -- the second program
  obtain ⟨_, s2, g2, r2, h2, w2, d2, f2⟩ := receives (U := asciiUnicode) hf' hm' (s1'.h.w.slice (s1'.h.ms 0).buf).data
  obtain ⟨s2', cy, _, y2, y3, y4, y5⟩ := C82_decode hc r1' (i := 0) (e1 := ⟨testDesc, none, cx⟩) (by simp [Known.put]) hc' r2 h2 test_evolves.1
    (fits_of (by simp [he]) (by simp [hr]) (fun n v h => by
      refine .inr ⟨fn, n1, ?_⟩
      have h : (cx.sing n) = some v := h
      rw [hs] at h
      have : n = 2 ∨ n = 1 := by
        by_cases h2 : n = 2
        · exact .inl h2
        · by_cases h1 : n = 1
          · exact .inr h1
          · simp [h2, h1] at h
      omega)) w2 f2 ⟨_, p1, d2.symm⟩ rt 0
  obtain ⟨y, v, g1, g2', _, g4, _⟩ := C82_read y2 test_evolves.1 y4 hfi hfc (by omega) rt 0
  have hread := g4 (BitVec.ofInt 32 (-7)) (by show cx.sing (num fi) = _; rw [hs, iN]; rfl)
  have hy : y = BitVec.ofInt 64 (-7) := by
    cases hread with
    | integer ha hb =>
      have ha : some ((BitVec.ofInt 32 (-7)).toInt) = some _ := ha
      cases ha
      have hb : some (BitVec.ofInt 64 _) = some y := hb
      cases hb
      decide
  subst hy
  have h3 : ((g2.drop 0).put 0 ⟨newDesc, none, cy⟩).structs 0 = some ⟨newDesc, none, cy⟩ := by simp [Known.put]
  have hlen : (s2'.h.ms 0).buf.len < 100 := by
    have hw := ((reach_inv hc r1').struct 0 ⟨testDesc, none, cx⟩ (by simp [Known.put])).2.2.1
    have := slice_data_length hw.1
    have h2 : (s1'.h.ms 0).buf.len ≤ (s1.h.ms 0).buf.len + 20 := l2
    have y5 : (s2'.h.ms 0).buf.len ≤ (s1'.h.w.slice (s1'.h.ms 0).buf).data.length := y5
    omega
  have k3 : Calls asciiUnicode newDesc rt 0 s2' (t!"Set" ++ goName asciiUnicode fc) [.ptr newDesc.getName 0, .val (.i64 5#64)] (.set rt (num fc) .int64 5#64) :=
    .set hfc rfl (by intro _ h; rcases h with h | h <;> cases h) (by decide)
  obtain ⟨s2'', q3, _, _⟩ := y4.calls rt 0 _ _ _ k3 (by show _ + (20 + 0) < maxLen; omega)
  have r3 := y3.step (.set h3 k3 trivial q3)
  have hz := (C66_programs hc' r3).1 0 ⟨newDesc, none, Op.apply (.set rt (num fc) .int64 5#64) cy⟩ (by simp [Known.put])
  obtain ⟨b', _, p2, _⟩ := hz.encode
  -- the first version again
  obtain ⟨_, s3, g3, r4, h4, w4, d4, f4⟩ := receives (U := asciiUnicode) hf hm (s2''.h.w.slice b').data
  obtain ⟨s3', cz, _, _, z3, z4, _, _, z5⟩ := C82_return (ops := [.set rt (num fc) .int64 5#64]) (m1 := testDesc) hc y2 hc' r3 (j := 0) (v := none) (by intro op ho; rw [List.mem_singleton.1 ho]; trivial)
    (by simp [Known.put, applyAll]) r4 h4 rfl test_evolves.2 (fun fd l v ha _ => by
      refine .inr ⟨ft, t1, ?_⟩
      have : ∀ fd ∈ newDesc.field.filterMap id, num fd ≤ 34 := by decide +kernel
      have := this fd (List.mem_filterMap.2 ⟨_, (accessor_kind ha).1, rfl⟩)
      omega) w4 f4 ⟨b', p2, d4.symm⟩ rt 0
  refine ⟨fb, fi, fc, s2', s3', hfb, hfi, hfc, ⟨v, g1, g2'⟩, ?_, ?_⟩
  · obtain ⟨y, v, a1, a2, _, a4, _⟩ := C82_read z5 test_evolves.2 z3 hfc hfi (by omega) rt 0
    refine ⟨v, a1, ?_⟩
    have hread := a4 5#64 (by simp [applyAll, Op.apply, Contents.set])
    have hy : y = 5#32 := by
      cases hread with
      | integer ha hb =>
        have ha : some ((5#64 : U64).toInt) = some _ := ha
        cases ha
        have hb : some (BitVec.ofInt 32 _) = some y := hb
        cases hb
        decide
    rw [← hy]; exact a2
  · obtain ⟨y, v, a1, a2, a3⟩ := z3.scalar fb .bool hfb rt 0
    refine ⟨v, a1, ?_⟩
    rw [z4 fb (.inl ⟨_, hfb⟩) (by rw [bn]; exact hlack)] at a3
    have : cx.sing (num fb) = some (encodeVal .bool true) := by rw [hs, bn]; rfl
    have a3 : readVal .bool (cx.sing (num fb)) = some y := a3
    rw [this] at a3
    cases a3
    exact a2

/-- What a program of the first version encoded arrives in a program of the other version, which has another struct besides. -/
theorem arrives {s0 s1 : GSt} {g1 : Known} (h1 : Reach asciiUnicode [testFile] s0 s1 g1) {c : Contents} (hi : g1.structs 0 = some ⟨testDesc, none, c⟩) (hfit : Fits testDesc newDesc c) :
    ∃ s02 s2 g2 c2 j, Reach asciiUnicode [newFile] s02 s2 g2 ∧ g2.structs 0 = some ⟨newDesc, none, c2⟩ ∧ j ≠ 0 ∧ g2.structs j = some ⟨newDesc, none, .empty⟩ ∧ Carried testDesc newDesc c c2 := by
  obtain ⟨hf, hm⟩ := testFile_has
  obtain ⟨hf', hm'⟩ := newFile_has
  have p1 : ∀ rt d, G.run (programOf asciiUnicode [testFile]) rt d testDesc.getName t!"Encode" [.ptr testDesc.getName 0] s1 = .ok ([.val (.bytes (.mem (s1.h.ms 0).buf))], s1) :=
    fun rt d => C63_encode testFile_compilable.program rt d s1 (i := 0) (sub_of (U := asciiUnicode) hf hm _ (by simp [messageDecls]))
  obtain ⟨_, s2, g2, r2, h2, w2, d2, f2⟩ := receives (U := asciiUnicode) hf' hm' (s1.h.w.slice (s1.h.ms 0).buf).data
  obtain ⟨s2', cy, _, y2, y3, _, _⟩ := C82_decode testFile_compilable h1 hi newFile_compilable r2 h2 test_evolves.1 hfit w2 f2 ⟨_, p1, d2.symm⟩ Rt.exact 0
  have hn := ((reach_inv newFile_compilable y3).struct 0 ⟨newDesc, none, cy⟩ (by simp [Known.put])).2.1
  refine ⟨_, _, _, cy, s2'.next, y3.step (.new hf' hm'), ?_, by omega, by simp [Known.put], y2⟩
  simp only [Known.put, if_neg (show ¬ 0 = s2'.next by omega), if_true]

/-- The first program: `y.SetInt32(-7)`, and `x.SetMessage(y)` or `x.AppendToMessages(y)`. The second one: `u.Decode(x.Encode())`; then `u.Message(&v)`, or the iterator over `u.Messages()`,
gives a message with `v.Count()` -7. -/
example (rt : Rt) : ∃ (fm fr fc : Field) (j j' : Nat) (s2 s3 t1 t2 t3 : GSt) (o : Option HSlice), MessageField newDesc fm ∧ RepeatedField newDesc fr ∧ ScalarField newDesc fc .int64 ∧
    (G.run (programOf asciiUnicode [newFile]) rt 0 newDesc.getName (goName asciiUnicode fm) [.ptr newDesc.getName 0, .ptr (goType fm) j] s2 = .ok ([.val (.bool true), .val .nil], s3) ∧
      ∃ v, G.run (programOf asciiUnicode [newFile]) rt 0 newDesc.getName (goName asciiUnicode fc) [.ptr newDesc.getName j] s3 = .ok ([.val v], s3) ∧ IsVal s3.h.w .int64 (BitVec.ofInt 64 (-7)) v) ∧
    (G.run (programOf asciiUnicode [newFile]) rt 0 newDesc.getName (goName asciiUnicode fr) [.ptr newDesc.getName 0] t1 = .ok ([.val (optBytes o)], t2) ∧
      G.run (programOf asciiUnicode [newFile]) rt 0 (iterOf newDesc fr) t!"Next" [.iter (iterOf newDesc fr) 0, .ptr (goType fr) j'] { t2 with its := fun u => if u = 0 then o else t2.its u } =
        .ok ([.val (.bool true), .val .nil], t3) ∧
      ∃ v, G.run (programOf asciiUnicode [newFile]) rt 0 newDesc.getName (goName asciiUnicode fc) [.ptr newDesc.getName j'] t3 = .ok ([.val v], t3) ∧
        IsVal t3.h.w .int64 (BitVec.ofInt 64 (-7)) v) := by
  have hc := testFile_compilable
  have hc' := newFile_compilable
  obtain ⟨hf, hm⟩ := testFile_has
  obtain ⟨hf', hm'⟩ := newFile_has
  obtain ⟨fi, i1, i2, i3, iN⟩ := testField (P := fun fd => (getLabel (some fd) = 1 ∨ getLabel (some fd) = 2) ∧ protoKind (getType (some fd)) = some .int32 ∧ num fd = 2) (by decide +kernel)
  obtain ⟨gm, m1, m2, m3, mN⟩ := testField (P := fun fd => (getLabel (some fd) = 1 ∨ getLabel (some fd) = 2) ∧ getType (some fd) = 11 ∧ num fd = 17) (by decide +kernel)
  obtain ⟨gr, r1, r2, r3, rN⟩ := testField (P := fun fd => getLabel (some fd) = 3 ∧ getType (some fd) = 11 ∧ num fd = 34) (by decide +kernel)
  obtain ⟨fc, c1, c2, c3, cn⟩ := newField (P := fun fd => (getLabel (some fd) = 1 ∨ getLabel (some fd) = 2) ∧ protoKind (getType (some fd)) = some .int64 ∧ num fd = 2) (by decide +kernel)
  obtain ⟨fm, m1', m2', m3', mN', mn⟩ := newField (P := fun fd => (getLabel (some fd) = 1 ∨ getLabel (some fd) = 2) ∧ getType (some fd) = 11 ∧ num fd = 17 ∧ newDesc.getName = goType fd) (by decide +kernel)
  obtain ⟨fr, r1', r2', r3', rN', rn⟩ := newField (P := fun fd => getLabel (some fd) = 3 ∧ getType (some fd) = 11 ∧ num fd = 34 ∧ newDesc.getName = goType fd) (by decide +kernel)
  have hfi : ScalarField testDesc fi .int32 := ⟨i1, i2, i3⟩
  have hfc : ScalarField newDesc fc .int64 := ⟨c1, c2, c3⟩
  have hgm : MessageField testDesc gm := ⟨m1, m2, m3⟩
  have hgr : RepeatedField testDesc gr := ⟨r1, r2, r3⟩
  have hfm : MessageField newDesc fm := ⟨m1', m2', m3'⟩
  have hfr : RepeatedField newDesc fr := ⟨r1', r2', r3'⟩
  have hmx : (1000 : Nat) < maxLen := by decide
  -- the first program
  obtain ⟨s0, g0, q0, hms, hgs, hn⟩ : ∃ s g, Reach asciiUnicode [testFile] nothingYet s g ∧ (∀ k, k < 2 → s.h.ms k = .zero (slotsOf testDesc)) ∧
      (∀ k, k < 2 → g.structs k = some ⟨testDesc, none, .empty⟩) ∧ s.next = 2 := by
    refine ⟨_, _, (Reach.start.step (.new hf hm)).step (.new hf hm), fun k hk => ?_, fun k hk => ?_, rfl⟩
    · rcases k with _ | _ | k <;> first | rfl | omega
    · rcases k with _ | _ | k <;> first | rfl | omega
  have k1 : Calls asciiUnicode testDesc rt 1 s0 (t!"Set" ++ goName asciiUnicode fi) [.ptr testDesc.getName 1, .val (.i32 (BitVec.ofInt 32 (-7)))] (.set rt (num fi) .int32 (BitVec.ofInt 32 (-7))) :=
    .set hfi rfl (by intro _ h; rcases h with h | h <;> cases h) (by decide)
  obtain ⟨s1, p1, p2, p3⟩ := ((C66_programs hc q0).1 1 _ (hgs 1 (by decide))).calls rt 0 _ _ _ k1 (by rw [hms 1 (by decide)]; show 0 + (20 + 0) < maxLen; decide)
  have q1 := q0.step (.set (hgs 1 (by decide)) k1 trivial p1)
  have hl0 : (s1.h.ms 0).buf.len = 0 := by rw [p2 0 (by decide) (by omega), hms 0 (by decide)]; rfl
  have hl1 : (s1.h.ms 1).buf.len ≤ 20 := by rw [hms 1 (by decide)] at p3; exact p3
  generalize hcon : Op.apply (.set rt (num fi) .int32 (BitVec.ofInt 32 (-7))) .empty = cy at q1
  have hsy : cy.sing = fun n => if n = 2 then some (encodeVal .int32 (BitVec.ofInt 32 (-7))) else none := by subst hcon; simp only [Op.apply, Contents.set, iN, Contents.empty]
  have hey : cy.elems = fun _ => [] := by subst hcon; rfl
  have hry : cy.rest = fun _ => [] := by subst hcon; rfl
  have h10 : ((g0.drop 1).put 1 ⟨testDesc, none, cy⟩).structs 0 = some ⟨testDesc, none, .empty⟩ := by
    simp only [Known.put, if_neg (show ¬ (0 = 1) by decide)]
    exact drop_structs.2 ⟨hgs 0 (by decide), nofun⟩
  have h11 : ((g0.drop 1).put 1 ⟨testDesc, none, cy⟩).structs 1 = some ⟨testDesc, none, cy⟩ := by simp [Known.put]
  have hfity : Fits testDesc newDesc cy := fits_of (by simp [hey]) (by simp [hry]) (fun n v h => by
    refine .inr ⟨fr, r1', ?_⟩
    rw [hsy] at h
    by_cases h2 : n = 2
    · omega
    · simp [h2] at h)
  have hval : ∀ {c2 : Contents} {k : Nat} {t : GSt}, Carried testDesc newDesc cy c2 → Shows asciiUnicode (programOf asciiUnicode [newFile]) newDesc k t c2 →
      ∃ v, G.run (programOf asciiUnicode [newFile]) rt 0 newDesc.getName (goName asciiUnicode fc) [.ptr newDesc.getName k] t = .ok ([.val v], t) ∧ IsVal t.h.w .int64 (BitVec.ofInt 64 (-7)) v := by
    intro c2 k t hcar hsh
    obtain ⟨y, v, e1, e2, _, e4, _⟩ := C82_read hcar test_evolves.1 hsh hfi hfc (by omega) rt 0
    have hread := e4 (BitVec.ofInt 32 (-7)) (by rw [hsy, iN]; rfl)
    have hy : y = BitVec.ofInt 64 (-7) := by
      cases hread with
      | integer ha hb =>
        have ha : some ((BitVec.ofInt 32 (-7)).toInt) = some _ := ha
        cases ha
        have hb : some (BitVec.ofInt 64 _) = some y := hb
        cases hb
        decide
    exact ⟨v, e1, hy ▸ e2⟩
  -- a message in a field
  obtain ⟨s2, bs, enc, _, q2⟩ := C66_compose hc q1 h10 hgm h11 (by simp [Entry.root]) (by omega) rt 0
  obtain ⟨_, u2, g2, c2, j, u3, u4, u5, u6, u7⟩ := arrives q2 (by simp [Known.put]; rfl) ⟨fun n v h => (by
    refine .inr ⟨fr, r1', ?_⟩
    cases h with
    | @single fd v h1 h2 =>
      simp only [Contents.set, Contents.empty] at h2
      by_cases h3 : num fd = num gm
      · omega
      · simp [h3] at h2
    | repeated h1 h2 => cases h2
    | rest h1 h2 => cases h2), fun fd l _ _ v h => (by cases h)⟩
  obtain ⟨u8, c3, w1, w2, _, w3⟩ := C82_message hc q1 h11 enc hc' u3 u4 hfm (by rw [u7.single gm fm (.inr hgm) (.inr hfm) (by omega)]; simp [Contents.set]) u6 mn (by simpa [Entry.root] using u5)
    test_evolves.1 hfity rt 0
  -- an element of a repeated field
  obtain ⟨s2', bs', enc', _, q2'⟩ := C66_append hc q1 h10 hgr h11 (by simp [Entry.root]) (by omega) rt 0
  obtain ⟨_, u2', g2', c2', j', u3', u4', u5', u6', u7'⟩ := arrives q2' (by simp [Known.put]; rfl) ⟨fun n v h => (by
    refine .inr ⟨fr, r1', ?_⟩
    cases h with
    | single h1 h2 => cases h2
    | @repeated fd b h1 h2 =>
      simp only [Contents.append, Contents.empty] at h2
      by_cases h3 : num fd = num gr
      · omega
      · simp [h3] at h2
    | rest h1 h2 => cases h2), fun fd l _ _ v h => (by cases h)⟩
  have hel : c2'.elems (num fr) = [bs'] := by rw [u7'.repeated gr fr hgr hfr (by omega)]; simp [Contents.append, Contents.empty]
  obtain ⟨its, e1, _⟩ := ((C66_programs hc' u3').1 0 _ u4').repeated fr hfr
  have r5 := u3'.step (.iterate (v := 0) u4' hfr (e1 rt 0))
  simp only [hel] at r5
  obtain ⟨u8', c3', w1', w2', _, w3'⟩ := C82_next hc q1 h11 enc' hc' r5 (v := 0) (o := 0) (m := newDesc) (fd := fr) (rest := []) (by simp [Known.point, Entry.root]) (j := j') (by simpa [Known.point] using u6')
    rn u5' test_evolves.1 hfity rt 0
  exact ⟨fm, fr, fc, j, j', u2, u8, u2', u2', u8', its 0, hfm, hfr, hfc, ⟨w1, hval w2 w3⟩, e1 rt 0, w1', hval w2' w3'⟩

/-- The first program: `x.SetFixed32(7)`, which has number 8; the receiver takes the bytes for a message whose type has no number above 4, and panics. -/
example (rt : Rt) : ∃ (f : FileDesc) (m : Desc) (b : HSlice) (s2 : GSt), f ∈ [raftFile] ∧ some m ∈ f.messageType ∧
    G.run (programOf asciiUnicode [raftFile]) rt 0 m.getName t!"Decode" [.ptr m.getName 0, .val (.bytes (.mem b))] s2 = .error (.fail .indexOutOfRange) := by
  have hc := testFile_compilable
  obtain ⟨hf, hm⟩ := testFile_has
  obtain ⟨fi, i1, i2, i3, iN⟩ := testField (P := fun fd => (getLabel (some fd) = 1 ∨ getLabel (some fd) = 2) ∧ protoKind (getType (some fd)) = some .fixed32 ∧ num fd = 8) (by decide +kernel)
  have hfi : ScalarField testDesc fi .fixed32 := ⟨i1, i2, i3⟩
  obtain ⟨s0, g0, r0, h0, e0⟩ : ∃ s g, Reach asciiUnicode [testFile] nothingYet s g ∧ g.structs 0 = some ⟨testDesc, none, .empty⟩ ∧ s.h.ms 0 = .zero (slotsOf testDesc) :=
    ⟨_, _, Reach.step .start (.new hf hm), by simp [Known.put, nothingYet], rfl⟩
  have k1 : Calls asciiUnicode testDesc rt 0 s0 (t!"Set" ++ goName asciiUnicode fi) [.ptr testDesc.getName 0, .val (.u32 7#32)] (.set rt (num fi) .fixed32 7#32) :=
    .set hfi rfl (by intro _ h; rcases h with h | h <;> cases h) (by decide)
  obtain ⟨s1, q1, _, _⟩ := ((C66_programs hc r0).1 0 _ h0).calls rt 0 _ _ _ k1 (by rw [e0]; show 0 + (20 + 0) < maxLen; decide)
  have r1 := r0.step (.set h0 k1 trivial q1)
  have p1 : ∀ rt d, G.run (programOf asciiUnicode [testFile]) rt d testDesc.getName t!"Encode" [.ptr testDesc.getName 0] s1 = .ok ([.val (.bytes (.mem (s1.h.ms 0).buf))], s1) :=
    fun rt d => C63_encode hc.program rt d s1 (i := 0) (sub_of (U := asciiUnicode) hf hm _ (by simp [messageDecls]))
  obtain ⟨m, hm', hlow⟩ : ∃ m, some m ∈ raftFile.messageType ∧ ∀ fd ∈ m.field.filterMap id, num fd < 8 := by
    have : ∃ m ∈ raftFile.messageType.filterMap id, ∀ fd ∈ m.field.filterMap id, num fd < 8 := by decide +kernel
    obtain ⟨m, h1, h2⟩ := this
    obtain ⟨o, ho, e⟩ := List.mem_filterMap.1 h1
    subst e
    exact ⟨m, ho, h2⟩
  obtain ⟨_, s2, g2, r2, h2, w2, d2, _⟩ := receives (U := asciiUnicode) (fs := [raftFile]) (List.mem_singleton.2 rfl) hm' (s1.h.w.slice (s1.h.ms 0).buf).data
  refine ⟨raftFile, m, _, s2, List.mem_singleton.2 rfl, hm',
    C82_panics hc r1 (i := 0) (e1 := ⟨testDesc, none, Op.apply (.set rt (num fi) .fixed32 7#32) .empty⟩) (by simp [Known.put]) raftFile_compilable r2 h2
      (.single (fd := fi) (v := encodeVal .fixed32 7#32) (.inl ⟨_, hfi⟩) (by simp [Op.apply, Contents.set])) ?_ w2 ⟨_, p1, d2.symm⟩ rt 0⟩
  rintro (h | ⟨fd, h1, h2⟩)
  · omega
  · have := hlow fd (List.mem_filterMap.2 ⟨_, h1, rfl⟩)
    omega

end Zeropb.GoSrc.E
