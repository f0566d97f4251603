import Verif.Spec.Plugin
import Verif.Proof.Unique
import Verif.Props.EndToEnd
/-!
# C86: the plugin from bytes to bytes

The protobuf library is a parameter of the model. Here it is required to read and write the messages of protoc as Spec/Plugin says, and to be allowed to fail.
-/

set_option linter.constructorNameAsVariable false

namespace Zeropb.Gen
open Wire

/-! ## A byte string is read in one way -/

theorem utf8_inj {s t : Text} (h : utf8 s = utf8 t) : s = t := by
  have key : ∀ u : Text, (u.flatMap String.utf8EncodeChar).map UInt8.toBitVec = utf8 u := by
    intro u; simp [utf8, List.map_flatMap]
  have h1 : s.flatMap String.utf8EncodeChar = t.flatMap String.utf8EncodeChar := by
    have h2 := h
    rw [← key, ← key] at h2
    exact (List.map_inj_right (fun x y e => UInt8.toBitVec_inj.1 e)).1 h2
  have h3 : s.utf8Encode = t.utf8Encode := by unfold List.utf8Encode; rw [h1]
  have h4 : String.ofList s = String.ofList t := by
    apply String.toByteArray_inj.1
    rw [String.toByteArray_ofList, String.toByteArray_ofList, h3]
  have := congrArg String.toList h4
  simpa using this

theorem utf8_opt_inj {s t : Option Text} (h : s.map utf8 = t.map utf8) : s = t := by
  cases s <;> cases t <;> simp_all
  exact utf8_inj h

theorem utf8_list_inj {s t : List Text} (h : s.map utf8 = t.map utf8) : s = t :=
  (List.map_inj_right (fun _ _ e => utf8_inj e)).1 h

theorem Pairs.unique {α β : Type} {R : α → β → Prop} (hR : ∀ a b c, R a b → R a c → b = c) : ∀ {as bs cs}, Pairs R as bs → Pairs R as cs → bs = cs
  | _, _, _, .nil, .nil => rfl
  | _, _, _, .cons h1 h2, .cons h3 h4 => by rw [hR _ _ _ h1 h3, Pairs.unique hR h2 h4]

theorem readsField_unique {b p q} (h : ReadsField b p) (h' : ReadsField b q) : p = q := by
  obtain ⟨rs, f, hm, rfl, h1, h2, h3, h4, h5⟩ := h
  obtain ⟨rs', f', hm', rfl, h1', h2', h3', h4', h5'⟩ := h'
  obtain rfl := isMessage_unique hm hm'
  have e1 := utf8_opt_inj (h1.trans h1'.symm)
  have e5 := utf8_opt_inj (h5.trans h5'.symm)
  cases f; cases f'
  simp only at *
  subst h2 h3 h4 h2' h3' h4' e1 e5
  rfl

theorem readsMessage_unique {b p q} (h : ReadsMessage b p) (h' : ReadsMessage b q) : p = q := by
  obtain ⟨rs, f, hm, rfl, h1, h2⟩ := h
  obtain ⟨rs', f', hm', rfl, h1', h2'⟩ := h'
  obtain rfl := isMessage_unique hm hm'
  have e1 := utf8_opt_inj (h1.trans h1'.symm)
  have e2 := h2.unique (R := ReadsField) (fun a b c => @readsField_unique a b c) h2'
  cases f; cases f'
  simp_all

theorem readsFile_unique {b p q} (h : ReadsFile b p) (h' : ReadsFile b q) : p = q := by
  obtain ⟨rs, f, hm, rfl, h1, h2, h3⟩ := h
  obtain ⟨rs', f', hm', rfl, h1', h2', h3'⟩ := h'
  obtain rfl := isMessage_unique hm hm'
  have e1 := utf8_opt_inj (h1.trans h1'.symm)
  have e2 := utf8_opt_inj (h2.trans h2'.symm)
  have e3 := h3.unique (R := ReadsMessage) (fun a b c => @readsMessage_unique a b c) h3'
  cases f; cases f'
  simp_all

/-- C86: a byte string is at most one request. -/
theorem C86_request {b : List Byte} {r r' : Request} (h : ReadsRequest b r) (h' : ReadsRequest b r') : r = r' := by
  obtain ⟨rs, hm, h1, h2⟩ := h
  obtain ⟨rs', hm', h1', h2'⟩ := h'
  obtain rfl := isMessage_unique hm hm'
  have e1 := utf8_list_inj (h1.trans h1'.symm)
  have e2 := h2.unique (R := ReadsFile) (fun a b c => @readsFile_unique a b c) h2'
  cases r; cases r'
  simp_all

/-- C86: a byte string is at most one response. -/
theorem C86_response {b : List Byte} {fs fs' : List OutFile} (h : ReadsResponse b fs) (h' : ReadsResponse b fs') : fs = fs' := by
  obtain ⟨rs, hm, _, h2⟩ := h
  obtain ⟨rs', hm', _, h2'⟩ := h'
  obtain rfl := isMessage_unique hm hm'
  refine h2.unique ?_ h2'
  rintro x o o' ⟨rs, hm, h1, _, h2⟩ ⟨rs', hm', h1', _, h2'⟩
  obtain rfl := isMessage_unique hm hm'
  have e1 := utf8_inj (Option.some.inj (h1.symm.trans h1'))
  have e2 := utf8_inj (Option.some.inj (h2.symm.trans h2'))
  cases o; cases o'
  simp_all

/-! ## Every request can be encoded -/

/-- The shortest varint, of at most `k` bytes. -/
def encVarint : Nat → Nat → List Byte
  | 0, _ => []
  | k + 1, n => if n < 128 then [BitVec.ofNat 8 n] else BitVec.ofNat 8 (n % 128 + 128) :: encVarint k (n / 128)

theorem encVarint_ok : ∀ (k n : Nat), 0 < k → n < 128 ^ k → ∃ init last, encVarint k n = init ++ [last] ∧ (∀ b ∈ init, 128 ≤ b.toNat) ∧ last.toNat < 128 ∧
    (encVarint k n).length ≤ k ∧ varintValue (encVarint k n) = n
  | k + 1, n, _, hn => by
    unfold encVarint
    by_cases h : n < 128
    · rw [if_pos h]
      have e : (BitVec.ofNat 8 n).toNat = n := by rw [BitVec.toNat_ofNat]; omega
      exact ⟨[], BitVec.ofNat 8 n, rfl, by simp, by rw [e]; exact h, by simp, by simp only [varintValue]; rw [e]; omega⟩
    · rw [if_neg h]
      have hk : 0 < k := by
        rcases Nat.eq_zero_or_pos k with rfl | hk
        · simp at hn; omega
        · exact hk
      have hn' : n / 128 < 128 ^ k := by
        rw [Nat.div_lt_iff_lt_mul (by decide)]
        rw [Nat.pow_succ] at hn; exact hn
      obtain ⟨init, last, h1, h2, h3, h4, h5⟩ := encVarint_ok k (n / 128) hk hn'
      have e : (BitVec.ofNat 8 (n % 128 + 128)).toNat = n % 128 + 128 := by rw [BitVec.toNat_ofNat]; omega
      refine ⟨BitVec.ofNat 8 (n % 128 + 128) :: init, last, by rw [h1]; rfl, ?_, h3, by simpa using h4, ?_⟩
      · intro b hb
        rcases List.mem_cons.1 hb with rfl | hb
        · rw [e]; omega
        · exact h2 b hb
      · simp only [varintValue]; rw [e, h5]; omega

theorem encVarint_isVarint {n : Nat} (h : n < 2 ^ 64) : IsVarint n (encVarint 10 n) := by
  obtain ⟨init, last, h1, h2, h3, h4, h5⟩ := encVarint_ok 10 n (by decide) (Nat.lt_trans h (by decide))
  exact ⟨init, last, h1, h2, h3, h4, h5, h⟩

/-- A record of text, of bytes, of a number. -/
def recBytes (n : Nat) (b : List Byte) : Record := ⟨n, .bytes b⟩
def recText (n : Nat) (t : Text) : Record := ⟨n, .bytes (utf8 t)⟩
def recInt (n : Nat) (i : Int) : Record := ⟨n, .varint (BitVec.ofInt 64 i)⟩

/-- The encoding of a record and of a sequence of records. -/
def encRecord (r : Record) : List Byte := encVarint 10 (r.num * 8 + r.val.wireType) ++
  match r.val with
  | .varint v => encVarint 10 v.toNat
  | .fixed64 v => leBytes 8 v.toNat
  | .fixed32 v => leBytes 4 v.toNat
  | .bytes b => encVarint 10 b.length ++ b
def encRecords (rs : List Record) : List Byte := (rs.map encRecord).flatten

/-- The encoding of the messages of the request, with the fields in the order of their numbers. -/
def encField (f : Field) : List Byte :=
  encRecords (f.name.toList.map (recText 1) ++ f.number.toList.map (fun n => recInt 3 n.toInt) ++ f.label.toList.map (recInt 4) ++ f.type.toList.map (recInt 5) ++ f.typeName.toList.map (recText 6))
def encMessage (m : Desc) : List Byte := encRecords (m.name.toList.map (recText 1) ++ m.field.map (fun p => recBytes 2 ((p.map encField).getD [])))
def encFile (f : FileDesc) : List Byte :=
  encRecords (f.name.toList.map (recText 1) ++ f.package.toList.map (recText 2) ++ f.messageType.map (fun p => recBytes 4 ((p.map encMessage).getD [])))
def encRequest (r : Request) : List Byte := encRecords (r.fileToGenerate.map (recText 1) ++ r.protoFile.map (fun p => recBytes 15 ((p.map encFile).getD [])))
def encResponse (fs : List OutFile) : List Byte := encRecords (fs.map (fun o => recBytes 15 (encRecords [recText 1 o.name, recText 15 o.content])))

/-- The request has no nil pointers, and its enums are numbers of 32 bits, as the Go types and the library have it. -/
def Regular (r : Request) : Prop :=
  ∀ p ∈ r.protoFile, ∃ f, p = some f ∧ ∀ q ∈ f.messageType, ∃ m, q = some m ∧ ∀ x ∈ m.field, ∃ d, x = some d ∧
    (∀ i ∈ d.label, -2 ^ 31 ≤ i ∧ i < 2 ^ 31) ∧ ∀ i ∈ d.type, -2 ^ 31 ≤ i ∧ i < 2 ^ 31

theorem encRecord_ok {r : Record} (hn : r.num < 2 ^ 32) (hl : (encRecord r).length < 2 ^ 64) : IsRecord r (encRecord r) := by
  obtain ⟨n, v⟩ := r
  refine ⟨_, _, rfl, encVarint_isVarint ?_, ?_⟩
  · have : v.wireType < 8 := wireType_lt v
    simp only at hn ⊢; omega
  · cases v with
    | varint v => exact encVarint_isVarint v.isLt
    | fixed64 v => exact rfl
    | fixed32 v => exact rfl
    | bytes b =>
      refine ⟨_, encVarint_isVarint ?_, rfl⟩
      simp only [encRecord, List.length_append] at hl
      omega

theorem encRecords_cons (r : Record) (rs : List Record) : encRecords (r :: rs) = encRecord r ++ encRecords rs := rfl

theorem encRecords_ok : ∀ {rs : List Record}, (∀ r ∈ rs, r.num < 2 ^ 32) → (encRecords rs).length < 2 ^ 64 → IsMessage rs (encRecords rs)
  | [], _, _ => .nil
  | r :: rs, hn, hl => by
    rw [encRecords_cons] at hl ⊢
    rw [List.length_append] at hl
    exact .cons (encRecord_ok (hn r (by simp)) (by omega)) (encRecords_ok (fun x hx => hn x (by simp [hx])) (by omega))

theorem inner_length {rs : List Record} {r : Record} (hr : r ∈ rs) {b : List Byte} (hv : r.val = .bytes b) : b.length ≤ (encRecords rs).length := by
  induction rs with
  | nil => cases hr
  | cons q rs ih =>
    rw [encRecords_cons, List.length_append]
    rcases List.mem_cons.1 hr with rfl | hr
    · simp only [encRecord, hv, List.length_append]; omega
    · have := ih hr; omega

theorem allVals_append (f : Nat) (xs ys : List Record) : allVals f (xs ++ ys) = allVals f xs ++ allVals f ys := by simp [allVals]

theorem strings_append (f : Nat) (xs ys : List Record) : strings f (xs ++ ys) = strings f xs ++ strings f ys := by simp [strings, allVals_append]

theorem ints_append (f : Nat) (xs ys : List Record) : ints f (xs ++ ys) = ints f xs ++ ints f ys := by simp [ints, allVals_append]

theorem allVals_map {α : Type} (f n : Nat) (g : α → Val) (l : List α) : allVals f (l.map (fun a => (⟨n, g a⟩ : Record))) = if n = f then l.map g else [] := by
  induction l with
  | nil => simp [allVals]
  | cons a l ih =>
    unfold allVals at *
    by_cases h : n = f <;> simp_all

theorem strings_text (f n : Nat) (l : List Text) : strings f (l.map (recText n)) = if n = f then l.map utf8 else [] := by
  unfold strings recText
  rw [allVals_map]; split
  · induction l <;> simp_all
  · rfl

theorem strings_bytes {α : Type} (f n : Nat) (g : α → List Byte) (l : List α) : strings f (l.map (fun a => recBytes n (g a))) = if n = f then l.map g else [] := by
  unfold strings recBytes
  rw [allVals_map]; split
  · induction l <;> simp_all
  · rfl

theorem strings_int {α : Type} (f n : Nat) (g : α → Int) (l : List α) : strings f (l.map (fun a => recInt n (g a))) = [] := by
  unfold strings recInt
  rw [allVals_map]; split <;> simp

theorem ints_int {α : Type} (f n : Nat) (g : α → Int) (l : List α) : ints f (l.map (fun a => recInt n (g a))) = if n = f then l.map (fun a => BitVec.ofInt 64 (g a)) else [] := by
  unfold ints recInt
  rw [allVals_map]; split
  · induction l <;> simp_all
  · rfl

theorem ints_text (f n : Nat) (l : List Text) : ints f (l.map (recText n)) = [] := by
  unfold ints recText
  rw [allVals_map]; split <;> simp

theorem strings_int' (f n : Nat) (l : List Int) : strings f (l.map (recInt n)) = [] := strings_int f n id l

theorem ints_int' (f n : Nat) (l : List Int) : ints f (l.map (recInt n)) = if n = f then l.map (BitVec.ofInt 64) else [] := ints_int f n id l

theorem low32 {i : Int} (h : -2 ^ 31 ≤ i ∧ i < 2 ^ 31) : ((BitVec.ofInt 64 i).setWidth 32).toInt = i := by
  rw [← BitVec.truncate_eq_setWidth, BitVec.truncate_eq_setWidth, BitVec.toInt_setWidth, BitVec.toNat_ofInt]
  have : (((2 ^ 64 : Nat) : Int)) = 2 ^ 64 := by norm_cast
  rw [Int.bmod_def]
  omega

theorem ofInt_toInt (n : U32) : (BitVec.ofInt 64 n.toInt).setWidth 32 = n := by
  apply BitVec.eq_of_toInt_eq
  have h1 := BitVec.toInt_lt (x := n)
  have h2 := BitVec.le_toInt (x := n)
  exact low32 ⟨by simpa using h2, by simpa using h1⟩

theorem toList_self {α : Type} (o : Option α) : o.toList.getLast? = o := by cases o <;> rfl

theorem toList_last {α β : Type} (g : α → β) (o : Option α) : (o.toList.map g).getLast? = o.map g := by cases o <;> rfl

theorem encField_reads {d : Field} (h : ∀ i ∈ d.label, -2 ^ 31 ≤ i ∧ i < 2 ^ 31) (h' : ∀ i ∈ d.type, -2 ^ 31 ≤ i ∧ i < 2 ^ 31) (hl : (encField d).length < 2 ^ 64) :
    ReadsField (encField d) (some d) := by
  refine ⟨_, d, encRecords_ok ?_ hl, rfl, ?_, ?_, ?_, ?_, ?_⟩
  · simp only [List.mem_append, List.mem_map]
    rintro r ((((⟨_, _, rfl⟩ | ⟨_, _, rfl⟩) | ⟨_, _, rfl⟩) | ⟨_, _, rfl⟩) | ⟨_, _, rfl⟩) <;> simp [recText, recInt, recBytes]
  · simp only [strings_append, strings_text, strings_int, strings_int']
    simp [toList_self]
  · simp only [ints_append, ints_text, ints_int, ints_int']
    simp only [Nat.reduceEqDiff, if_false, if_true, List.nil_append, List.append_nil, toList_last, Option.map_map]
    cases d.number <;> simp [ofInt_toInt]
  · simp only [ints_append, ints_text, ints_int, ints_int']
    simp only [Nat.reduceEqDiff, if_false, if_true, List.nil_append, List.append_nil, toList_last, Option.map_map]
    cases hd : d.label with
    | none => rfl
    | some i => simp only [Option.map_some, Function.comp]; rw [low32 (h i hd)]
  · simp only [ints_append, ints_text, ints_int, ints_int']
    simp only [Nat.reduceEqDiff, if_false, if_true, List.nil_append, List.append_nil, toList_last, Option.map_map]
    cases hd : d.type with
    | none => rfl
    | some i => simp only [Option.map_some, Function.comp]; rw [low32 (h' i hd)]
  · simp only [strings_append, strings_text, strings_int, strings_int']
    simp [toList_self]

theorem pairs_map {α β : Type} {P : β → α → Prop} {g : α → β} : ∀ {l : List α}, (∀ a ∈ l, P (g a) a) → Pairs P (l.map g) l
  | [], _ => .nil
  | a :: l, h => .cons (h a (by simp)) (pairs_map (fun x hx => h x (by simp [hx])))

theorem encMessage_reads {m : Desc} (h : ∀ x ∈ m.field, ∃ d, x = some d ∧ (∀ i ∈ d.label, -2 ^ 31 ≤ i ∧ i < 2 ^ 31) ∧ ∀ i ∈ d.type, -2 ^ 31 ≤ i ∧ i < 2 ^ 31)
    (hl : (encMessage m).length < 2 ^ 64) : ReadsMessage (encMessage m) (some m) := by
  refine ⟨_, m, encRecords_ok ?_ hl, rfl, ?_, ?_⟩
  · simp only [List.mem_append, List.mem_map]
    rintro r (⟨_, _, rfl⟩ | ⟨_, _, rfl⟩) <;> simp [recText, recInt, recBytes]
  · simp only [strings_append, strings_text, strings_bytes]
    simp [toList_self]
  · simp only [strings_append, strings_text, strings_bytes]
    simp only [Nat.reduceEqDiff, if_false, if_true, List.nil_append, List.append_nil]
    refine pairs_map ?_
    intro x hx
    obtain ⟨d, rfl, h1, h2⟩ := h x hx
    refine encField_reads h1 h2 (Nat.lt_of_le_of_lt ?_ hl)
    exact inner_length (r := recBytes 2 (encField d)) (List.mem_append_right _ (List.mem_map.2 ⟨_, hx, rfl⟩)) rfl

theorem encFile_reads {f : FileDesc} (h : ∀ q ∈ f.messageType, ∃ m, q = some m ∧ ∀ x ∈ m.field, ∃ d, x = some d ∧ (∀ i ∈ d.label, -2 ^ 31 ≤ i ∧ i < 2 ^ 31) ∧ ∀ i ∈ d.type, -2 ^ 31 ≤ i ∧ i < 2 ^ 31)
    (hl : (encFile f).length < 2 ^ 64) : ReadsFile (encFile f) (some f) := by
  refine ⟨_, f, encRecords_ok ?_ hl, rfl, ?_, ?_, ?_⟩
  · simp only [List.mem_append, List.mem_map]
    rintro r ((⟨_, _, rfl⟩ | ⟨_, _, rfl⟩) | ⟨_, _, rfl⟩) <;> simp [recText, recInt, recBytes]
  · simp only [strings_append, strings_text, strings_bytes]
    simp [toList_self]
  · simp only [strings_append, strings_text, strings_bytes]
    simp [toList_self]
  · simp only [strings_append, strings_text, strings_bytes]
    simp only [Nat.reduceEqDiff, if_false, if_true, List.nil_append, List.append_nil]
    refine pairs_map ?_
    intro x hx
    obtain ⟨d, rfl, h1⟩ := h x hx
    refine encMessage_reads h1 (Nat.lt_of_le_of_lt ?_ hl)
    exact inner_length (r := recBytes 4 (encMessage d)) (List.mem_append_right _ (List.mem_map.2 ⟨_, hx, rfl⟩)) rfl

/-- C86: every request (without nil pointers, with enums of 32 bits, of less than 2^64 bytes) has an encoding. -/
theorem C86_encode {r : Request} (h : Regular r) (hl : (encRequest r).length < 2 ^ 64) : ReadsRequest (encRequest r) r := by
  refine ⟨_, encRecords_ok ?_ hl, ?_, ?_⟩
  · simp only [List.mem_append, List.mem_map]
    rintro r (⟨_, _, rfl⟩ | ⟨_, _, rfl⟩) <;> simp [recText, recInt, recBytes]
  · simp only [strings_append, strings_text, strings_bytes]
    simp
  · simp only [strings_append, strings_text, strings_bytes]
    simp only [Nat.reduceEqDiff, if_false, if_true, List.nil_append, List.append_nil]
    refine pairs_map ?_
    intro x hx
    obtain ⟨d, rfl, h1⟩ := h x hx
    refine encFile_reads h1 (Nat.lt_of_le_of_lt ?_ hl)
    exact inner_length (r := recBytes 15 (encFile d)) (List.mem_append_right _ (List.mem_map.2 ⟨_, hx, rfl⟩)) rfl

/-- C86: and so has every list of files. -/
theorem C86_encodeResponse {fs : List OutFile} (hl : (encResponse fs).length < 2 ^ 64) : ReadsResponse (encResponse fs) fs := by
  refine ⟨_, encRecords_ok ?_ hl, ?_, ?_⟩
  · simp only [List.mem_map]
    rintro r ⟨_, _, rfl⟩; simp [recBytes]
  · simp only [strings_bytes]; simp
  · simp only [strings_bytes, if_true]
    refine pairs_map ?_
    intro o ho
    refine ⟨_, encRecords_ok ?_ (Nat.lt_of_le_of_lt (inner_length (List.mem_map.2 ⟨o, ho, rfl⟩) rfl) hl), ?_, ?_, ?_⟩
    · simp only [List.mem_cons, List.not_mem_nil, or_false]
      rintro r (rfl | rfl) <;> simp [recText]
    all_goals simp [strings, allVals, recText]

/-! ## Input in pieces -/

theorem Pairs.append {α β : Type} {R : α → β → Prop} {as as' : List α} {bs bs' : List β} (h : Pairs R as bs) (h' : Pairs R as' bs') : Pairs R (as ++ as') (bs ++ bs') := by
  induction h with
  | nil => simpa using h'
  | cons h1 _ ih => exact .cons h1 ih

theorem last_append {α β : Type} {g : α → β} {x y : Option α} {xs ys : List β} (hx : x.map g = xs.getLast?) (hy : y.map g = ys.getLast?) : (y.or x).map g = (xs ++ ys).getLast? := by
  rw [List.getLast?_append, ← hx, ← hy]
  cases y <;> cases x <;> rfl

theorem last_append' {α β : Type} {g : β → α} {x y : Option α} {xs ys : List β} (hx : x = xs.getLast?.map g) (hy : y = ys.getLast?.map g) : y.or x = (xs ++ ys).getLast?.map g := by
  rw [List.getLast?_append, hx, hy]
  cases ys.getLast? <;> cases xs.getLast? <;> rfl

/-- C86: the encodings of two fields in a row: what the second says counts, and what it does not say is as in the first. -/
theorem C86_mergeField {b b' : List Byte} {f f' : Field} (h : ReadsField b (some f)) (h' : ReadsField b' (some f')) :
    ReadsField (b ++ b') (some ⟨f'.name.or f.name, f'.number.or f.number, f'.label.or f.label, f'.type.or f.type, f'.typeName.or f.typeName⟩) := by
  obtain ⟨rs, _, hm, e, h1, h2, h3, h4, h5⟩ := h
  obtain ⟨rs', _, hm', e', h1', h2', h3', h4', h5'⟩ := h'
  obtain rfl := Option.some.inj e
  obtain rfl := Option.some.inj e'
  refine ⟨_, _, hm.append hm', rfl, ?_, ?_, ?_, ?_, ?_⟩ <;> simp only [strings_append, ints_append]
  · exact last_append h1 h1'
  · exact last_append' h2 h2'
  · exact last_append' h3 h3'
  · exact last_append' h4 h4'
  · exact last_append h5 h5'

/-- C86: two messages in a row: the last name, and all fields. -/
theorem C86_mergeMessage {b b' : List Byte} {m m' : Desc} (h : ReadsMessage b (some m)) (h' : ReadsMessage b' (some m')) :
    ReadsMessage (b ++ b') (some ⟨m'.name.or m.name, m.field ++ m'.field⟩) := by
  obtain ⟨rs, _, hm, e, h1, h2⟩ := h
  obtain ⟨rs', _, hm', e', h1', h2'⟩ := h'
  obtain rfl := Option.some.inj e
  obtain rfl := Option.some.inj e'
  refine ⟨_, _, hm.append hm', rfl, ?_, ?_⟩ <;> simp only [strings_append]
  · exact last_append h1 h1'
  · exact h2.append h2'

/-- C86: two files in a row: the last name and package, and all messages. -/
theorem C86_mergeFile {b b' : List Byte} {f f' : FileDesc} (h : ReadsFile b (some f)) (h' : ReadsFile b' (some f')) :
    ReadsFile (b ++ b') (some ⟨f'.name.or f.name, f'.package.or f.package, f.messageType ++ f'.messageType⟩) := by
  obtain ⟨rs, _, hm, e, h1, h2, h3⟩ := h
  obtain ⟨rs', _, hm', e', h1', h2', h3'⟩ := h'
  obtain rfl := Option.some.inj e
  obtain rfl := Option.some.inj e'
  refine ⟨_, _, hm.append hm', rfl, ?_, ?_, ?_⟩ <;> simp only [strings_append]
  · exact last_append h1 h1'
  · exact last_append h2 h2'
  · exact h3.append h3'

/-- C86: two requests in a row: all names, and all files. -/
theorem C86_mergeRequest {b b' : List Byte} {r r' : Request} (h : ReadsRequest b r) (h' : ReadsRequest b' r') :
    ReadsRequest (b ++ b') ⟨r.fileToGenerate ++ r'.fileToGenerate, r.protoFile ++ r'.protoFile⟩ := by
  obtain ⟨rs, hm, h1, h2⟩ := h
  obtain ⟨rs', hm', h1', h2'⟩ := h'
  refine ⟨_, hm.append hm', ?_, ?_⟩ <;> simp only [strings_append]
  · rw [List.map_append, h1, h1']
  · exact h2.append h2'

/-! ## What does not count -/

theorem allVals_used {used : List Nat} {f : Nat} (hf : f ∈ used) (rs : List Record) : allVals f (rs.filter (fun r => r.num ∈ used)) = allVals f rs := by
  unfold allVals
  rw [List.filter_filter]
  congr 1
  apply List.filter_congr
  intro r _
  by_cases h : r.num = f
  · subst h; simp [hf]
  · simp [h]

theorem allVals_cons (f : Nat) (r : Record) (rs : List Record) : allVals f (r :: rs) = if r.num = f then r.val :: allVals f rs else allVals f rs := by
  unfold allVals
  by_cases h : r.num = f <;> simp [h]

theorem same_plain {inner : Nat → List Byte → List Byte → Prop} {f : Nat} (hi : ∀ x x', ¬ inner f x x') {l l' : List Record} (h : Pairs (SameRecord inner) l l') :
    allVals f l = allVals f l' := by
  induction h with
  | nil => rfl
  | @cons r r' l l' h _ ih =>
    rw [allVals_cons, allVals_cons, ih]
    rcases h with rfl | ⟨e, x, x', _, _, h⟩
    · rfl
    · by_cases hf : r.num = f
      · exact absurd (hf ▸ h) (hi x x')
      · rw [if_neg hf, if_neg (by rw [← e]; exact hf)]

theorem same_inner {inner : Nat → List Byte → List Byte → Prop} {f : Nat} {l l' : List Record} (h : Pairs (SameRecord inner) l l') :
    Pairs (fun x x' => x = x' ∨ inner f x x') (strings f l) (strings f l') := by
  induction h with
  | nil => exact .nil
  | @cons r r' l l' h _ ih =>
    unfold strings at *
    rw [allVals_cons, allVals_cons]
    rcases h with rfl | ⟨e, x, x', hx, hx', h⟩
    · split
      · cases r.val <;> simp only [List.filterMap_cons] <;> first | exact ih | exact .cons (.inl rfl) ih
      · exact ih
    · by_cases hf : r.num = f
      · rw [if_pos hf, if_pos (e ▸ hf), hx, hx']
        exact .cons (.inr (hf ▸ h)) ih
      · rw [if_neg hf, if_neg (by rw [← e]; exact hf)]
        exact ih

theorem pairs_iff {α : Type} {inner : List Byte → List Byte → Prop} {P : List Byte → α → Prop} (hP : ∀ x x', inner x x' → ∀ a, P x a ↔ P x' a) {xs xs' : List (List Byte)}
    (h : Pairs (fun x x' => x = x' ∨ inner x x') xs xs') (as : List α) : Pairs P xs as ↔ Pairs P xs' as := by
  induction h generalizing as with
  | nil => exact Iff.rfl
  | @cons x x' xs xs' h _ ih =>
    have hx : ∀ a, P x a ↔ P x' a := by
      rcases h with rfl | h
      · exact fun _ => Iff.rfl
      · exact hP x x' h
    constructor
    · rintro (_ | ⟨h1, h2⟩); exact .cons ((hx _).1 h1) ((ih _).1 h2)
    · rintro (_ | ⟨h1, h2⟩); exact .cons ((hx _).2 h1) ((ih _).2 h2)

/-- What two records sequences that are the same have in common. -/
theorem same_vals {used : List Nat} {inner : Nat → List Byte → List Byte → Prop} {rs rs' : List Record}
    (h : Pairs (SameRecord inner) (rs.filter (fun r => r.num ∈ used)) (rs'.filter (fun r => r.num ∈ used))) {f : Nat} (hf : f ∈ used) :
    ((∀ x x', ¬ inner f x x') → allVals f rs = allVals f rs') ∧ Pairs (fun x x' => x = x' ∨ inner f x x') (strings f rs) (strings f rs') := by
  constructor
  · intro hi
    rw [← allVals_used hf rs, ← allVals_used hf rs']
    exact same_plain hi h
  · have := same_inner (f := f) h
    unfold strings at *
    rwa [allVals_used hf, allVals_used hf] at this

theorem field_same {b b' : List Byte} (h : SameField b b') (p : Option Field) : ReadsField b p ↔ ReadsField b' p := by
  obtain ⟨rs, rs', hm, hm', hs⟩ := h
  have e : ∀ f ∈ [1, 3, 4, 5, 6], strings f rs = strings f rs' ∧ ints f rs = ints f rs' := by
    intro f hf
    have := (same_vals hs hf).1 (fun _ _ h => h)
    unfold strings ints
    rw [this]
    exact ⟨rfl, rfl⟩
  constructor
  · rintro ⟨qs, f, hq, rfl, h1, h2, h3, h4, h5⟩
    obtain rfl := isMessage_unique hm hq
    exact ⟨rs', f, hm', rfl, by rw [h1, (e 1 (by simp)).1], by rw [h2, (e 3 (by simp)).2], by rw [h3, (e 4 (by simp)).2], by rw [h4, (e 5 (by simp)).2], by rw [h5, (e 6 (by simp)).1]⟩
  · rintro ⟨qs, f, hq, rfl, h1, h2, h3, h4, h5⟩
    obtain rfl := isMessage_unique hm' hq
    exact ⟨rs, f, hm, rfl, by rw [h1, (e 1 (by simp)).1], by rw [h2, (e 3 (by simp)).2], by rw [h3, (e 4 (by simp)).2], by rw [h4, (e 5 (by simp)).2], by rw [h5, (e 6 (by simp)).1]⟩

theorem message_same {b b' : List Byte} (h : SameMessage b b') (p : Option Desc) : ReadsMessage b p ↔ ReadsMessage b' p := by
  obtain ⟨rs, rs', hm, hm', hs⟩ := h
  have e1 : strings 1 rs = strings 1 rs' := by
    unfold strings; rw [(same_vals hs (f := 1) (by simp)).1 (by simp)]
  have e2 := fun as => pairs_iff (P := ReadsField) (fun x x' h a => field_same h.2 a) (same_vals hs (f := 2) (by simp)).2 as
  constructor
  · rintro ⟨qs, f, hq, rfl, h1, h2⟩
    obtain rfl := isMessage_unique hm hq
    exact ⟨rs', f, hm', rfl, by rw [h1, e1], (e2 _).1 h2⟩
  · rintro ⟨qs, f, hq, rfl, h1, h2⟩
    obtain rfl := isMessage_unique hm' hq
    exact ⟨rs, f, hm, rfl, by rw [h1, e1], (e2 _).2 h2⟩

theorem file_same {b b' : List Byte} (h : SameFile b b') (p : Option FileDesc) : ReadsFile b p ↔ ReadsFile b' p := by
  obtain ⟨rs, rs', hm, hm', hs⟩ := h
  have e1 : strings 1 rs = strings 1 rs' := by
    unfold strings; rw [(same_vals hs (f := 1) (by simp)).1 (by simp)]
  have e2 : strings 2 rs = strings 2 rs' := by
    unfold strings; rw [(same_vals hs (f := 2) (by simp)).1 (by simp)]
  have e3 := fun as => pairs_iff (P := ReadsMessage) (fun x x' h a => message_same h.2 a) (same_vals hs (f := 4) (by simp)).2 as
  constructor
  · rintro ⟨qs, f, hq, rfl, h1, h2, h3⟩
    obtain rfl := isMessage_unique hm hq
    exact ⟨rs', f, hm', rfl, by rw [h1, e1], by rw [h2, e2], (e3 _).1 h3⟩
  · rintro ⟨qs, f, hq, rfl, h1, h2, h3⟩
    obtain rfl := isMessage_unique hm' hq
    exact ⟨rs, f, hm, rfl, by rw [h1, e1], by rw [h2, e2], (e3 _).2 h3⟩

/-- C86: inputs that are the same but for what the plugin does not use are the same request. -/
theorem C86_unused {b b' : List Byte} (h : SameInput b b') (r : Request) : ReadsRequest b r ↔ ReadsRequest b' r := by
  obtain ⟨rs, rs', hm, hm', hs⟩ := h
  have e1 : strings 1 rs = strings 1 rs' := by
    unfold strings; rw [(same_vals hs (f := 1) (by simp)).1 (by simp)]
  have e2 := fun as => pairs_iff (P := ReadsFile) (fun x x' h a => file_same h.2 a) (same_vals hs (f := 15) (by simp)).2 as
  constructor
  · rintro ⟨qs, hq, h1, h2⟩
    obtain rfl := isMessage_unique hm hq
    exact ⟨rs', hm', by rw [h1, e1], (e2 _).1 h2⟩
  · rintro ⟨qs, hq, h1, h2⟩
    obtain rfl := isMessage_unique hm' hq
    exact ⟨rs, hm, by rw [h1, e1], (e2 _).2 h2⟩

/-! ## The plugin -/

/-- What is required of the protobuf library: what it reads is what the bytes say, and the bytes it writes say what it was given. It may fail. -/
structure Library {ε : Type} (y : Sys ε) : Prop where
  unmarshal : ∀ b r, y.unmarshal b = .ok r → ReadsRequest b r
  marshal : ∀ fs b, y.marshal fs = .ok b → ReadsResponse b fs

/-- C86: whatever the plugin writes to its standard output, it is part of the encoded files for the request that its input encodes. If it returns with nothing written to standard error,
the output says exactly these files, in order, and nothing else. -/
theorem C86_plugin {ε : Type} (y : Sys ε) (hl : Library y) (hw : y.WriteContract) (he : ∀ e, y.errText e ≠ [])
    {o : Outcome} (h : GoSrc.T.process y GoSrc.T.pluginGo 2 = some o) (h0 : o.status = 0) (h1 : o.stderr = []) :
    ∃ req, ReadsRequest y.stdin.1 req ∧ ¬ HasUnsupported req ∧ ReadsResponse o.stdout (filesOf y.unicode req) := by
  rw [GoSrc.T.C64_plugin y 0] at h
  obtain rfl := Option.some.inj h
  unfold mainPlugin at h0 h1 ⊢
  cases hr : runPlugin y with
  | error p => rw [hr] at h0; simp at h0
  | ok x =>
    obtain ⟨out, e⟩ := x
    cases e with
    | some e => rw [hr] at h1; exact absurd h1 (he e)
    | none =>
      simp only
      unfold runPlugin at hr
      split at hr
      · simp at hr
      · rename_i b hb
        split at hr
        · simp at hr
        · rename_i req hu
          split at hr
          · simp at hr
          · rename_i files hg
            split at hr
            · simp at hr
            · rename_i res hm
              have hs : ¬ HasUnsupported req := by
                intro hh
                obtain ⟨p, hp⟩ := generate_error y.unicode hh
                rw [hp] at hg; cases hg
              have hf : files = filesOf y.unicode req := by
                rw [generate_ok y.unicode hs] at hg
                exact (Except.ok.inj hg).symm
              split at hr
              · simp at hr
              · rename_i n hn
                simp only [Except.ok.injEq, Prod.mk.injEq, and_true] at hr
                have := hw res (by rw [hn])
                rw [hn] at this
                simp only at this
                rw [this, List.take_length] at hr
                subst hr
                rw [hb]
                exact ⟨req, hl.unmarshal _ _ hu, hs, hf ▸ hl.marshal _ _ hm⟩

/-- C86: two runs on inputs that the library accepts and that are the same but for what the plugin does not use have the same outcome: standard output, standard error and exit status. -/
theorem C86_same {ε : Type} (y : Sys ε) (hl : Library y) {b b' : List Byte} {r r' : Request} (h : y.unmarshal b = .ok r) (h' : y.unmarshal b' = .ok r') (hs : SameInput b b') :
    GoSrc.T.process { y with stdin := (b, none) } GoSrc.T.pluginGo 2 = GoSrc.T.process { y with stdin := (b', none) } GoSrc.T.pluginGo 2 := by
  obtain rfl := C86_request ((C86_unused hs r).1 (hl.unmarshal _ _ h)) (hl.unmarshal _ _ h')
  rw [GoSrc.T.C64_plugin _ 0, GoSrc.T.C64_plugin _ 0]
  simp only [mainPlugin, runPlugin, h, h']

open GoSrc in
/-- C86: from the bytes that protoc sends to the methods of the package. If the input encodes a request for compilable files, the library accepts it and writes the response, and the output can be
written, then the plugin, run from its source, ends with status 0 and an empty standard error; its standard output encodes one response, the files of which are, token by token, a program; and after any
run of calls on a zero struct of any message type of the files, the methods of that program show the simple record. -/
theorem C86_end_to_end {ε : Type} (y : Sys ε) (hl : Library y) {req : Request} {pkg : Text} (h1 : y.stdin.2 = none) (h2 : ReadsRequest y.stdin.1 req) (h3 : ∃ r, y.unmarshal y.stdin.1 = .ok r)
    (h4 : E.Compilable y.unicode req.requested pkg) (h5 : ∃ res, y.marshal (filesOf y.unicode req) = .ok res) (h6 : ∀ res, y.write res = (res.length, none)) :
    ∃ out, T.process y T.pluginGo 2 = some ⟨out, [], 0⟩ ∧
    ∃ (response : List OutFile) (files : List (List G.Top)), ReadsResponse out response ∧ (∀ other, ReadsResponse out other → other = response) ∧
      response.map (fun o => tokenize o.content) = files.map (fun a => (a.map G.Top.toks).flatten) ∧
      ∀ f ∈ req.requested, ∀ m, some m ∈ f.messageType → ∀ (i : Nat) (s s' : G.GSt) (ops : List Zeropb.Op), s.h.ms i = .zero (slotsOf m) → i < s.next →
        E.Runs y.unicode files.flatten m i s ops s' → E.Shows y.unicode files.flatten m i s' (applyAll ops .empty) := by
  obtain ⟨r, h3⟩ := h3
  obtain rfl := C86_request (hl.unmarshal _ _ h3) h2
  obtain ⟨res, h5⟩ := h5
  obtain ⟨a, files, b, c⟩ := E.C65_end_to_end y h1 h3 h4 h5 (h6 res)
  exact ⟨res, a, _, files, hl.marshal _ _ h5, fun o ho => C86_response ho (hl.marshal _ _ h5), b, c⟩

/-! ## The hypotheses are met -/

/-- A request for golden/raft.proto, as `encRequest` writes it. -/
def bothRequest : Request := ⟨[raftFile.getName], [some testFile, some raftFile]⟩

theorem bothRequest_regular : Regular bothRequest := by
  have h : (bothRequest.protoFile.all fun p => match p with
      | none => false
      | some f => f.messageType.all fun q => match q with
        | none => false
        | some m => m.field.all fun x => match x with
          | none => false
          | some d => (d.label.all fun i => -2 ^ 31 ≤ i && i < 2 ^ 31) && (d.type.all fun i => -2 ^ 31 ≤ i && i < 2 ^ 31)) = true := by decide +kernel
  intro p hp
  have h1 := List.all_eq_true.1 h p hp
  cases p with
  | none => simp at h1
  | some f =>
    refine ⟨f, rfl, fun q hq => ?_⟩
    have h2 := List.all_eq_true.1 h1 q hq
    cases q with
    | none => simp at h2
    | some m =>
      refine ⟨m, rfl, fun x hx => ?_⟩
      have h3 := List.all_eq_true.1 h2 x hx
      cases x with
      | none => simp at h3
      | some d =>
        simp only [Bool.and_eq_true] at h3
        refine ⟨d, rfl, fun i hi => ?_, fun i hi => ?_⟩
        · have h4 := h3.1; rw [hi] at h4; simpa using h4
        · have h4 := h3.2; rw [hi] at h4; simpa using h4

/-- `C86_encode` applies to it: hundreds of bytes that say what the request is. -/
theorem bothRequest_reads : ReadsRequest (encRequest bothRequest) bothRequest ∧ 200 < (encRequest bothRequest).length ∧ (encRequest bothRequest).length < 10000 :=
  ⟨C86_encode bothRequest_regular (by decide +kernel), by decide +kernel, by decide +kernel⟩

/-- A library as required: it reads whatever can be read, and writes as `encResponse`. -/
noncomputable def okLibrary (input : List Byte) : Sys Unit where
  stdin := (input, none)
  unmarshal := fun b => open Classical in if h : ∃ r, ReadsRequest b r then .ok h.choose else .error ()
  marshal := fun fs => if (encResponse fs).length < 2 ^ 64 then .ok (encResponse fs) else .error ()
  write := fun b => (b.length, none)
  marshalText := fun _ => ([], none)
  errText := fun _ => [0x0a#8]
  panicText := fun _ => [0x0a#8]
  unicode := asciiUnicode

theorem okLibrary_library (input : List Byte) : Library (okLibrary input) where
  unmarshal := by
    intro b r h
    simp only [okLibrary] at h
    split at h
    · rename_i hr
      obtain rfl := Except.ok.inj h
      exact hr.choose_spec
    · cases h
  marshal := by
    intro fs b h
    simp only [okLibrary] at h
    split at h
    · rename_i hl
      obtain rfl := Except.ok.inj h
      exact C86_encodeResponse hl
    · cases h

theorem okLibrary_accepts {input : List Byte} {r : Request} (h : ReadsRequest input r) : (okLibrary input).unmarshal input = .ok r := by
  have hr : ∃ r, ReadsRequest input r := ⟨r, h⟩
  simp only [okLibrary]
  rw [dif_pos hr, C86_request hr.choose_spec h]

theorem okLibrary_marshal {input : List Byte} {fs : List OutFile} (h : (encResponse fs).length < 2 ^ 64) : (okLibrary input).marshal fs = .ok (encResponse fs) := if_pos h

/-- `C86_end_to_end` applies to a request for golden/raft.proto, and `C86_plugin` to the outcome. -/
example : ∃ out, GoSrc.T.process (okLibrary (encRequest bothRequest)) GoSrc.T.pluginGo 2 = some ⟨out, [], 0⟩ ∧ ReadsResponse out (filesOf asciiUnicode bothRequest) ∧
    (filesOf asciiUnicode bothRequest).map (·.name) = [t!"raft.zeropb.go"] := by
  have hq : bothRequest.requested = [raftFile] := by
    simp only [Request.requested, bothRequest, List.filterMap_cons, List.filterMap_nil, id, List.filter_cons, List.filter_nil]
    rw [if_neg (by decide +kernel), if_pos (by decide +kernel)]
  have hl : (encResponse (filesOf asciiUnicode bothRequest)).length < 2 ^ 64 := by decide +kernel
  obtain ⟨out, h, _⟩ := C86_end_to_end (okLibrary (encRequest bothRequest)) (okLibrary_library _) (req := bothRequest) (pkg := raftFile.getPackage) rfl bothRequest_reads.1
    ⟨_, okLibrary_accepts bothRequest_reads.1⟩ (show GoSrc.E.Compilable asciiUnicode bothRequest.requested _ from hq ▸ GoSrc.E.raftFile_compilable) ⟨_, okLibrary_marshal hl⟩ (fun _ => rfl)
  obtain ⟨req, e1, _, e2⟩ := C86_plugin (okLibrary (encRequest bothRequest)) (okLibrary_library _) (fun _ _ => rfl) (by simp [okLibrary]) h rfl rfl
  obtain rfl := C86_request e1 bothRequest_reads.1
  exact ⟨out, h, e2, by decide +kernel⟩

/-- A request with one file, one message and one field, written out record by record; `comments`, `json` and `version` are put in if given. -/
def recordsRequest (number : Nat) (comments json version : List Record) : List Record :=
  version ++ [recText 1 t!"a.proto", recBytes 15 (encRecords (comments ++ [recText 1 t!"a.proto", recText 2 t!"p", recBytes 4 (encRecords [recText 1 t!"M",
    recBytes 2 (encRecords (recText 1 t!"x" :: json ++ [recInt 3 number, recInt 4 1, recInt 5 5]))])]))]

/-- Comments (source_code_info 9), a JSON name (10), a compiler version (3) and unknown fields do not count. -/
example : SameInput (encRecords (recordsRequest 1 [] [] [])) (encRecords (recordsRequest 1 [recBytes 9 [0x0a#8]] [recText 10 t!"ex", ⟨77, .fixed32 1#32⟩] [recBytes 3 [0x08#8, 0x03#8]])) := by
  refine ⟨_, _, encRecords_ok (by decide +kernel) (by decide +kernel), encRecords_ok (by decide +kernel) (by decide +kernel), ?_⟩
  refine .cons (.inl rfl) (.cons (.inr ⟨rfl, _, _, rfl, rfl, rfl, ?_⟩) .nil)
  refine ⟨_, _, encRecords_ok (by decide +kernel) (by decide +kernel), encRecords_ok (by decide +kernel) (by decide +kernel), ?_⟩
  refine .cons (.inl rfl) (.cons (.inl rfl) (.cons (.inr ⟨rfl, _, _, rfl, rfl, rfl, ?_⟩) .nil))
  refine ⟨_, _, encRecords_ok (by decide +kernel) (by decide +kernel), encRecords_ok (by decide +kernel) (by decide +kernel), ?_⟩
  refine .cons (.inl rfl) (.cons (.inr ⟨rfl, _, _, rfl, rfl, rfl, ?_⟩) .nil)
  refine ⟨_, _, encRecords_ok (by decide +kernel) (by decide +kernel), encRecords_ok (by decide +kernel) (by decide +kernel), ?_⟩
  exact .cons (.inl rfl) (.cons (.inl rfl) (.cons (.inl rfl) (.cons (.inl rfl) .nil)))

/-- The number of the field counts: with another one, the input is another request. -/
def oneField (number : Nat) : Request := ⟨[t!"a.proto"], [some { name := some t!"a.proto", package := some t!"p", messageType := [some { name := some t!"M", field :=
  [some { name := some t!"x", number := some (BitVec.ofNat 32 number), label := some 1, type := some 5 }] }] }]⟩

example : ¬ SameInput (encRequest (oneField 1)) (encRequest (oneField 2)) := by
  intro h
  have hr : ∀ n, Regular (oneField n) := by
    intro n p hp
    simp only [oneField, List.mem_singleton] at hp
    refine ⟨_, hp, fun q hq => ?_⟩
    simp only [List.mem_singleton] at hq
    refine ⟨_, hq, fun x hx => ?_⟩
    simp only [List.mem_singleton] at hx
    exact ⟨_, hx, by simp, by simp⟩
  have h1 := C86_encode (hr 1) (by decide +kernel)
  have h2 := C86_encode (hr 2) (by decide +kernel)
  have h3 := C86_request ((C86_unused h _).1 h1) h2
  simp [oneField] at h3

/-- The last value of a singular field counts, and a value of another wire type does not. -/
example : ReadsField (encRecords [recInt 3 7, recText 1 t!"old", recText 1 t!"new", ⟨3, .fixed64 9#64⟩]) (some { name := some t!"new", number := some 7#32 }) :=
  ⟨_, _, encRecords_ok (by decide +kernel) (by decide +kernel), rfl, by decide +kernel, by decide +kernel, by decide +kernel, by decide +kernel, by decide +kernel⟩

end Zeropb.Gen
