import Verif.Props.GenMsg
import Verif.Model.TestMessage
/-!
# The declarations of a message are those of a `Schema`

The runtime properties (C01 to C40, C48 to C50) are proved for an arbitrary `Schema`. Here: the declarations
generated for a valid message descriptor are those of a schema, which is read off the descriptor.
-/

namespace Zeropb
open Gen

/-- The declared type of a field, as far as it has accessors: message fields are stored as bytes; repeated
scalar fields have no accessors. -/
def fieldKind (fd : Field) : Option Kind :=
  if getType (some fd) = 11 then some .bytes
  else if getLabel (some fd) = 3 then none
  else protoKind (getType (some fd))

/-- The message declarations protobuf admits (without groups). -/
structure ValidDesc (m : Desc) : Prop where
  present : ∀ f ∈ m.field, f ≠ none
  numbers : ∀ fd, some fd ∈ m.field → 1 ≤ (getNumber (some fd)).toNat ∧ (getNumber (some fd)).toNat < 2 ^ 29
  distinct : m.field.Pairwise (fun f g => getNumber f ≠ getNumber g)
  labels : ∀ fd, some fd ∈ m.field → getLabel (some fd) = 1 ∨ getLabel (some fd) = 2 ∨ getLabel (some fd) = 3
  types : ∀ fd, some fd ∈ m.field → getType (some fd) = 11 ∨ protoKind (getType (some fd)) ≠ none

/-- The field with number `i`. -/
def fieldWith (m : Desc) (i : Nat) : Option Field :=
  (m.field.filterMap id).find? (fun fd => (getNumber (some fd)).toNat = i)

/-- One more than the largest field number. -/
def slotsOf (m : Desc) : Nat := ((m.field.filterMap id).map (fun fd => (getNumber (some fd)).toNat)).foldr max 0 + 1

private theorem le_foldr_max (l : List Nat) (n : Nat) (h : n ∈ l) : n ≤ l.foldr max 0 := by
  induction l with
  | nil => cases h
  | cons a l ih =>
    rw [List.foldr_cons]
    rcases List.mem_cons.1 h with rfl | h
    · exact Nat.le_max_left _ _
    · exact Nat.le_trans (ih h) (Nat.le_max_right _ _)

private theorem foldr_max_le (l : List Nat) (b : Nat) (h : ∀ n ∈ l, n ≤ b) : l.foldr max 0 ≤ b := by
  induction l with
  | nil => exact Nat.zero_le _
  | cons a l ih =>
    rw [List.foldr_cons]
    exact Nat.max_le.2 ⟨h a (List.mem_cons_self ..), ih (fun n hn => h n (List.mem_cons_of_mem _ hn))⟩

theorem fieldWith_some {m : Desc} {i : Nat} {fd : Field} (h : fieldWith m i = some fd) :
    some fd ∈ m.field ∧ (getNumber (some fd)).toNat = i := by
  unfold fieldWith at h
  have h1 := List.find?_some h
  have h2 := List.mem_of_find?_eq_some h
  rw [List.mem_filterMap] at h2
  obtain ⟨f, hf, rfl⟩ := h2
  exact ⟨hf, by simpa using h1⟩

/-- The number of the field determines the field. -/
theorem fieldWith_unique {m : Desc} (hv : ValidDesc m) {fd : Field} (h : some fd ∈ m.field) :
    fieldWith m (getNumber (some fd)).toNat = some fd := by
  have hd := hv.distinct
  unfold fieldWith
  generalize m.field = fs at h hd
  induction fs with
  | nil => cases h
  | cons f fs ih =>
    rw [List.pairwise_cons] at hd
    rcases List.mem_cons.1 h with rfl | h'
    · simp
    · clear h
      have h := h'
      clear h'
      cases f with
      | none => simpa using ih h hd.2
      | some g =>
        have hne : (getNumber (some g)).toNat ≠ (getNumber (some fd)).toNat := by
          intro e; exact hd.1 _ h (BitVec.eq_of_toNat_eq e)
        simp only [List.filterMap_cons, id, List.find?_cons, hne, decide_false]
        exact ih h hd.2

/-- The schema of a valid message declaration. -/
def schemaOf (m : Desc) (hv : ValidDesc m) : Schema where
  n := slotsOf m
  rep i := match fieldWith m i with | some fd => getLabel (some fd) == 3 | none => false
  kind i := (fieldWith m i).bind fieldKind
  n_le := by
    have : slotsOf m ≤ 2 ^ 29 + 1 := by
      unfold slotsOf
      refine Nat.succ_le_succ (foldr_max_le _ _ ?_)
      intro n hn
      obtain ⟨fd, hfd, rfl⟩ := List.mem_map.1 hn
      obtain ⟨f, hf, rfl⟩ := List.mem_filterMap.1 hfd
      exact Nat.le_of_lt (hv.numbers fd hf).2
    exact Nat.le_trans this (by decide)
  kind_lt := by
    intro i hi
    cases h : fieldWith m i with
    | none => rw [h] at hi; exact absurd rfl hi
    | some fd =>
      obtain ⟨h1, h2⟩ := fieldWith_some h
      unfold slotsOf
      refine Nat.lt_succ_of_le (le_foldr_max _ _ ?_)
      exact List.mem_map.2 ⟨fd, List.mem_filterMap.2 ⟨some fd, h1, rfl⟩, h2⟩
  rep_bytes := by
    intro i k hr hk
    cases h : fieldWith m i with
    | none => rw [h] at hr; cases hr
    | some fd =>
      rw [h] at hr hk
      have hr : getLabel (some fd) = 3 := by simpa using hr
      simp only [Option.bind_some, fieldKind, hr, if_true] at hk
      split at hk
      · injection hk with hk; exact hk.symm
      · cases hk

/-- What it means that a list of declarations is the Go type `name` for the schema `S`. -/
structure Implements (S : Schema) (name : Text) (ds : List Decl) : Prop where
  /-- the offset table has `S.n` slots -/
  struct : ∀ a s, Decl.struct a s ∈ ds ↔ a = name ∧ s = S.n
  /-- `Decode` is called with a table of exactly the repeated fields -/
  table : ∃ nums, (∀ a l, Decl.repeatedTable a l ∈ ds ↔ a = name ∧ l = nums) ∧ ∀ n : Int, n ∈ nums ↔ ∃ i : Nat, n = i ∧ S.rep i = true
  fixed : Decl.encode name ∈ ds ∧ Decl.decode name ∈ ds ∧ Decl.reset name ∈ ds
  /-- each declared field has the accessors of its type -/
  singular : ∀ i k, S.kind i = some k → S.rep i = false →
    ∃ fld, (Decl.get name fld (Kind.goType k) (Kind.fn k) i ∈ ds ∧ Decl.set name fld (Kind.goType k) (Kind.fn k) i ∈ ds) ∨
      (k = .bytes ∧ ∃ typ, Decl.getMessage name fld typ i ∈ ds ∧ Decl.setMessage name fld typ i ∈ ds)
  repeated : ∀ i k, S.kind i = some k → S.rep i = true → ∃ fld it typ,
    Decl.iterType it ∈ ds ∧ Decl.iterNext it typ i ∈ ds ∧ Decl.getRepeated name fld it i ∈ ds ∧ Decl.appendTo name fld typ i ∈ ds
  /-- and there are no other accessors -/
  get_only : ∀ a fld t fn n, Decl.get a fld t fn n ∈ ds ∨ Decl.set a fld t fn n ∈ ds →
    ∃ (i : Nat) (k : Kind), n = i ∧ S.kind i = some k ∧ S.rep i = false ∧ a = name ∧ t = Kind.goType k ∧ fn = Kind.fn k
  message_only : ∀ a fld t n, Decl.getMessage a fld t n ∈ ds ∨ Decl.setMessage a fld t n ∈ ds →
    ∃ i : Nat, n = i ∧ S.kind i = some .bytes ∧ S.rep i = false ∧ a = name
  repeated_only : ∀ a fld t n, Decl.getRepeated a fld t n ∈ ds ∨ Decl.appendTo a fld t n ∈ ds →
    ∃ i : Nat, n = i ∧ S.kind i = some .bytes ∧ S.rep i = true ∧ a = name
  iter_only : ∀ it t n, Decl.iterNext it t n ∈ ds → ∃ i : Nat, n = i ∧ S.kind i = some .bytes ∧ S.rep i = true

theorem number_toInt {m : Desc} (hv : ValidDesc m) {fd : Field} (h : some fd ∈ m.field) :
    (getNumber (some fd)).toInt = ((getNumber (some fd)).toNat : Int) := by
  have := (hv.numbers fd h).2
  rw [BitVec.toInt_eq_toNat_cond]
  split
  · rfl
  · omega

/-- The declarations for a valid message declaration implement its schema. -/
theorem decls_implements (U : Unicode) (m : Desc) (hv : ValidDesc m) :
    Implements (schemaOf m hv) m.getName (messageDecls U m) := by
  have hn : ∀ f ∈ m.field, (getNumber f).toInt < 2 ^ 31 - 1 := by
    intro f hf
    cases f with
    | none => exact absurd rfl (hv.present none hf)
    | some fd =>
      have := (hv.numbers fd hf).2
      rw [number_toInt hv hf]; omega
  obtain ⟨slots, hs1, hs2, hs3, hs4, _⟩ := decls_table U m hn
  obtain ⟨nums, ht1, ht2⟩ := decls_repeated U m
  obtain ⟨a1, a2, a3, a4, a5, a6, a7, a8⟩ := decls_accessors U m
  have hk : ∀ fd, some fd ∈ m.field → (schemaOf m hv).kind (getNumber (some fd)).toNat = fieldKind fd := by
    intro fd hfd
    show (fieldWith m _).bind fieldKind = _
    rw [fieldWith_unique hv hfd]; rfl
  have hr : ∀ fd, some fd ∈ m.field → ((schemaOf m hv).rep (getNumber (some fd)).toNat = true ↔ getLabel (some fd) = 3) := by
    intro fd hfd
    show (match fieldWith m _ with | some fd => getLabel (some fd) == 3 | none => false) = true ↔ _
    rw [fieldWith_unique hv hfd]; simp
  have hr' : ∀ fd, some fd ∈ m.field → getLabel (some fd) ≠ 3 → (schemaOf m hv).rep (getNumber (some fd)).toNat = false := by
    intro fd hfd h
    cases hb : (schemaOf m hv).rep (getNumber (some fd)).toNat with
    | false => rfl
    | true => exact absurd ((hr fd hfd).1 hb) h
  -- a number with a kind or repeated is that of a field
  have hof : ∀ i, (∃ k, (schemaOf m hv).kind i = some k) ∨ (schemaOf m hv).rep i = true → ∃ fd, some fd ∈ m.field ∧ (getNumber (some fd)).toNat = i := by
    intro i h
    cases hf : fieldWith m i with
    | some fd => exact ⟨fd, fieldWith_some hf⟩
    | none =>
      exfalso
      rcases h with ⟨k, h⟩ | h
      · have h' : (fieldWith m i).bind fieldKind = some k := h
        rw [hf] at h'; cases h'
      · have h' : (match fieldWith m i with | some fd => getLabel (some fd) == 3 | none => false) = true := h
        rw [hf] at h'; cases h'
  -- the two values of `fieldKind`
  have hmsg : ∀ fd, getType (some fd) = 11 → fieldKind fd = some .bytes := by
    intro fd h; simp [fieldKind, h]
  have hsc : ∀ fd k, (getLabel (some fd) = 1 ∨ getLabel (some fd) = 2) → protoKind (getType (some fd)) = some k → fieldKind fd = some k := by
    intro fd k h1 h2
    have h3 : getType (some fd) ≠ 11 := by intro h; rw [h] at h2; cases h2
    have h4 : getLabel (some fd) ≠ 3 := by omega
    simp [fieldKind, h3, h4, h2]
  refine ⟨?_, ⟨nums, ht1, ?_⟩, ?_, ?_, ?_, ?_, ?_, ?_, ?_⟩
  · intro a s
    rw [hs1]
    have : slots = ((schemaOf m hv).n : Int) := by
      show slots = ((slotsOf m : Nat) : Int)
      have h1 : slotsOf m ≤ slots.toNat := by
        unfold slotsOf
        have hb : ((m.field.filterMap id).map (fun fd => (getNumber (some fd)).toNat)).foldr max 0 ≤ slots.toNat - 1 := by
          apply foldr_max_le
          intro n hn
          obtain ⟨fd, hfd, rfl⟩ := List.mem_map.1 hn
          obtain ⟨f, hf, rfl⟩ := List.mem_filterMap.1 hfd
          have := hs4 (some fd) hf
          rw [number_toInt hv hf] at this
          omega
        omega
      have h2 : slots ≤ ((slotsOf m : Nat) : Int) := by
        rcases hs3 with h | ⟨f, hf, h⟩
        · rw [h]; unfold slotsOf; omega
        · cases f with
          | none => exact absurd rfl (hv.present none hf)
          | some fd =>
            rw [h, number_toInt hv hf]
            have := le_foldr_max ((m.field.filterMap id).map (fun fd => (getNumber (some fd)).toNat)) (getNumber (some fd)).toNat
              (List.mem_map.2 ⟨fd, List.mem_filterMap.2 ⟨some fd, hf, rfl⟩, rfl⟩)
            unfold slotsOf
            omega
      omega
    rw [this]
  · intro n
    rw [ht2]
    constructor
    · rintro ⟨fd, hfd, hl, hn⟩
      exact ⟨(getNumber (some fd)).toNat, by rw [← hn, number_toInt hv hfd], (hr fd hfd).2 hl⟩
    · rintro ⟨i, rfl, hi⟩
      obtain ⟨fd, hfd, rfl⟩ := hof i (Or.inr hi)
      exact ⟨fd, hfd, (hr fd hfd).1 hi, number_toInt hv hfd⟩
  · simp [messageDecls]
  · intro i k hik hri
    obtain ⟨fd, hfd, rfl⟩ := hof i (Or.inl ⟨k, hik⟩)
    rw [hk fd hfd] at hik
    have hl3 : getLabel (some fd) ≠ 3 := fun h => by rw [(hr fd hfd).2 h] at hri; cases hri
    have hl : getLabel (some fd) = 1 ∨ getLabel (some fd) = 2 := by
      have := hv.labels fd hfd; omega
    refine ⟨toGoCase U (getName (some fd)), ?_⟩
    by_cases h11 : getType (some fd) = 11
    · rw [hmsg fd h11] at hik
      injection hik with hik
      refine Or.inr ⟨hik.symm, fieldToGoTypeMessage (getTypeName (some fd)), ?_, ?_⟩
      · exact (a3 _ _ _ _).2 ⟨fd, ⟨hfd, hl, h11⟩, by show _ = _; simp only [number_toInt hv hfd]⟩
      · exact (a4 _ _ _ _).2 ⟨fd, ⟨hfd, hl, h11⟩, by show _ = _; simp only [number_toInt hv hfd]⟩
    · have hp : protoKind (getType (some fd)) = some k := by
        simpa [fieldKind, h11, hl3] using hik
      refine Or.inl ⟨?_, ?_⟩
      · exact (a1 _ _ _ _ _).2 ⟨fd, k, ⟨hfd, hl, hp⟩, by show _ = _; simp only [number_toInt hv hfd]⟩
      · exact (a2 _ _ _ _ _).2 ⟨fd, k, ⟨hfd, hl, hp⟩, by show _ = _; simp only [number_toInt hv hfd]⟩
  · intro i k hik hri
    obtain ⟨fd, hfd, rfl⟩ := hof i (Or.inl ⟨k, hik⟩)
    rw [hk fd hfd] at hik
    have hl := (hr fd hfd).1 hri
    have h11 : getType (some fd) = 11 := by
      rcases Decidable.em (getType (some fd) = 11) with h | h
      · exact h
      · simp [fieldKind, h, hl] at hik
    refine ⟨toGoCase U (getName (some fd)), m.getName ++ fieldToGoTypeMessage (getTypeName (some fd)) ++ t!"Iterator",
      fieldToGoTypeMessage (getTypeName (some fd)), ?_, ?_, ?_, ?_⟩
    · exact (a5 _).2 ⟨fd, ⟨hfd, hl, h11⟩, rfl⟩
    · exact (a6 _ _ _).2 ⟨fd, ⟨hfd, hl, h11⟩, by show _ = _; simp only [number_toInt hv hfd]⟩
    · exact (a7 _ _ _ _).2 ⟨fd, ⟨hfd, hl, h11⟩, by show _ = _; simp only [number_toInt hv hfd]⟩
    · exact (a8 _ _ _ _).2 ⟨fd, ⟨hfd, hl, h11⟩, by show _ = _; simp only [number_toInt hv hfd]⟩
  · intro a fld t fn n h
    have h : ∃ fd k, (some fd ∈ m.field ∧ (getLabel (some fd) = 1 ∨ getLabel (some fd) = 2) ∧ protoKind (getType (some fd)) = some k) ∧
        (a, fld, t, fn, n) = (m.getName, toGoCase U (getName (some fd)), Kind.goType k, Kind.fn k, (getNumber (some fd)).toInt) := by
      rcases h with h | h
      · exact (a1 _ _ _ _ _).1 h
      · exact (a2 _ _ _ _ _).1 h
    obtain ⟨fd, k, ⟨hfd, hl, hp⟩, he⟩ := h
    injection he with e1 he; injection he with e2 he; injection he with e3 he; injection he with e4 e5
    exact ⟨_, k, by rw [e5, number_toInt hv hfd], by rw [hk fd hfd, hsc fd k hl hp], hr' fd hfd (by omega), e1, e3, e4⟩
  · intro a fld t n h
    have h : ∃ fd, (some fd ∈ m.field ∧ (getLabel (some fd) = 1 ∨ getLabel (some fd) = 2) ∧ getType (some fd) = 11) ∧
        (a, fld, t, n) = (m.getName, toGoCase U (getName (some fd)), fieldToGoTypeMessage (getTypeName (some fd)), (getNumber (some fd)).toInt) := by
      rcases h with h | h
      · exact (a3 _ _ _ _).1 h
      · exact (a4 _ _ _ _).1 h
    obtain ⟨fd, ⟨hfd, hl, h11⟩, he⟩ := h
    injection he with e1 he; injection he with e2 he; injection he with e3 e4
    exact ⟨_, by rw [e4, number_toInt hv hfd], by rw [hk fd hfd, hmsg fd h11], hr' fd hfd (by omega), e1⟩
  · intro a fld t n h
    have h : ∃ fd, (some fd ∈ m.field ∧ getLabel (some fd) = 3 ∧ getType (some fd) = 11) ∧ a = m.getName ∧ n = (getNumber (some fd)).toInt := by
      rcases h with h | h
      · obtain ⟨fd, h1, he⟩ := (a7 _ _ _ _).1 h
        injection he with e1 he; injection he with e2 he; injection he with e3 e4
        exact ⟨fd, h1, e1, e4⟩
      · obtain ⟨fd, h1, he⟩ := (a8 _ _ _ _).1 h
        injection he with e1 he; injection he with e2 he; injection he with e3 e4
        exact ⟨fd, h1, e1, e4⟩
    obtain ⟨fd, ⟨hfd, hl, h11⟩, e1, e4⟩ := h
    exact ⟨_, by rw [e4, number_toInt hv hfd], by rw [hk fd hfd, hmsg fd h11], (hr fd hfd).2 hl, e1⟩
  · intro it t n h
    obtain ⟨fd, ⟨hfd, hl, h11⟩, he⟩ := (a6 _ _ _).1 h
    injection he with e1 he; injection he with e2 e3
    exact ⟨_, by rw [e3]; exact number_toInt hv hfd, by rw [hk fd hfd, hmsg fd h11], (hr fd hfd).2 hl⟩

/-- `ValidDesc` can be checked by running it. -/
instance (m : Desc) : Decidable (ValidDesc m) :=
  decidable_of_iff
    ((∀ f ∈ m.field, f ≠ none) ∧
     (∀ fd ∈ m.field.filterMap id, 1 ≤ (getNumber (some fd)).toNat ∧ (getNumber (some fd)).toNat < 2 ^ 29) ∧
     m.field.Pairwise (fun f g => getNumber f ≠ getNumber g) ∧
     (∀ fd ∈ m.field.filterMap id, getLabel (some fd) = 1 ∨ getLabel (some fd) = 2 ∨ getLabel (some fd) = 3) ∧
     (∀ fd ∈ m.field.filterMap id, getType (some fd) = 11 ∨ protoKind (getType (some fd)) ≠ none))
    (by
      have hm : ∀ fd, fd ∈ m.field.filterMap id ↔ some fd ∈ m.field := by
        intro fd
        rw [List.mem_filterMap]
        constructor
        · rintro ⟨f, hf, rfl⟩; exact hf
        · intro h; exact ⟨_, h, rfl⟩
      simp only [hm]
      exact ⟨fun ⟨a, b, c, d, e⟩ => ⟨a, b, c, d, e⟩, fun ⟨a, b, c, d, e⟩ => ⟨a, b, c, d, e⟩⟩)

/-- The message of golden/test.proto. -/
def testDesc : Desc := (testFile.messageType.filterMap id).headD {}

/-- C51 is not vacuous: the declarations of both golden files are valid, and the schema of test.proto's message
is the schema `testSchema` used in the examples of the runtime properties. -/
theorem C51_golden :
    (∀ m ∈ testFile.messageType.filterMap id ++ raftFile.messageType.filterMap id, ValidDesc m) ∧
    testFile.messageType = [some testDesc] ∧
    ∃ hv : ValidDesc testDesc, schemaOf testDesc hv = testSchema := by
  have hv : ValidDesc testDesc := by decide +kernel
  refine ⟨by decide +kernel, rfl, hv, ?_⟩
  have hlt : ∀ i, i < 35 → (schemaOf testDesc hv).rep i = testRep i ∧ (schemaOf testDesc hv).kind i = testKind i := by
    have : ∀ hv : ValidDesc testDesc, ∀ i, i < 35 → (schemaOf testDesc hv).rep i = testRep i ∧ (schemaOf testDesc hv).kind i = testKind i := by
      intro _; show ∀ i, i < 35 → ((match fieldWith testDesc i with | some fd => getLabel (some fd) == 3 | none => false) = testRep i ∧
        (fieldWith testDesc i).bind fieldKind = testKind i)
      decide +kernel
    exact this hv
  have hge : ∀ i, 35 ≤ i → fieldWith testDesc i = none := by
    intro i hi
    unfold fieldWith
    rw [List.find?_eq_none]
    intro fd hfd
    have h0 : ∀ fd ∈ testDesc.field.filterMap id, (getNumber (some fd)).toNat < 35 := by decide +kernel
    have := h0 fd hfd
    simp only [decide_eq_true_eq]
    omega
  have hr : (schemaOf testDesc hv).rep = testRep := by
    funext i
    by_cases h : i < 35
    · exact (hlt i h).1
    · have h1 : (schemaOf testDesc hv).rep i = false := by
        show (match fieldWith testDesc i with | some fd => getLabel (some fd) == 3 | none => false) = false
        rw [hge i (by omega)]
      rw [h1]
      simp [testRep]; omega
  have hk : (schemaOf testDesc hv).kind = testKind := by
    funext i
    by_cases h : i < 35
    · exact (hlt i h).2
    · have h1 : (schemaOf testDesc hv).kind i = none := by
        show (fieldWith testDesc i).bind fieldKind = none
        rw [hge i (by omega)]; rfl
      rw [h1]
      cases h2 : testKind i with
      | none => rfl
      | some k => exact absurd (testSchema.kind_lt i (by show testKind i ≠ none; rw [h2]; simp)) (by show ¬ i < 35; exact h)
  have hn : (schemaOf testDesc hv).n = testSchema.n := by show slotsOf testDesc = 35; decide +kernel
  generalize schemaOf testDesc hv = S at hr hk hn
  obtain ⟨n, rep, kind, _, _, _⟩ := S
  simp only at hr hk hn
  subst hr hk hn
  rfl

/-! ## C52: names are declared -/

/-- Every package-level name a file refers to is declared in it if and only if the type of
each field of message type with accessors is, by the last component of its name, declared there. -/
theorem decls_closed_iff (U : Unicode) (f : FileDesc) :
    (∀ d ∈ fileDecls U f, ∀ n ∈ d.refersTo, ∃ d' ∈ fileDecls U f, d'.declares = (none, n)) ↔
    ∀ m, some m ∈ f.messageType → ∀ fd, some fd ∈ m.field → getType (some fd) = 11 →
      (getLabel (some fd) = 1 ∨ getLabel (some fd) = 2 ∨ getLabel (some fd) = 3) →
      ∃ d' ∈ fileDecls U f, d'.declares = (none, fieldToGoTypeMessage (getTypeName (some fd))) := by
  have hin : ∀ m, some m ∈ f.messageType → ∀ d ∈ messageDecls U m, d ∈ fileDecls U f :=
    fun m hm d hd => List.mem_flatMap.2 ⟨m, List.mem_filterMap.2 ⟨some m, hm, rfl⟩, hd⟩
  constructor
  · intro h m hm fd hfd ht hl
    obtain ⟨a1, a2, a3, a4, a5, a6, a7, a8⟩ := decls_accessors U m
    by_cases h3 : getLabel (some fd) = 3
    · exact h _ (hin m hm _ ((a8 _ _ _ _).2 ⟨fd, ⟨hfd, h3, ht⟩, rfl⟩)) _ (by simp [Decl.refersTo])
    · have h12 : getLabel (some fd) = 1 ∨ getLabel (some fd) = 2 := by omega
      exact h _ (hin m hm _ ((a3 _ _ _ _).2 ⟨fd, ⟨hfd, h12, ht⟩, rfl⟩)) _ (by simp [Decl.refersTo])
  · intro h d hd n hn
    obtain ⟨m, hm, hd⟩ := List.mem_flatMap.1 hd
    obtain ⟨m', hm', rfl⟩ := List.mem_filterMap.1 hm
    have hname : ∃ d' ∈ fileDecls U f, d'.declares = (none, m.getName) :=
      ⟨.struct m.getName (largestFieldID m.field + 1#32).toInt, hin m hm' _ (by simp [messageDecls]), rfl⟩
    have htab : ∃ d' ∈ fileDecls U f, d'.declares = (none, t!"repeatedFields_" ++ m.getName) :=
      ⟨.repeatedTable m.getName ((m.field.filter (fun f => getLabel f = 3)).map (fun f => (getNumber f).toInt)),
        hin m hm' _ (by simp [messageDecls]), rfl⟩
    obtain ⟨a1, a2, a3, a4, a5, a6, a7, a8⟩ := decls_accessors U m
    have hit : ∀ fd, (some fd ∈ m.field ∧ getLabel (some fd) = 3 ∧ getType (some fd) = 11) →
        ∃ d' ∈ fileDecls U f, d'.declares = (none, m.getName ++ fieldToGoTypeMessage (getTypeName (some fd)) ++ t!"Iterator") := by
      intro fd hfd
      exact ⟨_, hin m hm' _ ((a5 _).2 ⟨fd, hfd, rfl⟩), rfl⟩
    cases d with
    | struct _ _ => simp [Decl.refersTo] at hn
    | repeatedTable _ _ => simp [Decl.refersTo] at hn
    | iterType _ => simp [Decl.refersTo] at hn
    | encode a =>
      have ha : a = m.getName := by
        unfold messageDecls at hd
        rcases List.mem_append.1 hd with h | h
        · simpa using h
        · obtain ⟨f, _, h⟩ := List.mem_flatMap.1 h
          exfalso
          unfold fieldDecls at h
          simp only at h
          repeat' split at h
          all_goals simp at h
      subst ha
      have : n = m.getName := by simpa [Decl.refersTo] using hn
      subst this; exact hname
    | reset a =>
      have ha : a = m.getName := by
        unfold messageDecls at hd
        rcases List.mem_append.1 hd with h | h
        · simpa using h
        · obtain ⟨f, _, h⟩ := List.mem_flatMap.1 h
          exfalso
          unfold fieldDecls at h
          simp only at h
          repeat' split at h
          all_goals simp at h
      subst ha
      have : n = m.getName := by simpa [Decl.refersTo] using hn
      subst this; exact hname
    | decode a =>
      have ha : a = m.getName := by
        unfold messageDecls at hd
        rcases List.mem_append.1 hd with h | h
        · simpa using h
        · obtain ⟨f, _, h⟩ := List.mem_flatMap.1 h
          exfalso
          unfold fieldDecls at h
          simp only at h
          repeat' split at h
          all_goals simp at h
      subst ha
      simp only [Decl.refersTo, List.mem_cons, List.not_mem_nil, or_false] at hn
      rcases hn with rfl | rfl
      · exact hname
      · exact htab
    | get a b c e k =>
      obtain ⟨fd, kk, _, he⟩ := (a1 _ _ _ _ _).1 hd
      injection he with e1 he
      subst e1
      have : n = m.getName := by simpa [Decl.refersTo] using hn
      subst this; exact hname
    | set a b c e k =>
      obtain ⟨fd, kk, _, he⟩ := (a2 _ _ _ _ _).1 hd
      injection he with e1 he
      subst e1
      have : n = m.getName := by simpa [Decl.refersTo] using hn
      subst this; exact hname
    | getMessage a b c k =>
      obtain ⟨fd, ⟨hfd, hl, h11⟩, he⟩ := (a3 _ _ _ _).1 hd
      injection he with e1 he; injection he with e2 he; injection he with e3 he
      simp only [Decl.refersTo, List.mem_cons, List.not_mem_nil, or_false] at hn
      rcases hn with rfl | rfl
      · rw [e1]; exact hname
      · rw [e3]; exact h m hm' fd hfd h11 (by omega)
    | setMessage a b c k =>
      obtain ⟨fd, ⟨hfd, hl, h11⟩, he⟩ := (a4 _ _ _ _).1 hd
      injection he with e1 he; injection he with e2 he; injection he with e3 he
      simp only [Decl.refersTo, List.mem_cons, List.not_mem_nil, or_false] at hn
      rcases hn with rfl | rfl
      · rw [e1]; exact hname
      · rw [e3]; exact h m hm' fd hfd h11 (by omega)
    | iterNext a b k =>
      obtain ⟨fd, ⟨hfd, hl, h11⟩, he⟩ := (a6 _ _ _).1 hd
      injection he with e1 he; injection he with e2 he
      simp only [Decl.refersTo, List.mem_cons, List.not_mem_nil, or_false] at hn
      rcases hn with rfl | rfl
      · rw [e1]; exact hit fd ⟨hfd, hl, h11⟩
      · rw [e2]; exact h m hm' fd hfd h11 (by omega)
    | getRepeated a b c k =>
      obtain ⟨fd, ⟨hfd, hl, h11⟩, he⟩ := (a7 _ _ _ _).1 hd
      injection he with e1 he; injection he with e2 he; injection he with e3 he
      simp only [Decl.refersTo, List.mem_cons, List.not_mem_nil, or_false] at hn
      rcases hn with rfl | rfl
      · rw [e1]; exact hname
      · rw [e3]; exact hit fd ⟨hfd, hl, h11⟩
    | appendTo a b c k =>
      obtain ⟨fd, ⟨hfd, hl, h11⟩, he⟩ := (a8 _ _ _ _).1 hd
      injection he with e1 he; injection he with e2 he; injection he with e3 he
      simp only [Decl.refersTo, List.mem_cons, List.not_mem_nil, or_false] at hn
      rcases hn with rfl | rfl
      · rw [e1]; exact hname
      · rw [e3]; exact h m hm' fd hfd h11 (by omega)

/-- So a file whose message fields are of top-level message types of the file itself refers only to
names it declares. `p` is the package with a leading dot. -/
theorem decls_closed (U : Unicode) (f : FileDesc)
    (h : ∀ m, some m ∈ f.messageType → ∀ fd, some fd ∈ m.field → getType (some fd) = 11 →
      ∃ p m', some m' ∈ f.messageType ∧ '.' ∉ m'.getName ∧ getTypeName (some fd) = p ++ t!"." ++ m'.getName) :
    ∀ d ∈ fileDecls U f, ∀ n ∈ d.refersTo, ∃ d' ∈ fileDecls U f, d'.declares = (none, n) := by
  rw [decls_closed_iff]
  intro m hm fd hfd ht _
  obtain ⟨p, m', hm', hd, he⟩ := h m hm fd hfd ht
  rw [he, List.append_assoc, List.singleton_append, (C47_typeName m'.getName hd).2 p]
  exact ⟨.struct m'.getName (largestFieldID m'.field + 1#32).toInt,
    List.mem_flatMap.2 ⟨m', List.mem_filterMap.2 ⟨some m', hm', rfl⟩, by simp [messageDecls]⟩, rfl⟩

/-- The condition of C52 is not vacuous: the golden files refer only to names they declare, by the condition of `decls_closed`. -/
example :
    (∀ m ∈ testFile.messageType.filterMap id, ∀ fd ∈ m.field.filterMap id, getType (some fd) = 11 →
      ∃ m' ∈ testFile.messageType.filterMap id, '.' ∉ m'.getName ∧ getTypeName (some fd) = t!".testzeropb" ++ t!"." ++ m'.getName) ∧
    (∀ m ∈ raftFile.messageType.filterMap id, ∀ fd ∈ m.field.filterMap id, getType (some fd) = 11 →
      ∃ m' ∈ raftFile.messageType.filterMap id, '.' ∉ m'.getName ∧ getTypeName (some fd) = t!".raftpb" ++ t!"." ++ m'.getName) := by
  constructor <;> decide +kernel

end Zeropb
