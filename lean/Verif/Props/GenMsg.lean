import Verif.Props.Gen
import Verif.Gen.Golden
import Verif.Props.Defs
/-!
# The declarations of a message and of a file

Facts about `messageDecls` and `fileDecls`; what they say about the output of the generator is in Props/GenOut.
-/

namespace Zeropb
open Gen

/-! ## C41: the offset table and the accessors -/

private theorem largest_spec (fs : List FieldPtr) (init : U32) :
    let l := fs.foldl (fun largest f => let id := getNumber f; if id.toInt > largest.toInt then id else largest) init
    init.toInt ≤ l.toInt ∧ (∀ f ∈ fs, (getNumber f).toInt ≤ l.toInt) ∧ (l = init ∨ ∃ f ∈ fs, l = getNumber f) := by
  induction fs generalizing init with
  | nil => exact ⟨Int.le_refl _, by simp, Or.inl rfl⟩
  | cons f fs ih =>
    simp only [List.foldl_cons]
    by_cases h : (getNumber f).toInt > init.toInt
    · simp only [if_pos h]
      obtain ⟨h1, h2, h3⟩ := ih (getNumber f)
      refine ⟨Int.le_trans (Int.le_of_lt h) h1, ?_, ?_⟩
      · intro g hg
        rcases List.mem_cons.1 hg with rfl | hg
        · exact h1
        · exact h2 g hg
      · rcases h3 with h3 | ⟨g, hg, h3⟩
        · exact Or.inr ⟨f, List.mem_cons_self .., h3⟩
        · exact Or.inr ⟨g, List.mem_cons_of_mem _ hg, h3⟩
    · simp only [if_neg h]
      obtain ⟨h1, h2, h3⟩ := ih init
      refine ⟨h1, ?_, ?_⟩
      · intro g hg
        rcases List.mem_cons.1 hg with rfl | hg
        · exact Int.le_trans (Int.not_lt.1 h) h1
        · exact h2 g hg
      · rcases h3 with h3 | ⟨g, hg, h3⟩
        · exact Or.inl h3
        · exact Or.inr ⟨g, List.mem_cons_of_mem _ hg, h3⟩

private theorem slots_eq (m : Desc) (hn : ∀ f ∈ m.field, (getNumber f).toInt < 2 ^ 31 - 1) :
    (largestFieldID m.field + 1#32).toInt = (largestFieldID m.field).toInt + 1 := by
  have h0 := largest_spec m.field 0#32
  have hl : (largestFieldID m.field).toInt < 2 ^ 31 - 1 := by
    rcases h0.2.2 with h | ⟨f, hf, h⟩
    · have : largestFieldID m.field = 0#32 := h
      rw [this]; decide
    · have : largestFieldID m.field = getNumber f := h
      rw [this]; exact hn f hf
  have hp : 0 ≤ (largestFieldID m.field).toInt := h0.1
  rw [BitVec.toInt_add]
  have : (1#32).toInt = 1 := by decide
  rw [this, Int.bmod_def]
  omega

/-- A field number occurs in a declaration only if some field has it. -/
private theorem fieldDecls_num {U : Unicode} {msg : Text} {f : FieldPtr} {d : Decl} (h : d ∈ fieldDecls U msg f) :
    d.num = none ∨ d.num = some (getNumber f).toInt := by
  unfold fieldDecls at h
  simp only at h
  repeat' split at h
  all_goals simp only [List.mem_cons, List.not_mem_nil, or_false] at h
  all_goals first
    | cases h; done
    | (rcases h with rfl | rfl <;> simp [Decl.num])
    | (rcases h with rfl | rfl | rfl | rfl <;> simp [Decl.num])

/-- For every message type with field numbers below 2^31-1, the offset array of the generated struct is
longer than every declared field number, and no longer than needed (largest number plus one); so no generated
method passes a number that is out of range. -/
theorem decls_table (U : Unicode) (m : Desc) (hn : ∀ f ∈ m.field, (getNumber f).toInt < 2 ^ 31 - 1) :
    OffsetTable m (messageDecls U m) := by
  have h0 := largest_spec m.field 0#32
  have hs := slots_eq m hn
  have hnum : ∀ f ∈ m.field, (getNumber f).toInt < (largestFieldID m.field + 1#32).toInt := by
    intro f hf
    have h1 : (getNumber f).toInt ≤ (largestFieldID m.field).toInt := h0.2.1 f hf
    omega
  refine ⟨(largestFieldID m.field + 1#32).toInt, ?_, ?_, ?_, hnum, ?_⟩
  · intro name s
    constructor
    · intro h
      unfold messageDecls at h
      rcases List.mem_append.1 h with h | h
      · simp only [List.mem_cons, List.not_mem_nil, or_false] at h
        rcases h with h | h | h | h | h
        · injection h with h1 h2; exact ⟨h1, h2⟩
        all_goals cases h
      · obtain ⟨f, _, h⟩ := List.mem_flatMap.1 h
        exfalso
        unfold fieldDecls at h
        simp only at h
        repeat' split at h
        all_goals simp at h
    · rintro ⟨rfl, rfl⟩
      simp [messageDecls]
  · have : 0 ≤ (largestFieldID m.field).toInt := h0.1
    omega
  · rw [hs]
    rcases h0.2.2 with h | ⟨f, hf, h⟩
    · have : largestFieldID m.field = 0#32 := h
      rw [this]; exact Or.inl (by decide)
    · have : largestFieldID m.field = getNumber f := h
      rw [this]; exact Or.inr ⟨f, hf, rfl⟩
  · intro d hd n hdn
    unfold messageDecls at hd
    rcases List.mem_append.1 hd with h | h
    · simp only [List.mem_cons, List.not_mem_nil, or_false] at h
      rcases h with rfl | rfl | rfl | rfl | rfl <;> cases hdn
    · obtain ⟨f, hf, h⟩ := List.mem_flatMap.1 h
      rcases fieldDecls_num h with h1 | h1
      · rw [h1] at hdn; cases hdn
      · rw [h1] at hdn; injection hdn with hdn; rw [← hdn]; exact hnum f hf

/-- A field number of 2^31-1 (which protobuf does not allow, its limit being 2^29-1) makes the
length of the array wrap around to a negative number. -/
theorem decls_max (U : Unicode) (m : Desc) (h : ∃ f ∈ m.field, getNumber f = 0x7fffffff#32) :
    Decl.struct m.getName (-2 ^ 31) ∈ messageDecls U m := by
  have h0 := largest_spec m.field 0#32
  obtain ⟨f, hf, hv⟩ := h
  have h1 : (getNumber f).toInt ≤ (largestFieldID m.field).toInt := h0.2.1 f hf
  have h2 : (largestFieldID m.field) = 0x7fffffff#32 := by
    apply BitVec.eq_of_toInt_eq
    have h3 := BitVec.toInt_lt (x := largestFieldID m.field)
    rw [hv] at h1
    have h4 : (0x7fffffff#32 : U32).toInt = 2 ^ 31 - 1 := by decide
    rw [h4] at h1 ⊢
    simp only [Nat.reduceSub] at h3
    omega
  have h5 : (largestFieldID m.field + 1#32).toInt = -2 ^ 31 := by rw [h2]; decide
  rw [← h5]
  simp [messageDecls]

/-- The accessors of a message type, exactly. A scalar field that is not repeated has a getter and a
setter with the Go type and the `zeropb.Get…`/`zeropb.Set…` functions of its declared type and its own number;
a message field has `GetBytes`/`SetBytes` based ones; a repeated message field has an iterator based on
`GetRepeatedNonPacked`/`FindNextField` and an `AppendTo`. There are no others. -/
theorem decls_accessors (U : Unicode) (m : Desc) : Accessors U m (messageDecls U m) := by
  -- the three ways a declaration of a field comes about
  have cases3 : ∀ d, d ∈ m.field.flatMap (fieldDecls U m.getName) ↔ ∃ fd, some fd ∈ m.field ∧
      (((getLabel (some fd) = 1 ∨ getLabel (some fd) = 2) ∧ getType (some fd) = 11 ∧
          (d = .getMessage m.getName (toGoCase U (getName (some fd))) (fieldToGoTypeMessage (getTypeName (some fd))) (getNumber (some fd)).toInt ∨
           d = .setMessage m.getName (toGoCase U (getName (some fd))) (fieldToGoTypeMessage (getTypeName (some fd))) (getNumber (some fd)).toInt)) ∨
       ((getLabel (some fd) = 1 ∨ getLabel (some fd) = 2) ∧ ∃ k, protoKind (getType (some fd)) = some k ∧
          (d = .get m.getName (toGoCase U (getName (some fd))) (Kind.goType k) (Kind.fn k) (getNumber (some fd)).toInt ∨
           d = .set m.getName (toGoCase U (getName (some fd))) (Kind.goType k) (Kind.fn k) (getNumber (some fd)).toInt)) ∨
       (getLabel (some fd) = 3 ∧ getType (some fd) = 11 ∧
          (d = .iterType (m.getName ++ fieldToGoTypeMessage (getTypeName (some fd)) ++ t!"Iterator") ∨
           d = .iterNext (m.getName ++ fieldToGoTypeMessage (getTypeName (some fd)) ++ t!"Iterator") (fieldToGoTypeMessage (getTypeName (some fd))) (getNumber (some fd)).toInt ∨
           d = .getRepeated m.getName (toGoCase U (getName (some fd))) (m.getName ++ fieldToGoTypeMessage (getTypeName (some fd)) ++ t!"Iterator") (getNumber (some fd)).toInt ∨
           d = .appendTo m.getName (toGoCase U (getName (some fd))) (fieldToGoTypeMessage (getTypeName (some fd))) (getNumber (some fd)).toInt))) := by
    intro d
    rw [List.mem_flatMap]
    constructor
    · rintro ⟨f, hf, h⟩
      cases f with
      | none => simp [fieldDecls] at h
      | some fd =>
        refine ⟨fd, hf, ?_⟩
        unfold fieldDecls at h
        simp only [Option.isNone, Bool.false_eq_true, if_false] at h
        by_cases h1 : getLabel (some fd) = 1 ∨ getLabel (some fd) = 2
        · rw [if_pos h1] at h
          by_cases h2 : getType (some fd) = 11
          · rw [if_pos h2] at h
            simp only [List.mem_cons, List.not_mem_nil, or_false] at h
            exact Or.inl ⟨h1, h2, h⟩
          · rw [if_neg h2] at h
            cases hk : protoKind (getType (some fd)) with
            | none => simp [hk] at h
            | some k =>
              simp only [hk, List.mem_cons, List.not_mem_nil, or_false] at h
              exact Or.inr (Or.inl ⟨h1, k, rfl, h⟩)
        · rw [if_neg h1] at h
          by_cases h3 : getLabel (some fd) = 3 ∧ getType (some fd) = 11
          · rw [if_pos h3] at h
            simp only [List.mem_cons, List.not_mem_nil, or_false] at h
            exact Or.inr (Or.inr ⟨h3.1, h3.2, h⟩)
          · rw [if_neg h3] at h
            cases h
    · rintro ⟨fd, hf, h⟩
      refine ⟨some fd, hf, ?_⟩
      unfold fieldDecls
      simp only [Option.isNone, Bool.false_eq_true, if_false]
      rcases h with ⟨h1, h2, h⟩ | ⟨h1, k, hk, h⟩ | ⟨h3, h2, h⟩
      · rw [if_pos h1, if_pos h2]
        simpa using h
      · have h2 : getType (some fd) ≠ 11 := by
          intro h2; rw [h2] at hk; cases hk
        rw [if_pos h1, if_neg h2, hk]
        simpa using h
      · have h1 : ¬ (getLabel (some fd) = 1 ∨ getLabel (some fd) = 2) := by omega
        rw [if_neg h1, if_pos ⟨h3, h2⟩]
        simpa using h
  have memD : ∀ d, d ∈ messageDecls U m ↔ d ∈ ([.struct m.getName (largestFieldID m.field + 1#32).toInt,
       .repeatedTable m.getName ((m.field.filter (fun f => getLabel f = 3)).map (fun f => (getNumber f).toInt)),
       .encode m.getName, .decode m.getName, .reset m.getName] : List Decl) ∨ d ∈ m.field.flatMap (fieldDecls U m.getName) :=
    fun d => List.mem_append
  refine ⟨?_, ?_, ?_, ?_, ?_, ?_, ?_, ?_⟩
  · intro a b c d n
    rw [memD, cases3]
    constructor
    · rintro (h | ⟨fd, hf, ⟨_, _, h | h⟩ | ⟨h1, k, hk, h | h⟩ | ⟨_, _, h | h | h | h⟩⟩)
      · simp at h
      all_goals first | cases h; done | skip
      injection h with h1 h2 h3 h4 h5; subst h1 h2 h3 h4 h5
      exact ⟨fd, k, ⟨hf, ‹_›, hk⟩, rfl⟩
    · rintro ⟨fd, k, ⟨hf, h1, hk⟩, h⟩
      injection h with h2 h; injection h with h3 h; injection h with h4 h; injection h with h5 h6
      subst h2 h3 h4 h5 h6
      exact Or.inr ⟨fd, hf, Or.inr (Or.inl ⟨h1, k, hk, Or.inl rfl⟩)⟩
  · intro a b c d n
    rw [memD, cases3]
    constructor
    · rintro (h | ⟨fd, hf, ⟨_, _, h | h⟩ | ⟨h1, k, hk, h | h⟩ | ⟨_, _, h | h | h | h⟩⟩)
      · simp at h
      all_goals first | cases h; done | skip
      injection h with h1 h2 h3 h4 h5; subst h1 h2 h3 h4 h5
      exact ⟨fd, k, ⟨hf, ‹_›, hk⟩, rfl⟩
    · rintro ⟨fd, k, ⟨hf, h1, hk⟩, h⟩
      injection h with h2 h; injection h with h3 h; injection h with h4 h; injection h with h5 h6
      subst h2 h3 h4 h5 h6
      exact Or.inr ⟨fd, hf, Or.inr (Or.inl ⟨h1, k, hk, Or.inr rfl⟩)⟩
  · intro a b c n
    rw [memD, cases3]
    constructor
    · rintro (h | ⟨fd, hf, ⟨h1, h2, h | h⟩ | ⟨_, k, hk, h | h⟩ | ⟨_, _, h | h | h | h⟩⟩)
      · simp at h
      all_goals first | cases h; done | skip
      injection h with e1 e2 e3 e4; subst e1 e2 e3 e4
      exact ⟨fd, ⟨hf, h1, h2⟩, rfl⟩
    · rintro ⟨fd, ⟨hf, h1, h2⟩, h⟩
      injection h with e1 h; injection h with e2 h; injection h with e3 e4
      subst e1 e2 e3 e4
      exact Or.inr ⟨fd, hf, Or.inl ⟨h1, h2, Or.inl rfl⟩⟩
  · intro a b c n
    rw [memD, cases3]
    constructor
    · rintro (h | ⟨fd, hf, ⟨h1, h2, h | h⟩ | ⟨_, k, hk, h | h⟩ | ⟨_, _, h | h | h | h⟩⟩)
      · simp at h
      all_goals first | cases h; done | skip
      injection h with e1 e2 e3 e4; subst e1 e2 e3 e4
      exact ⟨fd, ⟨hf, h1, h2⟩, rfl⟩
    · rintro ⟨fd, ⟨hf, h1, h2⟩, h⟩
      injection h with e1 h; injection h with e2 h; injection h with e3 e4
      subst e1 e2 e3 e4
      exact Or.inr ⟨fd, hf, Or.inl ⟨h1, h2, Or.inr rfl⟩⟩
  · intro a
    rw [memD, cases3]
    constructor
    · rintro (h | ⟨fd, hf, ⟨_, _, h | h⟩ | ⟨_, k, hk, h | h⟩ | ⟨h1, h2, h | h | h | h⟩⟩)
      · simp at h
      all_goals first | cases h; done | skip
      injection h with e1; subst e1
      exact ⟨fd, ⟨hf, h1, h2⟩, rfl⟩
    · rintro ⟨fd, ⟨hf, h1, h2⟩, h⟩
      subst h
      exact Or.inr ⟨fd, hf, Or.inr (Or.inr ⟨h1, h2, Or.inl rfl⟩)⟩
  · intro a b n
    rw [memD, cases3]
    constructor
    · rintro (h | ⟨fd, hf, ⟨_, _, h | h⟩ | ⟨_, k, hk, h | h⟩ | ⟨h1, h2, h | h | h | h⟩⟩)
      · simp at h
      all_goals first | cases h; done | skip
      injection h with e1 e2 e3; subst e1 e2 e3
      exact ⟨fd, ⟨hf, h1, h2⟩, rfl⟩
    · rintro ⟨fd, ⟨hf, h1, h2⟩, h⟩
      injection h with e1 h; injection h with e2 e3
      subst e1 e2 e3
      exact Or.inr ⟨fd, hf, Or.inr (Or.inr ⟨h1, h2, Or.inr (Or.inl rfl)⟩)⟩
  · intro a b c n
    rw [memD, cases3]
    constructor
    · rintro (h | ⟨fd, hf, ⟨_, _, h | h⟩ | ⟨_, k, hk, h | h⟩ | ⟨h1, h2, h | h | h | h⟩⟩)
      · simp at h
      all_goals first | cases h; done | skip
      injection h with e1 e2 e3 e4; subst e1 e2 e3 e4
      exact ⟨fd, ⟨hf, h1, h2⟩, rfl⟩
    · rintro ⟨fd, ⟨hf, h1, h2⟩, h⟩
      injection h with e1 h; injection h with e2 h; injection h with e3 e4
      subst e1 e2 e3 e4
      exact Or.inr ⟨fd, hf, Or.inr (Or.inr ⟨h1, h2, Or.inr (Or.inr (Or.inl rfl))⟩)⟩
  · intro a b c n
    rw [memD, cases3]
    constructor
    · rintro (h | ⟨fd, hf, ⟨_, _, h | h⟩ | ⟨_, k, hk, h | h⟩ | ⟨h1, h2, h | h | h | h⟩⟩)
      · simp at h
      all_goals first | cases h; done | skip
      injection h with e1 e2 e3 e4; subst e1 e2 e3 e4
      exact ⟨fd, ⟨hf, h1, h2⟩, rfl⟩
    · rintro ⟨fd, ⟨hf, h1, h2⟩, h⟩
      injection h with e1 h; injection h with e2 h; injection h with e3 e4
      subst e1 e2 e3 e4
      exact Or.inr ⟨fd, hf, Or.inr (Or.inr ⟨h1, h2, Or.inr (Or.inr (Or.inr rfl))⟩)⟩

/-- Where the declarations of a message are in the output of the generator: in the text of the file, and in
the order of the messages. -/
theorem decl_in_text {U : Unicode} {req : Request} {out : List OutFile} (h : generate U req = .ok out)
    {f : FileDesc} (hf : f ∈ req.requested) {m : Desc} (hm : some m ∈ f.messageType) {d : Decl} (hd : d ∈ messageDecls U m) :
    ∃ o ∈ out, ∃ pre post, o.content = pre ++ d.text ++ post := by
  rw [C43_files U req out h]
  refine ⟨_, List.mem_map.2 ⟨f, hf, rfl⟩, ?_⟩
  have : d ∈ fileDecls U f := List.mem_flatMap.2 ⟨m, List.mem_filterMap.2 ⟨some m, hm, rfl⟩, hd⟩
  obtain ⟨l1, l2, hl⟩ := List.append_of_mem this
  refine ⟨code [(0, [t!"// Code generated by protoc-gen-zeropb. DO NOT EDIT.\n\n"]),
        (0, [t!"package ", f.getPackage, t!"\n\n"]),
        (0, [t!"import \"github.com/danhhz/zeropb\"", t!"\n\n"])] ++ l1.flatMap Decl.text, l2.flatMap Decl.text, ?_⟩
  simp only [fileText, hl, List.flatMap_append, List.flatMap_cons, List.append_assoc]

/-! ## C42: the repeated-field table -/

/-- The table of repeated fields for a message lists exactly the numbers of the fields with
label repeated (scalar or message), in order. -/
theorem decls_repeated (U : Unicode) (m : Desc) : RepeatedTable m (messageDecls U m) := by
  refine ⟨(m.field.filter (fun f => getLabel f = 3)).map (fun f => (getNumber f).toInt), ?_, ?_⟩
  · intro a l
    constructor
    · intro h
      unfold messageDecls at h
      rcases List.mem_append.1 h with h | h
      · simp only [List.mem_cons, List.not_mem_nil, or_false] at h
        rcases h with h | h | h | h | h
        · cases h
        · injection h with h1 h2; exact ⟨h1, h2⟩
        all_goals cases h
      · obtain ⟨f, _, h⟩ := List.mem_flatMap.1 h
        exfalso
        unfold fieldDecls at h
        simp only at h
        repeat' split at h
        all_goals simp at h
    · rintro ⟨rfl, rfl⟩
      simp [messageDecls]
  · intro n
    simp only [List.mem_map, List.mem_filter, decide_eq_true_eq]
    constructor
    · rintro ⟨f, ⟨hf, hl⟩, hn⟩
      cases f with
      | none => exact absurd hl (by decide)
      | some fd => exact ⟨fd, hf, hl, hn⟩
    · rintro ⟨fd, hf, hl, hn⟩
      exact ⟨some fd, ⟨hf, hl⟩, hn⟩

/-- C42: and this table is in the generated text. -/
theorem C42_in_text {U : Unicode} {req : Request} {out : List OutFile} (h : generate U req = .ok out)
    {f : FileDesc} (hf : f ∈ req.requested) {m : Desc} (hm : some m ∈ f.messageType) :
    ∃ o ∈ out, ∃ pre post, o.content = pre ++ (t!"var repeatedFields_" ++ m.getName ++ t!" = zeropb.RepeatedFields{\n" ++
      ((m.field.filter (fun f => getLabel f = 3)).flatMap (fun f => t!"  " ++ itoa (getNumber f).toInt ++ t!": struct{}{},\n")) ++
      t!"}\n\n") ++ post := by
  have hd : Decl.repeatedTable m.getName ((m.field.filter (fun f => getLabel f = 3)).map (fun f => (getNumber f).toInt)) ∈ messageDecls U m := by
    simp [messageDecls]
  obtain ⟨o, ho, pre, post, hc⟩ := decl_in_text h hf hm hd
  refine ⟨o, ho, pre, post, ?_⟩
  rw [hc]
  refine congrArg (fun x => pre ++ x ++ post) ?_
  have h0 : ind 0 = [] := rfl
  have h1 : ind 1 = t!"  " := rfl
  generalize m.field.filter (fun f => getLabel f = 3) = fs
  simp only [Decl.text, code, List.flatMap_append, List.flatMap_cons, List.flatMap_nil, List.append_nil, List.flatMap_map, h0, h1,
    List.nil_append, List.flatten_cons, List.flatten_nil, List.append_assoc]

/-! ## C44: no name is declared twice -/

/-- The fields that get accessors. -/
def Accessible (fd : Field) : Prop :=
  getLabel (some fd) = 1 ∨ getLabel (some fd) = 2 ∨ (getLabel (some fd) = 3 ∧ getType (some fd) = 11)

instance (fd : Field) : Decidable (Accessible fd) := by unfold Accessible; infer_instance

/-- The Go names of the fields with accessors of a message. -/
def fieldNames (U : Unicode) (m : Desc) : List Text :=
  ((m.field.filterMap id).filter (fun fd => Accessible fd)).map (fun fd => toGoCase U (getName (some fd)))

/-- The element types of the repeated message fields of a message. -/
def elementTypes (m : Desc) : List Text :=
  ((m.field.filterMap id).filter (fun fd => getLabel (some fd) = 3 ∧ getType (some fd) = 11)).map
    (fun fd => fieldToGoTypeMessage (getTypeName (some fd)))

/-- The iterator types of a message. -/
def iteratorTypes (m : Desc) : List Text := (elementTypes m).map (fun t => m.getName ++ t ++ t!"Iterator")

/-- Conditions on a file under which no name is declared twice. -/
structure NoClash (U : Unicode) (f : FileDesc) : Prop where
  /-- message types have different names -/
  messages : ((f.messageType.filterMap id).map Desc.getName).Nodup
  /-- iterator types have different names; in particular no message has two repeated fields of the same type -/
  iterators : ((f.messageType.filterMap id).flatMap iteratorTypes).Nodup
  /-- no message is named like an iterator type -/
  apart : ∀ m ∈ f.messageType.filterMap id, m.getName ∉ (f.messageType.filterMap id).flatMap iteratorTypes
  /-- no type is named like a table of repeated fields -/
  tables : ∀ n ∈ (f.messageType.filterMap id).map Desc.getName ++ (f.messageType.filterMap id).flatMap iteratorTypes,
    ¬ t!"repeatedFields_" <+: n
  /-- the fields of a message have different Go names, and these are not `Encode`, `Decode`, `Reset` and do
  not start with `Set` or `AppendTo` -/
  fields : ∀ m ∈ f.messageType.filterMap id, (fieldNames U m).Nodup ∧ ∀ n ∈ fieldNames U m,
    n ≠ t!"Encode" ∧ n ≠ t!"Decode" ∧ n ≠ t!"Reset" ∧ ¬ t!"Set" <+: n ∧ ¬ t!"AppendTo" <+: n

private theorem nodup_append {α : Type} {a b : List α} : (a ++ b).Nodup ↔ a.Nodup ∧ b.Nodup ∧ ∀ x ∈ a, x ∉ b := by
  rw [List.nodup_append]
  constructor
  · rintro ⟨h1, h2, h3⟩; exact ⟨h1, h2, fun x hx hb => h3 x hx x hb rfl⟩
  · rintro ⟨h1, h2, h3⟩; exact ⟨h1, h2, fun x hx y hy e => h3 x hx (e ▸ hy)⟩

/-- Where the names declared for a field lie. -/
private theorem fieldDecls_names {U : Unicode} {msg : Text} {f : FieldPtr} {x : Option Text × Text}
    (h : x ∈ (fieldDecls U msg f).map Decl.declares) :
    ∃ fd, f = some fd ∧ Accessible fd ∧
      (x = (some msg, toGoCase U (getName f)) ∨
       x = (some msg, t!"Set" ++ toGoCase U (getName f)) ∨
       x = (some msg, t!"AppendTo" ++ toGoCase U (getName f)) ∨
       ((getLabel f = 3 ∧ getType f = 11) ∧
         (x = (none, msg ++ fieldToGoTypeMessage (getTypeName f) ++ t!"Iterator") ∨
          x = (some (msg ++ fieldToGoTypeMessage (getTypeName f) ++ t!"Iterator"), t!"Next")))) := by
  cases f with
  | none => simp [fieldDecls] at h
  | some fd =>
    refine ⟨fd, rfl, ?_⟩
    unfold fieldDecls at h
    simp only [Option.isNone, Bool.false_eq_true, if_false] at h
    by_cases h1 : getLabel (some fd) = 1 ∨ getLabel (some fd) = 2
    · have ha : Accessible fd := by rcases h1 with h1 | h1 <;> simp [Accessible, h1]
      refine ⟨ha, ?_⟩
      rw [if_pos h1] at h
      by_cases h2 : getType (some fd) = 11
      · rw [if_pos h2] at h
        simp only [List.map_cons, List.map_nil, Decl.declares, List.mem_cons, List.not_mem_nil, or_false] at h
        rcases h with h | h
        · exact Or.inl h
        · exact Or.inr (Or.inl h)
      · rw [if_neg h2] at h
        cases hk : protoKind (getType (some fd)) with
        | none => simp [hk] at h
        | some k =>
          simp only [hk, List.map_cons, List.map_nil, Decl.declares, List.mem_cons, List.not_mem_nil, or_false] at h
          rcases h with h | h
          · exact Or.inl h
          · exact Or.inr (Or.inl h)
    · rw [if_neg h1] at h
      by_cases h3 : getLabel (some fd) = 3 ∧ getType (some fd) = 11
      · have ha : Accessible fd := by simp [Accessible, h3]
        refine ⟨ha, ?_⟩
        rw [if_pos h3] at h
        simp only [List.map_cons, List.map_nil, Decl.declares, List.mem_cons, List.not_mem_nil, or_false] at h
        rcases h with h | h | h | h
        · exact Or.inr (Or.inr (Or.inr ⟨h3, Or.inl h⟩))
        · exact Or.inr (Or.inr (Or.inr ⟨h3, Or.inr h⟩))
        · exact Or.inl h
        · exact Or.inr (Or.inr (Or.inl h))
      · rw [if_neg h3] at h
        cases h

private theorem not_prefix_append {p n : Text} (h : ¬ p <+: n) {t : Text} : n ≠ p ++ t := by
  intro e; exact h (e ▸ List.prefix_append _ _)

/-- The names declared for one field are different. -/
private theorem fieldDecls_nodup {U : Unicode} {msg : Text} {f : FieldPtr} :
    ((fieldDecls U msg f).map Decl.declares).Nodup := by
  have hlen : ∀ (p n : Text), p ≠ [] → n ≠ p ++ n := by
    intro p n hp e
    have := congrArg List.length e
    rw [List.length_append] at this
    have : 0 < p.length := List.length_pos_iff.2 hp
    omega
  have hit : ∀ t : Text, msg ≠ msg ++ t ++ t!"Iterator" := by
    intro t e
    have := congrArg List.length e
    simp only [List.length_append, List.length_cons] at this
    omega
  unfold fieldDecls
  simp only
  repeat' split
  all_goals simp only [List.map_cons, List.map_nil, Decl.declares, List.nodup_cons, List.mem_cons, List.not_mem_nil, or_false,
    List.nodup_nil, and_true, Prod.mk.injEq, true_and, Option.some.injEq, not_false_eq_true]
  all_goals first
    | trivial
    | exact hlen _ _ (by simp)
    | skip
  refine ⟨?_, ?_, ?_⟩
  · rintro (h | h | h) <;> exact absurd h.1 (by simp)
  · rintro (h | h)
    · exact hit _ h.1.symm
    · exact hit _ h.1.symm
  · exact hlen _ _ (by simp)

private theorem mem_fieldNames {U : Unicode} {m : Desc} {fd : Field} (h : some fd ∈ m.field) (ha : Accessible fd) :
    toGoCase U (getName (some fd)) ∈ fieldNames U m :=
  List.mem_map.2 ⟨fd, List.mem_filter.2 ⟨List.mem_filterMap.2 ⟨some fd, h, rfl⟩, by simpa using ha⟩, rfl⟩

private theorem mem_iteratorTypes {m : Desc} {fd : Field} (h : some fd ∈ m.field) (ha : getLabel (some fd) = 3 ∧ getType (some fd) = 11) :
    m.getName ++ fieldToGoTypeMessage (getTypeName (some fd)) ++ t!"Iterator" ∈ iteratorTypes m :=
  List.mem_map.2 ⟨_, List.mem_map.2 ⟨fd, List.mem_filter.2 ⟨List.mem_filterMap.2 ⟨some fd, h, rfl⟩, by simpa using ha⟩, rfl⟩, rfl⟩

private theorem mem_of_eq {α : Type} {a b : α} {l : List α} (h : a = b) (hb : b ∈ l) : a ∈ l := h ▸ hb

/-- The names declared for the fields of a message are different, and not those of the fixed methods. -/
private theorem fields_nodup {U : Unicode} {msg : Text} {fs : List FieldPtr}
    (h1 : (fieldNames U ⟨some msg, fs⟩).Nodup)
    (h2 : ∀ n ∈ fieldNames U ⟨some msg, fs⟩, ¬ t!"Set" <+: n ∧ ¬ t!"AppendTo" <+: n)
    (h3 : (iteratorTypes ⟨some msg, fs⟩).Nodup) (h4 : msg ∉ iteratorTypes ⟨some msg, fs⟩) :
    ((fs.flatMap (fieldDecls U msg)).map Decl.declares).Nodup := by
  induction fs with
  | nil => simp
  | cons f fs ih =>
    rw [List.flatMap_cons, List.map_append, nodup_append]
    -- the facts about the remaining fields
    have e1 : fieldNames U ⟨some msg, f :: fs⟩ =
        (match f with | some fd => if Accessible fd then [toGoCase U (getName (some fd))] else [] | none => []) ++ fieldNames U ⟨some msg, fs⟩ := by
      cases f with
      | none => simp [fieldNames]
      | some fd => by_cases h : Accessible fd <;> simp [fieldNames, h]
    have e3 : iteratorTypes ⟨some msg, f :: fs⟩ =
        (match f with
          | some fd => if getLabel (some fd) = 3 ∧ getType (some fd) = 11 then
              [msg ++ fieldToGoTypeMessage (getTypeName (some fd)) ++ t!"Iterator"] else []
          | none => []) ++ iteratorTypes ⟨some msg, fs⟩ := by
      cases f with
      | none => simp [iteratorTypes, elementTypes, Desc.getName]
      | some fd =>
        by_cases h : getLabel (some fd) = 3 ∧ getType (some fd) = 11
        · simp [iteratorTypes, elementTypes, h, Desc.getName]
        · have hb : (decide (getLabel (some fd) = 3) && decide (getType (some fd) = 11)) = false := by
            simpa using h
          simp [iteratorTypes, elementTypes, h, hb, Desc.getName]
    rw [e1] at h1 h2
    rw [e3] at h3 h4
    have n1 := nodup_append.1 h1
    have n3 := nodup_append.1 h3
    have hrest := ih n1.2.1 (fun n hn => h2 n (List.mem_append_right _ hn)) n3.2.1 (fun h => h4 (List.mem_append_right _ h))
    refine ⟨fieldDecls_nodup, hrest, ?_⟩
    intro x hx hy
    obtain ⟨fd, rfl, ha, hx⟩ := fieldDecls_names hx
    obtain ⟨d', hd', rfl⟩ := List.mem_map.1 hy
    obtain ⟨g, hg, hd'⟩ := List.mem_flatMap.1 hd'
    obtain ⟨gd, rfl, ga, hy⟩ := fieldDecls_names (List.mem_map.2 ⟨d', hd', rfl⟩)
    -- the Go names of the two fields differ
    have hmemg : toGoCase U (getName (some gd)) ∈ fieldNames U ⟨some msg, fs⟩ := mem_fieldNames (m := ⟨some msg, fs⟩) hg ga
    have hmemf : toGoCase U (getName (some fd)) ∈ ([toGoCase U (getName (some fd))] : List Text) := List.mem_singleton.2 rfl
    simp only [ha, if_true] at n1 h2
    have hne : toGoCase U (getName (some fd)) ≠ toGoCase U (getName (some gd)) := by
      intro e; exact n1.2.2 _ hmemf (e ▸ hmemg)
    have pf := h2 _ (List.mem_append_left _ hmemf)
    have pg := h2 _ (List.mem_append_right _ hmemg)
    have hSA : ∀ a b : Text, t!"Set" ++ a ≠ t!"AppendTo" ++ b := by
      intro a b e; simp at e
    have hitg : ∀ (h : getLabel (some gd) = 3 ∧ getType (some gd) = 11),
        msg ++ fieldToGoTypeMessage (getTypeName (some gd)) ++ t!"Iterator" ∈ iteratorTypes ⟨some msg, fs⟩ := by
      intro h; exact mem_iteratorTypes (m := ⟨some msg, fs⟩) hg h
    have hitf : ∀ (h : getLabel (some fd) = 3 ∧ getType (some fd) = 11),
        msg ++ fieldToGoTypeMessage (getTypeName (some fd)) ++ t!"Iterator" ∈
          (if getLabel (some fd) = 3 ∧ getType (some fd) = 11 then
              [msg ++ fieldToGoTypeMessage (getTypeName (some fd)) ++ t!"Iterator"] else [] : List Text) := by
      intro h; rw [if_pos h]; exact List.mem_singleton.2 rfl
    rcases hx with hx | hx | hx | ⟨lf, hx | hx⟩ <;> rcases hy with hy | hy | hy | ⟨lg, hy | hy⟩ <;> rw [hy] at hx <;>
      simp only [Prod.mk.injEq, Option.some.injEq, true_and, reduceCtorEq, false_and] at hx
    · exact hne hx.symm
    · exact not_prefix_append pf.1 hx.symm
    · exact not_prefix_append pf.2 hx.symm
    · exact h4 (List.mem_append_right _ (mem_of_eq hx.1.symm (hitg lg)))
    · exact not_prefix_append pg.1 hx
    · exact hne (List.append_cancel_left hx).symm
    · exact hSA _ _ hx.symm
    · exact h4 (List.mem_append_right _ (mem_of_eq hx.1.symm (hitg lg)))
    · exact not_prefix_append pg.2 hx
    · exact hSA _ _ hx
    · exact hne (List.append_cancel_left hx).symm
    · exact h4 (List.mem_append_right _ (mem_of_eq hx.1.symm (hitg lg)))
    · exact n3.2.2 _ (hitf lf) (mem_of_eq hx.symm (hitg lg))
    · exact h4 (List.mem_append_left _ (mem_of_eq hx.1 (hitf lf)))
    · exact h4 (List.mem_append_left _ (mem_of_eq hx.1 (hitf lf)))
    · exact h4 (List.mem_append_left _ (mem_of_eq hx.1 (hitf lf)))
    · exact n3.2.2 _ (hitf lf) (mem_of_eq hx.1.symm (hitg lg))

/-- Where the names declared for a message lie. -/
private theorem messageDecls_names {U : Unicode} {m : Desc} {x : Option Text × Text}
    (h : x ∈ (messageDecls U m).map Decl.declares) :
    (∃ s, x = (some m.getName, s)) ∨ x = (none, m.getName) ∨ x = (none, t!"repeatedFields_" ++ m.getName) ∨
    (∃ it ∈ iteratorTypes m, x = (none, it)) ∨ (∃ it ∈ iteratorTypes m, x = (some it, t!"Next")) := by
  unfold messageDecls at h
  rw [List.map_append] at h
  rcases List.mem_append.1 h with h | h
  · simp only [List.map_cons, List.map_nil, Decl.declares, List.mem_cons, List.not_mem_nil, or_false] at h
    rcases h with h | h | h | h | h
    · exact Or.inr (Or.inl h)
    · exact Or.inr (Or.inr (Or.inl h))
    all_goals exact Or.inl ⟨_, h⟩
  · obtain ⟨d, hd, rfl⟩ := List.mem_map.1 h
    obtain ⟨f, hf, hd⟩ := List.mem_flatMap.1 hd
    obtain ⟨fd, rfl, ha, hx⟩ := fieldDecls_names (List.mem_map.2 ⟨d, hd, rfl⟩)
    rcases hx with hx | hx | hx | ⟨lf, hx | hx⟩
    · exact Or.inl ⟨_, hx⟩
    · exact Or.inl ⟨_, hx⟩
    · exact Or.inl ⟨_, hx⟩
    · exact Or.inr (Or.inr (Or.inr (Or.inl ⟨_, mem_iteratorTypes hf lf, hx⟩)))
    · exact Or.inr (Or.inr (Or.inr (Or.inr ⟨_, mem_iteratorTypes hf lf, hx⟩)))

private theorem message_nodup {U : Unicode} {m : Desc}
    (hf : (fieldNames U m).Nodup ∧ ∀ n ∈ fieldNames U m,
      n ≠ t!"Encode" ∧ n ≠ t!"Decode" ∧ n ≠ t!"Reset" ∧ ¬ t!"Set" <+: n ∧ ¬ t!"AppendTo" <+: n)
    (hi : (iteratorTypes m).Nodup) (ha : m.getName ∉ iteratorTypes m)
    (ht : ∀ n ∈ m.getName :: iteratorTypes m, ¬ t!"repeatedFields_" <+: n) :
    ((messageDecls U m).map Decl.declares).Nodup := by
  unfold messageDecls
  rw [List.map_append, nodup_append]
  have hne : m.getName ≠ t!"repeatedFields_" ++ m.getName := not_prefix_append (ht _ (List.mem_cons_self ..))
  refine ⟨?_, ?_, ?_⟩
  · simp only [List.map_cons, List.map_nil, Decl.declares, List.nodup_cons, List.mem_cons, List.not_mem_nil, or_false,
      List.nodup_nil, and_true, Prod.mk.injEq, true_and, not_false_eq_true, reduceCtorEq, false_and, or_self]
    exact ⟨hne, by decide⟩
  · exact fields_nodup (msg := m.getName) (fs := m.field) hf.1 (fun n hn => (hf.2 n hn).2.2.2) hi ha
  · intro x hx hy
    obtain ⟨d, hd, rfl⟩ := List.mem_map.1 hy
    obtain ⟨f, hfm, hd⟩ := List.mem_flatMap.1 hd
    obtain ⟨fd, rfl, hac, hy⟩ := fieldDecls_names (List.mem_map.2 ⟨d, hd, rfl⟩)
    have hn := hf.2 _ (mem_fieldNames (U := U) hfm hac)
    simp only [List.map_cons, List.map_nil, Decl.declares, List.mem_cons, List.not_mem_nil, or_false] at hx
    rcases hy with hy | hy | hy | ⟨lf, hy | hy⟩ <;> rcases hx with hx | hx | hx | hx | hx <;>
      simp only [Decl.declares] at hx hy <;> rw [hy] at hx <;>
      simp only [Prod.mk.injEq, Option.some.injEq, true_and, reduceCtorEq, false_and] at hx
    · exact hn.1 hx
    · exact hn.2.1 hx
    · exact hn.2.2.1 hx
    · simp at hx
    · simp at hx
    · simp at hx
    · simp at hx
    · simp at hx
    · simp at hx
    · exact ha (mem_of_eq hx.symm (mem_iteratorTypes hfm lf))
    · exact not_prefix_append (ht _ (List.mem_cons_of_mem _ (mem_iteratorTypes hfm lf))) hx
    · simp at hx
    · simp at hx
    · simp at hx

/-- Under `NoClash`, no name is declared twice in the generated file. -/
theorem decls_no_duplicates (U : Unicode) (f : FileDesc) (h : NoClash U f) :
    ((fileDecls U f).map Decl.declares).Nodup := by
  obtain ⟨h1, h2, h3, h4, h5⟩ := h
  unfold fileDecls
  generalize f.messageType.filterMap id = ms at h1 h2 h3 h4 h5 ⊢
  induction ms with
  | nil => simp
  | cons m ms ih =>
    rw [List.flatMap_cons, List.map_append, nodup_append]
    rw [List.map_cons, List.nodup_cons] at h1
    rw [List.flatMap_cons, nodup_append] at h2
    have hm : m ∈ m :: ms := List.mem_cons_self ..
    have hi : ∀ m' ∈ m :: ms, ∀ it ∈ iteratorTypes m', it ∈ (m :: ms).flatMap iteratorTypes :=
      fun m' hm' it hit => List.mem_flatMap.2 ⟨m', hm', hit⟩
    have ht1 : ∀ m' ∈ m :: ms, ¬ t!"repeatedFields_" <+: m'.getName :=
      fun m' hm' => h4 _ (List.mem_append_left _ (List.mem_map.2 ⟨m', hm', rfl⟩))
    have ht2 : ∀ m' ∈ m :: ms, ∀ it ∈ iteratorTypes m', ¬ t!"repeatedFields_" <+: it :=
      fun m' hm' it hit => h4 _ (List.mem_append_right _ (hi m' hm' it hit))
    refine ⟨?_, ?_, ?_⟩
    · refine message_nodup (h5 m hm) h2.1 (fun h => h3 m hm (hi m hm _ h)) ?_
      intro n hn
      rcases List.mem_cons.1 hn with rfl | hn
      · exact ht1 m hm
      · exact ht2 m hm n hn
    · refine ih h1.2 h2.2.1 ?_ ?_ (fun m' hm' => h5 m' (List.mem_cons_of_mem _ hm'))
      · intro m' hm' h
        refine h3 m' (List.mem_cons_of_mem _ hm') ?_
        rw [List.flatMap_cons]
        exact List.mem_append_right _ h
      · intro n hn
        apply h4
        rw [List.map_cons, List.flatMap_cons]
        rcases List.mem_append.1 hn with hn | hn
        · exact List.mem_append_left _ (List.mem_cons_of_mem _ hn)
        · exact List.mem_append_right _ (List.mem_append_right _ hn)
    · intro x hx hy
      obtain ⟨d, hd, rfl⟩ := List.mem_map.1 hy
      obtain ⟨m', hm', hd⟩ := List.mem_flatMap.1 hd
      have hm2 : m' ∈ m :: ms := List.mem_cons_of_mem _ hm'
      have hy := messageDecls_names (List.mem_map.2 ⟨d, hd, rfl⟩)
      have hx := messageDecls_names hx
      have hne : m.getName ≠ m'.getName := fun e => h1.1 (List.mem_map.2 ⟨m', hm', e.symm⟩)
      have hii : ∀ it ∈ iteratorTypes m, it ∉ iteratorTypes m' :=
        fun it hit hit' => h2.2.2 it hit (List.mem_flatMap.2 ⟨m', hm', hit'⟩)
      rcases hx with ⟨s, hx⟩ | hx | hx | ⟨it, hit, hx⟩ | ⟨it, hit, hx⟩ <;>
        rcases hy with ⟨s', hy⟩ | hy | hy | ⟨it', hit', hy⟩ | ⟨it', hit', hy⟩ <;> rw [hy] at hx <;>
        simp only [Prod.mk.injEq, Option.some.injEq, true_and, and_true, reduceCtorEq, false_and] at hx
      · exact hne hx.1.symm
      · exact h3 m hm (mem_of_eq hx.1.symm (hi m' hm2 _ hit'))
      · exact hne hx.symm
      · exact not_prefix_append (ht1 m hm) hx.symm
      · exact h3 m hm (mem_of_eq hx.symm (hi m' hm2 _ hit'))
      · exact not_prefix_append (ht1 m' hm2) hx
      · exact hne (List.append_cancel_left hx).symm
      · exact not_prefix_append (ht2 m' hm2 _ hit') hx
      · exact h3 m' hm2 (mem_of_eq hx (hi m hm _ hit))
      · exact not_prefix_append (ht2 m hm _ hit) hx.symm
      · exact hii _ hit (mem_of_eq hx.symm hit')
      · exact h3 m' hm2 (mem_of_eq hx.1 (hi m hm _ hit))
      · exact hii _ hit (mem_of_eq hx.symm hit')

/-- The package-level names declared for a message: its type, its table of repeated fields and its iterator
types. -/
def packageNames (m : Desc) : List Text := m.getName :: (t!"repeatedFields_" ++ m.getName) :: iteratorTypes m

/-- The accessor methods of a field. -/
def accessorNames (U : Unicode) (f : FieldPtr) : List Text :=
  let n := toGoCase U (getName f)
  if f = none then []
  else if getLabel f = 3 ∧ getType f = 11 then [n, t!"AppendTo" ++ n]
  else if (getLabel f = 1 ∨ getLabel f = 2) ∧ (getType f = 11 ∨ protoKind (getType f) ≠ none) then [n, t!"Set" ++ n]
  else []

/-- The methods of a message type. -/
def methodNames (U : Unicode) (m : Desc) : List Text :=
  [t!"Encode", t!"Decode", t!"Reset"] ++ m.field.flatMap (accessorNames U)

/-- The names with receiver `r`. -/
private def sel (r : Option Text) (l : List (Option Text × Text)) : List Text := (l.filter (fun x => x.1 = r)).map Prod.snd

private theorem sel_append (r : Option Text) (a b : List (Option Text × Text)) : sel r (a ++ b) = sel r a ++ sel r b := by
  simp [sel]

private theorem sel_nil (r : Option Text) : sel r [] = [] := rfl

private theorem sel_cons (r : Option Text) (x : Option Text × Text) (l : List (Option Text × Text)) :
    sel r (x :: l) = (if x.1 = r then [x.2] else []) ++ sel r l := by
  by_cases h : x.1 = r <;> simp [sel, h]

private theorem mem_sel {r : Option Text} {l : List (Option Text × Text)} {n : Text} : n ∈ sel r l ↔ (r, n) ∈ l := by
  simp only [sel, List.mem_map, List.mem_filter, decide_eq_true_eq]
  constructor
  · rintro ⟨x, ⟨hx, rfl⟩, rfl⟩; exact hx
  · intro h; exact ⟨_, ⟨h, rfl⟩, rfl⟩

private theorem nodup_iff_sel (l : List (Option Text × Text)) : l.Nodup ↔ ∀ r, (sel r l).Nodup := by
  induction l with
  | nil => simp [sel_nil]
  | cons x l ih =>
    rw [List.nodup_cons, ih]
    constructor
    · rintro ⟨h1, h2⟩ r
      rw [sel_cons]
      by_cases h : x.1 = r
      · rw [if_pos h, List.singleton_append, List.nodup_cons]
        refine ⟨fun hm => h1 ?_, h2 r⟩
        have := mem_sel.1 hm
        rw [← h] at this
        exact this
      · rw [if_neg h, List.nil_append]; exact h2 r
    · intro h
      refine ⟨?_, ?_⟩
      · intro hx
        have h1 := h x.1
        rw [sel_cons, if_pos rfl, List.singleton_append, List.nodup_cons] at h1
        exact h1.1 (mem_sel.2 hx)
      · intro r
        have h1 := h r
        rw [sel_cons] at h1
        exact (nodup_append.1 h1).2.1

/-- The names declared for a field, exactly. -/
private theorem fieldDecls_eq (U : Unicode) (msg : Text) (f : FieldPtr) :
    (fieldDecls U msg f).map Decl.declares =
      (if f ≠ none ∧ getLabel f = 3 ∧ getType f = 11 then
        [(none, msg ++ fieldToGoTypeMessage (getTypeName f) ++ t!"Iterator"),
         (some (msg ++ fieldToGoTypeMessage (getTypeName f) ++ t!"Iterator"), t!"Next")] else []) ++
      (accessorNames U f).map (fun n => (some msg, n)) := by
  cases f with
  | none => simp [fieldDecls, accessorNames]
  | some fd =>
    unfold fieldDecls accessorNames
    simp only [Option.isNone, Bool.false_eq_true, if_false, reduceCtorEq, ne_eq, not_false_eq_true, true_and]
    by_cases h1 : getLabel (some fd) = 1 ∨ getLabel (some fd) = 2
    · have h3 : ¬ (getLabel (some fd) = 3 ∧ getType (some fd) = 11) := by omega
      rw [if_pos h1, if_neg h3, if_neg h3]
      by_cases h2 : getType (some fd) = 11
      · rw [if_pos h2, if_pos ⟨h1, Or.inl h2⟩]; rfl
      · rw [if_neg h2]
        cases hk : protoKind (getType (some fd)) with
        | none => rw [if_neg (by simp [h2])]; rfl
        | some k => rw [if_pos ⟨h1, Or.inr (by simp)⟩]; rfl
    · rw [if_neg h1]
      by_cases h3 : getLabel (some fd) = 3 ∧ getType (some fd) = 11
      · rw [if_pos h3, if_pos h3, if_pos h3]; rfl
      · rw [if_neg h3, if_neg h3, if_neg h3, if_neg (fun h => h1 h.1)]; rfl

private theorem sel_none_map (msg : Text) (ns : List Text) : sel none (ns.map (fun n => (some msg, n))) = [] := by
  induction ns with
  | nil => rfl
  | cons n ns ih => rw [List.map_cons, sel_cons, ih]; simp

private theorem sel_some_map (msg t : Text) (ns : List Text) :
    sel (some t) (ns.map (fun n => (some msg, n))) = if msg = t then ns else [] := by
  induction ns with
  | nil => simp [sel_nil]
  | cons n ns ih =>
    rw [List.map_cons, sel_cons, ih]
    by_cases h : msg = t <;> simp [h]

/-- The iterator type of a field. -/
private def itOf (msg : Text) (f : FieldPtr) : List Text :=
  if f ≠ none ∧ getLabel f = 3 ∧ getType f = 11 then [msg ++ fieldToGoTypeMessage (getTypeName f) ++ t!"Iterator"] else []

private theorem iteratorTypes_eq (m : Desc) : iteratorTypes m = m.field.flatMap (itOf m.getName) := by
  unfold iteratorTypes elementTypes
  generalize m.getName = nm
  generalize m.field = fs
  induction fs with
  | nil => rfl
  | cons f fs ih =>
    rw [List.flatMap_cons, ← ih]
    cases f with
    | none => simp [itOf]
    | some fd =>
      by_cases h : getLabel (some fd) = 3 ∧ getType (some fd) = 11
      · simp [itOf, h]
      · have hb : (decide (getLabel (some fd) = 3) && decide (getType (some fd) = 11)) = false := by
          simpa using h
        simp [itOf, h, hb]

private theorem sel_flatMap {α : Type} (r : Option Text) (g : α → List Decl) (l : List α) :
    sel r ((l.flatMap g).map Decl.declares) = l.flatMap (fun a => sel r ((g a).map Decl.declares)) := by
  induction l with
  | nil => rfl
  | cons a l ih => rw [List.flatMap_cons, List.map_append, sel_append, ih, List.flatMap_cons]

private theorem sel_field_none (U : Unicode) (msg : Text) (f : FieldPtr) :
    sel none ((fieldDecls U msg f).map Decl.declares) = itOf msg f := by
  rw [fieldDecls_eq, sel_append, sel_none_map, List.append_nil]
  unfold itOf
  split <;> simp [sel]

private theorem sel_field_some (U : Unicode) (msg t : Text) (f : FieldPtr) :
    sel (some t) ((fieldDecls U msg f).map Decl.declares) =
      ((itOf msg f).filter (fun x => x = t)).map (fun _ => t!"Next") ++ if msg = t then accessorNames U f else [] := by
  rw [fieldDecls_eq, sel_append, sel_some_map]
  refine congrArg (· ++ _) ?_
  unfold itOf
  split
  · generalize msg ++ fieldToGoTypeMessage (getTypeName f) ++ t!"Iterator" = it
    by_cases h : it = t <;> simp [sel, h]
  · rfl

private theorem sel_message_none (U : Unicode) (m : Desc) :
    sel none ((messageDecls U m).map Decl.declares) = packageNames m := by
  unfold messageDecls packageNames
  rw [List.map_append, sel_append, sel_flatMap, iteratorTypes_eq]
  have : (fun a => sel none ((fieldDecls U m.getName a).map Decl.declares)) = itOf m.getName := by
    funext f; exact sel_field_none U m.getName f
  rw [this]
  simp [sel, Decl.declares]

private theorem sel_message_some (U : Unicode) (m : Desc) (t : Text) :
    sel (some t) ((messageDecls U m).map Decl.declares) = (if m.getName = t then [t!"Encode", t!"Decode", t!"Reset"] else []) ++
      m.field.flatMap (fun f => ((itOf m.getName f).filter (fun x => x = t)).map (fun _ => t!"Next") ++
        if m.getName = t then accessorNames U f else []) := by
  unfold messageDecls
  rw [List.map_append, sel_append, sel_flatMap]
  have : (fun a => sel (some t) ((fieldDecls U m.getName a).map Decl.declares)) =
      fun f => ((itOf m.getName f).filter (fun x => x = t)).map (fun _ => t!"Next") ++ if m.getName = t then accessorNames U f else [] := by
    funext f; exact sel_field_some U m.getName t f
  rw [this]
  refine congrArg (· ++ _) ?_
  by_cases h : m.getName = t <;> simp [sel, Decl.declares, h]

/-- Of a type that is not an iterator. -/
private theorem sel_message_type (U : Unicode) (m : Desc) (t : Text) (h : t ∉ iteratorTypes m) :
    sel (some t) ((messageDecls U m).map Decl.declares) = if m.getName = t then methodNames U m else [] := by
  rw [sel_message_some]
  rw [iteratorTypes_eq] at h
  have h0 : ∀ f ∈ m.field, (itOf m.getName f).filter (fun x => x = t) = [] := by
    intro f hf
    rw [List.filter_eq_nil_iff]
    intro x hx e
    have e : x = t := by simpa using e
    exact h (List.mem_flatMap.2 ⟨f, hf, e ▸ hx⟩)
  have h1 : m.field.flatMap (fun f => ((itOf m.getName f).filter (fun x => x = t)).map (fun _ => t!"Next") ++
        if m.getName = t then accessorNames U f else []) = m.field.flatMap (fun f => if m.getName = t then accessorNames U f else []) := by
    generalize m.field = fs at h0
    induction fs with
    | nil => rfl
    | cons f fs ih =>
      rw [List.flatMap_cons, List.flatMap_cons, ih (fun g hg => h0 g (List.mem_cons_of_mem _ hg)), h0 f (List.mem_cons_self ..)]
      rfl
  rw [h1]
  by_cases he : m.getName = t
  · simp [he, methodNames]
  · simp [he]

/-- Of an iterator type. -/
private theorem sel_message_iter (U : Unicode) (m : Desc) (t : Text) (h : m.getName ≠ t) :
    sel (some t) ((messageDecls U m).map Decl.declares) = ((iteratorTypes m).filter (fun x => x = t)).map (fun _ => t!"Next") := by
  rw [sel_message_some, if_neg h, List.nil_append, iteratorTypes_eq]
  generalize m.field = fs
  induction fs with
  | nil => rfl
  | cons f fs ih =>
    rw [List.flatMap_cons, ih, List.flatMap_cons, List.filter_append, List.map_append, if_neg h, List.append_nil]

private theorem methods_sublist (U : Unicode) (m : Desc) :
    (methodNames U m).Sublist (sel (some m.getName) ((messageDecls U m).map Decl.declares)) := by
  rw [sel_message_some, if_pos rfl]
  unfold methodNames
  refine List.Sublist.append (List.Sublist.refl _) ?_
  generalize m.getName = nm
  generalize m.field = fs
  induction fs with
  | nil => exact List.Sublist.refl _
  | cons f fs ih =>
    rw [List.flatMap_cons, List.flatMap_cons]
    refine List.Sublist.append ?_ ih
    rw [if_pos rfl]
    exact List.sublist_append_right _ _

/-- No name is declared twice in the generated file if and only if the package-level names computed from
its messages are all different, and so are the method names of each message. -/
theorem decls_dup_iff (U : Unicode) (f : FileDesc) :
    ((fileDecls U f).map Decl.declares).Nodup ↔
      ((f.messageType.filterMap id).flatMap packageNames).Nodup ∧
      ∀ m ∈ f.messageType.filterMap id, (methodNames U m).Nodup := by
  unfold fileDecls
  generalize f.messageType.filterMap id = ms
  have hnone : sel none ((ms.flatMap (messageDecls U)).map Decl.declares) = ms.flatMap packageNames := by
    rw [sel_flatMap]
    exact congrArg (fun g => ms.flatMap g) (funext fun m => sel_message_none U m)
  constructor
  · intro h
    have h := (nodup_iff_sel _).1 h
    refine ⟨hnone ▸ h none, ?_⟩
    intro m hm
    have h1 := h (some m.getName)
    rw [sel_flatMap] at h1
    obtain ⟨l1, l2, rfl⟩ := List.append_of_mem hm
    rw [List.flatMap_append, List.flatMap_cons] at h1
    exact (methods_sublist U m).nodup (nodup_append.1 (nodup_append.1 h1).2.1).1
  · rintro ⟨h1, h2⟩
    rw [nodup_iff_sel]
    intro r
    cases r with
    | none => rw [hnone]; exact h1
    | some t =>
      rw [sel_flatMap]
      clear hnone
      induction ms with
      | nil => exact List.nodup_nil
      | cons m ms ih =>
        rw [List.flatMap_cons] at h1 ⊢
        have n := nodup_append.1 h1
        have ih := ih n.2.1 (fun m' hm' => h2 m' (List.mem_cons_of_mem _ hm'))
        have hne : m.getName ∉ iteratorTypes m := fun h => by
          have := n.1
          simp only [packageNames, List.nodup_cons, List.mem_cons] at this
          exact this.1 (Or.inr h)
        -- a type of this message has no methods in the others
        have hdis : t ∈ packageNames m → ms.flatMap (fun m' => sel (some t) ((messageDecls U m').map Decl.declares)) = [] := by
          intro ht
          rw [List.flatMap_eq_nil_iff]
          intro m' hm'
          have hpk : ∀ x ∈ packageNames m', x ≠ t := fun x hx e => n.2.2 t ht (List.mem_flatMap.2 ⟨m', hm', e ▸ hx⟩)
          have ht' : t ∉ iteratorTypes m' := fun h => hpk t (List.mem_cons_of_mem _ (List.mem_cons_of_mem _ h)) rfl
          rw [sel_message_type U m' t ht', if_neg (hpk _ (List.mem_cons_self ..))]
        by_cases hi : t ∈ iteratorTypes m
        · rw [hdis (List.mem_cons_of_mem _ (List.mem_cons_of_mem _ hi)), List.append_nil]
          have hmt : m.getName ≠ t := fun e => hne (e ▸ hi)
          rw [sel_message_iter U m t hmt]
          have hn : (iteratorTypes m).Nodup := by
            have := n.1
            simp only [packageNames, List.nodup_cons] at this
            exact this.2.2
          have hc : ((iteratorTypes m).filter (fun x => x = t)).length ≤ 1 := by
            have := List.nodup_iff_count.1 hn t
            rw [List.count_eq_length_filter] at this
            have hfun : (fun x : Text => x == t) = fun x => decide (x = t) := by
              funext x; rw [Bool.eq_iff_iff]; simp
            rw [hfun] at this
            exact this
          match hl : (iteratorTypes m).filter (fun x => x = t), hc with
          | [], _ => simp
          | [a], _ => simp
        · rw [sel_message_type U m t hi]
          by_cases he : m.getName = t
          · rw [hdis (he ▸ List.mem_cons_self ..), List.append_nil, if_pos he]
            exact h2 m (List.mem_cons_self ..)
          · rw [if_neg he, List.nil_append]; exact ih

/-- Two repeated fields of the same message type in a message always produce the same
iterator type twice. -/
theorem decls_dup_repeated (U : Unicode) (f : FileDesc) (m : Desc) (hm : some m ∈ f.messageType) (l1 l2 l3 : List FieldPtr) (a b : Field)
    (hf : m.field = l1 ++ some a :: l2 ++ some b :: l3)
    (ha : getLabel (some a) = 3 ∧ getType (some a) = 11) (hb : getLabel (some b) = 3 ∧ getType (some b) = 11)
    (hab : getTypeName (some a) = getTypeName (some b)) : ¬ ((fileDecls U f).map Decl.declares).Nodup := by
  intro h
  have h := ((decls_dup_iff U f).1 h).1
  have hm : m ∈ f.messageType.filterMap id := List.mem_filterMap.2 ⟨some m, hm, rfl⟩
  obtain ⟨k1, k2, hk⟩ := List.append_of_mem hm
  rw [hk, List.flatMap_append, List.flatMap_cons] at h
  have h1 := (nodup_append.1 (nodup_append.1 h).2.1).1
  simp only [packageNames, List.nodup_cons] at h1
  have h2 := h1.2.2
  rw [iteratorTypes_eq, hf, List.flatMap_append, List.flatMap_append, List.flatMap_cons, List.flatMap_cons, nodup_append] at h2
  refine h2.2.2 (m.getName ++ fieldToGoTypeMessage (getTypeName (some a)) ++ t!"Iterator") ?_ ?_
  · refine List.mem_append_right _ (List.mem_append_left _ ?_)
    simp [itOf, ha]
  · refine List.mem_append_left _ ?_
    simp [itOf, hb, hab]

/-- A file with the given messages, each a name and its fields: name, number, label, type, type name. -/
def fileOf (ms : List (Text × List (Text × Nat × Int × Int × Text))) : FileDesc where
  name := some t!"x.proto"
  package := some t!"x"
  messageType := ms.map (fun m => some (Desc.mk (some m.1) (m.2.map (fun f => some (Field.mk
    (some f.1) (some (BitVec.ofNat 32 f.2.1)) (some f.2.2.1) (some f.2.2.2.1) (some f.2.2.2.2))))))

/-- C44 is not vacuous: the two golden files meet the conditions. -/
example : NoClash asciiUnicode testFile ∧ NoClash asciiUnicode raftFile :=
  ⟨⟨by decide +kernel, by decide +kernel, by decide +kernel, by decide +kernel, by decide +kernel⟩,
   ⟨by decide +kernel, by decide +kernel, by decide +kernel, by decide +kernel, by decide +kernel⟩⟩

/-- C41 is not vacuous: the accessors of one field of raft.proto. -/
example : ∃ m ∈ raftFile.messageType.filterMap id, (∀ f ∈ m.field, (getNumber f).toInt < 2 ^ 31 - 1) ∧
    Decl.struct t!"Message" 13 ∈ messageDecls asciiUnicode m ∧
    Decl.get t!"Message" t!"LogTerm" t!"uint64" t!"Uint64" 5 ∈ messageDecls asciiUnicode m ∧
    Decl.appendTo t!"Message" t!"Entries" t!"Entry" 7 ∈ messageDecls asciiUnicode m :=
  by decide +kernel

end Zeropb
