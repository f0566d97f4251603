import Verif.Spec.GoDecls
/-!
# The text the generator produces
-/

namespace Zeropb.Gen

/-- The StringTree of `generateFile` after writing `w`. -/
def stOf (w : Text) : ST := ⟨w, t!"  ", none⟩

theorem ok_bind {α β : Type} (a : α) (f : α → Except GenPanic β) : (Except.ok a >>= f) = f a := (rfl)
theorem write_nil (w : Text) : (stOf w).write builder [] = .ok (stOf w) := (rfl)
theorem write_string (w x : Text) (as : List Arg) :
    (stOf w).write builder (.string x :: as) = (stOf (w ++ x)).write builder as := (rfl)
theorem write_s (w x : Text) (as : List Arg) :
    (stOf w).write builder (s x :: as) = (stOf (w ++ x)).write builder as := (rfl)
theorem write_int32 (w : Text) (x : U32) (as : List Arg) :
    (stOf w).write builder (.int32 x :: as) = (stOf (w ++ itoa x.toInt)).write builder as := (rfl)
theorem write_indent (w : Text) (n : Nat) (as : List Arg) :
    (stOf w).write builder (.indent n :: as) = (stOf (w ++ ind n)).write builder as := by
  have h : ¬ ((n : Int) < 0) := by omega
  simp only [StringTree.write, StringTree.put, builder, repeatText, h, bind, Except.bind, stOf, if_false, Option.isSome,
    Bool.false_eq_true, Int.toNat_natCast, ind]
theorem write_indent0 (w : Text) (as : List Arg) :
    (stOf w).write builder (.indent 0 :: as) = (stOf (w ++ ind 0)).write builder as := (write_indent w 0 as)
theorem write_indent1 (w : Text) (as : List Arg) :
    (stOf w).write builder (.indent (next 0) :: as) = (stOf (w ++ ind 1)).write builder as := write_indent w 1 as
theorem write_indent2 (w : Text) (as : List Arg) :
    (stOf w).write builder (.indent (next (next 0)) :: as) = (stOf (w ++ ind 2)).write builder as := write_indent w 2 as

/-- generate.go:204-240 against the specification of the field types. -/
theorem fieldToGoTypeSimple_eq (typ : Int) :
    fieldToGoTypeSimple typ = match protoKind typ with
      | some k => .ok (Kind.goType k, Kind.fn k)
      | none => .error (.unsupportedType typ) := by
  by_cases h1 : typ = 1
  · subst h1; rfl
  by_cases h2 : typ = 2
  · subst h2; rfl
  by_cases h3 : typ = 3
  · subst h3; rfl
  by_cases h4 : typ = 4
  · subst h4; rfl
  by_cases h5 : typ = 5
  · subst h5; rfl
  by_cases h6 : typ = 6
  · subst h6; rfl
  by_cases h7 : typ = 7
  · subst h7; rfl
  by_cases h8 : typ = 8
  · subst h8; rfl
  by_cases h9 : typ = 9
  · subst h9; rfl
  by_cases h12 : typ = 12
  · subst h12; rfl
  by_cases h13 : typ = 13
  · subst h13; rfl
  by_cases h14 : typ = 14
  · subst h14; rfl
  by_cases h15 : typ = 15
  · subst h15; rfl
  by_cases h16 : typ = 16
  · subst h16; rfl
  by_cases h17 : typ = 17
  · subst h17; rfl
  by_cases h18 : typ = 18
  · subst h18; rfl
  have hn : protoKind typ = none := by
    unfold protoKind
    split <;> first | contradiction | rfl
  rw [hn]
  simp only [fieldToGoTypeSimple, if_neg h1, if_neg h2, if_neg h3, if_neg h4, if_neg h5, if_neg h6, if_neg h7, if_neg h8, if_neg h9, if_neg h12, if_neg h13, if_neg h14, if_neg h15, if_neg h16, if_neg h17, if_neg h18]

/-- Computes what a sequence of `Write` calls appends. -/
macro "gen_text" : tactic => `(tactic|
  simp only [ok_bind, write_indent0, write_indent1, write_indent2, write_s, write_string, write_int32, write_nil,
      Except.ok.injEq, List.append_assoc, List.flatMap_cons, List.flatMap_nil, List.append_nil, Decl.text, offsetsConst, offsetsText,
      code, List.flatten_cons, List.flatten_nil])

theorem generateSimpleField_eq (U : Unicode) (w : Text) (msg : Text) (f : FieldPtr) :
    generateSimpleField U (stOf w) 0 msg f = match protoKind (getType f) with
      | some k => .ok (stOf (w ++ ([Decl.get msg (toGoCase U (getName f)) (Kind.goType k) (Kind.fn k) (getNumber f).toInt,
          Decl.set msg (toGoCase U (getName f)) (Kind.goType k) (Kind.fn k) (getNumber f).toInt].flatMap Decl.text)))
      | none => .error (.unsupportedType (getType f)) := by
  unfold generateSimpleField
  rw [fieldToGoTypeSimple_eq]
  cases protoKind (getType f) with
  | none => rfl
  | some k =>
    gen_text

theorem generateMessageField_eq (U : Unicode) (w : Text) (msg : Text) (f : FieldPtr) :
    generateMessageField U (stOf w) 0 msg f =
      .ok (stOf (w ++ ([Decl.getMessage msg (toGoCase U (getName f)) (fieldToGoTypeMessage (getTypeName f)) (getNumber f).toInt,
          Decl.setMessage msg (toGoCase U (getName f)) (fieldToGoTypeMessage (getTypeName f)) (getNumber f).toInt].flatMap Decl.text))) := by
  unfold generateMessageField
  gen_text

theorem generateRepeatedMessageField_eq (U : Unicode) (w : Text) (msg : Text) (f : FieldPtr) :
    generateRepeatedMessageField U (stOf w) 0 msg f =
      .ok (stOf (w ++ (
        let typ := fieldToGoTypeMessage (getTypeName f)
        let it := msg ++ typ ++ t!"Iterator"
        let name := toGoCase U (getName f)
        let num := (getNumber f).toInt
        [Decl.iterType it, Decl.iterNext it typ num, Decl.getRepeated msg name it num,
          Decl.appendTo msg name typ num].flatMap Decl.text))) := by
  unfold generateRepeatedMessageField
  gen_text

theorem generateField_eq (U : Unicode) (msg : Text) (f : Field) (hf : ¬ Unsupported (some f)) (w : Text) :
    generateField U (stOf w) 0 msg f = .ok (stOf (w ++ (fieldDecls U msg (some f)).flatMap Decl.text)) := by
  unfold fieldDecls generateField
  simp only [Option.isNone, Bool.false_eq_true, if_false]
  by_cases h1 : getLabel (some f) = 1 ∨ getLabel (some f) = 2
  · simp only [if_pos h1]
    by_cases h2 : getType (some f) = 11
    · simp only [if_pos h2]; exact generateMessageField_eq ..
    · simp only [if_neg h2]
      rw [generateSimpleField_eq]
      cases hk : protoKind (getType (some f)) with
      | none => exact absurd ⟨by simp, h1, h2, hk⟩ hf
      | some k => rfl
  · simp only [if_neg h1]
    by_cases h3 : getLabel (some f) = 3
    · simp only [if_pos h3]
      by_cases h2 : getType (some f) = 11
      · simp only [h2, h3, and_self, if_true]; exact generateRepeatedMessageField_eq ..
      · simp only [if_neg h2, h3, true_and, List.flatMap_nil, List.append_nil]
    · simp only [h3, false_and, if_false, List.flatMap_nil, List.append_nil]

theorem generateFields_eq (U : Unicode) (msg : Text) (fs : List FieldPtr) (hs : ∀ f ∈ fs, ¬ Unsupported f) (w : Text) :
    generateFields U 0 msg (stOf w) fs = .ok (stOf (w ++ (fs.flatMap (fieldDecls U msg)).flatMap Decl.text)) := by
  induction fs generalizing w with
  | nil => simp only [generateFields, List.flatMap_nil, List.append_nil]
  | cons f fs ih =>
    have hs' : ∀ f ∈ fs, ¬ Unsupported f := fun g hg => hs g (List.mem_cons_of_mem _ hg)
    have hf : ¬ Unsupported f := hs f (List.mem_cons_self ..)
    cases f with
    | none =>
      simp only [generateFields, ih hs', List.flatMap_cons, fieldDecls, Option.isNone, if_true, List.nil_append]
    | some f =>
      simp only [generateFields, generateField_eq U msg f hf, bind, Except.bind, ih hs', List.flatMap_cons, List.flatMap_append,
        List.append_assoc]

theorem generateFields_panic (U : Unicode) (msg : Text) (fs : List FieldPtr) (hs : ∃ f ∈ fs, Unsupported f) (w : Text) :
    ∃ t, generateFields U 0 msg (stOf w) fs = .error (.unsupportedType t) := by
  induction fs generalizing w with
  | nil => obtain ⟨f, hf, _⟩ := hs; cases hf
  | cons f fs ih =>
    by_cases hf : Unsupported f
    · cases f with
      | none => exact absurd rfl hf.1
      | some f =>
        refine ⟨getType (some f), ?_⟩
        simp only [generateFields, generateField, if_pos hf.2.1, if_neg hf.2.2.1]
        rw [generateSimpleField_eq, hf.2.2.2]
        rfl
    · have hs' : ∃ f ∈ fs, Unsupported f := by
        obtain ⟨g, hg, hu⟩ := hs
        rcases List.mem_cons.1 hg with rfl | h
        · exact absurd hu hf
        · exact ⟨g, h, hu⟩
      cases f with
      | none => simp only [generateFields]; exact ih hs' w
      | some f =>
        simp only [generateFields, generateField_eq U msg f hf, bind, Except.bind]
        exact ih hs' _

theorem generateRepeatedTable_eq (fs : List FieldPtr) (w : Text) :
    generateRepeatedTable 0 (stOf w) fs = .ok (stOf (w ++ ((fs.filter (fun f => getLabel f = 3)).map (fun f => (getNumber f).toInt)).flatMap
      (fun n => ind 1 ++ (itoa n ++ t!": struct{}{},\n")))) := by
  induction fs generalizing w with
  | nil => simp only [generateRepeatedTable, List.filter_nil, List.map_nil, List.flatMap_nil, List.append_nil]
  | cons f fs ih =>
    by_cases h : getLabel f = 3
    · simp only [generateRepeatedTable, h, if_true, ok_bind, write_indent1, write_s, write_int32, write_nil, ih,
        List.filter_cons, decide_true, List.map_cons, List.flatMap_cons, List.append_assoc]
    · simp only [generateRepeatedTable, h, if_false, ih, List.filter_cons, decide_false, Bool.false_eq_true]

theorem generateMessage_run (U : Unicode) (w : Text) (m : Desc) :
    generateMessage U (stOf w) 0 m = generateFields U 0 m.getName (stOf (w ++
      ([.struct m.getName (largestFieldID m.field + 1#32).toInt,
   .repeatedTable m.getName ((m.field.filter (fun f => getLabel f = 3)).map (fun f => (getNumber f).toInt)),
   .encode m.getName, .decode m.getName, .reset m.getName] : List Decl).flatMap Decl.text)) m.field := by
  unfold generateMessage
  simp only [ok_bind, write_indent0, write_indent1, write_indent2, write_s, write_string, write_int32, write_nil,
      generateRepeatedTable_eq]
  refine congrArg (fun t => generateFields U 0 m.getName (stOf t) m.field) ?_
  generalize ((m.field.filter (fun f => getLabel f = 3)).map (fun f => (getNumber f).toInt)) = nums
  simp only [List.append_assoc, List.flatMap_cons, List.flatMap_nil, List.append_nil, Decl.text, offsetsConst, offsetsText,
      code, List.flatten_cons, List.flatten_nil, List.flatMap_append, List.flatMap_map]

theorem generateMessage_eq (U : Unicode) (w : Text) (m : Desc) (hs : ∀ f ∈ m.field, ¬ Unsupported f) :
    generateMessage U (stOf w) 0 m = .ok (stOf (w ++ (messageDecls U m).flatMap Decl.text)) := by
  rw [generateMessage_run, generateFields_eq U _ _ hs, messageDecls, List.flatMap_append, List.append_assoc]

theorem generateMessages_eq (U : Unicode) (ms : List (Option Desc)) (hs : ∀ m, some m ∈ ms → ∀ f ∈ m.field, ¬ Unsupported f) (w : Text) :
    generateMessages U 0 (stOf w) ms = .ok (stOf (w ++ ((ms.filterMap id).flatMap (messageDecls U)).flatMap Decl.text)) := by
  induction ms generalizing w with
  | nil => simp only [generateMessages, List.filterMap_nil, List.flatMap_nil, List.append_nil]
  | cons m ms ih =>
    have hs' : ∀ m, some m ∈ ms → ∀ f ∈ m.field, ¬ Unsupported f := fun g hg => hs g (List.mem_cons_of_mem _ hg)
    cases m with
    | none => simp only [generateMessages, ih hs', List.filterMap_cons, id]
    | some m =>
      simp only [generateMessages, generateMessage_eq U w m (hs m (List.mem_cons_self ..)), bind, Except.bind, ih hs', List.filterMap_cons,
        id, List.flatMap_cons, List.flatMap_append, List.append_assoc]

theorem generateMessages_panic (U : Unicode) (ms : List (Option Desc)) (hs : ∃ m, some m ∈ ms ∧ ∃ f ∈ m.field, Unsupported f) (w : Text) :
    ∃ t, generateMessages U 0 (stOf w) ms = .error (.unsupportedType t) := by
  induction ms generalizing w with
  | nil => obtain ⟨m, hm, _⟩ := hs; cases hm
  | cons m ms ih =>
    cases m with
    | none =>
      simp only [generateMessages]
      apply ih
      obtain ⟨m, hm, h⟩ := hs
      rcases List.mem_cons.1 hm with h1 | h1
      · cases h1
      · exact ⟨m, h1, h⟩
    | some m =>
      by_cases hm : ∃ f ∈ m.field, Unsupported f
      · obtain ⟨t, ht⟩ := generateFields_panic U m.getName m.field hm (w ++
          ([.struct m.getName (largestFieldID m.field + 1#32).toInt,
          .repeatedTable m.getName ((m.field.filter (fun f => getLabel f = 3)).map (fun f => (getNumber f).toInt)),
          .encode m.getName, .decode m.getName, .reset m.getName] : List Decl).flatMap Decl.text)
        refine ⟨t, ?_⟩
        simp only [generateMessages, generateMessage_run, ht]
        rfl
      · have hok : ∀ f ∈ m.field, ¬ Unsupported f := fun f hf hu => hm ⟨f, hf, hu⟩
        simp only [generateMessages, generateMessage_eq U w m hok, bind, Except.bind]
        apply ih
        obtain ⟨m', hm', h⟩ := hs
        rcases List.mem_cons.1 hm' with h1 | h1
        · injection h1 with h1; subst h1; exact absurd h hm
        · exact ⟨m', h1, h⟩

theorem generateFile_run (U : Unicode) (f : FileDesc) :
    generateFile U f = (generateMessages U 0 (stOf (code [(0, [t!"// Code generated by protoc-gen-zeropb. DO NOT EDIT.\n\n"]),
        (0, [t!"package ", f.getPackage, t!"\n\n"]),
        (0, [t!"import \"github.com/danhhz/zeropb\"", t!"\n\n"])])) f.messageType).map
        fun st => ⟨replaceAll t!".proto" t!".zeropb.go" f.getName, st.w⟩ := by
  unfold generateFile
  have h0 : (newStringTree [] t!"  " : ST) = stOf [] := rfl
  rw [h0]
  simp only [ok_bind, write_indent0, write_s, write_string, write_nil, List.nil_append, List.append_assoc, code,
    List.flatMap_cons, List.flatMap_nil, List.append_nil, List.flatten_cons, List.flatten_nil]
  cases generateMessages U 0 _ f.messageType with
  | error e => rfl
  | ok st => rfl

theorem generateFile_eq (U : Unicode) (f : FileDesc) (h : ¬ BadFile f) :
    generateFile U f = .ok ⟨replaceAll t!".proto" t!".zeropb.go" f.getName, fileText f.getPackage (fileDecls U f)⟩ := by
  rw [generateFile_run, generateMessages_eq]
  · simp only [Except.map, stOf, fileText, fileDecls]
  · intro m hm fd hfd hu
    exact h ⟨m, hm, fd, hfd, hu⟩

theorem generateFile_panic (U : Unicode) (f : FileDesc) (h : BadFile f) : ∃ t, generateFile U f = .error (.unsupportedType t) := by
  rw [generateFile_run]
  obtain ⟨t, ht⟩ := generateMessages_panic U f.messageType h _
  rw [ht]
  exact ⟨t, rfl⟩

end Zeropb.Gen
