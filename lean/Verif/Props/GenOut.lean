import Verif.Props.GenSchema
/-!
# The output of the generator: C41, C42, C44, C51, C52

All theorems are about the result of `generate`: each output file is the text (`fileText`, Spec/GoFile) of a
list of declarations, and the theorems say which.
-/

namespace Zeropb
open Gen

/-- The output consists of the texts of the expected declarations. -/
private theorem renders {U : Unicode} {req : Request} {out : List OutFile} (h : generate U req = .ok out)
    {Q : FileDesc → List (List Decl) → Prop}
    (hQ : ∀ f ∈ req.requested, Q f ((f.messageType.filterMap id).map (messageDecls U))) : Renders req out Q := by
  have h := C43_files U req out h
  subst h
  refine ⟨List.length_map .., ?_⟩
  intro i o f ho hf
  rw [List.getElem?_map, hf, Option.map_some] at ho
  injection ho with ho
  subst ho
  exact ⟨_, by rw [← List.flatMap_def]; rfl, hQ f (List.mem_of_getElem? hf)⟩

private theorem renders_message {U : Unicode} {req : Request} {out : List OutFile} (h : generate U req = .ok out)
    {P : Desc → List Decl → Prop} (hP : ∀ m, P m (messageDecls U m)) : Renders req out (PerMessage P) := by
  refine renders h (fun f _ => ⟨List.length_map .., ?_⟩)
  intro j m ds hm hd
  rw [List.getElem?_map, hm, Option.map_some] at hd
  injection hd with hd
  subst hd
  exact hP m

private theorem renders_file {U : Unicode} {req : Request} {out : List OutFile} (h : generate U req = .ok out)
    {Q : FileDesc → List Decl → Prop} (hQ : ∀ f ∈ req.requested, Q f (fileDecls U f)) :
    Renders req out (fun f dss => Q f dss.flatten) :=
  renders h (fun f hf => by rw [← List.flatMap_def]; exact hQ f hf)

/-- The output for a single file. -/
private theorem renders_one (g : FileDesc) (hg : ∀ m ∈ g.messageType.filterMap id, ∀ fd ∈ m.field, ¬ Unsupported fd)
    {Q : FileDesc → List Decl → Prop} (hQ : Q g (fileDecls asciiUnicode g)) :
    ∃ out, generate asciiUnicode ⟨[t!"x.proto"], [some g]⟩ = .ok out ∧
      Renders ⟨[t!"x.proto"], [some g]⟩ out (fun f dss => Q f dss.flatten) := by
  have hreq : ∀ g' ∈ (⟨[t!"x.proto"], [some g]⟩ : Request).requested, g' = g := by
    intro g' hg'
    have h1 := (List.mem_filter.1 hg').1
    simpa using h1
  cases hr : generate asciiUnicode ⟨[t!"x.proto"], [some g]⟩ with
  | ok out => exact ⟨out, rfl, renders_file hr (fun g' hg' => by rw [hreq g' hg']; exact hQ)⟩
  | error e =>
    exfalso
    obtain ⟨g', hg', m, hm, fd, hfd, hl, ht⟩ := (C45_panics asciiUnicode ⟨[t!"x.proto"], [some g]⟩).1.1 ⟨e, hr⟩
    have hmem := hreq g' hg'
    subst hmem
    have hk : protoKind (getType (some fd)) = none := by
      unfold protoKind
      split <;> first | rfl | (exfalso; omega)
    exact hg m (List.mem_filterMap.2 ⟨some m, hm, rfl⟩) (some fd) hfd ⟨by simp, hl, by omega, hk⟩

/-! ## C41 -/

/-- C41: in the generated code of every message type with field numbers below 2^31-1, the offset array is
longer than every field number and no longer than needed, so no generated method passes a number that is out
of range. -/
theorem C41_table (U : Unicode) (req : Request) (out : List OutFile) (h : generate U req = .ok out) :
    Renders req out (PerMessage fun m ds => (∀ f ∈ m.field, (getNumber f).toInt < 2 ^ 31 - 1) → OffsetTable m ds) :=
  renders_message h (fun m hn => decls_table U m hn)

/-- C41: the generated accessors are exactly those of the declared fields, each with the functions of the
declared type and the number of its field. -/
theorem C41_accessors (U : Unicode) (req : Request) (out : List OutFile) (h : generate U req = .ok out) :
    Renders req out (PerMessage (Accessors U)) :=
  renders_message h (fun m => decls_accessors U m)

/-- C41, boundary: a field number of 2^31-1 (which protobuf does not allow, its limit being 2^29-1) makes the
length of the array wrap around to a negative number. -/
theorem C41_false_max (U : Unicode) (req : Request) (out : List OutFile) (h : generate U req = .ok out) :
    Renders req out (PerMessage fun m ds => (∃ f ∈ m.field, getNumber f = 0x7fffffff#32) → Decl.struct m.getName (-2 ^ 31) ∈ ds) :=
  renders_message h (fun m hn => decls_max U m hn)

/-! ## C42 -/

/-- C42: the generated table of repeated fields of each message lists exactly the numbers of the fields with
label repeated. -/
theorem C42_repeated_table (U : Unicode) (req : Request) (out : List OutFile) (h : generate U req = .ok out) :
    Renders req out (PerMessage RepeatedTable) :=
  renders_message h (fun m => decls_repeated U m)

/-! ## C44 -/

/-- C44: no name is declared twice in a generated file if and only if the package-level names computed from
its messages are all different, and so are the method names of each message. -/
theorem C44_iff (U : Unicode) (req : Request) (out : List OutFile) (h : generate U req = .ok out) :
    Renders req out (fun f dss => (dss.flatten.map Decl.declares).Nodup ↔
      ((f.messageType.filterMap id).flatMap packageNames).Nodup ∧
      ∀ m ∈ f.messageType.filterMap id, (methodNames U m).Nodup) :=
  renders_file (Q := fun _f ds => (ds.map Decl.declares).Nodup ↔ _) h (fun f _ => decls_dup_iff U f)

/-- C44: under `NoClash`, no name is declared twice. -/
theorem C44_no_duplicates (U : Unicode) (req : Request) (out : List OutFile) (h : generate U req = .ok out) :
    Renders req out (fun f dss => NoClash U f → (dss.flatten.map Decl.declares).Nodup) :=
  renders_file (Q := fun _f ds => _ → (ds.map Decl.declares).Nodup) h (fun f _ => decls_no_duplicates U f)

/-- C44, refutation: two repeated fields of the same message type in a message always produce the same
iterator type twice. -/
theorem C44_false_repeated (U : Unicode) (req : Request) (out : List OutFile) (h : generate U req = .ok out) :
    Renders req out (fun f dss => ∀ (m : Desc) (l1 l2 l3 : List FieldPtr) (a b : Field),
      some m ∈ f.messageType → m.field = l1 ++ some a :: l2 ++ some b :: l3 →
      getLabel (some a) = 3 ∧ getType (some a) = 11 → getLabel (some b) = 3 ∧ getType (some b) = 11 →
      getTypeName (some a) = getTypeName (some b) → ¬ (dss.flatten.map Decl.declares).Nodup) :=
  renders_file (Q := fun f ds => ∀ (m : Desc) (l1 l2 l3 : List FieldPtr) (a b : Field),
      some m ∈ f.messageType → m.field = l1 ++ some a :: l2 ++ some b :: l3 →
      getLabel (some a) = 3 ∧ getType (some a) = 11 → getLabel (some b) = 3 ∧ getType (some b) = 11 →
      getTypeName (some a) = getTypeName (some b) → ¬ (ds.map Decl.declares).Nodup) h
    (fun f _ m l1 l2 l3 a b hm hf ha hb hab => decls_dup_repeated U f m hm l1 l2 l3 a b hf ha hb hab)

/-- C44, refutation: message types and, in each message, field names and numbers are all different, and yet a
name is declared twice:
* fields `a_b` and `aB` have the same Go name;
* `set_x` has the same Go name as the setter of `x`;
* `encode` has the Go name of the method `Encode`, `reset` that of `Reset`;
* two repeated fields of the same message type have the same iterator type;
* repeated `C` in message `AB` and repeated `BC` in message `A` have the same iterator type `ABCIterator`. -/
theorem C44_false_clashes :
    let names (f : FileDesc) := ((f.messageType.filterMap id).map Desc.getName).Nodup ∧
      ∀ m ∈ f.messageType.filterMap id, (m.field.map getName).Nodup ∧ (m.field.map getNumber).Nodup
    ∀ f ∈ [fileOf [(t!"M", [(t!"a_b", 1, 1, 5, []), (t!"aB", 2, 1, 5, [])])],
           fileOf [(t!"M", [(t!"x", 1, 1, 5, []), (t!"set_x", 2, 1, 5, [])])],
           fileOf [(t!"M", [(t!"encode", 1, 1, 5, [])])],
           fileOf [(t!"M", [(t!"reset", 1, 1, 5, [])])],
           fileOf [(t!"M", [(t!"a", 1, 3, 11, t!".x.M"), (t!"b", 2, 3, 11, t!".x.M")])],
           fileOf [(t!"A", [(t!"a", 1, 3, 11, t!".x.BC")]), (t!"AB", [(t!"a", 1, 3, 11, t!".x.C")]), (t!"BC", []), (t!"C", [])]],
      names f ∧ ∃ out, generate asciiUnicode ⟨[t!"x.proto"], [some f]⟩ = .ok out ∧
        Renders ⟨[t!"x.proto"], [some f]⟩ out (fun _ dss => ¬ (dss.flatten.map Decl.declares).Nodup) := by
  intro names f hf
  simp only [List.mem_cons, List.not_mem_nil, or_false] at hf
  rcases hf with rfl | rfl | rfl | rfl | rfl | rfl <;>
    refine ⟨by decide +kernel, renders_one (Q := fun _ ds => ¬ (ds.map Decl.declares).Nodup) _ ?_ ?_⟩ <;> decide +kernel

/-! ## C51 -/

/-- C51: the code generated for each valid message declaration implements the schema of the declaration. -/
theorem C51_implements (U : Unicode) (req : Request) (out : List OutFile) (h : generate U req = .ok out) :
    Renders req out (PerMessage fun m ds => ∀ hv : ValidDesc m, Implements (schemaOf m hv) m.getName ds) :=
  renders_message h (fun m hv => decls_implements U m hv)

/-! ## C52 -/

/-- C52: every package-level name a generated file refers to is declared in it if and only if the type of
each field of message type is, by the last component of its name, declared there. -/
theorem C52_iff (U : Unicode) (req : Request) (out : List OutFile) (h : generate U req = .ok out) :
    Renders req out (fun f dss =>
      (∀ d ∈ dss.flatten, ∀ n ∈ d.refersTo, ∃ d' ∈ dss.flatten, d'.declares = (none, n)) ↔
      ∀ m, some m ∈ f.messageType → ∀ fd, some fd ∈ m.field → getType (some fd) = 11 →
        (getLabel (some fd) = 1 ∨ getLabel (some fd) = 2 ∨ getLabel (some fd) = 3) →
        ∃ d' ∈ dss.flatten, d'.declares = (none, fieldToGoTypeMessage (getTypeName (some fd)))) :=
  renders_file (Q := fun f ds => (∀ d ∈ ds, ∀ n ∈ d.refersTo, ∃ d' ∈ ds, d'.declares = (none, n)) ↔
      ∀ m, some m ∈ f.messageType → ∀ fd, some fd ∈ m.field → getType (some fd) = 11 →
        (getLabel (some fd) = 1 ∨ getLabel (some fd) = 2 ∨ getLabel (some fd) = 3) →
        ∃ d' ∈ ds, d'.declares = (none, fieldToGoTypeMessage (getTypeName (some fd)))) h (fun f _ => decls_closed_iff U f)

/-- C52: so a file whose message fields are of top-level message types of the file itself refers only to
names it declares. -/
theorem C52_closed (U : Unicode) (req : Request) (out : List OutFile) (h : generate U req = .ok out) :
    Renders req out (fun f dss =>
      (∀ m, some m ∈ f.messageType → ∀ fd, some fd ∈ m.field → getType (some fd) = 11 →
        ∃ p m', some m' ∈ f.messageType ∧ '.' ∉ m'.getName ∧ getTypeName (some fd) = p ++ t!"." ++ m'.getName) →
      ∀ d ∈ dss.flatten, ∀ n ∈ d.refersTo, ∃ d' ∈ dss.flatten, d'.declares = (none, n)) :=
  renders_file (Q := fun _f ds => _ → ∀ d ∈ ds, ∀ n ∈ d.refersTo, ∃ d' ∈ ds, d'.declares = (none, n)) h
    (fun f _ => decls_closed U f)

/-- C52, refutation: a field of a nested type (`x.Outer.Inner`), or of a type of an imported file
(`other.T`), makes the output refer to a type that it does not declare. -/
theorem C52_false_nested : ∀ typ ∈ [t!".x.Outer.Inner", t!".other.T"],
    let req : Request := ⟨[t!"x.proto"], [some (fileOf [(t!"Outer", [(t!"a", 1, 1, 11, typ)])])]⟩
    ∃ out, generate asciiUnicode req = .ok out ∧ Renders req out (fun _ dss =>
      ∃ d ∈ dss.flatten, ∃ n ∈ d.refersTo, ¬ ∃ d' ∈ dss.flatten, d'.declares = (none, n)) := by
  intro typ htyp
  simp only [List.mem_cons, List.not_mem_nil, or_false] at htyp
  rcases htyp with rfl | rfl
  · exact renders_one (Q := fun _ ds => ∃ d ∈ ds, ∃ n ∈ d.refersTo, ¬ ∃ d' ∈ ds, d'.declares = (none, n)) _
      (by decide +kernel) (by decide +kernel)
  · exact renders_one (Q := fun _ ds => ∃ d ∈ ds, ∃ n ∈ d.refersTo, ¬ ∃ d' ∈ ds, d'.declares = (none, n)) _
      (by decide +kernel) (by decide +kernel)

/-- A request with the type names of all fields replaced. -/
def requalify (g : Text → Text) (req : Request) : Request :=
  { req with protoFile := req.protoFile.map (Option.map fun f => { f with messageType := f.messageType.map (Option.map fun m =>
    { m with field := m.field.map (Option.map fun fd => { fd with typeName := fd.typeName.map g }) }) }) }

private theorem last_dot (x : Text) : '.' ∉ x ∨ ∃ p t : Text, x = p ++ '.' :: t ∧ '.' ∉ t := by
  induction x with
  | nil => exact Or.inl (by simp)
  | cons c x ih =>
    rcases ih with h | ⟨p, t, rfl, h⟩
    · by_cases hc : c = '.'
      · subst hc; exact Or.inr ⟨[], x, rfl, h⟩
      · exact Or.inl (by simp [h, Ne.symm hc])
    · exact Or.inr ⟨c :: p, t, rfl, h⟩

/-- C52, refutation: types with the same last component are confused: the output is the same whatever
precedes the last component of the type names. -/
theorem C52_false_confused (U : Unicode) (g : Text → Text) (req : Request)
    (hg : ∀ t : Text, '.' ∉ t → (g t = t ∨ ∃ q, g t = q ++ '.' :: t) ∧ ∀ p : Text, g (p ++ '.' :: t) = t ∨ ∃ q, g (p ++ '.' :: t) = q ++ '.' :: t) :
    generate U (requalify g req) = generate U req := by
  have hlast : ∀ x, fieldToGoTypeMessage (g x) = fieldToGoTypeMessage x := by
    intro x
    rcases last_dot x with h | ⟨p, t, rfl, h⟩
    · rw [(C47_typeName x h).1]
      rcases (hg x h).1 with e | ⟨q, e⟩
      · rw [e, (C47_typeName x h).1]
      · rw [e, (C47_typeName x h).2]
    · rw [(C47_typeName t h).2]
      rcases (hg t h).2 p with e | ⟨q, e⟩
      · rw [e, (C47_typeName t h).1]
      · rw [e, (C47_typeName t h).2]
  have hfield : ∀ (fd : Field) st i msg,
      generateField U st i msg { fd with typeName := fd.typeName.map g } = generateField U st i msg fd := by
    intro fd st i msg
    have h1 : getName (some { fd with typeName := fd.typeName.map g }) = getName (some fd) := rfl
    have h2 : getNumber (some { fd with typeName := fd.typeName.map g }) = getNumber (some fd) := rfl
    have h3 : getLabel (some { fd with typeName := fd.typeName.map g }) = getLabel (some fd) := rfl
    have h4 : getType (some { fd with typeName := fd.typeName.map g }) = getType (some fd) := rfl
    have h5 : fieldToGoTypeMessage (getTypeName (some { fd with typeName := fd.typeName.map g })) =
        fieldToGoTypeMessage (getTypeName (some fd)) := by
      cases hn : fd.typeName with
      | none => simp [getTypeName, hn]
      | some x => simp [getTypeName, hn, hlast]
    simp only [generateField, generateMessageField, generateRepeatedMessageField, generateSimpleField, h1, h2, h3, h4, h5]
  have hfields : ∀ (fs : List FieldPtr) st i msg,
      generateFields U i msg st (fs.map (Option.map fun fd => { fd with typeName := fd.typeName.map g })) = generateFields U i msg st fs := by
    intro fs
    induction fs with
    | nil => intros; rfl
    | cons f fs ih =>
      intro st i msg
      cases f with
      | none => exact ih st i msg
      | some fd =>
        simp only [List.map_cons, Option.map_some, generateFields, hfield]
        exact congrArg _ (funext fun st => ih st i msg)
  have htable : ∀ (fs : List FieldPtr) st i,
      generateRepeatedTable i st (fs.map (Option.map fun fd => { fd with typeName := fd.typeName.map g })) = generateRepeatedTable i st fs := by
    intro fs
    induction fs with
    | nil => intros; rfl
    | cons f fs ih =>
      intro st i
      have h1 : getLabel (f.map fun fd => { fd with typeName := fd.typeName.map g }) = getLabel f := by cases f <;> rfl
      have h2 : getNumber (f.map fun fd => { fd with typeName := fd.typeName.map g }) = getNumber f := by cases f <;> rfl
      simp only [List.map_cons, generateRepeatedTable, h1, h2, ih]
  have hlargest : ∀ (fs : List FieldPtr),
      largestFieldID (fs.map (Option.map fun fd => { fd with typeName := fd.typeName.map g })) = largestFieldID fs := by
    intro fs
    unfold largestFieldID
    generalize (0#32 : U32) = init
    induction fs generalizing init with
    | nil => rfl
    | cons f fs ih =>
      have h2 : getNumber (f.map fun fd => { fd with typeName := fd.typeName.map g }) = getNumber f := by cases f <;> rfl
      simp only [List.map_cons, List.foldl_cons, h2, ih]
  have hmessage : ∀ (m : Desc) st i,
      generateMessage U st i { m with field := m.field.map (Option.map fun fd => { fd with typeName := fd.typeName.map g }) } =
        generateMessage U st i m := by
    intro m st i
    have h1 : (Desc.mk m.name (m.field.map (Option.map fun fd => { fd with typeName := fd.typeName.map g }))).getName = m.getName := rfl
    simp only [generateMessage, hlargest, htable, hfields, h1]
  have hmessages : ∀ (ms : List (Option Desc)) st i,
      generateMessages U i st (ms.map (Option.map fun m => { m with field := m.field.map (Option.map fun fd => { fd with typeName := fd.typeName.map g }) })) =
        generateMessages U i st ms := by
    intro ms
    induction ms with
    | nil => intros; rfl
    | cons m ms ih =>
      intro st i
      cases m with
      | none => exact ih st i
      | some m =>
        simp only [List.map_cons, Option.map_some, generateMessages, hmessage]
        exact congrArg _ (funext fun st => ih st i)
  unfold generate requalify
  simp only
  generalize req.protoFile = fs
  generalize ([] : List OutFile) = acc
  induction fs generalizing acc with
  | nil => rfl
  | cons f fs ih =>
    cases f with
    | none => exact ih acc
    | some f =>
      have h1 : (FileDesc.mk f.name f.package (f.messageType.map (Option.map fun m =>
          { m with field := m.field.map (Option.map fun fd => { fd with typeName := fd.typeName.map g }) }))).getName = f.getName := rfl
      have h2 : generateFile U (FileDesc.mk f.name f.package (f.messageType.map (Option.map fun m =>
          { m with field := m.field.map (Option.map fun fd => { fd with typeName := fd.typeName.map g }) }))) = generateFile U f := by
        simp only [generateFile, hmessages]
        rfl
      simp only [List.map_cons, Option.map_some, generateFiles, h1, h2, ih]

/-- C52: the package clause of each generated file is the package of its proto file, verbatim (so for a dotted
package the output is no Go file). -/
theorem C52_package (U : Unicode) (req : Request) (out : List OutFile) (h : generate U req = .ok out) :
    out.length = req.requested.length ∧ ∀ i (h1 : i < out.length) (h2 : i < req.requested.length), ∃ rest,
      out[i].content = t!"// Code generated by protoc-gen-zeropb. DO NOT EDIT.\n\npackage " ++ req.requested[i].getPackage ++
        t!"\n\nimport \"github.com/danhhz/zeropb\"\n\n" ++ rest := by
  have h := C43_files U req out h
  subst h
  refine ⟨List.length_map .., ?_⟩
  intro i h1 h2
  rw [List.getElem_map]
  refine ⟨(fileDecls U req.requested[i]).flatMap Decl.text, ?_⟩
  simp [fileText, code, ind]

end Zeropb
