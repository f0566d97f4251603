import Verif.Gen.Generate
import Verif.Spec.GoFile
/-!
# Specification: the declarations expected for a descriptor

Which Go declarations belong to a field, a message type and a file. From the generator's code this uses the
descriptor getters, `largestFieldID` (characterised in C41), `toGoCase` and `fieldToGoTypeMessage`
(characterised in C47).
-/

namespace Zeropb.Gen

/-- The declarations of a field that has accessors, none for the others. -/
def fieldDecls (U : Unicode) (msg : Text) (f : FieldPtr) : List Decl :=
  let name := toGoCase U (getName f)
  let typ := fieldToGoTypeMessage (getTypeName f)
  let num := (getNumber f).toInt
  if f.isNone then []
  else if getLabel f = 1 ∨ getLabel f = 2 then
    if getType f = 11 then [.getMessage msg name typ num, .setMessage msg name typ num]
    else match protoKind (getType f) with
      | some k => [.get msg name (Kind.goType k) (Kind.fn k) num, .set msg name (Kind.goType k) (Kind.fn k) num]
      | none => []
  else if getLabel f = 3 ∧ getType f = 11 then
    let it := msg ++ typ ++ t!"Iterator"
    [.iterType it, .iterNext it typ num, .getRepeated msg name it num, .appendTo msg name typ num]
  else []

/-- The fields the generator cannot handle: not repeated, and of a type that is neither scalar nor message. -/
def Unsupported (f : FieldPtr) : Prop :=
  f ≠ none ∧ (getLabel f = 1 ∨ getLabel f = 2) ∧ getType f ≠ 11 ∧ protoKind (getType f) = none

instance (f : FieldPtr) : Decidable (Unsupported f) := by unfold Unsupported; infer_instance

/-- The declarations of a message type. -/
def messageDecls (U : Unicode) (m : Desc) : List Decl :=
  [.struct m.getName (largestFieldID m.field + 1#32).toInt,
   .repeatedTable m.getName ((m.field.filter (fun f => getLabel f = 3)).map (fun f => (getNumber f).toInt)),
   .encode m.getName, .decode m.getName, .reset m.getName] ++ m.field.flatMap (fieldDecls U m.getName)

/-- The messages of a file with a field the generator cannot handle. -/
def BadFile (f : FileDesc) : Prop := ∃ m, some m ∈ f.messageType ∧ ∃ fd ∈ m.field, Unsupported fd

/-- The declarations of a file. -/
def fileDecls (U : Unicode) (f : FileDesc) : List Decl := (f.messageType.filterMap id).flatMap (messageDecls U)

/-- The files of a request that are to be generated: those present and named in `file_to_generate`. -/
def Request.requested (req : Request) : List FileDesc :=
  (req.protoFile.filterMap id).filter (fun f => f.getName ∈ req.fileToGenerate)

/-- The offset array of the struct in `ds` is longer than every field number of `m` and no longer than needed
(largest number plus one), and no declaration passes a number that is out of range. -/
def OffsetTable (m : Desc) (ds : List Decl) : Prop :=
  ∃ slots : Int, (∀ name s, Decl.struct name s ∈ ds ↔ name = m.getName ∧ s = slots) ∧
    1 ≤ slots ∧ (slots = 1 ∨ ∃ f ∈ m.field, slots = (getNumber f).toInt + 1) ∧
    (∀ f ∈ m.field, (getNumber f).toInt < slots) ∧
    (∀ d ∈ ds, ∀ n, d.num = some n → n < slots)

/-- The accessors in `ds` are exactly those of the fields of `m`. A scalar field that is not repeated has a
getter and a setter with the Go type and the `zeropb.Get…`/`zeropb.Set…` functions of its declared type and its
own number; a message field has `GetBytes`/`SetBytes` based ones; a repeated message field has an iterator
based on `GetRepeatedNonPacked`/`FindNextField` and an `AppendTo`. There are no others. -/
def Accessors (U : Unicode) (m : Desc) (ds : List Decl) : Prop :=
    let scalar (fd : Field) (k : Kind) := some fd ∈ m.field ∧ (getLabel (some fd) = 1 ∨ getLabel (some fd) = 2) ∧
      protoKind (getType (some fd)) = some k
    let message (fd : Field) := some fd ∈ m.field ∧ (getLabel (some fd) = 1 ∨ getLabel (some fd) = 2) ∧ getType (some fd) = 11
    let repeatedMessage (fd : Field) := some fd ∈ m.field ∧ getLabel (some fd) = 3 ∧ getType (some fd) = 11
    let name (fd : Field) := toGoCase U (getName (some fd))
    let typ (fd : Field) := fieldToGoTypeMessage (getTypeName (some fd))
    let num (fd : Field) := (getNumber (some fd)).toInt
    let it (fd : Field) := m.getName ++ typ fd ++ t!"Iterator"
    (∀ a b c d n, Decl.get a b c d n ∈ ds ↔
      ∃ fd k, scalar fd k ∧ (a, b, c, d, n) = (m.getName, name fd, Kind.goType k, Kind.fn k, num fd)) ∧
    (∀ a b c d n, Decl.set a b c d n ∈ ds ↔
      ∃ fd k, scalar fd k ∧ (a, b, c, d, n) = (m.getName, name fd, Kind.goType k, Kind.fn k, num fd)) ∧
    (∀ a b c n, Decl.getMessage a b c n ∈ ds ↔ ∃ fd, message fd ∧ (a, b, c, n) = (m.getName, name fd, typ fd, num fd)) ∧
    (∀ a b c n, Decl.setMessage a b c n ∈ ds ↔ ∃ fd, message fd ∧ (a, b, c, n) = (m.getName, name fd, typ fd, num fd)) ∧
    (∀ a, Decl.iterType a ∈ ds ↔ ∃ fd, repeatedMessage fd ∧ a = it fd) ∧
    (∀ a b n, Decl.iterNext a b n ∈ ds ↔ ∃ fd, repeatedMessage fd ∧ (a, b, n) = (it fd, typ fd, num fd)) ∧
    (∀ a b c n, Decl.getRepeated a b c n ∈ ds ↔
      ∃ fd, repeatedMessage fd ∧ (a, b, c, n) = (m.getName, name fd, it fd, num fd)) ∧
    (∀ a b c n, Decl.appendTo a b c n ∈ ds ↔
      ∃ fd, repeatedMessage fd ∧ (a, b, c, n) = (m.getName, name fd, typ fd, num fd))

/-- The table of repeated fields in `ds` lists exactly the numbers of the fields of `m` with label repeated,
scalar or message. -/
def RepeatedTable (m : Desc) (ds : List Decl) : Prop :=
  ∃ nums : List Int, (∀ a l, Decl.repeatedTable a l ∈ ds ↔ a = m.getName ∧ l = nums) ∧
    ∀ n, n ∈ nums ↔ ∃ fd, some fd ∈ m.field ∧ getLabel (some fd) = 3 ∧ (getNumber (some fd)).toInt = n

/-- The output files `out` for the request `req` are the texts of declarations, grouped by message, that
satisfy `Q`: file by file, in the order of the request. -/
def Renders (req : Request) (out : List OutFile) (Q : FileDesc → List (List Decl) → Prop) : Prop :=
  out.length = req.requested.length ∧ ∀ (i : Nat) (o : OutFile) (f : FileDesc), out[i]? = some o → req.requested[i]? = some f →
    ∃ dss : List (List Decl), o.content = fileText f.getPackage dss.flatten ∧ Q f dss

/-- The groups of declarations `dss` of the file `f` satisfy `P` message by message. -/
def PerMessage (P : Desc → List Decl → Prop) (f : FileDesc) (dss : List (List Decl)) : Prop :=
  dss.length = (f.messageType.filterMap id).length ∧
  ∀ (j : Nat) (m : Desc) (ds : List Decl), (f.messageType.filterMap id)[j]? = some m → dss[j]? = some ds → P m ds

end Zeropb.Gen
