import Verif.Gen.StringTree
/-!
# generate/generate.go

The descriptor messages (generate/descriptor.pb.go, plugin.pb.go) are represented by the fields the
generator reads. Pointers are `Option`. Protobuf enums are Go integers, so any value may occur.
-/

namespace Zeropb.Gen

/-- descriptor.pb.go:797-832 `FieldDescriptorProto` (the fields that are read). -/
structure Field where
  name : Option Text := none
  number : Option U32 := none
  label : Option Int := none
  type : Option Int := none
  typeName : Option Text := none
deriving Repr

/-- `*FieldDescriptorProto`: the getters accept nil. -/
abbrev FieldPtr := Option Field

/-- descriptor.pb.go:858-863 `GetName`. -/
def getName (f : FieldPtr) : Text := (f.bind (·.name)).getD []
/-- descriptor.pb.go:865-870 `GetNumber`. -/
def getNumber (f : FieldPtr) : U32 := (f.bind (·.number)).getD 0#32
/-- descriptor.pb.go:872-877 `GetLabel`; the default is LABEL_OPTIONAL. -/
def getLabel (f : FieldPtr) : Int := (f.bind (·.label)).getD 1
/-- descriptor.pb.go:879-884 `GetType`; the default is TYPE_DOUBLE. -/
def getType (f : FieldPtr) : Int := (f.bind (·.type)).getD 1
/-- descriptor.pb.go:886-891 `GetTypeName`. -/
def getTypeName (f : FieldPtr) : Text := (f.bind (·.typeName)).getD []

/-- descriptor.pb.go:529-545 `DescriptorProto`: name and fields. Nested types, enums and extensions are never
read by the generator. -/
structure Desc where
  name : Option Text := none
  field : List FieldPtr := []
deriving Repr

/-- descriptor.pb.go:572-577 `GetName`. -/
def Desc.getName (m : Desc) : Text := m.name.getD []

/-- descriptor.pb.go:390-417 `FileDescriptorProto`. -/
structure FileDesc where
  name : Option Text := none
  package : Option Text := none
  messageType : List (Option Desc) := []
deriving Repr

/-- descriptor.pb.go:444-449 `GetName`. -/
def FileDesc.getName (m : FileDesc) : Text := m.name.getD []
/-- descriptor.pb.go:451-456 `GetPackage`. -/
def FileDesc.getPackage (m : FileDesc) : Text := m.package.getD []

/-- plugin.pb.go:91-118 `CodeGeneratorRequest`. -/
structure Request where
  fileToGenerate : List Text := []
  protoFile : List (Option FileDesc) := []

/-- plugin.pb.go:230-286 `CodeGeneratorResponse_File`. -/
structure OutFile where
  name : Text
  content : Text
deriving DecidableEq, Repr

/-- The functions of Go's package `unicode` used by `toGoCase`. The theorems quantify over them. -/
structure Unicode where
  isLetter : Char → Bool
  isDigit : Char → Bool
  toTitle : Char → Char

/-- `strings.Map` with a mapping that has a state: it is called once for each rune, in order, and the
runes for which it returns a negative number (`none`) are dropped. -/
def mapText {τ : Type} (fn : τ → Char → τ × Option Char) : τ → Text → Text
  | _, [] => []
  | t, c :: cs =>
    match fn t c with
    | (t', none) => mapText fn t' cs
    | (t', some r) => r :: mapText fn t' cs

/-- generate.go:188-202 `toGoCase`; the state of the closure is `titleNext`. -/
def toGoCase (U : Unicode) (s : Text) : Text :=
  mapText (fun (titleNext : Bool) r =>
    if !U.isLetter r && !U.isDigit r then (true, none)
    else if titleNext then (false, some (U.toTitle r))
    else (titleNext, some r)) true s

/-- generate.go:204-240 `fieldToGoTypeSimple`; the numbers of the enum are in descriptor.pb.go:29-55. -/
def fieldToGoTypeSimple (typ : Int) : Except GenPanic (Text × Text) :=
  if typ = 8 then .ok (t!"bool", t!"Bool")
  else if typ = 5 then .ok (t!"int32", t!"Int32")
  else if typ = 3 then .ok (t!"int64", t!"Int64")
  else if typ = 13 then .ok (t!"uint32", t!"Uint32")
  else if typ = 4 then .ok (t!"uint64", t!"Uint64")
  else if typ = 17 then .ok (t!"int32", t!"ZigZagInt32")
  else if typ = 18 then .ok (t!"int64", t!"ZigZagInt64")
  else if typ = 7 then .ok (t!"uint32", t!"FixedUint32")
  else if typ = 6 then .ok (t!"uint64", t!"FixedUint64")
  else if typ = 15 then .ok (t!"int32", t!"FixedInt32")
  else if typ = 16 then .ok (t!"int64", t!"FixedInt64")
  else if typ = 1 then .ok (t!"float64", t!"Float64")
  else if typ = 2 then .ok (t!"float32", t!"Float32")
  else if typ = 9 then .ok (t!"string", t!"String")
  else if typ = 12 then .ok (t!"[]byte", t!"Bytes")
  else if typ = 14 then .ok (t!"uint32", t!"Uint32")
  else .error (.unsupportedType typ)

/-- `strings.LastIndex(s, c)` for a single character, -1 if it does not occur. -/
def lastIndex (c : Char) (s : Text) : Int :=
  go s 0 (-1)
where
  go : Text → Int → Int → Int
    | [], _, best => best
    | d :: ds, i, best => go ds (i + 1) (if d = c then i else best)

/-- generate.go:242-247 `fieldToGoTypeMessage`. -/
def fieldToGoTypeMessage (typName : Text) : Text :=
  let idx := lastIndex '.' typName
  if idx ≠ -1 then typName.drop (idx + 1).toNat else typName

/-- The scan of `strings.ReplaceAll`: `skip` characters of the current occurrence are still to be passed. -/
def replaceScan (old new : Text) : Nat → Text → Text
  | _, [] => []
  | skip + 1, _ :: cs => replaceScan old new skip cs
  | 0, c :: cs =>
    if old.isPrefixOf (c :: cs) then new ++ replaceScan old new (old.length - 1) cs
    else c :: replaceScan old new 0 cs

/-- `strings.ReplaceAll(s, old, new)` for nonempty `old` (generate.go:52): occurrences are replaced from
left to right, without overlap. -/
def replaceAll (old new : Text) (s : Text) : Text := replaceScan old new 0 s

/-- generate.go:34 `const offsets`. -/
def offsetsConst : Text := t!"zeropb.WrapOffsets(m.offsets.a[:], &m.offsets.m)"

/-- The StringTree of `generateFile`, wrapping a `strings.Builder`. -/
abbrev ST := StringTree Text Empty

/-- A string constant as an argument of `Write`. -/
def s (x : Text) : Arg := .string x

/-- generate.go:125-138 `generateSimpleField`. -/
def generateSimpleField (U : Unicode) (st : ST) (indent : Int) (messageGoType : Text) (f : FieldPtr) : Except GenPanic ST := do
  let fieldGoName := toGoCase U (getName f)
  let (fieldGoType, fieldFnName) ← fieldToGoTypeSimple (getType f)
  let st ← st.write builder [.indent indent, s t!"func (m *", .string messageGoType, s t!") ", .string fieldGoName, s t!"() ", .string fieldGoType, s t!" {\n"]
  let st ← st.write builder [.indent (next indent), s t!"return zeropb.Get", .string fieldFnName, s t!"(m.buf, ", .string offsetsConst, s t!", ", .int32 (getNumber f), s t!")\n"]
  let st ← st.write builder [.indent indent, s t!"}\n\n"]
  let st ← st.write builder [.indent indent, s t!"func (m *", .string messageGoType, s t!") Set", .string fieldGoName, s t!"(x ", .string fieldGoType, s t!") {\n"]
  let st ← st.write builder [.indent (next indent), s t!"zeropb.Set", .string fieldFnName, s t!"(&m.buf, ", .string offsetsConst, s t!", ", .int32 (getNumber f), s t!", x)\n"]
  st.write builder [.indent indent, s t!"}\n\n"]

/-- generate.go:140-158 `generateMessageField`. -/
def generateMessageField (U : Unicode) (st : ST) (indent : Int) (messageGoType : Text) (f : FieldPtr) : Except GenPanic ST := do
  let fieldGoName := toGoCase U (getName f)
  let fieldGoType := fieldToGoTypeMessage (getTypeName f)
  let st ← st.write builder [.indent indent, s t!"func (m *", .string messageGoType, s t!") ", .string fieldGoName, s t!"(x *", .string fieldGoType, s t!") (bool, error) {\n"]
  let st ← st.write builder [.indent (next indent), s t!"buf := zeropb.GetBytes(m.buf, ", .string offsetsConst, s t!", ", .int32 (getNumber f), s t!")\n"]
  let st ← st.write builder [.indent (next indent), s t!"if buf == nil {\n"]
  let st ← st.write builder [.indent (next (next indent)), s t!"return false, nil\n"]
  let st ← st.write builder [.indent (next indent), s t!"}\n"]
  let st ← st.write builder [.indent (next indent), s t!"return true, x.Decode(buf)\n"]
  let st ← st.write builder [.indent indent, s t!"}\n\n"]
  let st ← st.write builder [.indent indent, s t!"func (m *", .string messageGoType, s t!") Set", .string fieldGoName, s t!"(x ", .string fieldGoType, s t!") {\n"]
  let st ← st.write builder [.indent (next indent), s t!"buf := x.Encode()\n"]
  let st ← st.write builder [.indent (next indent), s t!"zeropb.SetBytes(&m.buf, ", .string offsetsConst, s t!", ", .int32 (getNumber f), s t!", buf)\n"]
  st.write builder [.indent indent, s t!"}\n\n"]

/-- generate.go:160-186 `generateRepeatedMessageField`. -/
def generateRepeatedMessageField (U : Unicode) (st : ST) (indent : Int) (messageGoType : Text) (f : FieldPtr) : Except GenPanic ST := do
  let fieldGoName := toGoCase U (getName f)
  let fieldGoType := fieldToGoTypeMessage (getTypeName f)
  let itGoType := messageGoType ++ fieldGoType ++ t!"Iterator"
  let st ← st.write builder [.indent indent, s t!"type ", .string itGoType, s t!" []byte\n\n"]
  let st ← st.write builder [.indent indent, s t!"func (i *", .string itGoType, s t!") Next(m *", .string fieldGoType, s t!") (bool, error) {\n"]
  let st ← st.write builder [.indent (next indent), s t!"var buf []byte\n"]
  let st ← st.write builder [.indent (next indent), s t!"*i, buf = zeropb.FindNextField((*i), ", .int32 (getNumber f), s t!")\n"]
  let st ← st.write builder [.indent (next indent), s t!"if buf == nil {\n"]
  let st ← st.write builder [.indent (next (next indent)), s t!"return false, nil\n"]
  let st ← st.write builder [.indent (next indent), s t!"}\n"]
  let st ← st.write builder [.indent (next indent), s t!"return true, m.Decode(buf)\n"]
  let st ← st.write builder [.indent indent, s t!"}\n\n"]
  let st ← st.write builder [.indent indent, s t!"func (m *", .string messageGoType, s t!") ", .string fieldGoName, s t!"() ", .string itGoType, s t!" {\n"]
  let st ← st.write builder [.indent (next indent), s t!"return ", .string itGoType, s t!"(zeropb.GetRepeatedNonPacked(m.buf, ", .string offsetsConst, s t!", ", .int32 (getNumber f), s t!"))\n"]
  let st ← st.write builder [.indent indent, s t!"}\n\n"]
  let st ← st.write builder [.indent indent, s t!"func (m *", .string messageGoType, s t!") AppendTo", .string fieldGoName, s t!"(x ", .string fieldGoType, s t!") {\n"]
  let st ← st.write builder [.indent (next indent), s t!"buf := x.Encode()\n"]
  let st ← st.write builder [.indent (next indent), s t!"zeropb.AppendBytes(&m.buf, ", .string offsetsConst, s t!", ", .int32 (getNumber f), s t!", buf)\n"]
  st.write builder [.indent indent, s t!"}\n\n"]

/-- generate.go:61-66: the loop that finds the largest field number (an `int32`, starting from 0). -/
def largestFieldID (fs : List FieldPtr) : U32 :=
  fs.foldl (fun largest f => let id := getNumber f; if id.toInt > largest.toInt then id else largest) 0#32

/-- generate.go:77-81: the lines of the repeated-field table. -/
def generateRepeatedTable (indent : Int) : ST → List FieldPtr → Except GenPanic ST
  | st, [] => .ok st
  | st, f :: fs => do
    if getLabel f = 3 then
      let st ← st.write builder [.indent (next indent), .int32 (getNumber f), s t!": struct{}{},\n"]
      generateRepeatedTable indent st fs
    else generateRepeatedTable indent st fs

/-- generate.go:105-121: the accessors of one field. -/
def generateField (U : Unicode) (st : ST) (indent : Int) (messageGoType : Text) (f : Field) : Except GenPanic ST :=
  if getLabel (some f) = 1 ∨ getLabel (some f) = 2 then
    if getType (some f) = 11 then generateMessageField U st indent messageGoType (some f)
    else generateSimpleField U st indent messageGoType (some f)
  else if getLabel (some f) = 3 then
    if getType (some f) = 11 then generateRepeatedMessageField U st indent messageGoType (some f)
    else .ok st
  else .ok st

/-- generate.go:101-122: the loop over the fields; nil entries are skipped. -/
def generateFields (U : Unicode) (indent : Int) (messageGoType : Text) : ST → List FieldPtr → Except GenPanic ST
  | st, [] => .ok st
  | st, none :: fs => generateFields U indent messageGoType st fs
  | st, some f :: fs => do
    let st ← generateField U st indent messageGoType f
    generateFields U indent messageGoType st fs

/-- generate.go:58-123 `generateMessage`. -/
def generateMessage (U : Unicode) (st : ST) (indent : Int) (m : Desc) : Except GenPanic ST := do
  let messageGoType := m.getName
  let largest := largestFieldID m.field
  let st ← st.write builder [.indent indent, s t!"type ", .string messageGoType, s t!" struct {\n"]
  let st ← st.write builder [.indent (next indent), s t!"buf []byte\n"]
  let st ← st.write builder [.indent (next indent), s t!"offsets struct {\n"]
  let st ← st.write builder [.indent (next (next indent)), s t!"a [", .int32 (largest + 1#32), s t!"]uint16\n"]
  let st ← st.write builder [.indent (next (next indent)), s t!"m map[int]uint64\n"]
  let st ← st.write builder [.indent (next indent), s t!"}\n"]
  let st ← st.write builder [.indent indent, s t!"}\n\n"]
  let st ← st.write builder [.indent indent, s t!"var repeatedFields_", .string messageGoType, s t!" = zeropb.RepeatedFields{\n"]
  let st ← generateRepeatedTable indent st m.field
  let st ← st.write builder [.indent indent, s t!"}\n\n"]
  let st ← st.write builder [.indent indent, s t!"func (m *", .string messageGoType, s t!") Encode() []byte {\n"]
  let st ← st.write builder [.indent (next indent), s t!"return m.buf\n"]
  let st ← st.write builder [.indent indent, s t!"}\n\n"]
  let st ← st.write builder [.indent indent, s t!"func (m *", .string messageGoType, s t!") Decode(buf []byte) error {\n"]
  let st ← st.write builder [.indent (next indent), s t!"m.buf = buf\n"]
  let st ← st.write builder [.indent (next indent), s t!"return zeropb.Decode(m.buf, ", .string offsetsConst, s t!", repeatedFields_", .string messageGoType, s t!")\n"]
  let st ← st.write builder [.indent indent, s t!"}\n\n"]
  let st ← st.write builder [.indent indent, s t!"func (m *", .string messageGoType, s t!") Reset(buf []byte) {\n"]
  let st ← st.write builder [.indent (next indent), s t!"if len(buf) > 0 {\n"]
  let st ← st.write builder [.indent (next (next indent)), s t!"panic(`buf must be empty`)\n"]
  let st ← st.write builder [.indent (next indent), s t!"}\n"]
  let st ← st.write builder [.indent (next indent), s t!"m.buf = buf\n"]
  let st ← st.write builder [.indent (next indent), .string offsetsConst, s t!".Clear()\n"]
  let st ← st.write builder [.indent indent, s t!"}\n\n"]
  generateFields U indent messageGoType st m.field

/-- generate.go:45-50: the messages of a file; nil entries are skipped. -/
def generateMessages (U : Unicode) (indent : Int) : ST → List (Option Desc) → Except GenPanic ST
  | st, [] => .ok st
  | st, none :: ms => generateMessages U indent st ms
  | st, some m :: ms => do
    let st ← generateMessage U st indent m
    generateMessages U indent st ms

/-- generate.go:36-56 `generateFile`. Its error result is always nil. -/
def generateFile (U : Unicode) (req : FileDesc) : Except GenPanic OutFile := do
  let st : ST := newStringTree [] t!"  "
  let indent : Int := 0
  let st ← st.write builder [.indent indent, s t!"// Code generated by protoc-gen-zeropb. DO NOT EDIT.\n\n"]
  let st ← st.write builder [.indent indent, s t!"package ", .string req.getPackage, s t!"\n\n"]
  let st ← st.write builder [.indent indent, s t!"import \"github.com/danhhz/zeropb\"", s t!"\n\n"]
  let st ← generateMessages U indent st req.messageType
  let name := replaceAll t!".proto" t!".zeropb.go" req.getName
  return ⟨name, st.w⟩

/-- generate.go:16-29: the loop over the files of the request. `filesToGenerate` is the set of the names
in `fileToGenerate` (generate.go:12-15). -/
def generateFiles (U : Unicode) (filesToGenerate : List Text) : List OutFile → List (Option FileDesc) → Except GenPanic (List OutFile)
  | files, [] => .ok files
  | files, none :: rest => generateFiles U filesToGenerate files rest
  | files, some fileReq :: rest => do
    if fileReq.getName ∈ filesToGenerate then
      let fileRes ← generateFile U fileReq
      generateFiles U filesToGenerate (files ++ [fileRes]) rest
    else generateFiles U filesToGenerate files rest

/-- generate.go:11-32 `Generate`, for a non-nil request. The result is the file list of the response; the
error result is always nil. -/
def generate (U : Unicode) (req : Request) : Except GenPanic (List OutFile) :=
  generateFiles U req.fileToGenerate [] req.protoFile

end Zeropb.Gen
