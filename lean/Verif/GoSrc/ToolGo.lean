import Verif.GoSrc.ToolSyntax
/-!
# The generator and the plugins as syntax trees

generate/generate.go, generate/stringtree.go, the two cmd/*/main.go, and the parts of generate/descriptor.pb.go
that the generator calls. `GoSrc/ToolText` proves that these trees print to exactly the tokens of the files.
-/

namespace Zeropb.GoSrc.T

/-- Constants of generate/descriptor.pb.go. -/
def descriptorConsts1 : List (Id × Ty × Nat) := [
  (.FieldDescriptorProto_TYPE_DOUBLE, .name .FieldDescriptorProto_Type, 1),
  (.FieldDescriptorProto_TYPE_FLOAT, .name .FieldDescriptorProto_Type, 2),
  (.FieldDescriptorProto_TYPE_INT64, .name .FieldDescriptorProto_Type, 3),
  (.FieldDescriptorProto_TYPE_UINT64, .name .FieldDescriptorProto_Type, 4),
  (.FieldDescriptorProto_TYPE_INT32, .name .FieldDescriptorProto_Type, 5),
  (.FieldDescriptorProto_TYPE_FIXED64, .name .FieldDescriptorProto_Type, 6),
  (.FieldDescriptorProto_TYPE_FIXED32, .name .FieldDescriptorProto_Type, 7),
  (.FieldDescriptorProto_TYPE_BOOL, .name .FieldDescriptorProto_Type, 8),
  (.FieldDescriptorProto_TYPE_STRING, .name .FieldDescriptorProto_Type, 9),
  (.FieldDescriptorProto_TYPE_GROUP, .name .FieldDescriptorProto_Type, 10),
  (.FieldDescriptorProto_TYPE_MESSAGE, .name .FieldDescriptorProto_Type, 11),
  (.FieldDescriptorProto_TYPE_BYTES, .name .FieldDescriptorProto_Type, 12),
  (.FieldDescriptorProto_TYPE_UINT32, .name .FieldDescriptorProto_Type, 13),
  (.FieldDescriptorProto_TYPE_ENUM, .name .FieldDescriptorProto_Type, 14),
  (.FieldDescriptorProto_TYPE_SFIXED32, .name .FieldDescriptorProto_Type, 15),
  (.FieldDescriptorProto_TYPE_SFIXED64, .name .FieldDescriptorProto_Type, 16),
  (.FieldDescriptorProto_TYPE_SINT32, .name .FieldDescriptorProto_Type, 17),
  (.FieldDescriptorProto_TYPE_SINT64, .name .FieldDescriptorProto_Type, 18)]

/-- Constants of generate/descriptor.pb.go. -/
def descriptorConsts2 : List (Id × Ty × Nat) := [
  (.FieldDescriptorProto_LABEL_OPTIONAL, .name .FieldDescriptorProto_Label, 1),
  (.FieldDescriptorProto_LABEL_REQUIRED, .name .FieldDescriptorProto_Label, 2),
  (.FieldDescriptorProto_LABEL_REPEATED, .name .FieldDescriptorProto_Label, 3)]

/-- generate/descriptor.pb.go:444-449. -/
def srcFileDescriptorProto_GetName : Func where
  recv := (some (.m, .ptr (.name .FileDescriptorProto)))
  name := .GetName
  params := []
  results := [([], .name .string)]
  body :=
    .seq (.ite (.bin .land (.bin .ne (.id .m) .nil) (.bin .ne (.sel (.id .m) .Name) .nil)) (.seq (.retVal (.arg (.star (.sel (.id .m) .Name)))) <|
      .skip)) <|
    .seq (.retVal (.arg (.str t!""))) <|
    .skip

/-- generate/descriptor.pb.go:451-456. -/
def srcFileDescriptorProto_GetPackage : Func where
  recv := (some (.m, .ptr (.name .FileDescriptorProto)))
  name := .GetPackage
  params := []
  results := [([], .name .string)]
  body :=
    .seq (.ite (.bin .land (.bin .ne (.id .m) .nil) (.bin .ne (.sel (.id .m) .Package) .nil)) (.seq (.retVal (.arg (.star (.sel (.id .m) .Package)))) <|
      .skip)) <|
    .seq (.retVal (.arg (.str t!""))) <|
    .skip

/-- generate/descriptor.pb.go:572-577. -/
def srcDescriptorProto_GetName : Func where
  recv := (some (.m, .ptr (.name .DescriptorProto)))
  name := .GetName
  params := []
  results := [([], .name .string)]
  body :=
    .seq (.ite (.bin .land (.bin .ne (.id .m) .nil) (.bin .ne (.sel (.id .m) .Name) .nil)) (.seq (.retVal (.arg (.star (.sel (.id .m) .Name)))) <|
      .skip)) <|
    .seq (.retVal (.arg (.str t!""))) <|
    .skip

/-- generate/descriptor.pb.go:858-863. -/
def srcFieldDescriptorProto_GetName : Func where
  recv := (some (.m, .ptr (.name .FieldDescriptorProto)))
  name := .GetName
  params := []
  results := [([], .name .string)]
  body :=
    .seq (.ite (.bin .land (.bin .ne (.id .m) .nil) (.bin .ne (.sel (.id .m) .Name) .nil)) (.seq (.retVal (.arg (.star (.sel (.id .m) .Name)))) <|
      .skip)) <|
    .seq (.retVal (.arg (.str t!""))) <|
    .skip

/-- generate/descriptor.pb.go:865-870. -/
def srcFieldDescriptorProto_GetNumber : Func where
  recv := (some (.m, .ptr (.name .FieldDescriptorProto)))
  name := .GetNumber
  params := []
  results := [([], .name .int32)]
  body :=
    .seq (.ite (.bin .land (.bin .ne (.id .m) .nil) (.bin .ne (.sel (.id .m) .Number) .nil)) (.seq (.retVal (.arg (.star (.sel (.id .m) .Number)))) <|
      .skip)) <|
    .seq (.retVal (.arg (.num 0))) <|
    .skip

/-- generate/descriptor.pb.go:872-877. -/
def srcFieldDescriptorProto_GetLabel : Func where
  recv := (some (.m, .ptr (.name .FieldDescriptorProto)))
  name := .GetLabel
  params := []
  results := [([], .name .FieldDescriptorProto_Label)]
  body :=
    .seq (.ite (.bin .land (.bin .ne (.id .m) .nil) (.bin .ne (.sel (.id .m) .Label) .nil)) (.seq (.retVal (.arg (.star (.sel (.id .m) .Label)))) <|
      .skip)) <|
    .seq (.retVal (.arg (.id .FieldDescriptorProto_LABEL_OPTIONAL))) <|
    .skip

/-- generate/descriptor.pb.go:879-884. -/
def srcFieldDescriptorProto_GetType : Func where
  recv := (some (.m, .ptr (.name .FieldDescriptorProto)))
  name := .GetType
  params := []
  results := [([], .name .FieldDescriptorProto_Type)]
  body :=
    .seq (.ite (.bin .land (.bin .ne (.id .m) .nil) (.bin .ne (.sel (.id .m) .Type) .nil)) (.seq (.retVal (.arg (.star (.sel (.id .m) .Type)))) <|
      .skip)) <|
    .seq (.retVal (.arg (.id .FieldDescriptorProto_TYPE_DOUBLE))) <|
    .skip

/-- generate/descriptor.pb.go:886-891. -/
def srcFieldDescriptorProto_GetTypeName : Func where
  recv := (some (.m, .ptr (.name .FieldDescriptorProto)))
  name := .GetTypeName
  params := []
  results := [([], .name .string)]
  body :=
    .seq (.ite (.bin .land (.bin .ne (.id .m) .nil) (.bin .ne (.sel (.id .m) .TypeName) .nil)) (.seq (.retVal (.arg (.star (.sel (.id .m) .TypeName)))) <|
      .skip)) <|
    .seq (.retVal (.arg (.str t!""))) <|
    .skip

/-- generate/descriptor.pb.go. -/
def descriptorGo : List Top := [
  .typeDef .FieldDescriptorProto_Type (.name .int32),
  .consts descriptorConsts1,
  .typeDef .FieldDescriptorProto_Label (.name .int32),
  .consts descriptorConsts2,
  .func srcFileDescriptorProto_GetName,
  .func srcFileDescriptorProto_GetPackage,
  .func srcDescriptorProto_GetName,
  .func srcFieldDescriptorProto_GetName,
  .func srcFieldDescriptorProto_GetNumber,
  .func srcFieldDescriptorProto_GetLabel,
  .func srcFieldDescriptorProto_GetType,
  .func srcFieldDescriptorProto_GetTypeName]

/-- generate/stringtree.go:16-18. -/
def srcStringTreeIndent_Next : Func where
  recv := (some (.i, .name .StringTreeIndent))
  name := .Next
  params := []
  results := [([], .name .StringTreeIndent)]
  body :=
    .seq (.retVal (.arg (.conv (.name .StringTreeIndent) (.bin .add (.conv (.name .int) (.id .i)) (.num 1))))) <|
    .skip

/-- generate/stringtree.go:29-31. -/
def srcNewStringTree : Func where
  recv := none
  name := .NewStringTree
  params := [([.w], .sel .io .Writer), ([.indent], .name .string)]
  results := [([], .ptr (.name .StringTree))]
  body :=
    .seq (.retVal (.arg (.newLit .StringTree (.fields .w (.id .w) (.field .indent (.id .indent)))))) <|
    .skip

/-- A block of generate/stringtree.go:35-56. -/
def srcStringTree_Write_body1 : Stmt :=
    .seq (.ite (.bin .ne (.sel (.id .st) .err) .nil) (.seq (.ret) <|
      .skip)) <|
    .seq (.typeSwitch .x (.id .str) <|
    .typeCase (.name .StringTreeIndent) (.seq (.assignSnd (.sel (.id .st) .err) (.method (.sel (.id .st) .w) .Write (.arg (.conv (.slice (.name .byte)) (.pkg .strings .Repeat (.args (.sel (.id .st) .indent) (.arg (.conv (.name .int) (.id .x))))))))) <|
      .skip) <|
    .typeCase (.slice (.name .byte)) (.seq (.assignSnd (.sel (.id .st) .err) (.method (.sel (.id .st) .w) .Write (.arg (.id .x)))) <|
      .skip) <|
    .typeCase (.name .string) (.seq (.assignSnd (.sel (.id .st) .err) (.method (.sel (.id .st) .w) .Write (.arg (.conv (.slice (.name .byte)) (.id .x))))) <|
      .skip) <|
    .typeCase (.sel .fmt .Stringer) (.seq (.define [some .s] (.method (.id .x) .String .noArgs)) <|
      .seq (.assignSnd (.sel (.id .st) .err) (.method (.sel (.id .st) .w) .Write (.arg (.conv (.slice (.name .byte)) (.id .s))))) <|
      .skip) <|
    .typeCase (.name .int32) (.seq (.assignSnd (.sel (.id .st) .err) (.method (.sel (.id .st) .w) .Write (.arg (.conv (.slice (.name .byte)) (.pkg .strconv .Itoa (.arg (.conv (.name .int) (.id .x)))))))) <|
      .skip) <|
    .default (.seq (.panic (.pkg .fmt .Sprintf (.args (.raw t!"unknown %T: %v") (.args (.id .str) (.arg (.id .str)))))) <|
      .skip)) <|
    .skip

/-- generate/stringtree.go:35-56. -/
def srcStringTree_Write : Func where
  recv := (some (.st, .ptr (.name .StringTree)))
  name := .Write
  params := []
  variadic := some .strs
  results := []
  body :=
    .seq (.range .str (.id .strs) srcStringTree_Write_body1) <|
    .skip

/-- generate/stringtree.go:59-61. -/
def srcStringTree_Error : Func where
  recv := (some (.st, .ptr (.name .StringTree)))
  name := .Error
  params := []
  results := [([], .name .error)]
  body :=
    .seq (.retVal (.arg (.sel (.id .st) .err))) <|
    .skip

/-- generate/stringtree.go. -/
def stringtreeGo : List Top := [
  .package t!"generate",
  .imports [(some t!"fmt", t!"fmt"), (none, t!"io"), (none, t!"strconv"), (none, t!"strings")],
  .typeDef .StringTreeIndent (.name .int),
  .func srcStringTreeIndent_Next,
  .struct .StringTree [(.w, .sel .io .Writer), (.indent, .name .string), (.err, .name .error)],
  .func srcNewStringTree,
  .func srcStringTree_Write,
  .func srcStringTree_Error]

/-- A block of generate/generate.go:11-32. -/
def srcGenerate_body1 : Stmt :=
    .seq (.assign (.index (.id .filesToGenerate) (.id .f)) .unit) <|
    .skip

/-- A block of generate/generate.go:11-32. -/
def srcGenerate_body2 : Stmt :=
    .seq (.ite (.bin .eq (.id .fileReq) .nil) (.seq (.continue_) <|
      .skip)) <|
    .seq (.iteInit (.define [none, some .ok] (.index (.id .filesToGenerate) (.method (.id .fileReq) .GetName .noArgs))) (.not (.id .ok)) (.seq (.continue_) <|
      .skip)) <|
    .seq (.define [some .fileRes, some .err] (.call .generateFile (.arg (.id .fileReq)))) <|
    .seq (.ite (.bin .ne (.id .err) .nil) (.seq (.retVal (.args .nil (.arg (.id .err)))) <|
      .skip)) <|
    .seq (.assign (.id .files) (.append (.id .files) (.id .fileRes))) <|
    .skip

/-- generate/generate.go:11-32. -/
def srcGenerate : Func where
  recv := none
  name := .Generate
  params := [([.req], .ptr (.name .CodeGeneratorRequest))]
  results := [([], .ptr (.name .CodeGeneratorResponse)), ([], .name .error)]
  body :=
    .seq (.define [some .filesToGenerate] .emptySet) <|
    .seq (.range .f (.sel (.id .req) .FileToGenerate) srcGenerate_body1) <|
    .seq (.define [some .files] (.make (.slice (.ptr (.name .CodeGeneratorResponse_File))) (.num 0) (.len (.id .filesToGenerate)))) <|
    .seq (.range .fileReq (.sel (.id .req) .ProtoFile) srcGenerate_body2) <|
    .seq (.define [some .res] (.newLit .CodeGeneratorResponse (.field .File (.id .files)))) <|
    .seq (.retVal (.args (.id .res) (.arg .nil))) <|
    .skip

/-- A block of generate/generate.go:36-56. -/
def srcGenerateFile_body1 : Stmt :=
    .seq (.ite (.bin .eq (.id .m) .nil) (.seq (.continue_) <|
      .skip)) <|
    .seq (.expr (.call .generateMessage (.args (.id .st) (.args (.id .indent) (.arg (.star (.id .m))))))) <|
    .skip

/-- generate/generate.go:36-56. -/
def srcGenerateFile : Func where
  recv := none
  name := .generateFile
  params := [([.req], .ptr (.name .FileDescriptorProto))]
  results := [([], .ptr (.name .CodeGeneratorResponse_File)), ([], .name .error)]
  body :=
    .seq (.varRef .buf (.sel .strings .Builder)) <|
    .seq (.define [some .st] (.call .NewStringTree (.args (.addr .buf) (.arg (.raw t!"  "))))) <|
    .seq (.var .indent (.name .StringTreeIndent)) <|
    .seq (.expr (.method (.id .st) .Write (.args (.id .indent) (.arg (.str t!"// Code generated by protoc-gen-zeropb. DO NOT EDIT.\n\n"))))) <|
    .seq (.expr (.method (.id .st) .Write (.args (.id .indent) (.args (.str t!"package ") (.args (.method (.id .req) .GetPackage .noArgs) (.arg (.str t!"\n\n"))))))) <|
    .seq (.expr (.method (.id .st) .Write (.args (.id .indent) (.args (.raw t!"import \"github.com/danhhz/zeropb\"") (.arg (.str t!"\n\n")))))) <|
    .seq (.range .m (.sel (.id .req) .MessageType) srcGenerateFile_body1) <|
    .seq (.defineRef .name (.pkg .strings .ReplaceAll (.args (.method (.id .req) .GetName .noArgs) (.args (.raw t!".proto") (.arg (.raw t!".zeropb.go")))))) <|
    .seq (.defineRef .content (.method (.id .buf) .String .noArgs)) <|
    .seq (.define [some .res] (.newLit .CodeGeneratorResponse_File (.fields .Name (.addr .name) (.field .Content (.addr .content))))) <|
    .seq (.retVal (.args (.id .res) (.arg .nil))) <|
    .skip

/-- A block of generate/generate.go:58-123. -/
def srcGenerateMessage_body1 : Stmt :=
    .seq (.iteInit (.define [some .id] (.method (.id .f) .GetNumber .noArgs)) (.bin .gt (.id .id) (.id .largestFieldID)) (.seq (.assign (.id .largestFieldID) (.id .id)) <|
      .skip)) <|
    .skip

/-- A block of generate/generate.go:58-123. -/
def srcGenerateMessage_body2 : Stmt :=
    .seq (.ite (.bin .eq (.method (.id .f) .GetLabel .noArgs) (.id .FieldDescriptorProto_LABEL_REPEATED)) (.seq (.expr (.method (.id .st) .Write (.args (.method (.id .indent) .Next .noArgs) (.args (.conv (.name .int32) (.method (.id .f) .GetNumber .noArgs)) (.arg (.str t!": struct{}{},\n")))))) <|
      .skip)) <|
    .skip

/-- A block of generate/generate.go:58-123. -/
def srcGenerateMessage_body3 : Stmt :=
    .seq (.ite (.bin .eq (.id .f) .nil) (.seq (.continue_) <|
      .skip)) <|
    .seq (.switch (.method (.id .f) .GetLabel .noArgs) <|
    .case (.args (.id .FieldDescriptorProto_LABEL_OPTIONAL) (.arg (.id .FieldDescriptorProto_LABEL_REQUIRED))) (.seq (.switch (.method (.id .f) .GetType .noArgs) <|
      .case (.arg (.id .FieldDescriptorProto_TYPE_MESSAGE)) (.seq (.expr (.call .generateMessageField (.args (.id .st) (.args (.id .indent) (.args (.id .messageGoType) (.arg (.star (.id .f)))))))) <|
        .skip) <|
      .default (.seq (.expr (.call .generateSimpleField (.args (.id .st) (.args (.id .indent) (.args (.id .messageGoType) (.arg (.star (.id .f)))))))) <|
        .skip)) <|
      .skip) <|
    .case (.arg (.id .FieldDescriptorProto_LABEL_REPEATED)) (.seq (.switch (.method (.id .f) .GetType .noArgs) <|
      .case (.arg (.id .FieldDescriptorProto_TYPE_MESSAGE)) (.seq (.expr (.call .generateRepeatedMessageField (.args (.id .st) (.args (.id .indent) (.args (.id .messageGoType) (.arg (.star (.id .f)))))))) <|
        .skip) <|
      .default (.seq (.continue_) <|
        .skip)) <|
      .skip) <|
    .skip) <|
    .skip

/-- generate/generate.go:58-123. -/
def srcGenerateMessage : Func where
  recv := none
  name := .generateMessage
  params := [([.st], .ptr (.name .StringTree)), ([.indent], .name .StringTreeIndent), ([.m], .name .DescriptorProto)]
  results := []
  body :=
    .seq (.define [some .messageGoType] (.method (.id .m) .GetName .noArgs)) <|
    .seq (.var .largestFieldID (.name .int32)) <|
    .seq (.range .f (.sel (.id .m) .Field) srcGenerateMessage_body1) <|
    .seq (.expr (.method (.id .st) .Write (.args (.id .indent) (.args (.str t!"type ") (.args (.id .messageGoType) (.arg (.str t!" struct {\n"))))))) <|
    .seq (.expr (.method (.id .st) .Write (.args (.method (.id .indent) .Next .noArgs) (.arg (.str t!"buf []byte\n"))))) <|
    .seq (.expr (.method (.id .st) .Write (.args (.method (.id .indent) .Next .noArgs) (.arg (.str t!"offsets struct {\n"))))) <|
    .seq (.expr (.method (.id .st) .Write (.args (.method (.method (.id .indent) .Next .noArgs) .Next .noArgs) (.args (.str t!"a [") (.args (.bin .add (.id .largestFieldID) (.num 1)) (.arg (.str t!"]uint16\n"))))))) <|
    .seq (.expr (.method (.id .st) .Write (.args (.method (.method (.id .indent) .Next .noArgs) .Next .noArgs) (.arg (.str t!"m map[int]uint64\n"))))) <|
    .seq (.expr (.method (.id .st) .Write (.args (.method (.id .indent) .Next .noArgs) (.arg (.str t!"}\n"))))) <|
    .seq (.expr (.method (.id .st) .Write (.args (.id .indent) (.arg (.str t!"}\n\n"))))) <|
    .seq (.expr (.method (.id .st) .Write (.args (.id .indent) (.args (.str t!"var repeatedFields_") (.args (.id .messageGoType) (.arg (.str t!" = zeropb.RepeatedFields{\n"))))))) <|
    .seq (.range .f (.sel (.id .m) .Field) srcGenerateMessage_body2) <|
    .seq (.expr (.method (.id .st) .Write (.args (.id .indent) (.arg (.str t!"}\n\n"))))) <|
    .seq (.expr (.method (.id .st) .Write (.args (.id .indent) (.args (.str t!"func (m *") (.args (.id .messageGoType) (.arg (.str t!") Encode() []byte {\n"))))))) <|
    .seq (.expr (.method (.id .st) .Write (.args (.method (.id .indent) .Next .noArgs) (.arg (.str t!"return m.buf\n"))))) <|
    .seq (.expr (.method (.id .st) .Write (.args (.id .indent) (.arg (.str t!"}\n\n"))))) <|
    .seq (.expr (.method (.id .st) .Write (.args (.id .indent) (.args (.str t!"func (m *") (.args (.id .messageGoType) (.arg (.str t!") Decode(buf []byte) error {\n"))))))) <|
    .seq (.expr (.method (.id .st) .Write (.args (.method (.id .indent) .Next .noArgs) (.arg (.str t!"m.buf = buf\n"))))) <|
    .seq (.expr (.method (.id .st) .Write (.args (.method (.id .indent) .Next .noArgs) (.args (.str t!"return zeropb.Decode(m.buf, ") (.args (.id .offsets) (.args (.str t!", repeatedFields_") (.args (.id .messageGoType) (.arg (.str t!")\n"))))))))) <|
    .seq (.expr (.method (.id .st) .Write (.args (.id .indent) (.arg (.str t!"}\n\n"))))) <|
    .seq (.expr (.method (.id .st) .Write (.args (.id .indent) (.args (.str t!"func (m *") (.args (.id .messageGoType) (.arg (.str t!") Reset(buf []byte) {\n"))))))) <|
    .seq (.expr (.method (.id .st) .Write (.args (.method (.id .indent) .Next .noArgs) (.arg (.str t!"if len(buf) > 0 {\n"))))) <|
    .seq (.expr (.method (.id .st) .Write (.args (.method (.method (.id .indent) .Next .noArgs) .Next .noArgs) (.arg (.str t!"panic(`buf must be empty`)\n"))))) <|
    .seq (.expr (.method (.id .st) .Write (.args (.method (.id .indent) .Next .noArgs) (.arg (.str t!"}\n"))))) <|
    .seq (.expr (.method (.id .st) .Write (.args (.method (.id .indent) .Next .noArgs) (.arg (.str t!"m.buf = buf\n"))))) <|
    .seq (.expr (.method (.id .st) .Write (.args (.method (.id .indent) .Next .noArgs) (.args (.id .offsets) (.arg (.str t!".Clear()\n")))))) <|
    .seq (.expr (.method (.id .st) .Write (.args (.id .indent) (.arg (.str t!"}\n\n"))))) <|
    .seq (.range .f (.sel (.id .m) .Field) srcGenerateMessage_body3) <|
    .skip

/-- generate/generate.go:125-138. -/
def srcGenerateSimpleField : Func where
  recv := none
  name := .generateSimpleField
  params := [([.st], .ptr (.name .StringTree)), ([.indent], .name .StringTreeIndent), ([.messageGoType], .name .string), ([.f], .name .FieldDescriptorProto)]
  trailing := true
  results := []
  body :=
    .seq (.define [some .fieldGoName] (.call .toGoCase (.arg (.method (.id .f) .GetName .noArgs)))) <|
    .seq (.define [some .fieldGoType, some .fieldFnName] (.call .fieldToGoTypeSimple (.arg (.method (.id .f) .GetType .noArgs)))) <|
    .seq (.expr (.method (.id .st) .Write (.args (.id .indent) (.args (.str t!"func (m *") (.args (.id .messageGoType) (.args (.str t!") ") (.args (.id .fieldGoName) (.args (.str t!"() ") (.args (.id .fieldGoType) (.arg (.str t!" {\n"))))))))))) <|
    .seq (.expr (.method (.id .st) .Write (.args (.method (.id .indent) .Next .noArgs) (.args (.str t!"return zeropb.Get") (.args (.id .fieldFnName) (.args (.str t!"(m.buf, ") (.args (.id .offsets) (.args (.str t!", ") (.args (.method (.id .f) .GetNumber .noArgs) (.arg (.str t!")\n"))))))))))) <|
    .seq (.expr (.method (.id .st) .Write (.args (.id .indent) (.arg (.str t!"}\n\n"))))) <|
    .seq (.expr (.method (.id .st) .Write (.args (.id .indent) (.args (.str t!"func (m *") (.args (.id .messageGoType) (.args (.str t!") Set") (.args (.id .fieldGoName) (.args (.str t!"(x ") (.args (.id .fieldGoType) (.arg (.str t!") {\n"))))))))))) <|
    .seq (.expr (.method (.id .st) .Write (.args (.method (.id .indent) .Next .noArgs) (.args (.str t!"zeropb.Set") (.args (.id .fieldFnName) (.args (.str t!"(&m.buf, ") (.args (.id .offsets) (.args (.str t!", ") (.args (.method (.id .f) .GetNumber .noArgs) (.arg (.str t!", x)\n"))))))))))) <|
    .seq (.expr (.method (.id .st) .Write (.args (.id .indent) (.arg (.str t!"}\n\n"))))) <|
    .skip

/-- generate/generate.go:140-158. -/
def srcGenerateMessageField : Func where
  recv := none
  name := .generateMessageField
  params := [([.st], .ptr (.name .StringTree)), ([.indent], .name .StringTreeIndent), ([.messageGoType], .name .string), ([.f], .name .FieldDescriptorProto)]
  trailing := true
  results := []
  body :=
    .seq (.define [some .fieldGoName] (.call .toGoCase (.arg (.method (.id .f) .GetName .noArgs)))) <|
    .seq (.define [some .fieldGoType] (.call .fieldToGoTypeMessage (.arg (.method (.id .f) .GetTypeName .noArgs)))) <|
    .seq (.expr (.method (.id .st) .Write (.args (.id .indent) (.args (.str t!"func (m *") (.args (.id .messageGoType) (.args (.str t!") ") (.args (.id .fieldGoName) (.args (.str t!"(x *") (.args (.id .fieldGoType) (.arg (.str t!") (bool, error) {\n"))))))))))) <|
    .seq (.expr (.method (.id .st) .Write (.args (.method (.id .indent) .Next .noArgs) (.args (.str t!"buf := zeropb.GetBytes(m.buf, ") (.args (.id .offsets) (.args (.str t!", ") (.args (.method (.id .f) .GetNumber .noArgs) (.arg (.str t!")\n"))))))))) <|
    .seq (.expr (.method (.id .st) .Write (.args (.method (.id .indent) .Next .noArgs) (.arg (.str t!"if buf == nil {\n"))))) <|
    .seq (.expr (.method (.id .st) .Write (.args (.method (.method (.id .indent) .Next .noArgs) .Next .noArgs) (.arg (.str t!"return false, nil\n"))))) <|
    .seq (.expr (.method (.id .st) .Write (.args (.method (.id .indent) .Next .noArgs) (.arg (.str t!"}\n"))))) <|
    .seq (.expr (.method (.id .st) .Write (.args (.method (.id .indent) .Next .noArgs) (.arg (.str t!"return true, x.Decode(buf)\n"))))) <|
    .seq (.expr (.method (.id .st) .Write (.args (.id .indent) (.arg (.str t!"}\n\n"))))) <|
    .seq (.expr (.method (.id .st) .Write (.args (.id .indent) (.args (.str t!"func (m *") (.args (.id .messageGoType) (.args (.str t!") Set") (.args (.id .fieldGoName) (.args (.str t!"(x ") (.args (.id .fieldGoType) (.arg (.str t!") {\n"))))))))))) <|
    .seq (.expr (.method (.id .st) .Write (.args (.method (.id .indent) .Next .noArgs) (.arg (.str t!"buf := x.Encode()\n"))))) <|
    .seq (.expr (.method (.id .st) .Write (.args (.method (.id .indent) .Next .noArgs) (.args (.str t!"zeropb.SetBytes(&m.buf, ") (.args (.id .offsets) (.args (.str t!", ") (.args (.method (.id .f) .GetNumber .noArgs) (.arg (.str t!", buf)\n"))))))))) <|
    .seq (.expr (.method (.id .st) .Write (.args (.id .indent) (.arg (.str t!"}\n\n"))))) <|
    .skip

/-- generate/generate.go:160-186. -/
def srcGenerateRepeatedMessageField : Func where
  recv := none
  name := .generateRepeatedMessageField
  params := [([.st], .ptr (.name .StringTree)), ([.indent], .name .StringTreeIndent), ([.messageGoType], .name .string), ([.f], .name .FieldDescriptorProto)]
  trailing := true
  results := []
  body :=
    .seq (.define [some .fieldGoName] (.call .toGoCase (.arg (.method (.id .f) .GetName .noArgs)))) <|
    .seq (.define [some .fieldGoType] (.call .fieldToGoTypeMessage (.arg (.method (.id .f) .GetTypeName .noArgs)))) <|
    .seq (.define [some .itGoType] (.bin .add (.bin .add (.id .messageGoType) (.id .fieldGoType)) (.str t!"Iterator"))) <|
    .seq (.expr (.method (.id .st) .Write (.args (.id .indent) (.args (.str t!"type ") (.args (.id .itGoType) (.arg (.str t!" []byte\n\n"))))))) <|
    .seq (.expr (.method (.id .st) .Write (.args (.id .indent) (.args (.str t!"func (i *") (.args (.id .itGoType) (.args (.str t!") Next(m *") (.args (.id .fieldGoType) (.arg (.str t!") (bool, error) {\n"))))))))) <|
    .seq (.expr (.method (.id .st) .Write (.args (.method (.id .indent) .Next .noArgs) (.arg (.str t!"var buf []byte\n"))))) <|
    .seq (.expr (.method (.id .st) .Write (.args (.method (.id .indent) .Next .noArgs) (.args (.str t!"*i, buf = zeropb.FindNextField((*i), ") (.args (.method (.id .f) .GetNumber .noArgs) (.arg (.str t!")\n"))))))) <|
    .seq (.expr (.method (.id .st) .Write (.args (.method (.id .indent) .Next .noArgs) (.arg (.str t!"if buf == nil {\n"))))) <|
    .seq (.expr (.method (.id .st) .Write (.args (.method (.method (.id .indent) .Next .noArgs) .Next .noArgs) (.arg (.str t!"return false, nil\n"))))) <|
    .seq (.expr (.method (.id .st) .Write (.args (.method (.id .indent) .Next .noArgs) (.arg (.str t!"}\n"))))) <|
    .seq (.expr (.method (.id .st) .Write (.args (.method (.id .indent) .Next .noArgs) (.arg (.str t!"return true, m.Decode(buf)\n"))))) <|
    .seq (.expr (.method (.id .st) .Write (.args (.id .indent) (.arg (.str t!"}\n\n"))))) <|
    .seq (.expr (.method (.id .st) .Write (.args (.id .indent) (.args (.str t!"func (m *") (.args (.id .messageGoType) (.args (.str t!") ") (.args (.id .fieldGoName) (.args (.str t!"() ") (.args (.id .itGoType) (.arg (.str t!" {\n"))))))))))) <|
    .seq (.expr (.method (.id .st) .Write (.args (.method (.id .indent) .Next .noArgs) (.args (.str t!"return ") (.args (.id .itGoType) (.args (.str t!"(zeropb.GetRepeatedNonPacked(m.buf, ") (.args (.id .offsets) (.args (.str t!", ") (.args (.method (.id .f) .GetNumber .noArgs) (.arg (.str t!"))\n"))))))))))) <|
    .seq (.expr (.method (.id .st) .Write (.args (.id .indent) (.arg (.str t!"}\n\n"))))) <|
    .seq (.expr (.method (.id .st) .Write (.args (.id .indent) (.args (.str t!"func (m *") (.args (.id .messageGoType) (.args (.str t!") AppendTo") (.args (.id .fieldGoName) (.args (.str t!"(x ") (.args (.id .fieldGoType) (.arg (.str t!") {\n"))))))))))) <|
    .seq (.expr (.method (.id .st) .Write (.args (.method (.id .indent) .Next .noArgs) (.arg (.str t!"buf := x.Encode()\n"))))) <|
    .seq (.expr (.method (.id .st) .Write (.args (.method (.id .indent) .Next .noArgs) (.args (.str t!"zeropb.AppendBytes(&m.buf, ") (.args (.id .offsets) (.args (.str t!", ") (.args (.method (.id .f) .GetNumber .noArgs) (.arg (.str t!", buf)\n"))))))))) <|
    .seq (.expr (.method (.id .st) .Write (.args (.id .indent) (.arg (.str t!"}\n\n"))))) <|
    .skip

/-- A block of generate/generate.go:188-202. -/
def srcToGoCase_body1 : Stmt :=
    .seq (.ite (.bin .land (.not (.pkg .unicode .IsLetter (.arg (.id .r)))) (.not (.pkg .unicode .IsDigit (.arg (.id .r))))) (.seq (.assign (.id .titleNext) .true_) <|
      .seq (.retVal (.arg (.neg 1))) <|
      .skip)) <|
    .seq (.ite (.id .titleNext) (.seq (.assign (.id .titleNext) .false_) <|
      .seq (.retVal (.arg (.pkg .unicode .ToTitle (.arg (.id .r))))) <|
      .skip)) <|
    .seq (.retVal (.arg (.id .r))) <|
    .skip

/-- generate/generate.go:188-202. -/
def srcToGoCase : Func where
  recv := none
  name := .toGoCase
  params := [([.s], .name .string)]
  results := [([], .name .string)]
  body :=
    .seq (.defineRef .titleNext .true_) <|
    .seq (.defineFunc .mapFn .r (.name .rune) (.name .rune) srcToGoCase_body1) <|
    .seq (.retVal (.arg (.pkg .strings .Map (.args (.id .mapFn) (.arg (.id .s)))))) <|
    .skip

/-- generate/generate.go:204-240. -/
def srcFieldToGoTypeSimple : Func where
  recv := none
  name := .fieldToGoTypeSimple
  params := [([.typ], .name .FieldDescriptorProto_Type)]
  results := [([.fieldGoType, .fieldFnName], .name .string)]
  body :=
    .seq (.switch (.id .typ) <|
    .case (.arg (.id .FieldDescriptorProto_TYPE_BOOL)) (.seq (.retVal (.args (.raw t!"bool") (.arg (.raw t!"Bool")))) <|
      .skip) <|
    .case (.arg (.id .FieldDescriptorProto_TYPE_INT32)) (.seq (.retVal (.args (.raw t!"int32") (.arg (.raw t!"Int32")))) <|
      .skip) <|
    .case (.arg (.id .FieldDescriptorProto_TYPE_INT64)) (.seq (.retVal (.args (.raw t!"int64") (.arg (.raw t!"Int64")))) <|
      .skip) <|
    .case (.arg (.id .FieldDescriptorProto_TYPE_UINT32)) (.seq (.retVal (.args (.raw t!"uint32") (.arg (.raw t!"Uint32")))) <|
      .skip) <|
    .case (.arg (.id .FieldDescriptorProto_TYPE_UINT64)) (.seq (.retVal (.args (.raw t!"uint64") (.arg (.raw t!"Uint64")))) <|
      .skip) <|
    .case (.arg (.id .FieldDescriptorProto_TYPE_SINT32)) (.seq (.retVal (.args (.raw t!"int32") (.arg (.raw t!"ZigZagInt32")))) <|
      .skip) <|
    .case (.arg (.id .FieldDescriptorProto_TYPE_SINT64)) (.seq (.retVal (.args (.raw t!"int64") (.arg (.raw t!"ZigZagInt64")))) <|
      .skip) <|
    .case (.arg (.id .FieldDescriptorProto_TYPE_FIXED32)) (.seq (.retVal (.args (.raw t!"uint32") (.arg (.raw t!"FixedUint32")))) <|
      .skip) <|
    .case (.arg (.id .FieldDescriptorProto_TYPE_FIXED64)) (.seq (.retVal (.args (.raw t!"uint64") (.arg (.raw t!"FixedUint64")))) <|
      .skip) <|
    .case (.arg (.id .FieldDescriptorProto_TYPE_SFIXED32)) (.seq (.retVal (.args (.raw t!"int32") (.arg (.raw t!"FixedInt32")))) <|
      .skip) <|
    .case (.arg (.id .FieldDescriptorProto_TYPE_SFIXED64)) (.seq (.retVal (.args (.raw t!"int64") (.arg (.raw t!"FixedInt64")))) <|
      .skip) <|
    .case (.arg (.id .FieldDescriptorProto_TYPE_DOUBLE)) (.seq (.retVal (.args (.raw t!"float64") (.arg (.raw t!"Float64")))) <|
      .skip) <|
    .case (.arg (.id .FieldDescriptorProto_TYPE_FLOAT)) (.seq (.retVal (.args (.raw t!"float32") (.arg (.raw t!"Float32")))) <|
      .skip) <|
    .case (.arg (.id .FieldDescriptorProto_TYPE_STRING)) (.seq (.retVal (.args (.raw t!"string") (.arg (.raw t!"String")))) <|
      .skip) <|
    .case (.arg (.id .FieldDescriptorProto_TYPE_BYTES)) (.seq (.retVal (.args (.raw t!"[]byte") (.arg (.raw t!"Bytes")))) <|
      .skip) <|
    .case (.arg (.id .FieldDescriptorProto_TYPE_ENUM)) (.seq (.retVal (.args (.raw t!"uint32") (.arg (.raw t!"Uint32")))) <|
      .skip) <|
    .skip) <|
    .seq (.panic (.id .typ)) <|
    .skip

/-- generate/generate.go:242-247. -/
def srcFieldToGoTypeMessage : Func where
  recv := none
  name := .fieldToGoTypeMessage
  params := [([.typName], .name .string)]
  results := [([], .name .string)]
  body :=
    .seq (.iteInit (.define [some .idx] (.pkg .strings .LastIndex (.args (.id .typName) (.arg (.raw t!"."))))) (.bin .ne (.id .idx) (.neg 1)) (.seq (.assign (.id .typName) (.sliceFrom (.id .typName) (.bin .add (.id .idx) (.num 1)))) <|
      .skip)) <|
    .seq (.retVal (.arg (.id .typName))) <|
    .skip

/-- generate/generate.go. -/
def generateGo : List Top := [
  .package t!"generate",
  .imports [(none, t!"strings"), (none, t!"unicode")],
  .func srcGenerate,
  .const .offsets (.str t!"zeropb.WrapOffsets(m.offsets.a[:], &m.offsets.m)"),
  .func srcGenerateFile,
  .func srcGenerateMessage,
  .func srcGenerateSimpleField,
  .func srcGenerateMessageField,
  .func srcGenerateRepeatedMessageField,
  .func srcToGoCase,
  .func srcFieldToGoTypeSimple,
  .func srcFieldToGoTypeMessage]

/-- cmd/protoc-gen-zeropb/main.go:14-35. -/
def srcRunPlugin : Func where
  recv := none
  name := .run
  params := []
  results := [([], .name .error)]
  body :=
    .seq (.define [some .reqBytes, some .err] (.pkg .ioutil .ReadAll (.arg (.pkgVar .os .Stdin)))) <|
    .seq (.ite (.bin .ne (.id .err) .nil) (.seq (.retVal (.arg (.id .err))) <|
      .skip)) <|
    .seq (.varRef .req (.sel .generate .CodeGeneratorRequest)) <|
    .seq (.iteInit (.define [some .err] (.pkg .proto .Unmarshal (.args (.id .reqBytes) (.arg (.addr .req))))) (.bin .ne (.id .err) .nil) (.seq (.retVal (.arg (.id .err))) <|
      .skip)) <|
    .seq (.define [some .res, some .err] (.pkg .generate .Generate (.arg (.addr .req)))) <|
    .seq (.ite (.bin .ne (.id .err) .nil) (.seq (.retVal (.arg (.id .err))) <|
      .skip)) <|
    .seq (.define [some .resBytes, some .err] (.pkg .proto .Marshal (.arg (.id .res)))) <|
    .seq (.ite (.bin .ne (.id .err) .nil) (.seq (.retVal (.arg (.id .err))) <|
      .skip)) <|
    .seq (.iteInit (.define [none, some .err] (.method (.pkgVar .os .Stdout) .Write (.arg (.id .resBytes)))) (.bin .ne (.id .err) .nil) (.seq (.retVal (.arg (.id .err))) <|
      .skip)) <|
    .seq (.retVal (.arg .nil)) <|
    .skip

/-- cmd/protoc-gen-zeropb/main.go:37-41. -/
def srcMainPlugin : Func where
  recv := none
  name := .main
  params := []
  results := []
  body :=
    .seq (.iteInit (.define [some .err] (.call .run .noArgs)) (.bin .ne (.id .err) .nil) (.seq (.expr (.pkg .fmt .Fprintf (.args (.pkgVar .os .Stderr) (.args (.str t!"%+v\n") (.arg (.id .err)))))) <|
      .skip)) <|
    .skip

/-- cmd/protoc-gen-zeropb/main.go. -/
def pluginGo : List Top := [
  .package t!"main",
  .imports [(none, t!"fmt"), (none, t!"io/ioutil"), (none, t!"os"), (none, t!"github.com/danhhz/zeropb/generate"), (none, t!"github.com/golang/protobuf/proto")],
  .func srcRunPlugin,
  .func srcMainPlugin]

/-- cmd/protoc-gen-text/main.go:14-27. -/
def srcRunText : Func where
  recv := none
  name := .run
  params := []
  results := [([], .name .error)]
  body :=
    .seq (.define [some .reqBytes, some .err] (.pkg .ioutil .ReadAll (.arg (.pkgVar .os .Stdin)))) <|
    .seq (.ite (.bin .ne (.id .err) .nil) (.seq (.retVal (.arg (.id .err))) <|
      .skip)) <|
    .seq (.varRef .req (.sel .generate .CodeGeneratorRequest)) <|
    .seq (.iteInit (.define [some .err] (.pkg .proto .Unmarshal (.args (.id .reqBytes) (.arg (.addr .req))))) (.bin .ne (.id .err) .nil) (.seq (.retVal (.arg (.id .err))) <|
      .skip)) <|
    .seq (.iteInit (.define [some .err] (.pkg .proto .MarshalText (.args (.pkgVar .os .Stderr) (.arg (.addr .req))))) (.bin .ne (.id .err) .nil) (.seq (.retVal (.arg (.id .err))) <|
      .skip)) <|
    .seq (.retVal (.arg .nil)) <|
    .skip

/-- cmd/protoc-gen-text/main.go:29-33. -/
def srcMainText : Func where
  recv := none
  name := .main
  params := []
  results := []
  body :=
    .seq (.iteInit (.define [some .err] (.call .run .noArgs)) (.bin .ne (.id .err) .nil) (.seq (.expr (.pkg .fmt .Fprintf (.args (.pkgVar .os .Stderr) (.args (.str t!"%+v\n") (.arg (.id .err)))))) <|
      .skip)) <|
    .skip

/-- cmd/protoc-gen-text/main.go. -/
def textGo : List Top := [
  .package t!"main",
  .imports [(none, t!"fmt"), (none, t!"io/ioutil"), (none, t!"os"), (none, t!"github.com/danhhz/zeropb/generate"), (none, t!"github.com/golang/protobuf/proto")],
  .func srcRunText,
  .func srcMainText]

end Zeropb.GoSrc.T
