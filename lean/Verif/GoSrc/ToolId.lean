import Verif.GoSrc.Syntax
/-!
# The names in the sources of the generator and the plugins
-/

set_option linter.constructorNameAsVariable false

namespace Zeropb.GoSrc.T
open Zeropb.Gen (Text)

/-- The names that occur in the sources. -/
inductive Id where
  | Builder | CodeGeneratorRequest | CodeGeneratorResponse | CodeGeneratorResponse_File | Content | DescriptorProto | Error
  | Field | FieldDescriptorProto | FieldDescriptorProto_LABEL_OPTIONAL | FieldDescriptorProto_LABEL_REPEATED
  | FieldDescriptorProto_LABEL_REQUIRED | FieldDescriptorProto_Label | FieldDescriptorProto_TYPE_BOOL
  | FieldDescriptorProto_TYPE_BYTES | FieldDescriptorProto_TYPE_DOUBLE | FieldDescriptorProto_TYPE_ENUM
  | FieldDescriptorProto_TYPE_FIXED32 | FieldDescriptorProto_TYPE_FIXED64 | FieldDescriptorProto_TYPE_FLOAT
  | FieldDescriptorProto_TYPE_GROUP | FieldDescriptorProto_TYPE_INT32 | FieldDescriptorProto_TYPE_INT64
  | FieldDescriptorProto_TYPE_MESSAGE | FieldDescriptorProto_TYPE_SFIXED32 | FieldDescriptorProto_TYPE_SFIXED64
  | FieldDescriptorProto_TYPE_SINT32 | FieldDescriptorProto_TYPE_SINT64 | FieldDescriptorProto_TYPE_STRING
  | FieldDescriptorProto_TYPE_UINT32 | FieldDescriptorProto_TYPE_UINT64 | FieldDescriptorProto_Type | File | FileDescriptorProto
  | FileToGenerate | Fprintf | Generate | GetLabel | GetName | GetNumber | GetPackage | GetType | GetTypeName | IsDigit
  | IsLetter | Itoa | Label | LastIndex | Map | Marshal | MarshalText | MessageType | Name | NewStringTree | Next | Number
  | Package | ProtoFile | ReadAll | Repeat | ReplaceAll | Sprintf | Stderr | Stdin | Stdout | String | StringTree
  | StringTreeIndent | Stringer | ToTitle | Type | TypeName | Unmarshal | Write | Writer | buf | byte | content | err | error | f
  | fieldFnName | fieldGoName | fieldGoType | fieldToGoTypeMessage | fieldToGoTypeSimple | fileReq | fileRes | files
  | filesToGenerate | fmt | generate | generateFile | generateMessage | generateMessageField | generateRepeatedMessageField
  | generateSimpleField | i | id | idx | indent | int | int32 | io | ioutil | itGoType | largestFieldID | m | main | mapFn
  | messageGoType | name | offsets | ok | os | proto | r | req | reqBytes | res | resBytes | run | rune | s | st | str | strconv
  | string | strings | strs | titleNext | toGoCase | typ | typName | unicode | w | x
deriving DecidableEq, Repr

/-- The spelling of a name. -/
def Id.text : Id → Text
  | .Builder => t!"Builder"
  | .CodeGeneratorRequest => t!"CodeGeneratorRequest"
  | .CodeGeneratorResponse => t!"CodeGeneratorResponse"
  | .CodeGeneratorResponse_File => t!"CodeGeneratorResponse_File"
  | .Content => t!"Content"
  | .DescriptorProto => t!"DescriptorProto"
  | .Error => t!"Error"
  | .Field => t!"Field"
  | .FieldDescriptorProto => t!"FieldDescriptorProto"
  | .FieldDescriptorProto_LABEL_OPTIONAL => t!"FieldDescriptorProto_LABEL_OPTIONAL"
  | .FieldDescriptorProto_LABEL_REPEATED => t!"FieldDescriptorProto_LABEL_REPEATED"
  | .FieldDescriptorProto_LABEL_REQUIRED => t!"FieldDescriptorProto_LABEL_REQUIRED"
  | .FieldDescriptorProto_Label => t!"FieldDescriptorProto_Label"
  | .FieldDescriptorProto_TYPE_BOOL => t!"FieldDescriptorProto_TYPE_BOOL"
  | .FieldDescriptorProto_TYPE_BYTES => t!"FieldDescriptorProto_TYPE_BYTES"
  | .FieldDescriptorProto_TYPE_DOUBLE => t!"FieldDescriptorProto_TYPE_DOUBLE"
  | .FieldDescriptorProto_TYPE_ENUM => t!"FieldDescriptorProto_TYPE_ENUM"
  | .FieldDescriptorProto_TYPE_FIXED32 => t!"FieldDescriptorProto_TYPE_FIXED32"
  | .FieldDescriptorProto_TYPE_FIXED64 => t!"FieldDescriptorProto_TYPE_FIXED64"
  | .FieldDescriptorProto_TYPE_FLOAT => t!"FieldDescriptorProto_TYPE_FLOAT"
  | .FieldDescriptorProto_TYPE_GROUP => t!"FieldDescriptorProto_TYPE_GROUP"
  | .FieldDescriptorProto_TYPE_INT32 => t!"FieldDescriptorProto_TYPE_INT32"
  | .FieldDescriptorProto_TYPE_INT64 => t!"FieldDescriptorProto_TYPE_INT64"
  | .FieldDescriptorProto_TYPE_MESSAGE => t!"FieldDescriptorProto_TYPE_MESSAGE"
  | .FieldDescriptorProto_TYPE_SFIXED32 => t!"FieldDescriptorProto_TYPE_SFIXED32"
  | .FieldDescriptorProto_TYPE_SFIXED64 => t!"FieldDescriptorProto_TYPE_SFIXED64"
  | .FieldDescriptorProto_TYPE_SINT32 => t!"FieldDescriptorProto_TYPE_SINT32"
  | .FieldDescriptorProto_TYPE_SINT64 => t!"FieldDescriptorProto_TYPE_SINT64"
  | .FieldDescriptorProto_TYPE_STRING => t!"FieldDescriptorProto_TYPE_STRING"
  | .FieldDescriptorProto_TYPE_UINT32 => t!"FieldDescriptorProto_TYPE_UINT32"
  | .FieldDescriptorProto_TYPE_UINT64 => t!"FieldDescriptorProto_TYPE_UINT64"
  | .FieldDescriptorProto_Type => t!"FieldDescriptorProto_Type"
  | .File => t!"File"
  | .FileDescriptorProto => t!"FileDescriptorProto"
  | .FileToGenerate => t!"FileToGenerate"
  | .Fprintf => t!"Fprintf"
  | .Generate => t!"Generate"
  | .GetLabel => t!"GetLabel"
  | .GetName => t!"GetName"
  | .GetNumber => t!"GetNumber"
  | .GetPackage => t!"GetPackage"
  | .GetType => t!"GetType"
  | .GetTypeName => t!"GetTypeName"
  | .IsDigit => t!"IsDigit"
  | .IsLetter => t!"IsLetter"
  | .Itoa => t!"Itoa"
  | .Label => t!"Label"
  | .LastIndex => t!"LastIndex"
  | .Map => t!"Map"
  | .Marshal => t!"Marshal"
  | .MarshalText => t!"MarshalText"
  | .MessageType => t!"MessageType"
  | .Name => t!"Name"
  | .NewStringTree => t!"NewStringTree"
  | .Next => t!"Next"
  | .Number => t!"Number"
  | .Package => t!"Package"
  | .ProtoFile => t!"ProtoFile"
  | .ReadAll => t!"ReadAll"
  | .Repeat => t!"Repeat"
  | .ReplaceAll => t!"ReplaceAll"
  | .Sprintf => t!"Sprintf"
  | .Stderr => t!"Stderr"
  | .Stdin => t!"Stdin"
  | .Stdout => t!"Stdout"
  | .String => t!"String"
  | .StringTree => t!"StringTree"
  | .StringTreeIndent => t!"StringTreeIndent"
  | .Stringer => t!"Stringer"
  | .ToTitle => t!"ToTitle"
  | .Type => t!"Type"
  | .TypeName => t!"TypeName"
  | .Unmarshal => t!"Unmarshal"
  | .Write => t!"Write"
  | .Writer => t!"Writer"
  | .buf => t!"buf"
  | .byte => t!"byte"
  | .content => t!"content"
  | .err => t!"err"
  | .error => t!"error"
  | .f => t!"f"
  | .fieldFnName => t!"fieldFnName"
  | .fieldGoName => t!"fieldGoName"
  | .fieldGoType => t!"fieldGoType"
  | .fieldToGoTypeMessage => t!"fieldToGoTypeMessage"
  | .fieldToGoTypeSimple => t!"fieldToGoTypeSimple"
  | .fileReq => t!"fileReq"
  | .fileRes => t!"fileRes"
  | .files => t!"files"
  | .filesToGenerate => t!"filesToGenerate"
  | .fmt => t!"fmt"
  | .generate => t!"generate"
  | .generateFile => t!"generateFile"
  | .generateMessage => t!"generateMessage"
  | .generateMessageField => t!"generateMessageField"
  | .generateRepeatedMessageField => t!"generateRepeatedMessageField"
  | .generateSimpleField => t!"generateSimpleField"
  | .i => t!"i"
  | .id => t!"id"
  | .idx => t!"idx"
  | .indent => t!"indent"
  | .int => t!"int"
  | .int32 => t!"int32"
  | .io => t!"io"
  | .ioutil => t!"ioutil"
  | .itGoType => t!"itGoType"
  | .largestFieldID => t!"largestFieldID"
  | .m => t!"m"
  | .main => t!"main"
  | .mapFn => t!"mapFn"
  | .messageGoType => t!"messageGoType"
  | .name => t!"name"
  | .offsets => t!"offsets"
  | .ok => t!"ok"
  | .os => t!"os"
  | .proto => t!"proto"
  | .r => t!"r"
  | .req => t!"req"
  | .reqBytes => t!"reqBytes"
  | .res => t!"res"
  | .resBytes => t!"resBytes"
  | .run => t!"run"
  | .rune => t!"rune"
  | .s => t!"s"
  | .st => t!"st"
  | .str => t!"str"
  | .strconv => t!"strconv"
  | .string => t!"string"
  | .strings => t!"strings"
  | .strs => t!"strs"
  | .titleNext => t!"titleNext"
  | .toGoCase => t!"toGoCase"
  | .typ => t!"typ"
  | .typName => t!"typName"
  | .unicode => t!"unicode"
  | .w => t!"w"
  | .x => t!"x"

end Zeropb.GoSrc.T
