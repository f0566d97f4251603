import Verif.GoSrc.ToolGo
import Verif.GoSrc.Text
/-!
# The text of the generator and the plugins

The lines of the files, comments included, and the kernel's check that they consist of exactly the
tokens of the syntax trees.
-/

namespace Zeropb.GoSrc.T
open Zeropb.Gen (Text)

set_option maxRecDepth 10000

/-- The lines 24-24 of /repo/generate/descriptor.pb.go. -/
def descriptorText1 : List Text := [
  t!"type FieldDescriptorProto_Type int32"]

/-- The lines 26-56 of /repo/generate/descriptor.pb.go. -/
def descriptorText2 : List Text := [
  t!"const (",
  t!"\t// 0 is reserved for errors.",
  t!"\t// Order is weird for historical reasons.",
  t!"\tFieldDescriptorProto_TYPE_DOUBLE FieldDescriptorProto_Type = 1",
  t!"\tFieldDescriptorProto_TYPE_FLOAT  FieldDescriptorProto_Type = 2",
  t!"\t// Not ZigZag encoded.  Negative numbers take 10 bytes.  Use TYPE_SINT64 if",
  t!"\t// negative values are likely.",
  t!"\tFieldDescriptorProto_TYPE_INT64  FieldDescriptorProto_Type = 3",
  t!"\tFieldDescriptorProto_TYPE_UINT64 FieldDescriptorProto_Type = 4",
  t!"\t// Not ZigZag encoded.  Negative numbers take 10 bytes.  Use TYPE_SINT32 if",
  t!"\t// negative values are likely.",
  t!"\tFieldDescriptorProto_TYPE_INT32   FieldDescriptorProto_Type = 5",
  t!"\tFieldDescriptorProto_TYPE_FIXED64 FieldDescriptorProto_Type = 6",
  t!"\tFieldDescriptorProto_TYPE_FIXED32 FieldDescriptorProto_Type = 7",
  t!"\tFieldDescriptorProto_TYPE_BOOL    FieldDescriptorProto_Type = 8",
  t!"\tFieldDescriptorProto_TYPE_STRING  FieldDescriptorProto_Type = 9",
  t!"\t// Tag-delimited aggregate.",
  t!"\t// Group type is deprecated and not supported in proto3. However, Proto3",
  t!"\t// implementations should still be able to parse the group wire format and",
  t!"\t// treat group fields as unknown fields.",
  t!"\tFieldDescriptorProto_TYPE_GROUP   FieldDescriptorProto_Type = 10",
  t!"\tFieldDescriptorProto_TYPE_MESSAGE FieldDescriptorProto_Type = 11",
  t!"\t// New in version 2.",
  t!"\tFieldDescriptorProto_TYPE_BYTES    FieldDescriptorProto_Type = 12",
  t!"\tFieldDescriptorProto_TYPE_UINT32   FieldDescriptorProto_Type = 13",
  t!"\tFieldDescriptorProto_TYPE_ENUM     FieldDescriptorProto_Type = 14",
  t!"\tFieldDescriptorProto_TYPE_SFIXED32 FieldDescriptorProto_Type = 15",
  t!"\tFieldDescriptorProto_TYPE_SFIXED64 FieldDescriptorProto_Type = 16",
  t!"\tFieldDescriptorProto_TYPE_SINT32   FieldDescriptorProto_Type = 17",
  t!"\tFieldDescriptorProto_TYPE_SINT64   FieldDescriptorProto_Type = 18",
  t!")"]

/-- The lines 123-123 of /repo/generate/descriptor.pb.go. -/
def descriptorText3 : List Text := [
  t!"type FieldDescriptorProto_Label int32"]

/-- The lines 125-130 of /repo/generate/descriptor.pb.go. -/
def descriptorText4 : List Text := [
  t!"const (",
  t!"\t// 0 is reserved for errors",
  t!"\tFieldDescriptorProto_LABEL_OPTIONAL FieldDescriptorProto_Label = 1",
  t!"\tFieldDescriptorProto_LABEL_REQUIRED FieldDescriptorProto_Label = 2",
  t!"\tFieldDescriptorProto_LABEL_REPEATED FieldDescriptorProto_Label = 3",
  t!")"]

/-- The lines 444-449 of /repo/generate/descriptor.pb.go. -/
def descriptorText5 : List Text := [
  t!"func (m *FileDescriptorProto) GetName() string {",
  t!"\tif m != nil && m.Name != nil {",
  t!"\t\treturn *m.Name",
  t!"\t}",
  t!"\treturn \"\"",
  t!"}"]

/-- The lines 451-456 of /repo/generate/descriptor.pb.go. -/
def descriptorText6 : List Text := [
  t!"func (m *FileDescriptorProto) GetPackage() string {",
  t!"\tif m != nil && m.Package != nil {",
  t!"\t\treturn *m.Package",
  t!"\t}",
  t!"\treturn \"\"",
  t!"}"]

/-- The lines 572-577 of /repo/generate/descriptor.pb.go. -/
def descriptorText7 : List Text := [
  t!"func (m *DescriptorProto) GetName() string {",
  t!"\tif m != nil && m.Name != nil {",
  t!"\t\treturn *m.Name",
  t!"\t}",
  t!"\treturn \"\"",
  t!"}"]

/-- The lines 858-863 of /repo/generate/descriptor.pb.go. -/
def descriptorText8 : List Text := [
  t!"func (m *FieldDescriptorProto) GetName() string {",
  t!"\tif m != nil && m.Name != nil {",
  t!"\t\treturn *m.Name",
  t!"\t}",
  t!"\treturn \"\"",
  t!"}"]

/-- The lines 865-870 of /repo/generate/descriptor.pb.go. -/
def descriptorText9 : List Text := [
  t!"func (m *FieldDescriptorProto) GetNumber() int32 {",
  t!"\tif m != nil && m.Number != nil {",
  t!"\t\treturn *m.Number",
  t!"\t}",
  t!"\treturn 0",
  t!"}"]

/-- The lines 872-877 of /repo/generate/descriptor.pb.go. -/
def descriptorText10 : List Text := [
  t!"func (m *FieldDescriptorProto) GetLabel() FieldDescriptorProto_Label {",
  t!"\tif m != nil && m.Label != nil {",
  t!"\t\treturn *m.Label",
  t!"\t}",
  t!"\treturn FieldDescriptorProto_LABEL_OPTIONAL",
  t!"}"]

/-- The lines 879-884 of /repo/generate/descriptor.pb.go. -/
def descriptorText11 : List Text := [
  t!"func (m *FieldDescriptorProto) GetType() FieldDescriptorProto_Type {",
  t!"\tif m != nil && m.Type != nil {",
  t!"\t\treturn *m.Type",
  t!"\t}",
  t!"\treturn FieldDescriptorProto_TYPE_DOUBLE",
  t!"}"]

/-- The lines 886-891 of /repo/generate/descriptor.pb.go. -/
def descriptorText12 : List Text := [
  t!"func (m *FieldDescriptorProto) GetTypeName() string {",
  t!"\tif m != nil && m.TypeName != nil {",
  t!"\t\treturn *m.TypeName",
  t!"\t}",
  t!"\treturn \"\"",
  t!"}"]

/-- Lines of /repo/generate/descriptor.pb.go. -/
def descriptorText : List Text := descriptorText1 ++ descriptorText2 ++ descriptorText3 ++ descriptorText4 ++ descriptorText5 ++ descriptorText6 ++ descriptorText7 ++ descriptorText8 ++ descriptorText9 ++ descriptorText10 ++ descriptorText11 ++ descriptorText12

/-- The lines 1-60 of /repo/generate/stringtree.go. -/
def stringtreeText1 : List Text := [
  t!"// Copyright 2019 Daniel Harrison. All Rights Reserved.",
  t!"",
  t!"package generate",
  t!"",
  t!"import (",
  t!"\tfmt \"fmt\"",
  t!"\t\"io\"",
  t!"\t\"strconv\"",
  t!"\t\"strings\"",
  t!")",
  t!"",
  t!"// StringTreeIndent represents the number of stops to indent.",
  t!"type StringTreeIndent int",
  t!"",
  t!"// Next returns an indent that's stops step further.",
  t!"func (i StringTreeIndent) Next() StringTreeIndent {",
  t!"\treturn StringTreeIndent(int(i) + 1)",
  t!"}",
  t!"",
  t!"// StringTree is a wrapper around io.Writer that removes boilerplate.",
  t!"type StringTree struct {",
  t!"\tw      io.Writer",
  t!"\tindent string",
  t!"\terr    error",
  t!"}",
  t!"",
  t!"// NewStringTree returns a StringTree with the request string used for each step",
  t!"// of indentation.",
  t!"func NewStringTree(w io.Writer, indent string) *StringTree {",
  t!"\treturn &StringTree{w: w, indent: indent}",
  t!"}",
  t!"",
  t!"// Write passes along the arguments to the wrapped io.Writer, type sniffing and",
  t!"// stringifying as necessary.",
  t!"func (st *StringTree) Write(strs ...interface{}) {",
  t!"\tfor _, str := range strs {",
  t!"\t\tif st.err != nil {",
  t!"\t\t\treturn",
  t!"\t\t}",
  t!"\t\tswitch x := str.(type) {",
  t!"\t\tcase StringTreeIndent:",
  t!"\t\t\t_, st.err = st.w.Write([]byte(strings.Repeat(st.indent, int(x))))",
  t!"\t\tcase []byte:",
  t!"\t\t\t_, st.err = st.w.Write(x)",
  t!"\t\tcase string:",
  t!"\t\t\t_, st.err = st.w.Write([]byte(x))",
  t!"\t\tcase fmt.Stringer:",
  t!"\t\t\ts := x.String()",
  t!"\t\t\t_, st.err = st.w.Write([]byte(s))",
  t!"\t\tcase int32:",
  t!"\t\t\t_, st.err = st.w.Write([]byte(strconv.Itoa(int(x))))",
  t!"\t\tdefault:",
  t!"\t\t\tpanic(fmt.Sprintf(`unknown %T: %v`, str, str))",
  t!"\t\t}",
  t!"\t}",
  t!"}",
  t!"",
  t!"// Error returns the first error encountered, if any.",
  t!"func (st *StringTree) Error() error {",
  t!"\treturn st.err"]

/-- The lines 61-61 of /repo/generate/stringtree.go. -/
def stringtreeText2 : List Text := [
  t!"}"]

/-- The lines of /repo/generate/stringtree.go. -/
def stringtreeText : List Text := stringtreeText1 ++ stringtreeText2

/-- The lines 1-60 of /repo/generate/generate.go. -/
def generateText1 : List Text := [
  t!"// Copyright 2019 Daniel Harrison. All Rights Reserved.",
  t!"",
  t!"package generate",
  t!"",
  t!"import (",
  t!"\t\"strings\"",
  t!"\t\"unicode\"",
  t!")",
  t!"",
  t!"// Generate returns the codegen part of the requested zeropb messages.",
  t!"func Generate(req *CodeGeneratorRequest) (*CodeGeneratorResponse, error) {",
  t!"\tfilesToGenerate := map[string]struct{}{}",
  t!"\tfor _, f := range req.FileToGenerate {",
  t!"\t\tfilesToGenerate[f] = struct{}{}",
  t!"\t}",
  t!"\tfiles := make([]*CodeGeneratorResponse_File, 0, len(filesToGenerate))",
  t!"\tfor _, fileReq := range req.ProtoFile {",
  t!"\t\tif fileReq == nil {",
  t!"\t\t\tcontinue",
  t!"\t\t}",
  t!"\t\tif _, ok := filesToGenerate[fileReq.GetName()]; !ok {",
  t!"\t\t\tcontinue",
  t!"\t\t}",
  t!"\t\tfileRes, err := generateFile(fileReq)",
  t!"\t\tif err != nil {",
  t!"\t\t\treturn nil, err",
  t!"\t\t}",
  t!"\t\tfiles = append(files, fileRes)",
  t!"\t}",
  t!"\tres := &CodeGeneratorResponse{File: files}",
  t!"\treturn res, nil",
  t!"}",
  t!"",
  t!"const offsets = \"zeropb.WrapOffsets(m.offsets.a[:], &m.offsets.m)\"",
  t!"",
  t!"func generateFile(req *FileDescriptorProto) (*CodeGeneratorResponse_File, error) {",
  t!"\tvar buf strings.Builder",
  t!"\tst := NewStringTree(&buf, `  `)",
  t!"\tvar indent StringTreeIndent",
  t!"\tst.Write(indent, \"// Code generated by protoc-gen-zeropb. DO NOT EDIT.\\n\\n\")",
  t!"\t// TODO(dan): Use the go package if it's set.",
  t!"\tst.Write(indent, \"package \", req.GetPackage(), \"\\n\\n\")",
  t!"\tst.Write(indent, `import \"github.com/danhhz/zeropb\"`, \"\\n\\n\")",
  t!"",
  t!"\tfor _, m := range req.MessageType {",
  t!"\t\tif m == nil {",
  t!"\t\t\tcontinue",
  t!"\t\t}",
  t!"\t\tgenerateMessage(st, indent, *m)",
  t!"\t}",
  t!"",
  t!"\tname := strings.ReplaceAll(req.GetName(), `.proto`, `.zeropb.go`)",
  t!"\tcontent := buf.String()",
  t!"\tres := &CodeGeneratorResponse_File{Name: &name, Content: &content}",
  t!"\treturn res, nil",
  t!"}",
  t!"",
  t!"func generateMessage(st *StringTree, indent StringTreeIndent, m DescriptorProto) {",
  t!"\tmessageGoType := m.GetName()",
  t!""]

/-- The lines 61-120 of /repo/generate/generate.go. -/
def generateText2 : List Text := [
  t!"\tvar largestFieldID int32",
  t!"\tfor _, f := range m.Field {",
  t!"\t\tif id := f.GetNumber(); id > largestFieldID {",
  t!"\t\t\tlargestFieldID = id",
  t!"\t\t}",
  t!"\t}",
  t!"",
  t!"\tst.Write(indent, \"type \", messageGoType, \" struct {\\n\")",
  t!"\tst.Write(indent.Next(), \"buf []byte\\n\")",
  t!"\tst.Write(indent.Next(), \"offsets struct {\\n\")",
  t!"\tst.Write(indent.Next().Next(), \"a [\", largestFieldID+1, \"]uint16\\n\")",
  t!"\tst.Write(indent.Next().Next(), \"m map[int]uint64\\n\")",
  t!"\tst.Write(indent.Next(), \"}\\n\")",
  t!"\tst.Write(indent, \"}\\n\\n\")",
  t!"",
  t!"\tst.Write(indent, \"var repeatedFields_\", messageGoType, \" = zeropb.RepeatedFields{\\n\")",
  t!"\tfor _, f := range m.Field {",
  t!"\t\tif f.GetLabel() == FieldDescriptorProto_LABEL_REPEATED {",
  t!"\t\t\tst.Write(indent.Next(), int32(f.GetNumber()), \": struct{}{},\\n\")",
  t!"\t\t}",
  t!"\t}",
  t!"\tst.Write(indent, \"}\\n\\n\")",
  t!"",
  t!"\tst.Write(indent, \"func (m *\", messageGoType, \") Encode() []byte {\\n\")",
  t!"\tst.Write(indent.Next(), \"return m.buf\\n\")",
  t!"\tst.Write(indent, \"}\\n\\n\")",
  t!"",
  t!"\tst.Write(indent, \"func (m *\", messageGoType, \") Decode(buf []byte) error {\\n\")",
  t!"\tst.Write(indent.Next(), \"m.buf = buf\\n\")",
  t!"\tst.Write(indent.Next(), \"return zeropb.Decode(m.buf, \", offsets, \", repeatedFields_\", messageGoType, \")\\n\")",
  t!"\tst.Write(indent, \"}\\n\\n\")",
  t!"",
  t!"\tst.Write(indent, \"func (m *\", messageGoType, \") Reset(buf []byte) {\\n\")",
  t!"\tst.Write(indent.Next(), \"if len(buf) > 0 {\\n\")",
  t!"\tst.Write(indent.Next().Next(), \"panic(`buf must be empty`)\\n\")",
  t!"\tst.Write(indent.Next(), \"}\\n\")",
  t!"\tst.Write(indent.Next(), \"m.buf = buf\\n\")",
  t!"\tst.Write(indent.Next(), offsets, \".Clear()\\n\")",
  t!"\tst.Write(indent, \"}\\n\\n\")",
  t!"",
  t!"\tfor _, f := range m.Field {",
  t!"\t\tif f == nil {",
  t!"\t\t\tcontinue",
  t!"\t\t}",
  t!"\t\tswitch f.GetLabel() {",
  t!"\t\tcase FieldDescriptorProto_LABEL_OPTIONAL, FieldDescriptorProto_LABEL_REQUIRED:",
  t!"\t\t\tswitch f.GetType() {",
  t!"\t\t\tcase FieldDescriptorProto_TYPE_MESSAGE:",
  t!"\t\t\t\tgenerateMessageField(st, indent, messageGoType, *f)",
  t!"\t\t\tdefault:",
  t!"\t\t\t\tgenerateSimpleField(st, indent, messageGoType, *f)",
  t!"\t\t\t}",
  t!"\t\tcase FieldDescriptorProto_LABEL_REPEATED:",
  t!"\t\t\tswitch f.GetType() {",
  t!"\t\t\tcase FieldDescriptorProto_TYPE_MESSAGE:",
  t!"\t\t\t\tgenerateRepeatedMessageField(st, indent, messageGoType, *f)",
  t!"\t\t\tdefault:",
  t!"\t\t\t\t// WIP implement repeated simple fields",
  t!"\t\t\t\tcontinue",
  t!"\t\t\t}"]

/-- The lines 121-180 of /repo/generate/generate.go. -/
def generateText3 : List Text := [
  t!"\t\t}",
  t!"\t}",
  t!"}",
  t!"",
  t!"func generateSimpleField(",
  t!"\tst *StringTree, indent StringTreeIndent, messageGoType string, f FieldDescriptorProto,",
  t!") {",
  t!"\tfieldGoName := toGoCase(f.GetName())",
  t!"\tfieldGoType, fieldFnName := fieldToGoTypeSimple(f.GetType())",
  t!"",
  t!"\tst.Write(indent, \"func (m *\", messageGoType, \") \", fieldGoName, \"() \", fieldGoType, \" {\\n\")",
  t!"\tst.Write(indent.Next(), \"return zeropb.Get\", fieldFnName, \"(m.buf, \", offsets, \", \", f.GetNumber(), \")\\n\")",
  t!"\tst.Write(indent, \"}\\n\\n\")",
  t!"",
  t!"\tst.Write(indent, \"func (m *\", messageGoType, \") Set\", fieldGoName, \"(x \", fieldGoType, \") {\\n\")",
  t!"\tst.Write(indent.Next(), \"zeropb.Set\", fieldFnName, \"(&m.buf, \", offsets, \", \", f.GetNumber(), \", x)\\n\")",
  t!"\tst.Write(indent, \"}\\n\\n\")",
  t!"}",
  t!"",
  t!"func generateMessageField(",
  t!"\tst *StringTree, indent StringTreeIndent, messageGoType string, f FieldDescriptorProto,",
  t!") {",
  t!"\tfieldGoName := toGoCase(f.GetName())",
  t!"\tfieldGoType := fieldToGoTypeMessage(f.GetTypeName())",
  t!"",
  t!"\tst.Write(indent, \"func (m *\", messageGoType, \") \", fieldGoName, \"(x *\", fieldGoType, \") (bool, error) {\\n\")",
  t!"\tst.Write(indent.Next(), \"buf := zeropb.GetBytes(m.buf, \", offsets, \", \", f.GetNumber(), \")\\n\")",
  t!"\tst.Write(indent.Next(), \"if buf == nil {\\n\")",
  t!"\tst.Write(indent.Next().Next(), \"return false, nil\\n\")",
  t!"\tst.Write(indent.Next(), \"}\\n\")",
  t!"\tst.Write(indent.Next(), \"return true, x.Decode(buf)\\n\")",
  t!"\tst.Write(indent, \"}\\n\\n\")",
  t!"",
  t!"\tst.Write(indent, \"func (m *\", messageGoType, \") Set\", fieldGoName, \"(x \", fieldGoType, \") {\\n\")",
  t!"\tst.Write(indent.Next(), \"buf := x.Encode()\\n\")",
  t!"\tst.Write(indent.Next(), \"zeropb.SetBytes(&m.buf, \", offsets, \", \", f.GetNumber(), \", buf)\\n\")",
  t!"\tst.Write(indent, \"}\\n\\n\")",
  t!"}",
  t!"",
  t!"func generateRepeatedMessageField(",
  t!"\tst *StringTree, indent StringTreeIndent, messageGoType string, f FieldDescriptorProto,",
  t!") {",
  t!"\tfieldGoName := toGoCase(f.GetName())",
  t!"\tfieldGoType := fieldToGoTypeMessage(f.GetTypeName())",
  t!"\titGoType := messageGoType + fieldGoType + \"Iterator\"",
  t!"",
  t!"\tst.Write(indent, \"type \", itGoType, \" []byte\\n\\n\")",
  t!"",
  t!"\tst.Write(indent, \"func (i *\", itGoType, \") Next(m *\", fieldGoType, \") (bool, error) {\\n\")",
  t!"\tst.Write(indent.Next(), \"var buf []byte\\n\")",
  t!"\tst.Write(indent.Next(), \"*i, buf = zeropb.FindNextField((*i), \", f.GetNumber(), \")\\n\")",
  t!"\tst.Write(indent.Next(), \"if buf == nil {\\n\")",
  t!"\tst.Write(indent.Next().Next(), \"return false, nil\\n\")",
  t!"\tst.Write(indent.Next(), \"}\\n\")",
  t!"\tst.Write(indent.Next(), \"return true, m.Decode(buf)\\n\")",
  t!"\tst.Write(indent, \"}\\n\\n\")",
  t!"",
  t!"\tst.Write(indent, \"func (m *\", messageGoType, \") \", fieldGoName, \"() \", itGoType, \" {\\n\")",
  t!"\tst.Write(indent.Next(), \"return \", itGoType, \"(zeropb.GetRepeatedNonPacked(m.buf, \", offsets, \", \", f.GetNumber(), \"))\\n\")",
  t!"\tst.Write(indent, \"}\\n\\n\")"]

/-- The lines 181-240 of /repo/generate/generate.go. -/
def generateText4 : List Text := [
  t!"",
  t!"\tst.Write(indent, \"func (m *\", messageGoType, \") AppendTo\", fieldGoName, \"(x \", fieldGoType, \") {\\n\")",
  t!"\tst.Write(indent.Next(), \"buf := x.Encode()\\n\")",
  t!"\tst.Write(indent.Next(), \"zeropb.AppendBytes(&m.buf, \", offsets, \", \", f.GetNumber(), \", buf)\\n\")",
  t!"\tst.Write(indent, \"}\\n\\n\")",
  t!"}",
  t!"",
  t!"func toGoCase(s string) string {",
  t!"\ttitleNext := true",
  t!"\tmapFn := func(r rune) rune {",
  t!"\t\tif !unicode.IsLetter(r) && !unicode.IsDigit(r) {",
  t!"\t\t\ttitleNext = true",
  t!"\t\t\treturn -1",
  t!"\t\t}",
  t!"\t\tif titleNext {",
  t!"\t\t\ttitleNext = false",
  t!"\t\t\treturn unicode.ToTitle(r)",
  t!"\t\t}",
  t!"\t\treturn r",
  t!"\t}",
  t!"\treturn strings.Map(mapFn, s)",
  t!"}",
  t!"",
  t!"func fieldToGoTypeSimple(typ FieldDescriptorProto_Type) (fieldGoType, fieldFnName string) {",
  t!"\tswitch typ {",
  t!"\tcase FieldDescriptorProto_TYPE_BOOL:",
  t!"\t\treturn `bool`, `Bool`",
  t!"\tcase FieldDescriptorProto_TYPE_INT32:",
  t!"\t\treturn `int32`, `Int32`",
  t!"\tcase FieldDescriptorProto_TYPE_INT64:",
  t!"\t\treturn `int64`, `Int64`",
  t!"\tcase FieldDescriptorProto_TYPE_UINT32:",
  t!"\t\treturn `uint32`, `Uint32`",
  t!"\tcase FieldDescriptorProto_TYPE_UINT64:",
  t!"\t\treturn `uint64`, `Uint64`",
  t!"\tcase FieldDescriptorProto_TYPE_SINT32:",
  t!"\t\treturn `int32`, `ZigZagInt32`",
  t!"\tcase FieldDescriptorProto_TYPE_SINT64:",
  t!"\t\treturn `int64`, `ZigZagInt64`",
  t!"\tcase FieldDescriptorProto_TYPE_FIXED32:",
  t!"\t\treturn `uint32`, `FixedUint32`",
  t!"\tcase FieldDescriptorProto_TYPE_FIXED64:",
  t!"\t\treturn `uint64`, `FixedUint64`",
  t!"\tcase FieldDescriptorProto_TYPE_SFIXED32:",
  t!"\t\treturn `int32`, `FixedInt32`",
  t!"\tcase FieldDescriptorProto_TYPE_SFIXED64:",
  t!"\t\treturn `int64`, `FixedInt64`",
  t!"\tcase FieldDescriptorProto_TYPE_DOUBLE:",
  t!"\t\treturn `float64`, `Float64`",
  t!"\tcase FieldDescriptorProto_TYPE_FLOAT:",
  t!"\t\treturn `float32`, `Float32`",
  t!"\tcase FieldDescriptorProto_TYPE_STRING:",
  t!"\t\treturn `string`, `String`",
  t!"\tcase FieldDescriptorProto_TYPE_BYTES:",
  t!"\t\treturn `[]byte`, `Bytes`",
  t!"\tcase FieldDescriptorProto_TYPE_ENUM:",
  t!"\t\treturn `uint32`, `Uint32`",
  t!"\t}",
  t!"\tpanic(typ)",
  t!"}"]

/-- The lines 241-247 of /repo/generate/generate.go. -/
def generateText5 : List Text := [
  t!"",
  t!"func fieldToGoTypeMessage(typName string) string {",
  t!"\tif idx := strings.LastIndex(typName, `.`); idx != -1 {",
  t!"\t\ttypName = typName[idx+1:]",
  t!"\t}",
  t!"\treturn typName",
  t!"}"]

/-- The lines of /repo/generate/generate.go. -/
def generateText : List Text := generateText1 ++ generateText2 ++ generateText3 ++ generateText4 ++ generateText5

/-- The lines 1-41 of /repo/cmd/protoc-gen-zeropb/main.go. -/
def pluginText1 : List Text := [
  t!"// Copyright 2019 Daniel Harrison. All Rights Reserved.",
  t!"",
  t!"package main",
  t!"",
  t!"import (",
  t!"\t\"fmt\"",
  t!"\t\"io/ioutil\"",
  t!"\t\"os\"",
  t!"",
  t!"\t\"github.com/danhhz/zeropb/generate\"",
  t!"\t\"github.com/golang/protobuf/proto\"",
  t!")",
  t!"",
  t!"func run() error {",
  t!"\treqBytes, err := ioutil.ReadAll(os.Stdin)",
  t!"\tif err != nil {",
  t!"\t\treturn err",
  t!"\t}",
  t!"\tvar req generate.CodeGeneratorRequest",
  t!"\tif err := proto.Unmarshal(reqBytes, &req); err != nil {",
  t!"\t\treturn err",
  t!"\t}",
  t!"\tres, err := generate.Generate(&req)",
  t!"\tif err != nil {",
  t!"\t\treturn err",
  t!"\t}",
  t!"\tresBytes, err := proto.Marshal(res)",
  t!"\tif err != nil {",
  t!"\t\treturn err",
  t!"\t}",
  t!"\tif _, err := os.Stdout.Write(resBytes); err != nil {",
  t!"\t\treturn err",
  t!"\t}",
  t!"\treturn nil",
  t!"}",
  t!"",
  t!"func main() {",
  t!"\tif err := run(); err != nil {",
  t!"\t\tfmt.Fprintf(os.Stderr, \"%+v\\n\", err)",
  t!"\t}",
  t!"}"]

/-- The lines of /repo/cmd/protoc-gen-zeropb/main.go. -/
def pluginText : List Text := pluginText1

/-- The lines 1-33 of /repo/cmd/protoc-gen-text/main.go. -/
def textText1 : List Text := [
  t!"// Copyright 2019 Daniel Harrison. All Rights Reserved.",
  t!"",
  t!"package main",
  t!"",
  t!"import (",
  t!"\t\"fmt\"",
  t!"\t\"io/ioutil\"",
  t!"\t\"os\"",
  t!"",
  t!"\t\"github.com/danhhz/zeropb/generate\"",
  t!"\t\"github.com/golang/protobuf/proto\"",
  t!")",
  t!"",
  t!"func run() error {",
  t!"\treqBytes, err := ioutil.ReadAll(os.Stdin)",
  t!"\tif err != nil {",
  t!"\t\treturn err",
  t!"\t}",
  t!"\tvar req generate.CodeGeneratorRequest",
  t!"\tif err := proto.Unmarshal(reqBytes, &req); err != nil {",
  t!"\t\treturn err",
  t!"\t}",
  t!"\tif err := proto.MarshalText(os.Stderr, &req); err != nil {",
  t!"\t\treturn err",
  t!"\t}",
  t!"\treturn nil",
  t!"}",
  t!"",
  t!"func main() {",
  t!"\tif err := run(); err != nil {",
  t!"\t\tfmt.Fprintf(os.Stderr, \"%+v\\n\", err)",
  t!"\t}",
  t!"}"]

/-- The lines of /repo/cmd/protoc-gen-text/main.go. -/
def textText : List Text := textText1

/-! The syntax trees are the files. -/

theorem descriptor_source : tokenize (unlines descriptorText) = (descriptorGo.map Top.toks).flatten := by decide +kernel

theorem stringtree_source : tokenize (unlines stringtreeText) = (stringtreeGo.map Top.toks).flatten := by decide +kernel

theorem generate_source : tokenize (unlines generateText) = (generateGo.map Top.toks).flatten := by decide +kernel

theorem plugin_source : tokenize (unlines pluginText) = (pluginGo.map Top.toks).flatten := by decide +kernel

theorem text_source : tokenize (unlines textText) = (textGo.map Top.toks).flatten := by decide +kernel

end Zeropb.GoSrc.T
