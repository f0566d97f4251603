import Verif.Proof.Gen
/-!
# The golden files of generate/golden_test.go

These are conformance checks of the model, not properties: the model of the generator, applied to the
descriptors in golden/*.parsed, produces golden/*/*.zeropb.go character by character, as the test in
golden_test.go:52-65 demands of the program. (Generated from the files in /repo by a script.)
-/

namespace Zeropb.Gen

/-- The ASCII part of Go's `unicode` package. -/
def asciiUnicode : Unicode := ⟨Char.isAlpha, Char.isDigit, Char.toUpper⟩

/-- golden/test.parsed: the file descriptor (the fields the generator reads). -/
def testFile : FileDesc :=
  { name := some t!"test.proto", package := some t!"testzeropb", messageType := [
    some { name := some t!"TestMessage", field := [
      some { name := some t!"bool", number := some 1#32, label := some 1, type := some 8 },
      some { name := some t!"int32", number := some 2#32, label := some 1, type := some 5 },
      some { name := some t!"int64", number := some 3#32, label := some 1, type := some 3 },
      some { name := some t!"uint32", number := some 4#32, label := some 1, type := some 13 },
      some { name := some t!"uint64", number := some 5#32, label := some 1, type := some 4 },
      some { name := some t!"sint32", number := some 6#32, label := some 1, type := some 17 },
      some { name := some t!"sint64", number := some 7#32, label := some 1, type := some 18 },
      some { name := some t!"fixed32", number := some 8#32, label := some 1, type := some 7 },
      some { name := some t!"fixed64", number := some 9#32, label := some 1, type := some 6 },
      some { name := some t!"sfixed32", number := some 10#32, label := some 1, type := some 15 },
      some { name := some t!"sfixed64", number := some 11#32, label := some 1, type := some 16 },
      some { name := some t!"double", number := some 12#32, label := some 1, type := some 1 },
      some { name := some t!"float", number := some 13#32, label := some 1, type := some 2 },
      some { name := some t!"string", number := some 14#32, label := some 1, type := some 9 },
      some { name := some t!"byte_array", number := some 15#32, label := some 1, type := some 12 },
      some { name := some t!"enum", number := some 16#32, label := some 1, type := some 14, typeName := some t!".testzeropb.TestEnum" },
      some { name := some t!"message", number := some 17#32, label := some 1, type := some 11, typeName := some t!".testzeropb.TestMessage" },
      some { name := some t!"bools", number := some 18#32, label := some 3, type := some 8 },
      some { name := some t!"int32s", number := some 19#32, label := some 3, type := some 5 },
      some { name := some t!"int64s", number := some 20#32, label := some 3, type := some 3 },
      some { name := some t!"uint32s", number := some 21#32, label := some 3, type := some 13 },
      some { name := some t!"uint64s", number := some 22#32, label := some 3, type := some 4 },
      some { name := some t!"sint32s", number := some 23#32, label := some 3, type := some 17 },
      some { name := some t!"sint64s", number := some 24#32, label := some 3, type := some 18 },
      some { name := some t!"fixed32s", number := some 25#32, label := some 3, type := some 7 },
      some { name := some t!"fixed64s", number := some 26#32, label := some 3, type := some 6 },
      some { name := some t!"sfixed32s", number := some 27#32, label := some 3, type := some 15 },
      some { name := some t!"sfixed64s", number := some 28#32, label := some 3, type := some 16 },
      some { name := some t!"doubles", number := some 29#32, label := some 3, type := some 1 },
      some { name := some t!"floats", number := some 30#32, label := some 3, type := some 2 },
      some { name := some t!"strings", number := some 31#32, label := some 3, type := some 9 },
      some { name := some t!"byte_arrays", number := some 32#32, label := some 3, type := some 12 },
      some { name := some t!"enums", number := some 33#32, label := some 3, type := some 14, typeName := some t!".testzeropb.TestEnum" },
      some { name := some t!"messages", number := some 34#32, label := some 3, type := some 11, typeName := some t!".testzeropb.TestMessage" }] }] }

/-- golden/test.parsed: the request. -/
def testRequest : Request where
  fileToGenerate := [t!"test.proto"]
  protoFile := [some testFile]

/-- golden/testzeropb/test.zeropb.go, verbatim, line by line, the lines grouped by declaration. -/
def testGolden : List (List Text) := [
  [t!"// Code generated by protoc-gen-zeropb. DO NOT EDIT.\n",
   t!"\n",
   t!"package testzeropb\n",
   t!"\n",
   t!"import \"github.com/danhhz/zeropb\"\n",
   t!"\n"],
  [t!"type TestMessage struct {\n",
   t!"  buf []byte\n",
   t!"  offsets struct {\n",
   t!"    a [35]uint16\n",
   t!"    m map[int]uint64\n",
   t!"  }\n",
   t!"}\n",
   t!"\n"],
  [t!"var repeatedFields_TestMessage = zeropb.RepeatedFields{\n",
   t!"  18: struct{}{},\n",
   t!"  19: struct{}{},\n",
   t!"  20: struct{}{},\n",
   t!"  21: struct{}{},\n",
   t!"  22: struct{}{},\n",
   t!"  23: struct{}{},\n",
   t!"  24: struct{}{},\n",
   t!"  25: struct{}{},\n",
   t!"  26: struct{}{},\n",
   t!"  27: struct{}{},\n",
   t!"  28: struct{}{},\n",
   t!"  29: struct{}{},\n",
   t!"  30: struct{}{},\n",
   t!"  31: struct{}{},\n",
   t!"  32: struct{}{},\n",
   t!"  33: struct{}{},\n",
   t!"  34: struct{}{},\n",
   t!"}\n",
   t!"\n"],
  [t!"func (m *TestMessage) Encode() []byte {\n",
   t!"  return m.buf\n",
   t!"}\n",
   t!"\n"],
  [t!"func (m *TestMessage) Decode(buf []byte) error {\n",
   t!"  m.buf = buf\n",
   t!"  return zeropb.Decode(m.buf, zeropb.WrapOffsets(m.offsets.a[:], &m.offsets.m), repeatedFields_TestMessage)\n",
   t!"}\n",
   t!"\n"],
  [t!"func (m *TestMessage) Reset(buf []byte) {\n",
   t!"  if len(buf) > 0 {\n",
   t!"    panic(`buf must be empty`)\n",
   t!"  }\n",
   t!"  m.buf = buf\n",
   t!"  zeropb.WrapOffsets(m.offsets.a[:], &m.offsets.m).Clear()\n",
   t!"}\n",
   t!"\n"],
  [t!"func (m *TestMessage) Bool() bool {\n",
   t!"  return zeropb.GetBool(m.buf, zeropb.WrapOffsets(m.offsets.a[:], &m.offsets.m), 1)\n",
   t!"}\n",
   t!"\n"],
  [t!"func (m *TestMessage) SetBool(x bool) {\n",
   t!"  zeropb.SetBool(&m.buf, zeropb.WrapOffsets(m.offsets.a[:], &m.offsets.m), 1, x)\n",
   t!"}\n",
   t!"\n"],
  [t!"func (m *TestMessage) Int32() int32 {\n",
   t!"  return zeropb.GetInt32(m.buf, zeropb.WrapOffsets(m.offsets.a[:], &m.offsets.m), 2)\n",
   t!"}\n",
   t!"\n"],
  [t!"func (m *TestMessage) SetInt32(x int32) {\n",
   t!"  zeropb.SetInt32(&m.buf, zeropb.WrapOffsets(m.offsets.a[:], &m.offsets.m), 2, x)\n",
   t!"}\n",
   t!"\n"],
  [t!"func (m *TestMessage) Int64() int64 {\n",
   t!"  return zeropb.GetInt64(m.buf, zeropb.WrapOffsets(m.offsets.a[:], &m.offsets.m), 3)\n",
   t!"}\n",
   t!"\n"],
  [t!"func (m *TestMessage) SetInt64(x int64) {\n",
   t!"  zeropb.SetInt64(&m.buf, zeropb.WrapOffsets(m.offsets.a[:], &m.offsets.m), 3, x)\n",
   t!"}\n",
   t!"\n"],
  [t!"func (m *TestMessage) Uint32() uint32 {\n",
   t!"  return zeropb.GetUint32(m.buf, zeropb.WrapOffsets(m.offsets.a[:], &m.offsets.m), 4)\n",
   t!"}\n",
   t!"\n"],
  [t!"func (m *TestMessage) SetUint32(x uint32) {\n",
   t!"  zeropb.SetUint32(&m.buf, zeropb.WrapOffsets(m.offsets.a[:], &m.offsets.m), 4, x)\n",
   t!"}\n",
   t!"\n"],
  [t!"func (m *TestMessage) Uint64() uint64 {\n",
   t!"  return zeropb.GetUint64(m.buf, zeropb.WrapOffsets(m.offsets.a[:], &m.offsets.m), 5)\n",
   t!"}\n",
   t!"\n"],
  [t!"func (m *TestMessage) SetUint64(x uint64) {\n",
   t!"  zeropb.SetUint64(&m.buf, zeropb.WrapOffsets(m.offsets.a[:], &m.offsets.m), 5, x)\n",
   t!"}\n",
   t!"\n"],
  [t!"func (m *TestMessage) Sint32() int32 {\n",
   t!"  return zeropb.GetZigZagInt32(m.buf, zeropb.WrapOffsets(m.offsets.a[:], &m.offsets.m), 6)\n",
   t!"}\n",
   t!"\n"],
  [t!"func (m *TestMessage) SetSint32(x int32) {\n",
   t!"  zeropb.SetZigZagInt32(&m.buf, zeropb.WrapOffsets(m.offsets.a[:], &m.offsets.m), 6, x)\n",
   t!"}\n",
   t!"\n"],
  [t!"func (m *TestMessage) Sint64() int64 {\n",
   t!"  return zeropb.GetZigZagInt64(m.buf, zeropb.WrapOffsets(m.offsets.a[:], &m.offsets.m), 7)\n",
   t!"}\n",
   t!"\n"],
  [t!"func (m *TestMessage) SetSint64(x int64) {\n",
   t!"  zeropb.SetZigZagInt64(&m.buf, zeropb.WrapOffsets(m.offsets.a[:], &m.offsets.m), 7, x)\n",
   t!"}\n",
   t!"\n"],
  [t!"func (m *TestMessage) Fixed32() uint32 {\n",
   t!"  return zeropb.GetFixedUint32(m.buf, zeropb.WrapOffsets(m.offsets.a[:], &m.offsets.m), 8)\n",
   t!"}\n",
   t!"\n"],
  [t!"func (m *TestMessage) SetFixed32(x uint32) {\n",
   t!"  zeropb.SetFixedUint32(&m.buf, zeropb.WrapOffsets(m.offsets.a[:], &m.offsets.m), 8, x)\n",
   t!"}\n",
   t!"\n"],
  [t!"func (m *TestMessage) Fixed64() uint64 {\n",
   t!"  return zeropb.GetFixedUint64(m.buf, zeropb.WrapOffsets(m.offsets.a[:], &m.offsets.m), 9)\n",
   t!"}\n",
   t!"\n"],
  [t!"func (m *TestMessage) SetFixed64(x uint64) {\n",
   t!"  zeropb.SetFixedUint64(&m.buf, zeropb.WrapOffsets(m.offsets.a[:], &m.offsets.m), 9, x)\n",
   t!"}\n",
   t!"\n"],
  [t!"func (m *TestMessage) Sfixed32() int32 {\n",
   t!"  return zeropb.GetFixedInt32(m.buf, zeropb.WrapOffsets(m.offsets.a[:], &m.offsets.m), 10)\n",
   t!"}\n",
   t!"\n"],
  [t!"func (m *TestMessage) SetSfixed32(x int32) {\n",
   t!"  zeropb.SetFixedInt32(&m.buf, zeropb.WrapOffsets(m.offsets.a[:], &m.offsets.m), 10, x)\n",
   t!"}\n",
   t!"\n"],
  [t!"func (m *TestMessage) Sfixed64() int64 {\n",
   t!"  return zeropb.GetFixedInt64(m.buf, zeropb.WrapOffsets(m.offsets.a[:], &m.offsets.m), 11)\n",
   t!"}\n",
   t!"\n"],
  [t!"func (m *TestMessage) SetSfixed64(x int64) {\n",
   t!"  zeropb.SetFixedInt64(&m.buf, zeropb.WrapOffsets(m.offsets.a[:], &m.offsets.m), 11, x)\n",
   t!"}\n",
   t!"\n"],
  [t!"func (m *TestMessage) Double() float64 {\n",
   t!"  return zeropb.GetFloat64(m.buf, zeropb.WrapOffsets(m.offsets.a[:], &m.offsets.m), 12)\n",
   t!"}\n",
   t!"\n"],
  [t!"func (m *TestMessage) SetDouble(x float64) {\n",
   t!"  zeropb.SetFloat64(&m.buf, zeropb.WrapOffsets(m.offsets.a[:], &m.offsets.m), 12, x)\n",
   t!"}\n",
   t!"\n"],
  [t!"func (m *TestMessage) Float() float32 {\n",
   t!"  return zeropb.GetFloat32(m.buf, zeropb.WrapOffsets(m.offsets.a[:], &m.offsets.m), 13)\n",
   t!"}\n",
   t!"\n"],
  [t!"func (m *TestMessage) SetFloat(x float32) {\n",
   t!"  zeropb.SetFloat32(&m.buf, zeropb.WrapOffsets(m.offsets.a[:], &m.offsets.m), 13, x)\n",
   t!"}\n",
   t!"\n"],
  [t!"func (m *TestMessage) String() string {\n",
   t!"  return zeropb.GetString(m.buf, zeropb.WrapOffsets(m.offsets.a[:], &m.offsets.m), 14)\n",
   t!"}\n",
   t!"\n"],
  [t!"func (m *TestMessage) SetString(x string) {\n",
   t!"  zeropb.SetString(&m.buf, zeropb.WrapOffsets(m.offsets.a[:], &m.offsets.m), 14, x)\n",
   t!"}\n",
   t!"\n"],
  [t!"func (m *TestMessage) ByteArray() []byte {\n",
   t!"  return zeropb.GetBytes(m.buf, zeropb.WrapOffsets(m.offsets.a[:], &m.offsets.m), 15)\n",
   t!"}\n",
   t!"\n"],
  [t!"func (m *TestMessage) SetByteArray(x []byte) {\n",
   t!"  zeropb.SetBytes(&m.buf, zeropb.WrapOffsets(m.offsets.a[:], &m.offsets.m), 15, x)\n",
   t!"}\n",
   t!"\n"],
  [t!"func (m *TestMessage) Enum() uint32 {\n",
   t!"  return zeropb.GetUint32(m.buf, zeropb.WrapOffsets(m.offsets.a[:], &m.offsets.m), 16)\n",
   t!"}\n",
   t!"\n"],
  [t!"func (m *TestMessage) SetEnum(x uint32) {\n",
   t!"  zeropb.SetUint32(&m.buf, zeropb.WrapOffsets(m.offsets.a[:], &m.offsets.m), 16, x)\n",
   t!"}\n",
   t!"\n"],
  [t!"func (m *TestMessage) Message(x *TestMessage) (bool, error) {\n",
   t!"  buf := zeropb.GetBytes(m.buf, zeropb.WrapOffsets(m.offsets.a[:], &m.offsets.m), 17)\n",
   t!"  if buf == nil {\n",
   t!"    return false, nil\n",
   t!"  }\n",
   t!"  return true, x.Decode(buf)\n",
   t!"}\n",
   t!"\n"],
  [t!"func (m *TestMessage) SetMessage(x TestMessage) {\n",
   t!"  buf := x.Encode()\n",
   t!"  zeropb.SetBytes(&m.buf, zeropb.WrapOffsets(m.offsets.a[:], &m.offsets.m), 17, buf)\n",
   t!"}\n",
   t!"\n"],
  [t!"type TestMessageTestMessageIterator []byte\n",
   t!"\n"],
  [t!"func (i *TestMessageTestMessageIterator) Next(m *TestMessage) (bool, error) {\n",
   t!"  var buf []byte\n",
   t!"  *i, buf = zeropb.FindNextField((*i), 34)\n",
   t!"  if buf == nil {\n",
   t!"    return false, nil\n",
   t!"  }\n",
   t!"  return true, m.Decode(buf)\n",
   t!"}\n",
   t!"\n"],
  [t!"func (m *TestMessage) Messages() TestMessageTestMessageIterator {\n",
   t!"  return TestMessageTestMessageIterator(zeropb.GetRepeatedNonPacked(m.buf, zeropb.WrapOffsets(m.offsets.a[:], &m.offsets.m), 34))\n",
   t!"}\n",
   t!"\n"],
  [t!"func (m *TestMessage) AppendToMessages(x TestMessage) {\n",
   t!"  buf := x.Encode()\n",
   t!"  zeropb.AppendBytes(&m.buf, zeropb.WrapOffsets(m.offsets.a[:], &m.offsets.m), 34, buf)\n",
   t!"}\n",
   t!"\n"]]

/-- golden/raft.parsed: the file descriptor (the fields the generator reads). -/
def raftFile : FileDesc :=
  { name := some t!"raft.proto", package := some t!"raftzeropb", messageType := [
    some { name := some t!"Entry", field := [
      some { name := some t!"Term", number := some 2#32, label := some 1, type := some 4 },
      some { name := some t!"Index", number := some 3#32, label := some 1, type := some 4 },
      some { name := some t!"Type", number := some 1#32, label := some 1, type := some 14, typeName := some t!".raftpb.EntryType" },
      some { name := some t!"Data", number := some 4#32, label := some 1, type := some 12 }] },
    some { name := some t!"SnapshotMetadata", field := [
      some { name := some t!"conf_state", number := some 1#32, label := some 1, type := some 11, typeName := some t!".raftpb.ConfState" },
      some { name := some t!"index", number := some 2#32, label := some 1, type := some 4 },
      some { name := some t!"term", number := some 3#32, label := some 1, type := some 4 }] },
    some { name := some t!"Snapshot", field := [
      some { name := some t!"data", number := some 1#32, label := some 1, type := some 12 },
      some { name := some t!"metadata", number := some 2#32, label := some 1, type := some 11, typeName := some t!".raftpb.SnapshotMetadata" }] },
    some { name := some t!"Message", field := [
      some { name := some t!"type", number := some 1#32, label := some 1, type := some 14, typeName := some t!".raftpb.MessageType" },
      some { name := some t!"to", number := some 2#32, label := some 1, type := some 4 },
      some { name := some t!"from", number := some 3#32, label := some 1, type := some 4 },
      some { name := some t!"term", number := some 4#32, label := some 1, type := some 4 },
      some { name := some t!"logTerm", number := some 5#32, label := some 1, type := some 4 },
      some { name := some t!"index", number := some 6#32, label := some 1, type := some 4 },
      some { name := some t!"entries", number := some 7#32, label := some 3, type := some 11, typeName := some t!".raftpb.Entry" },
      some { name := some t!"commit", number := some 8#32, label := some 1, type := some 4 },
      some { name := some t!"snapshot", number := some 9#32, label := some 1, type := some 11, typeName := some t!".raftpb.Snapshot" },
      some { name := some t!"reject", number := some 10#32, label := some 1, type := some 8 },
      some { name := some t!"rejectHint", number := some 11#32, label := some 1, type := some 4 },
      some { name := some t!"context", number := some 12#32, label := some 1, type := some 12 }] },
    some { name := some t!"HardState", field := [
      some { name := some t!"term", number := some 1#32, label := some 1, type := some 4 },
      some { name := some t!"vote", number := some 2#32, label := some 1, type := some 4 },
      some { name := some t!"commit", number := some 3#32, label := some 1, type := some 4 }] },
    some { name := some t!"ConfState", field := [
      some { name := some t!"nodes", number := some 1#32, label := some 3, type := some 4 },
      some { name := some t!"learners", number := some 2#32, label := some 3, type := some 4 }] },
    some { name := some t!"ConfChange", field := [
      some { name := some t!"ID", number := some 1#32, label := some 1, type := some 4 },
      some { name := some t!"Type", number := some 2#32, label := some 1, type := some 14, typeName := some t!".raftpb.ConfChangeType" },
      some { name := some t!"NodeID", number := some 3#32, label := some 1, type := some 4 },
      some { name := some t!"Context", number := some 4#32, label := some 1, type := some 12 }] }] }

/-- golden/raft.parsed: the request. -/
def raftRequest : Request where
  fileToGenerate := [t!"raft.proto"]
  protoFile := [some raftFile]

/-- golden/raftzeropb/raft.zeropb.go, verbatim, line by line, the lines grouped by declaration. -/
def raftGolden : List (List Text) := [
  [t!"// Code generated by protoc-gen-zeropb. DO NOT EDIT.\n",
   t!"\n",
   t!"package raftzeropb\n",
   t!"\n",
   t!"import \"github.com/danhhz/zeropb\"\n",
   t!"\n"],
  [t!"type Entry struct {\n",
   t!"  buf []byte\n",
   t!"  offsets struct {\n",
   t!"    a [5]uint16\n",
   t!"    m map[int]uint64\n",
   t!"  }\n",
   t!"}\n",
   t!"\n"],
  [t!"var repeatedFields_Entry = zeropb.RepeatedFields{\n",
   t!"}\n",
   t!"\n"],
  [t!"func (m *Entry) Encode() []byte {\n",
   t!"  return m.buf\n",
   t!"}\n",
   t!"\n"],
  [t!"func (m *Entry) Decode(buf []byte) error {\n",
   t!"  m.buf = buf\n",
   t!"  return zeropb.Decode(m.buf, zeropb.WrapOffsets(m.offsets.a[:], &m.offsets.m), repeatedFields_Entry)\n",
   t!"}\n",
   t!"\n"],
  [t!"func (m *Entry) Reset(buf []byte) {\n",
   t!"  if len(buf) > 0 {\n",
   t!"    panic(`buf must be empty`)\n",
   t!"  }\n",
   t!"  m.buf = buf\n",
   t!"  zeropb.WrapOffsets(m.offsets.a[:], &m.offsets.m).Clear()\n",
   t!"}\n",
   t!"\n"],
  [t!"func (m *Entry) Term() uint64 {\n",
   t!"  return zeropb.GetUint64(m.buf, zeropb.WrapOffsets(m.offsets.a[:], &m.offsets.m), 2)\n",
   t!"}\n",
   t!"\n"],
  [t!"func (m *Entry) SetTerm(x uint64) {\n",
   t!"  zeropb.SetUint64(&m.buf, zeropb.WrapOffsets(m.offsets.a[:], &m.offsets.m), 2, x)\n",
   t!"}\n",
   t!"\n"],
  [t!"func (m *Entry) Index() uint64 {\n",
   t!"  return zeropb.GetUint64(m.buf, zeropb.WrapOffsets(m.offsets.a[:], &m.offsets.m), 3)\n",
   t!"}\n",
   t!"\n"],
  [t!"func (m *Entry) SetIndex(x uint64) {\n",
   t!"  zeropb.SetUint64(&m.buf, zeropb.WrapOffsets(m.offsets.a[:], &m.offsets.m), 3, x)\n",
   t!"}\n",
   t!"\n"],
  [t!"func (m *Entry) Type() uint32 {\n",
   t!"  return zeropb.GetUint32(m.buf, zeropb.WrapOffsets(m.offsets.a[:], &m.offsets.m), 1)\n",
   t!"}\n",
   t!"\n"],
  [t!"func (m *Entry) SetType(x uint32) {\n",
   t!"  zeropb.SetUint32(&m.buf, zeropb.WrapOffsets(m.offsets.a[:], &m.offsets.m), 1, x)\n",
   t!"}\n",
   t!"\n"],
  [t!"func (m *Entry) Data() []byte {\n",
   t!"  return zeropb.GetBytes(m.buf, zeropb.WrapOffsets(m.offsets.a[:], &m.offsets.m), 4)\n",
   t!"}\n",
   t!"\n"],
  [t!"func (m *Entry) SetData(x []byte) {\n",
   t!"  zeropb.SetBytes(&m.buf, zeropb.WrapOffsets(m.offsets.a[:], &m.offsets.m), 4, x)\n",
   t!"}\n",
   t!"\n"],
  [t!"type SnapshotMetadata struct {\n",
   t!"  buf []byte\n",
   t!"  offsets struct {\n",
   t!"    a [4]uint16\n",
   t!"    m map[int]uint64\n",
   t!"  }\n",
   t!"}\n",
   t!"\n"],
  [t!"var repeatedFields_SnapshotMetadata = zeropb.RepeatedFields{\n",
   t!"}\n",
   t!"\n"],
  [t!"func (m *SnapshotMetadata) Encode() []byte {\n",
   t!"  return m.buf\n",
   t!"}\n",
   t!"\n"],
  [t!"func (m *SnapshotMetadata) Decode(buf []byte) error {\n",
   t!"  m.buf = buf\n",
   t!"  return zeropb.Decode(m.buf, zeropb.WrapOffsets(m.offsets.a[:], &m.offsets.m), repeatedFields_SnapshotMetadata)\n",
   t!"}\n",
   t!"\n"],
  [t!"func (m *SnapshotMetadata) Reset(buf []byte) {\n",
   t!"  if len(buf) > 0 {\n",
   t!"    panic(`buf must be empty`)\n",
   t!"  }\n",
   t!"  m.buf = buf\n",
   t!"  zeropb.WrapOffsets(m.offsets.a[:], &m.offsets.m).Clear()\n",
   t!"}\n",
   t!"\n"],
  [t!"func (m *SnapshotMetadata) ConfState(x *ConfState) (bool, error) {\n",
   t!"  buf := zeropb.GetBytes(m.buf, zeropb.WrapOffsets(m.offsets.a[:], &m.offsets.m), 1)\n",
   t!"  if buf == nil {\n",
   t!"    return false, nil\n",
   t!"  }\n",
   t!"  return true, x.Decode(buf)\n",
   t!"}\n",
   t!"\n"],
  [t!"func (m *SnapshotMetadata) SetConfState(x ConfState) {\n",
   t!"  buf := x.Encode()\n",
   t!"  zeropb.SetBytes(&m.buf, zeropb.WrapOffsets(m.offsets.a[:], &m.offsets.m), 1, buf)\n",
   t!"}\n",
   t!"\n"],
  [t!"func (m *SnapshotMetadata) Index() uint64 {\n",
   t!"  return zeropb.GetUint64(m.buf, zeropb.WrapOffsets(m.offsets.a[:], &m.offsets.m), 2)\n",
   t!"}\n",
   t!"\n"],
  [t!"func (m *SnapshotMetadata) SetIndex(x uint64) {\n",
   t!"  zeropb.SetUint64(&m.buf, zeropb.WrapOffsets(m.offsets.a[:], &m.offsets.m), 2, x)\n",
   t!"}\n",
   t!"\n"],
  [t!"func (m *SnapshotMetadata) Term() uint64 {\n",
   t!"  return zeropb.GetUint64(m.buf, zeropb.WrapOffsets(m.offsets.a[:], &m.offsets.m), 3)\n",
   t!"}\n",
   t!"\n"],
  [t!"func (m *SnapshotMetadata) SetTerm(x uint64) {\n",
   t!"  zeropb.SetUint64(&m.buf, zeropb.WrapOffsets(m.offsets.a[:], &m.offsets.m), 3, x)\n",
   t!"}\n",
   t!"\n"],
  [t!"type Snapshot struct {\n",
   t!"  buf []byte\n",
   t!"  offsets struct {\n",
   t!"    a [3]uint16\n",
   t!"    m map[int]uint64\n",
   t!"  }\n",
   t!"}\n",
   t!"\n"],
  [t!"var repeatedFields_Snapshot = zeropb.RepeatedFields{\n",
   t!"}\n",
   t!"\n"],
  [t!"func (m *Snapshot) Encode() []byte {\n",
   t!"  return m.buf\n",
   t!"}\n",
   t!"\n"],
  [t!"func (m *Snapshot) Decode(buf []byte) error {\n",
   t!"  m.buf = buf\n",
   t!"  return zeropb.Decode(m.buf, zeropb.WrapOffsets(m.offsets.a[:], &m.offsets.m), repeatedFields_Snapshot)\n",
   t!"}\n",
   t!"\n"],
  [t!"func (m *Snapshot) Reset(buf []byte) {\n",
   t!"  if len(buf) > 0 {\n",
   t!"    panic(`buf must be empty`)\n",
   t!"  }\n",
   t!"  m.buf = buf\n",
   t!"  zeropb.WrapOffsets(m.offsets.a[:], &m.offsets.m).Clear()\n",
   t!"}\n",
   t!"\n"],
  [t!"func (m *Snapshot) Data() []byte {\n",
   t!"  return zeropb.GetBytes(m.buf, zeropb.WrapOffsets(m.offsets.a[:], &m.offsets.m), 1)\n",
   t!"}\n",
   t!"\n"],
  [t!"func (m *Snapshot) SetData(x []byte) {\n",
   t!"  zeropb.SetBytes(&m.buf, zeropb.WrapOffsets(m.offsets.a[:], &m.offsets.m), 1, x)\n",
   t!"}\n",
   t!"\n"],
  [t!"func (m *Snapshot) Metadata(x *SnapshotMetadata) (bool, error) {\n",
   t!"  buf := zeropb.GetBytes(m.buf, zeropb.WrapOffsets(m.offsets.a[:], &m.offsets.m), 2)\n",
   t!"  if buf == nil {\n",
   t!"    return false, nil\n",
   t!"  }\n",
   t!"  return true, x.Decode(buf)\n",
   t!"}\n",
   t!"\n"],
  [t!"func (m *Snapshot) SetMetadata(x SnapshotMetadata) {\n",
   t!"  buf := x.Encode()\n",
   t!"  zeropb.SetBytes(&m.buf, zeropb.WrapOffsets(m.offsets.a[:], &m.offsets.m), 2, buf)\n",
   t!"}\n",
   t!"\n"],
  [t!"type Message struct {\n",
   t!"  buf []byte\n",
   t!"  offsets struct {\n",
   t!"    a [13]uint16\n",
   t!"    m map[int]uint64\n",
   t!"  }\n",
   t!"}\n",
   t!"\n"],
  [t!"var repeatedFields_Message = zeropb.RepeatedFields{\n",
   t!"  7: struct{}{},\n",
   t!"}\n",
   t!"\n"],
  [t!"func (m *Message) Encode() []byte {\n",
   t!"  return m.buf\n",
   t!"}\n",
   t!"\n"],
  [t!"func (m *Message) Decode(buf []byte) error {\n",
   t!"  m.buf = buf\n",
   t!"  return zeropb.Decode(m.buf, zeropb.WrapOffsets(m.offsets.a[:], &m.offsets.m), repeatedFields_Message)\n",
   t!"}\n",
   t!"\n"],
  [t!"func (m *Message) Reset(buf []byte) {\n",
   t!"  if len(buf) > 0 {\n",
   t!"    panic(`buf must be empty`)\n",
   t!"  }\n",
   t!"  m.buf = buf\n",
   t!"  zeropb.WrapOffsets(m.offsets.a[:], &m.offsets.m).Clear()\n",
   t!"}\n",
   t!"\n"],
  [t!"func (m *Message) Type() uint32 {\n",
   t!"  return zeropb.GetUint32(m.buf, zeropb.WrapOffsets(m.offsets.a[:], &m.offsets.m), 1)\n",
   t!"}\n",
   t!"\n"],
  [t!"func (m *Message) SetType(x uint32) {\n",
   t!"  zeropb.SetUint32(&m.buf, zeropb.WrapOffsets(m.offsets.a[:], &m.offsets.m), 1, x)\n",
   t!"}\n",
   t!"\n"],
  [t!"func (m *Message) To() uint64 {\n",
   t!"  return zeropb.GetUint64(m.buf, zeropb.WrapOffsets(m.offsets.a[:], &m.offsets.m), 2)\n",
   t!"}\n",
   t!"\n"],
  [t!"func (m *Message) SetTo(x uint64) {\n",
   t!"  zeropb.SetUint64(&m.buf, zeropb.WrapOffsets(m.offsets.a[:], &m.offsets.m), 2, x)\n",
   t!"}\n",
   t!"\n"],
  [t!"func (m *Message) From() uint64 {\n",
   t!"  return zeropb.GetUint64(m.buf, zeropb.WrapOffsets(m.offsets.a[:], &m.offsets.m), 3)\n",
   t!"}\n",
   t!"\n"],
  [t!"func (m *Message) SetFrom(x uint64) {\n",
   t!"  zeropb.SetUint64(&m.buf, zeropb.WrapOffsets(m.offsets.a[:], &m.offsets.m), 3, x)\n",
   t!"}\n",
   t!"\n"],
  [t!"func (m *Message) Term() uint64 {\n",
   t!"  return zeropb.GetUint64(m.buf, zeropb.WrapOffsets(m.offsets.a[:], &m.offsets.m), 4)\n",
   t!"}\n",
   t!"\n"],
  [t!"func (m *Message) SetTerm(x uint64) {\n",
   t!"  zeropb.SetUint64(&m.buf, zeropb.WrapOffsets(m.offsets.a[:], &m.offsets.m), 4, x)\n",
   t!"}\n",
   t!"\n"],
  [t!"func (m *Message) LogTerm() uint64 {\n",
   t!"  return zeropb.GetUint64(m.buf, zeropb.WrapOffsets(m.offsets.a[:], &m.offsets.m), 5)\n",
   t!"}\n",
   t!"\n"],
  [t!"func (m *Message) SetLogTerm(x uint64) {\n",
   t!"  zeropb.SetUint64(&m.buf, zeropb.WrapOffsets(m.offsets.a[:], &m.offsets.m), 5, x)\n",
   t!"}\n",
   t!"\n"],
  [t!"func (m *Message) Index() uint64 {\n",
   t!"  return zeropb.GetUint64(m.buf, zeropb.WrapOffsets(m.offsets.a[:], &m.offsets.m), 6)\n",
   t!"}\n",
   t!"\n"],
  [t!"func (m *Message) SetIndex(x uint64) {\n",
   t!"  zeropb.SetUint64(&m.buf, zeropb.WrapOffsets(m.offsets.a[:], &m.offsets.m), 6, x)\n",
   t!"}\n",
   t!"\n"],
  [t!"type MessageEntryIterator []byte\n",
   t!"\n"],
  [t!"func (i *MessageEntryIterator) Next(m *Entry) (bool, error) {\n",
   t!"  var buf []byte\n",
   t!"  *i, buf = zeropb.FindNextField((*i), 7)\n",
   t!"  if buf == nil {\n",
   t!"    return false, nil\n",
   t!"  }\n",
   t!"  return true, m.Decode(buf)\n",
   t!"}\n",
   t!"\n"],
  [t!"func (m *Message) Entries() MessageEntryIterator {\n",
   t!"  return MessageEntryIterator(zeropb.GetRepeatedNonPacked(m.buf, zeropb.WrapOffsets(m.offsets.a[:], &m.offsets.m), 7))\n",
   t!"}\n",
   t!"\n"],
  [t!"func (m *Message) AppendToEntries(x Entry) {\n",
   t!"  buf := x.Encode()\n",
   t!"  zeropb.AppendBytes(&m.buf, zeropb.WrapOffsets(m.offsets.a[:], &m.offsets.m), 7, buf)\n",
   t!"}\n",
   t!"\n"],
  [t!"func (m *Message) Commit() uint64 {\n",
   t!"  return zeropb.GetUint64(m.buf, zeropb.WrapOffsets(m.offsets.a[:], &m.offsets.m), 8)\n",
   t!"}\n",
   t!"\n"],
  [t!"func (m *Message) SetCommit(x uint64) {\n",
   t!"  zeropb.SetUint64(&m.buf, zeropb.WrapOffsets(m.offsets.a[:], &m.offsets.m), 8, x)\n",
   t!"}\n",
   t!"\n"],
  [t!"func (m *Message) Snapshot(x *Snapshot) (bool, error) {\n",
   t!"  buf := zeropb.GetBytes(m.buf, zeropb.WrapOffsets(m.offsets.a[:], &m.offsets.m), 9)\n",
   t!"  if buf == nil {\n",
   t!"    return false, nil\n",
   t!"  }\n",
   t!"  return true, x.Decode(buf)\n",
   t!"}\n",
   t!"\n"],
  [t!"func (m *Message) SetSnapshot(x Snapshot) {\n",
   t!"  buf := x.Encode()\n",
   t!"  zeropb.SetBytes(&m.buf, zeropb.WrapOffsets(m.offsets.a[:], &m.offsets.m), 9, buf)\n",
   t!"}\n",
   t!"\n"],
  [t!"func (m *Message) Reject() bool {\n",
   t!"  return zeropb.GetBool(m.buf, zeropb.WrapOffsets(m.offsets.a[:], &m.offsets.m), 10)\n",
   t!"}\n",
   t!"\n"],
  [t!"func (m *Message) SetReject(x bool) {\n",
   t!"  zeropb.SetBool(&m.buf, zeropb.WrapOffsets(m.offsets.a[:], &m.offsets.m), 10, x)\n",
   t!"}\n",
   t!"\n"],
  [t!"func (m *Message) RejectHint() uint64 {\n",
   t!"  return zeropb.GetUint64(m.buf, zeropb.WrapOffsets(m.offsets.a[:], &m.offsets.m), 11)\n",
   t!"}\n",
   t!"\n"],
  [t!"func (m *Message) SetRejectHint(x uint64) {\n",
   t!"  zeropb.SetUint64(&m.buf, zeropb.WrapOffsets(m.offsets.a[:], &m.offsets.m), 11, x)\n",
   t!"}\n",
   t!"\n"],
  [t!"func (m *Message) Context() []byte {\n",
   t!"  return zeropb.GetBytes(m.buf, zeropb.WrapOffsets(m.offsets.a[:], &m.offsets.m), 12)\n",
   t!"}\n",
   t!"\n"],
  [t!"func (m *Message) SetContext(x []byte) {\n",
   t!"  zeropb.SetBytes(&m.buf, zeropb.WrapOffsets(m.offsets.a[:], &m.offsets.m), 12, x)\n",
   t!"}\n",
   t!"\n"],
  [t!"type HardState struct {\n",
   t!"  buf []byte\n",
   t!"  offsets struct {\n",
   t!"    a [4]uint16\n",
   t!"    m map[int]uint64\n",
   t!"  }\n",
   t!"}\n",
   t!"\n"],
  [t!"var repeatedFields_HardState = zeropb.RepeatedFields{\n",
   t!"}\n",
   t!"\n"],
  [t!"func (m *HardState) Encode() []byte {\n",
   t!"  return m.buf\n",
   t!"}\n",
   t!"\n"],
  [t!"func (m *HardState) Decode(buf []byte) error {\n",
   t!"  m.buf = buf\n",
   t!"  return zeropb.Decode(m.buf, zeropb.WrapOffsets(m.offsets.a[:], &m.offsets.m), repeatedFields_HardState)\n",
   t!"}\n",
   t!"\n"],
  [t!"func (m *HardState) Reset(buf []byte) {\n",
   t!"  if len(buf) > 0 {\n",
   t!"    panic(`buf must be empty`)\n",
   t!"  }\n",
   t!"  m.buf = buf\n",
   t!"  zeropb.WrapOffsets(m.offsets.a[:], &m.offsets.m).Clear()\n",
   t!"}\n",
   t!"\n"],
  [t!"func (m *HardState) Term() uint64 {\n",
   t!"  return zeropb.GetUint64(m.buf, zeropb.WrapOffsets(m.offsets.a[:], &m.offsets.m), 1)\n",
   t!"}\n",
   t!"\n"],
  [t!"func (m *HardState) SetTerm(x uint64) {\n",
   t!"  zeropb.SetUint64(&m.buf, zeropb.WrapOffsets(m.offsets.a[:], &m.offsets.m), 1, x)\n",
   t!"}\n",
   t!"\n"],
  [t!"func (m *HardState) Vote() uint64 {\n",
   t!"  return zeropb.GetUint64(m.buf, zeropb.WrapOffsets(m.offsets.a[:], &m.offsets.m), 2)\n",
   t!"}\n",
   t!"\n"],
  [t!"func (m *HardState) SetVote(x uint64) {\n",
   t!"  zeropb.SetUint64(&m.buf, zeropb.WrapOffsets(m.offsets.a[:], &m.offsets.m), 2, x)\n",
   t!"}\n",
   t!"\n"],
  [t!"func (m *HardState) Commit() uint64 {\n",
   t!"  return zeropb.GetUint64(m.buf, zeropb.WrapOffsets(m.offsets.a[:], &m.offsets.m), 3)\n",
   t!"}\n",
   t!"\n"],
  [t!"func (m *HardState) SetCommit(x uint64) {\n",
   t!"  zeropb.SetUint64(&m.buf, zeropb.WrapOffsets(m.offsets.a[:], &m.offsets.m), 3, x)\n",
   t!"}\n",
   t!"\n"],
  [t!"type ConfState struct {\n",
   t!"  buf []byte\n",
   t!"  offsets struct {\n",
   t!"    a [3]uint16\n",
   t!"    m map[int]uint64\n",
   t!"  }\n",
   t!"}\n",
   t!"\n"],
  [t!"var repeatedFields_ConfState = zeropb.RepeatedFields{\n",
   t!"  1: struct{}{},\n",
   t!"  2: struct{}{},\n",
   t!"}\n",
   t!"\n"],
  [t!"func (m *ConfState) Encode() []byte {\n",
   t!"  return m.buf\n",
   t!"}\n",
   t!"\n"],
  [t!"func (m *ConfState) Decode(buf []byte) error {\n",
   t!"  m.buf = buf\n",
   t!"  return zeropb.Decode(m.buf, zeropb.WrapOffsets(m.offsets.a[:], &m.offsets.m), repeatedFields_ConfState)\n",
   t!"}\n",
   t!"\n"],
  [t!"func (m *ConfState) Reset(buf []byte) {\n",
   t!"  if len(buf) > 0 {\n",
   t!"    panic(`buf must be empty`)\n",
   t!"  }\n",
   t!"  m.buf = buf\n",
   t!"  zeropb.WrapOffsets(m.offsets.a[:], &m.offsets.m).Clear()\n",
   t!"}\n",
   t!"\n"],
  [t!"type ConfChange struct {\n",
   t!"  buf []byte\n",
   t!"  offsets struct {\n",
   t!"    a [5]uint16\n",
   t!"    m map[int]uint64\n",
   t!"  }\n",
   t!"}\n",
   t!"\n"],
  [t!"var repeatedFields_ConfChange = zeropb.RepeatedFields{\n",
   t!"}\n",
   t!"\n"],
  [t!"func (m *ConfChange) Encode() []byte {\n",
   t!"  return m.buf\n",
   t!"}\n",
   t!"\n"],
  [t!"func (m *ConfChange) Decode(buf []byte) error {\n",
   t!"  m.buf = buf\n",
   t!"  return zeropb.Decode(m.buf, zeropb.WrapOffsets(m.offsets.a[:], &m.offsets.m), repeatedFields_ConfChange)\n",
   t!"}\n",
   t!"\n"],
  [t!"func (m *ConfChange) Reset(buf []byte) {\n",
   t!"  if len(buf) > 0 {\n",
   t!"    panic(`buf must be empty`)\n",
   t!"  }\n",
   t!"  m.buf = buf\n",
   t!"  zeropb.WrapOffsets(m.offsets.a[:], &m.offsets.m).Clear()\n",
   t!"}\n",
   t!"\n"],
  [t!"func (m *ConfChange) ID() uint64 {\n",
   t!"  return zeropb.GetUint64(m.buf, zeropb.WrapOffsets(m.offsets.a[:], &m.offsets.m), 1)\n",
   t!"}\n",
   t!"\n"],
  [t!"func (m *ConfChange) SetID(x uint64) {\n",
   t!"  zeropb.SetUint64(&m.buf, zeropb.WrapOffsets(m.offsets.a[:], &m.offsets.m), 1, x)\n",
   t!"}\n",
   t!"\n"],
  [t!"func (m *ConfChange) Type() uint32 {\n",
   t!"  return zeropb.GetUint32(m.buf, zeropb.WrapOffsets(m.offsets.a[:], &m.offsets.m), 2)\n",
   t!"}\n",
   t!"\n"],
  [t!"func (m *ConfChange) SetType(x uint32) {\n",
   t!"  zeropb.SetUint32(&m.buf, zeropb.WrapOffsets(m.offsets.a[:], &m.offsets.m), 2, x)\n",
   t!"}\n",
   t!"\n"],
  [t!"func (m *ConfChange) NodeID() uint64 {\n",
   t!"  return zeropb.GetUint64(m.buf, zeropb.WrapOffsets(m.offsets.a[:], &m.offsets.m), 3)\n",
   t!"}\n",
   t!"\n"],
  [t!"func (m *ConfChange) SetNodeID(x uint64) {\n",
   t!"  zeropb.SetUint64(&m.buf, zeropb.WrapOffsets(m.offsets.a[:], &m.offsets.m), 3, x)\n",
   t!"}\n",
   t!"\n"],
  [t!"func (m *ConfChange) Context() []byte {\n",
   t!"  return zeropb.GetBytes(m.buf, zeropb.WrapOffsets(m.offsets.a[:], &m.offsets.m), 4)\n",
   t!"}\n",
   t!"\n"],
  [t!"func (m *ConfChange) SetContext(x []byte) {\n",
   t!"  zeropb.SetBytes(&m.buf, zeropb.WrapOffsets(m.offsets.a[:], &m.offsets.m), 4, x)\n",
   t!"}\n",
   t!"\n"]]

/-- The header and the declarations of a file. -/
def fileBlocks (pkg : Text) (ds : List Decl) : List Text :=
  code [(0, [t!"// Code generated by protoc-gen-zeropb. DO NOT EDIT.\n\n"]),
        (0, [t!"package ", pkg, t!"\n\n"]),
        (0, [t!"import \"github.com/danhhz/zeropb\"", t!"\n\n"])] :: ds.map Decl.text

theorem fileText_blocks (pkg : Text) (ds : List Decl) : fileText pkg ds = (fileBlocks pkg ds).flatten := by
  simp only [fileText, fileBlocks, List.flatten_cons, List.flatMap_def]

theorem flatten_map_flatten {α : Type} (l : List (List (List α))) : (l.map List.flatten).flatten = l.flatten.flatten := by
  induction l with
  | nil => rfl
  | cons a l ih => simp only [List.map_cons, List.flatten_cons, List.flatten_append, ih]

/-- What `Generate` returns for a request with one file, which is requested. -/
theorem generate_one (U : Unicode) (f : FileDesc) (h : ¬ BadFile f) :
    generate U ⟨[f.getName], [some f]⟩ = .ok [⟨replaceAll t!".proto" t!".zeropb.go" f.getName, fileText f.getPackage (fileDecls U f)⟩] := by
  simp only [generate, generateFiles, List.mem_singleton, if_true, generateFile_eq U f h, ok_bind, List.nil_append]

/-- golden_test.go:60-64. -/
theorem golden_test : generate asciiUnicode testRequest = .ok [⟨t!"test.zeropb.go", testGolden.flatten.flatten⟩] := by
  refine (generate_one asciiUnicode testFile ?_).trans ?_
  · rintro ⟨m, hm, fd, hfd, hu⟩
    have : ∀ m ∈ testFile.messageType.filterMap id, ∀ fd ∈ m.field, ¬ Unsupported fd := by decide +kernel
    exact this m (List.mem_filterMap.2 ⟨some m, hm, rfl⟩) fd hfd hu
  · have hn : replaceAll t!".proto" t!".zeropb.go" testFile.getName = t!"test.zeropb.go" := by decide +kernel
    have ht : fileBlocks testFile.getPackage (fileDecls asciiUnicode testFile) = testGolden.map List.flatten := by decide +kernel
    rw [hn, fileText_blocks, ht, flatten_map_flatten]

/-- golden_test.go:55-59. -/
theorem golden_raft : generate asciiUnicode raftRequest = .ok [⟨t!"raft.zeropb.go", raftGolden.flatten.flatten⟩] := by
  refine (generate_one asciiUnicode raftFile ?_).trans ?_
  · rintro ⟨m, hm, fd, hfd, hu⟩
    have : ∀ m ∈ raftFile.messageType.filterMap id, ∀ fd ∈ m.field, ¬ Unsupported fd := by decide +kernel
    exact this m (List.mem_filterMap.2 ⟨some m, hm, rfl⟩) fd hfd hu
  · have hn : replaceAll t!".proto" t!".zeropb.go" raftFile.getName = t!"raft.zeropb.go" := by decide +kernel
    have ht : fileBlocks raftFile.getPackage (fileDecls asciiUnicode raftFile) = raftGolden.map List.flatten := by decide +kernel
    rw [hn, fileText_blocks, ht, flatten_map_flatten]

end Zeropb.Gen
