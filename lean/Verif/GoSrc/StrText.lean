import Verif.GoSrc.StrSyntax
import Verif.GoSrc.Text
/-!
# The text of the hand-written files beside generated code

The lines of the files, comments included, and the kernel's check that they consist of exactly the
tokens of the syntax trees.
-/

namespace Zeropb.GoSrc.X
open Zeropb.Gen (Text)

set_option maxRecDepth 10000

/-- The lines 1-92 of /repo/golden/testzeropb/string.go. -/
def stringText : List Text := [
  t!"// Copyright 2019 Daniel Harrison. All Rights Reserved.",
  t!"",
  t!"package testzeropb",
  t!"",
  t!"import (",
  t!"\t\"fmt\"",
  t!"\t\"io\"",
  t!"\t\"strconv\"",
  t!"\t\"strings\"",
  t!"",
  t!"\t\"github.com/danhhz/zeropb\"",
  t!")",
  t!"",
  t!"// Text returns the contents in the proto text format.",
  t!"func (m TestMessage) Text() string {",
  t!"\tvar buf strings.Builder",
  t!"\tm.WriteText(&buf)",
  t!"\treturn buf.String()",
  t!"}",
  t!"",
  t!"// WriteText writes the contents in the proto text format.",
  t!"func (m TestMessage) WriteText(w io.Writer) {",
  t!"\t// TODO(dan): A bunch of these aren't right, but this is currently only used",
  t!"\t// while debugging test failures. Revisit if we start codegen'ing this.",
  t!"\toffsets := zeropb.WrapOffsets(m.offsets.a[:], &m.offsets.m)",
  t!"\tif _, ok := offsets.Get(1); ok {",
  t!"\t\tfmt.Fprintf(w, `bool=%t `, m.Bool())",
  t!"\t}",
  t!"\tif _, ok := offsets.Get(2); ok {",
  t!"\t\tfmt.Fprintf(w, `int32=%d `, m.Int32())",
  t!"\t}",
  t!"\tif _, ok := offsets.Get(3); ok {",
  t!"\t\tfmt.Fprintf(w, `int64=%d `, m.Int64())",
  t!"\t}",
  t!"\tif _, ok := offsets.Get(4); ok {",
  t!"\t\tfmt.Fprintf(w, `uint32=%d `, m.Uint32())",
  t!"\t}",
  t!"\tif _, ok := offsets.Get(5); ok {",
  t!"\t\tfmt.Fprintf(w, `uint64=%d `, m.Uint64())",
  t!"\t}",
  t!"\tif _, ok := offsets.Get(6); ok {",
  t!"\t\tfmt.Fprintf(w, `sint32=%d `, m.Sint32())",
  t!"\t}",
  t!"\tif _, ok := offsets.Get(7); ok {",
  t!"\t\tfmt.Fprintf(w, `sint64=%d `, m.Sint64())",
  t!"\t}",
  t!"\tif _, ok := offsets.Get(8); ok {",
  t!"\t\tfmt.Fprintf(w, `fixed32=%d `, m.Fixed32())",
  t!"\t}",
  t!"\tif _, ok := offsets.Get(9); ok {",
  t!"\t\tfmt.Fprintf(w, `fixed64=%d `, m.Fixed64())",
  t!"\t}",
  t!"\tif _, ok := offsets.Get(10); ok {",
  t!"\t\tfmt.Fprintf(w, `sfixed32=%d `, m.Sfixed32())",
  t!"\t}",
  t!"\tif _, ok := offsets.Get(11); ok {",
  t!"\t\tfmt.Fprintf(w, `sfixed64=%d `, m.Sfixed64())",
  t!"\t}",
  t!"\tif _, ok := offsets.Get(12); ok {",
  t!"\t\tfmt.Fprintf(w, `double=%v `, m.Double())",
  t!"\t}",
  t!"\tif _, ok := offsets.Get(13); ok {",
  t!"\t\tfmt.Fprintf(w, `float=%v `, m.Float())",
  t!"\t}",
  t!"\tif _, ok := offsets.Get(14); ok {",
  t!"\t\tfmt.Fprintf(w, `string=%s `, m.String())",
  t!"\t}",
  t!"\tif _, ok := offsets.Get(15); ok {",
  t!"\t\tfmt.Fprintf(w, `byte_array=%s `, strconv.Quote(string(m.ByteArray())))",
  t!"\t}",
  t!"\tif _, ok := offsets.Get(16); ok {",
  t!"\t\tfmt.Fprintf(w, `enum=%d `, m.Enum())",
  t!"\t}",
  t!"\tvar sub TestMessage",
  t!"\tif ok, err := m.Message(&sub); err != nil {",
  t!"\t\tpanic(err)",
  t!"\t} else if ok {",
  t!"\t\tio.WriteString(w, `message=<`)",
  t!"\t\tsub.WriteText(w)",
  t!"\t\tio.WriteString(w, `> `)",
  t!"\t}",
  t!"\tfor it := m.Messages(); ; {",
  t!"\t\tif ok, err := it.Next(&sub); err != nil {",
  t!"\t\t\tpanic(err)",
  t!"\t\t} else if !ok {",
  t!"\t\t\tbreak",
  t!"\t\t}",
  t!"\t\tio.WriteString(w, `messages=<`)",
  t!"\t\tsub.WriteText(w)",
  t!"\t\tio.WriteString(w, `> `)",
  t!"\t}",
  t!"}"]

/-- The lines 1-8 of /repo/golden/testzeropb/internals.go. -/
def testInternalsText : List Text := [
  t!"// Copyright 2019 Daniel Harrison. All Rights Reserved.",
  t!"",
  t!"package testzeropb",
  t!"",
  t!"// Offsets allows tests to examine the internal offsets.",
  t!"func (m *TestMessage) Offsets() ([]uint16, *map[int]uint64) {",
  t!"\treturn m.offsets.a[:], &m.offsets.m",
  t!"}"]

/-- The lines 1-23 of /repo/golden/raftzeropb/internals.go. -/
def raftInternalsText : List Text := [
  t!"// Copyright 2019 Daniel Harrison. All Rights Reserved.",
  t!"",
  t!"package raftzeropb",
  t!"",
  t!"// Offsets allows tests to examine the internal offsets.",
  t!"func (m *Entry) Offsets() ([]uint16, *map[int]uint64) {",
  t!"\treturn m.offsets.a[:], &m.offsets.m",
  t!"}",
  t!"",
  t!"// Offsets allows tests to examine the internal offsets.",
  t!"func (m *Message) Offsets() ([]uint16, *map[int]uint64) {",
  t!"\treturn m.offsets.a[:], &m.offsets.m",
  t!"}",
  t!"",
  t!"// Offsets allows tests to examine the internal offsets.",
  t!"func (m *SnapshotMetadata) Offsets() ([]uint16, *map[int]uint64) {",
  t!"\treturn m.offsets.a[:], &m.offsets.m",
  t!"}",
  t!"",
  t!"// Offsets allows tests to examine the internal offsets.",
  t!"func (m *Snapshot) Offsets() ([]uint16, *map[int]uint64) {",
  t!"\treturn m.offsets.a[:], &m.offsets.m",
  t!"}"]

/-! The syntax trees are the files. -/

theorem string_source : tokenize (unlines stringText) = (stringGo.map Top.toks).flatten := by decide +kernel

theorem testInternals_source : tokenize (unlines testInternalsText) = (testInternalsGo.map Top.toks).flatten := by decide +kernel

theorem raftInternals_source : tokenize (unlines raftInternalsText) = (raftInternalsGo.map Top.toks).flatten := by decide +kernel

end Zeropb.GoSrc.X
