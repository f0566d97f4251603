import Verif.GoSrc.OffsetsGo
import Verif.GoSrc.ZeropbGo
/-!
# The text of offsets.go and zeropb.go

The lines of both files, comments included, and the kernel's check that they consist of exactly the
tokens of the syntax trees.
-/

namespace Zeropb.GoSrc
open Zeropb.Gen (Text)

set_option maxRecDepth 10000

/-- Lines of text, each ended by a newline. -/
def unlines (ls : List Text) : Text := (ls.map (· ++ ['\n'])).flatten

/-- The lines 1-60 of /repo/offsets.go. -/
def offsetsText1 : List Text := [
  t!"// Copyright 2019 Daniel Harrison. All Rights Reserved.",
  t!"",
  t!"package zeropb",
  t!"",
  t!"import (",
  t!"\t\"math\"",
  t!")",
  t!"",
  t!"const (",
  t!"\t// offsetUnset indicates that the offset is not set.",
  t!"\toffsetUnset uint16 = 0",
  t!"\t// offsetInMap indicates that the offset is stored in the map.",
  t!"\toffsetInMap uint16 = math.MaxUint16",
  t!"\t// offsetMaxInArray is the maximum offset storable in the array.",
  t!"\toffsetMaxInArray uint16 = offsetInMap - 1",
  t!")",
  t!"",
  t!"// Offsets is a mapping between field id and byte offset into the message. The",
  t!"// offset always points after the varint tag containing the field id and field",
  t!"// type.",
  t!"//",
  t!"// Offsets smaller than OffsetMaxInArray are stored in the array. Otherwise, the",
  t!"// map is lazily allocated once and the offset is stored in there. Invariant:",
  t!"// the fieldID is present in the map if and only iff `o.a[fieldID] ==",
  t!"// OffsetInMap`. If the field is unset, `o.a[fieldID]` will be OffsetUnset.",
  t!"//",
  t!"// - Non-repeated fields point at the last instance. The spec says to ignore",
  t!"//   everything but the last one.",
  t!"// - Repeated fields point at the first instance. Iterating one of these fields",
  t!"//   will partially re-parse the message starting at this first instance.",
  t!"// - All offsets point to after the varint tag containing the field id and type.",
  t!"//   Primitive fields (varint, fixed32, fixed64) point directly at the field",
  t!"//   data. Bytes fields point at the varint length. Packed repeated fields are",
  t!"//   not yet supported.",
  t!"type Offsets struct {",
  t!"\ta []uint16",
  t!"\tm *map[int]uint64",
  t!"}",
  t!"",
  t!"// WrapOffsets wraps the array and map fields from a generated struct into",
  t!"// an Offsets helper.",
  t!"func WrapOffsets(a []uint16, m *map[int]uint64) Offsets {",
  t!"\treturn Offsets{a: a, m: m}",
  t!"}",
  t!"",
  t!"// Get returns the offset of the given field or false if it's not present.",
  t!"func (o Offsets) Get(fieldID int) (uint64, bool) {",
  t!"\tif offset := o.a[fieldID]; offset != offsetInMap {",
  t!"\t\treturn uint64(offset), offset != offsetUnset",
  t!"\t}",
  t!"\t// If the array had the sentinel, the map is guaranteed to exist and the",
  t!"\t// value is guaranteed to be set.",
  t!"\treturn (*o.m)[fieldID], true",
  t!"}",
  t!"",
  t!"// Set stores the given field id offset.",
  t!"func (o Offsets) Set(fieldID int, offset uint64) {",
  t!"\tif offset <= uint64(offsetMaxInArray) {",
  t!"\t\tif previous := o.a[fieldID]; previous == offsetInMap {",
  t!"\t\t\tdelete(*o.m, fieldID)"]

/-- The lines 61-86 of /repo/offsets.go. -/
def offsetsText2 : List Text := [
  t!"\t\t}",
  t!"\t\to.a[fieldID] = uint16(offset)",
  t!"\t} else {",
  t!"\t\t// No need to check what was previously in the array, just",
  t!"\t\t// unconditionally overwrite it.",
  t!"\t\to.a[fieldID] = offsetInMap",
  t!"\t\tif *o.m == nil {",
  t!"\t\t\t// TODO(dan): Preallocate this with a capacity of the number of",
  t!"\t\t\t// field ids to make sure it's only ever 1 allocation.",
  t!"\t\t\t*o.m = make(map[int]uint64, fieldID)",
  t!"\t\t}",
  t!"\t\t(*o.m)[fieldID] = offset",
  t!"\t}",
  t!"}",
  t!"",
  t!"// Clear removes all entries.",
  t!"func (o Offsets) Clear() {",
  t!"\tfor i := range o.a {",
  t!"\t\to.a[i] = offsetUnset",
  t!"\t}",
  t!"\tif *o.m != nil {",
  t!"\t\tfor f := range *o.m {",
  t!"\t\t\tdelete(*o.m, f)",
  t!"\t\t}",
  t!"\t}",
  t!"}"]

/-- The lines of /repo/offsets.go. -/
def offsetsText : List Text := offsetsText1 ++ offsetsText2

/-- The lines 1-60 of /repo/zeropb.go. -/
def zeropbText1 : List Text := [
  t!"// Copyright 2019 Daniel Harrison. All Rights Reserved.",
  t!"",
  t!"package zeropb",
  t!"",
  t!"import (",
  t!"\t\"encoding/binary\"",
  t!"\t\"io\"",
  t!"\t\"math\"",
  t!"\t\"reflect\"",
  t!"\t\"unsafe\"",
  t!"",
  t!"\t\"github.com/golang/protobuf/proto\"",
  t!"\t\"github.com/pkg/errors\"",
  t!")",
  t!"",
  t!"// GetBool gets an encoded bool field with the given field id.",
  t!"func GetBool(buf []byte, offsets Offsets, fieldID int) bool {",
  t!"\toffset, ok := offsets.Get(fieldID)",
  t!"\tif !ok {",
  t!"\t\treturn false",
  t!"\t}",
  t!"\tx, _ := binary.Uvarint(buf[offset:])",
  t!"\treturn x > 0",
  t!"}",
  t!"",
  t!"// GetInt32 gets an encoded int32 field with the given field id.",
  t!"func GetInt32(buf []byte, offsets Offsets, fieldID int) int32 {",
  t!"\toffset, ok := offsets.Get(fieldID)",
  t!"\tif !ok {",
  t!"\t\treturn 0",
  t!"\t}",
  t!"\tx, _ := binary.Uvarint(buf[offset:])",
  t!"\treturn int32(x)",
  t!"}",
  t!"",
  t!"// GetInt64 gets an encoded int64 field with the given field id.",
  t!"func GetInt64(buf []byte, offsets Offsets, fieldID int) int64 {",
  t!"\toffset, ok := offsets.Get(fieldID)",
  t!"\tif !ok {",
  t!"\t\treturn 0",
  t!"\t}",
  t!"\tx, _ := binary.Uvarint(buf[offset:])",
  t!"\treturn int64(x)",
  t!"}",
  t!"",
  t!"// GetUint32 gets an encoded uint32 field with the given field id.",
  t!"func GetUint32(buf []byte, offsets Offsets, fieldID int) uint32 {",
  t!"\toffset, ok := offsets.Get(fieldID)",
  t!"\tif !ok {",
  t!"\t\treturn 0",
  t!"\t}",
  t!"\tx, _ := binary.Uvarint(buf[offset:])",
  t!"\treturn uint32(x)",
  t!"}",
  t!"",
  t!"// GetUint64 gets an encoded uint64 field with the given field id.",
  t!"func GetUint64(buf []byte, offsets Offsets, fieldID int) uint64 {",
  t!"\toffset, ok := offsets.Get(fieldID)",
  t!"\tif !ok {",
  t!"\t\treturn 0"]

/-- The lines 61-120 of /repo/zeropb.go. -/
def zeropbText2 : List Text := [
  t!"\t}",
  t!"\tx, _ := binary.Uvarint(buf[offset:])",
  t!"\treturn x",
  t!"}",
  t!"",
  t!"// GetZigZagInt32 gets a zig-zag encoded int32 field with the given field id.",
  t!"func GetZigZagInt32(buf []byte, offsets Offsets, fieldID int) int32 {",
  t!"\toffset, ok := offsets.Get(fieldID)",
  t!"\tif !ok {",
  t!"\t\treturn 0",
  t!"\t}",
  t!"\tx, _ := binary.Varint(buf[offset:])",
  t!"\treturn int32(x)",
  t!"}",
  t!"",
  t!"// GetZigZagInt64 gets a zig-zag encoded int64 field with the given field id.",
  t!"func GetZigZagInt64(buf []byte, offsets Offsets, fieldID int) int64 {",
  t!"\toffset, ok := offsets.Get(fieldID)",
  t!"\tif !ok {",
  t!"\t\treturn 0",
  t!"\t}",
  t!"\tx, _ := binary.Varint(buf[offset:])",
  t!"\treturn x",
  t!"}",
  t!"",
  t!"// GetFixedUint32 gets a little-endian encoded uint32 field with the given field",
  t!"// id.",
  t!"func GetFixedUint32(buf []byte, offsets Offsets, fieldID int) uint32 {",
  t!"\toffset, ok := offsets.Get(fieldID)",
  t!"\tif !ok {",
  t!"\t\treturn 0",
  t!"\t}",
  t!"\treturn binary.LittleEndian.Uint32(buf[offset : offset+4])",
  t!"}",
  t!"",
  t!"// GetFixedUint64 gets a little-endian encoded uint64 field with the given field",
  t!"// id.",
  t!"func GetFixedUint64(buf []byte, offsets Offsets, fieldID int) uint64 {",
  t!"\toffset, ok := offsets.Get(fieldID)",
  t!"\tif !ok {",
  t!"\t\treturn 0",
  t!"\t}",
  t!"\treturn binary.LittleEndian.Uint64(buf[offset : offset+8])",
  t!"}",
  t!"",
  t!"// GetFixedInt32 gets a little-endian encoded int32 field with the given field",
  t!"// id.",
  t!"func GetFixedInt32(buf []byte, offsets Offsets, fieldID int) int32 {",
  t!"\toffset, ok := offsets.Get(fieldID)",
  t!"\tif !ok {",
  t!"\t\treturn 0",
  t!"\t}",
  t!"\treturn int32(binary.LittleEndian.Uint32(buf[offset : offset+4]))",
  t!"}",
  t!"",
  t!"// GetFixedInt64 gets a little-endian encoded int64 field with the given field",
  t!"// id.",
  t!"func GetFixedInt64(buf []byte, offsets Offsets, fieldID int) int64 {",
  t!"\toffset, ok := offsets.Get(fieldID)",
  t!"\tif !ok {"]

/-- The lines 121-180 of /repo/zeropb.go. -/
def zeropbText3 : List Text := [
  t!"\t\treturn 0",
  t!"\t}",
  t!"\treturn int64(binary.LittleEndian.Uint64(buf[offset : offset+8]))",
  t!"}",
  t!"",
  t!"// GetFloat32 gets a little-endian, IEEE 754 encoded float32 field with the",
  t!"// given field id.",
  t!"func GetFloat32(buf []byte, offsets Offsets, fieldID int) float32 {",
  t!"\toffset, ok := offsets.Get(fieldID)",
  t!"\tif !ok {",
  t!"\t\treturn 0",
  t!"\t}",
  t!"\tbits := binary.LittleEndian.Uint32(buf[offset : offset+4])",
  t!"\treturn math.Float32frombits(bits)",
  t!"}",
  t!"",
  t!"// GetFloat64 gets a little-endian, IEEE 754 encoded float64 field with the",
  t!"// given field id.",
  t!"func GetFloat64(buf []byte, offsets Offsets, fieldID int) float64 {",
  t!"\toffset, ok := offsets.Get(fieldID)",
  t!"\tif !ok {",
  t!"\t\treturn 0",
  t!"\t}",
  t!"\tbits := binary.LittleEndian.Uint64(buf[offset : offset+8])",
  t!"\treturn math.Float64frombits(bits)",
  t!"}",
  t!"",
  t!"// GetString gets an encoded string field with the given field id.",
  t!"func GetString(buf []byte, offsets Offsets, fieldID int) string {",
  t!"\toffset, ok := offsets.Get(fieldID)",
  t!"\tif !ok {",
  t!"\t\treturn ``",
  t!"\t}",
  t!"\tlen, lenSize := binary.Uvarint(buf[offset:])",
  t!"\toffset += uint64(lenSize)",
  t!"\tdata := buf[offset : offset+len]",
  t!"\treturn *(*string)(unsafe.Pointer(&data))",
  t!"}",
  t!"",
  t!"// GetBytes gets an encoded []byte field with the given field id.",
  t!"func GetBytes(buf []byte, offsets Offsets, fieldID int) []byte {",
  t!"\toffset, ok := offsets.Get(fieldID)",
  t!"\tif !ok {",
  t!"\t\treturn nil",
  t!"\t}",
  t!"\tlen, lenSize := binary.Uvarint(buf[offset:])",
  t!"\toffset += uint64(lenSize)",
  t!"\treturn buf[offset : offset+len]",
  t!"}",
  t!"",
  t!"// SetBool set an encoded bool field with the given field id, overwriting an",
  t!"// old value if present.",
  t!"func SetBool(buf *[]byte, offsets Offsets, fieldID int, x bool) {",
  t!"\tvar scratch [1]byte",
  t!"\tif x {",
  t!"\t\tscratch[0] = 1",
  t!"\t}",
  t!"\tvar valLen, val []byte = nil, scratch[:]",
  t!"\tsetSingle(buf, offsets, fieldID, proto.WireVarint, valLen, val)",
  t!"}"]

/-- The lines 181-240 of /repo/zeropb.go. -/
def zeropbText4 : List Text := [
  t!"",
  t!"// SetInt32 set an encoded int32 field with the given field id, overwriting an",
  t!"// old value if present.",
  t!"func SetInt32(buf *[]byte, offsets Offsets, fieldID int, x int32) {",
  t!"\t// WIP huh? var scratch [binary.MaxVarintLen32]byte",
  t!"\tvar scratch [binary.MaxVarintLen64]byte",
  t!"\tn := binary.PutUvarint(scratch[:], uint64(x))",
  t!"\tvar valLen, val []byte = nil, scratch[:n]",
  t!"\tsetSingle(buf, offsets, fieldID, proto.WireVarint, valLen, val)",
  t!"}",
  t!"",
  t!"// SetInt64 set an encoded int64 field with the given field id, overwriting an",
  t!"// old value if present.",
  t!"func SetInt64(buf *[]byte, offsets Offsets, fieldID int, x int64) {",
  t!"\tvar scratch [binary.MaxVarintLen64]byte",
  t!"\tn := binary.PutUvarint(scratch[:], uint64(x))",
  t!"\tvar valLen, val []byte = nil, scratch[:n]",
  t!"\tsetSingle(buf, offsets, fieldID, proto.WireVarint, valLen, val)",
  t!"}",
  t!"",
  t!"// SetUint32 set an encoded uint64 field with the given field id, overwriting an",
  t!"// old value if present.",
  t!"func SetUint32(buf *[]byte, offsets Offsets, fieldID int, x uint32) {",
  t!"\tvar scratch [binary.MaxVarintLen32]byte",
  t!"\tn := binary.PutUvarint(scratch[:], uint64(x))",
  t!"\tvar valLen, val []byte = nil, scratch[:n]",
  t!"\tsetSingle(buf, offsets, fieldID, proto.WireVarint, valLen, val)",
  t!"}",
  t!"",
  t!"// SetUint64 set an encoded uint64 field with the given field id, overwriting an",
  t!"// old value if present.",
  t!"func SetUint64(buf *[]byte, offsets Offsets, fieldID int, x uint64) {",
  t!"\tvar scratch [binary.MaxVarintLen64]byte",
  t!"\tn := binary.PutUvarint(scratch[:], x)",
  t!"\tvar valLen, val []byte = nil, scratch[:n]",
  t!"\tsetSingle(buf, offsets, fieldID, proto.WireVarint, valLen, val)",
  t!"}",
  t!"",
  t!"// SetZigZagInt32 set a zig-zag encoded int64 field with the given field id,",
  t!"// overwriting an old value if present.",
  t!"func SetZigZagInt32(buf *[]byte, offsets Offsets, fieldID int, x int32) {",
  t!"\tvar scratch [binary.MaxVarintLen32]byte",
  t!"\tn := binary.PutVarint(scratch[:], int64(x))",
  t!"\tvar valLen, val []byte = nil, scratch[:n]",
  t!"\tsetSingle(buf, offsets, fieldID, proto.WireVarint, valLen, val)",
  t!"}",
  t!"",
  t!"// SetZigZagInt64 set a zig-zag encoded int64 field with the given field id,",
  t!"// overwriting an old value if present.",
  t!"func SetZigZagInt64(buf *[]byte, offsets Offsets, fieldID int, x int64) {",
  t!"\tvar scratch [binary.MaxVarintLen64]byte",
  t!"\tn := binary.PutVarint(scratch[:], x)",
  t!"\tvar valLen, val []byte = nil, scratch[:n]",
  t!"\tsetSingle(buf, offsets, fieldID, proto.WireVarint, valLen, val)",
  t!"}",
  t!"",
  t!"// SetFixedUint32 set a little-endian encoded uint32 field with the given field",
  t!"// id, overwriting an old value if present.",
  t!"func SetFixedUint32(buf *[]byte, offsets Offsets, fieldID int, x uint32) {",
  t!"\tvar scratch [4]byte"]

/-- The lines 241-300 of /repo/zeropb.go. -/
def zeropbText5 : List Text := [
  t!"\tbinary.LittleEndian.PutUint32(scratch[:], x)",
  t!"\tvar valLen, val []byte = nil, scratch[:]",
  t!"\tsetSingle(buf, offsets, fieldID, proto.WireFixed32, valLen, val)",
  t!"}",
  t!"",
  t!"// SetFixedUint64 set a little-endian encoded uint64 field with the given field",
  t!"// id, overwriting an old value if present.",
  t!"func SetFixedUint64(buf *[]byte, offsets Offsets, fieldID int, x uint64) {",
  t!"\tvar scratch [8]byte",
  t!"\tbinary.LittleEndian.PutUint64(scratch[:], x)",
  t!"\tvar valLen, val []byte = nil, scratch[:]",
  t!"\tsetSingle(buf, offsets, fieldID, proto.WireFixed64, valLen, val)",
  t!"}",
  t!"",
  t!"// SetFixedInt32 set a little-endian encoded int32 field with the given field",
  t!"// id, overwriting an old value if present.",
  t!"func SetFixedInt32(buf *[]byte, offsets Offsets, fieldID int, x int32) {",
  t!"\tvar scratch [4]byte",
  t!"\tbinary.LittleEndian.PutUint32(scratch[:], uint32(x))",
  t!"\tvar valLen, val []byte = nil, scratch[:]",
  t!"\tsetSingle(buf, offsets, fieldID, proto.WireFixed32, valLen, val)",
  t!"}",
  t!"",
  t!"// SetFixedInt64 set a little-endian encoded int64 field with the given field",
  t!"// id, overwriting an old value if present.",
  t!"func SetFixedInt64(buf *[]byte, offsets Offsets, fieldID int, x int64) {",
  t!"\tvar scratch [8]byte",
  t!"\tbinary.LittleEndian.PutUint64(scratch[:], uint64(x))",
  t!"\tvar valLen, val []byte = nil, scratch[:]",
  t!"\tsetSingle(buf, offsets, fieldID, proto.WireFixed64, valLen, val)",
  t!"}",
  t!"",
  t!"// SetFloat32 set a little-endian, IEEE 754 encoded float32 field with the given",
  t!"// field id, overwriting an old value if present.",
  t!"func SetFloat32(buf *[]byte, offsets Offsets, fieldID int, x float32) {",
  t!"\tvar scratch [4]byte",
  t!"\tbits := math.Float32bits(x)",
  t!"\tbinary.LittleEndian.PutUint32(scratch[:], bits)",
  t!"\tvar valLen, val []byte = nil, scratch[:]",
  t!"\tsetSingle(buf, offsets, fieldID, proto.WireFixed32, valLen, val)",
  t!"}",
  t!"",
  t!"// SetFloat64 set a little-endian, IEEE 754 encoded float64 field with the given",
  t!"// field id, overwriting an old value if present.",
  t!"func SetFloat64(buf *[]byte, offsets Offsets, fieldID int, x float64) {",
  t!"\tvar scratch [8]byte",
  t!"\tbits := math.Float64bits(x)",
  t!"\tbinary.LittleEndian.PutUint64(scratch[:], bits)",
  t!"\tvar valLen, val []byte = nil, scratch[:]",
  t!"\tsetSingle(buf, offsets, fieldID, proto.WireFixed64, valLen, val)",
  t!"}",
  t!"",
  t!"// SetString set an encoded string field with the given field id, overwriting an",
  t!"// old value if present.",
  t!"func SetString(buf *[]byte, offsets Offsets, fieldID int, x string) {",
  t!"\tvar scratch [binary.MaxVarintLen64]byte",
  t!"\thdr := *(*reflect.StringHeader)(unsafe.Pointer(&x))",
  t!"\tdata := *(*[]byte)(unsafe.Pointer(&reflect.SliceHeader{",
  t!"\t\tData: hdr.Data,",
  t!"\t\tLen:  hdr.Len,"]

/-- The lines 301-360 of /repo/zeropb.go. -/
def zeropbText6 : List Text := [
  t!"\t\tCap:  hdr.Len,",
  t!"\t}))",
  t!"\tn := binary.PutUvarint(scratch[:], uint64(len(data)))",
  t!"\tvar valLen, val []byte = scratch[:n], data",
  t!"\tsetSingle(buf, offsets, fieldID, proto.WireBytes, valLen, val)",
  t!"}",
  t!"",
  t!"// SetBytes set an encoded []byte field with the given field id, overwriting an",
  t!"// old value if present.",
  t!"func SetBytes(buf *[]byte, offsets Offsets, fieldID int, x []byte) {",
  t!"\tvar scratch [binary.MaxVarintLen64]byte",
  t!"\tn := binary.PutUvarint(scratch[:], uint64(len(x)))",
  t!"\tvar valLen, val []byte = scratch[:n], x",
  t!"\tsetSingle(buf, offsets, fieldID, proto.WireBytes, valLen, val)",
  t!"}",
  t!"",
  t!"// AppendBytes appends one value to an encoded []byte field with the given field",
  t!"// id.",
  t!"func AppendBytes(buf *[]byte, offsets Offsets, fieldID int, x []byte) {",
  t!"\tvar scratch [binary.MaxVarintLen64]byte",
  t!"\tn := binary.PutUvarint(scratch[:], uint64(len(x)))",
  t!"\tvar valLen, val []byte = scratch[:n], x",
  t!"\tappendSingle(buf, offsets, fieldID, proto.WireBytes, valLen, val)",
  t!"}",
  t!"",
  t!"func setSingle(buf *[]byte, offsets Offsets, fieldID, typ int, valLen, val []byte) {",
  t!"\t// TODO(dan): We could save space if we didn't encode fields set to the",
  t!"\t// default value.",
  t!"",
  t!"\tvar scratch [binary.MaxVarintLen64]byte",
  t!"\ttag := uint64(fieldID<<3 | typ)",
  t!"\ttagLen := binary.PutUvarint(scratch[:], tag)",
  t!"",
  t!"\tif offset, ok := offsets.Get(fieldID); ok {",
  t!"\t\tvar oldLen int",
  t!"\t\tswitch typ {",
  t!"\t\tcase proto.WireVarint:",
  t!"\t\t\t_, oldLen = binary.Uvarint((*buf)[offset:])",
  t!"\t\tcase proto.WireFixed32:",
  t!"\t\t\toldLen = 4",
  t!"\t\tcase proto.WireFixed64:",
  t!"\t\t\toldLen = 8",
  t!"\t\tcase proto.WireBytes:",
  t!"\t\t\toldValLen, oldValLenLen := binary.Uvarint((*buf)[offset:])",
  t!"\t\t\toldLen = int(oldValLen) + oldValLenLen",
  t!"\t\tdefault:",
  t!"\t\t\tpanic(typ)",
  t!"\t\t}",
  t!"",
  t!"\t\t// Performance optimization: if the new value is exactly the same length as",
  t!"\t\t// the old one, simply overwrite it.",
  t!"\t\tif int(oldLen) == len(valLen)+len(val) {",
  t!"\t\t\toffset += uint64(copy((*buf)[offset:], valLen))",
  t!"\t\t\toffset += uint64(copy((*buf)[offset:], val))",
  t!"\t\t\treturn",
  t!"\t\t}",
  t!"",
  t!"\t\tfieldBegin, fieldEnd := offset-uint64(tagLen), offset+uint64(oldLen)",
  t!"\t\t// TODO(dan): sanity check that we got the same tag bytes here?",
  t!"\t\tcopy((*buf)[fieldBegin:], (*buf)[fieldEnd:])"]

/-- The lines 361-420 of /repo/zeropb.go. -/
def zeropbText7 : List Text := [
  t!"\t\tremovedBytes := fieldEnd - fieldBegin",
  t!"\t\t(*buf) = (*buf)[:uint64(len(*buf))-removedBytes]",
  t!"",
  t!"\t\t// Adjust every offset in the map that's larger than fieldEnd down by",
  t!"\t\t// removedBytes.",
  t!"\t\t//",
  t!"\t\t// TODO(dan): Figure out how to move all this internal knowledge into",
  t!"\t\t// Offsets.",
  t!"\t\tfor fieldID, offset := range offsets.a {",
  t!"\t\t\tif offset != math.MaxUint16 && uint64(offset) > fieldEnd {",
  t!"\t\t\t\t// Guaranteed to still be > 0 and < MaxOffsetInArray.",
  t!"\t\t\t\toffsets.a[fieldID] = offset - uint16(removedBytes)",
  t!"\t\t\t}",
  t!"\t\t}",
  t!"\t\tif offsets.m != nil {",
  t!"\t\t\tfor fieldID, offset := range *offsets.m {",
  t!"\t\t\t\tif offset > fieldEnd {",
  t!"\t\t\t\t\toffsets.Set(fieldID, offset-removedBytes)",
  t!"\t\t\t\t}",
  t!"\t\t\t}",
  t!"\t\t}",
  t!"\t}",
  t!"\t*buf = append(*buf, scratch[:tagLen]...)",
  t!"",
  t!"\toffset := len(*buf)",
  t!"\toffsets.Set(fieldID, uint64(offset))",
  t!"\t*buf = append(*buf, valLen...)",
  t!"\t*buf = append(*buf, val...)",
  t!"}",
  t!"",
  t!"func appendSingle(buf *[]byte, offsets Offsets, fieldID, typ int, valLen, val []byte) {",
  t!"\tvar scratch [binary.MaxVarintLen64]byte",
  t!"",
  t!"\ttag := uint64(fieldID<<3 | typ)",
  t!"\ttagLen := binary.PutUvarint(scratch[:], tag)",
  t!"\t*buf = append(*buf, scratch[:tagLen]...)",
  t!"",
  t!"\toffset := len(*buf)",
  t!"\t// The offset for repeated fields always points at the first one.",
  t!"\tif _, ok := offsets.Get(fieldID); !ok {",
  t!"\t\toffsets.Set(fieldID, uint64(offset))",
  t!"\t}",
  t!"\t*buf = append(*buf, valLen...)",
  t!"\t*buf = append(*buf, val...)",
  t!"}",
  t!"",
  t!"// GetRepeatedNonPacked returns a slice of the internal buffer, starting at the",
  t!"// first instance of a non-packed repeated field and with everything after it.",
  t!"// It's positioned past the tag of the field, so the very first thing will be a",
  t!"// varint length. This is exactly the input expected by FindNextField.",
  t!"func GetRepeatedNonPacked(buf []byte, offsets Offsets, fieldID int) []byte {",
  t!"\toffset, ok := offsets.Get(fieldID)",
  t!"\tif !ok {",
  t!"\t\treturn nil",
  t!"\t}",
  t!"\treturn buf[offset:]",
  t!"}",
  t!"",
  t!"// Decode parses and validates a proto message, filling in a map of field id ->",
  t!"// offset as it goes."]

/-- The lines 421-480 of /repo/zeropb.go. -/
def zeropbText8 : List Text := [
  t!"func Decode(buf []byte, offsets Offsets, repeatedFields RepeatedFields) error {",
  t!"\toffsets.Clear()",
  t!"\tfor idx := 0; ; {",
  t!"\t\tif idx == len(buf) {",
  t!"\t\t\treturn nil",
  t!"\t\t} else if idx > len(buf) {",
  t!"\t\t\treturn io.ErrUnexpectedEOF",
  t!"\t\t}",
  t!"\t\ttag, size := binary.Uvarint(buf[idx:])",
  t!"\t\tif size == 0 {",
  t!"\t\t\treturn io.ErrUnexpectedEOF",
  t!"\t\t}",
  t!"\t\tidx += size",
  t!"\t\tif idx >= len(buf) {",
  t!"\t\t\treturn io.ErrUnexpectedEOF",
  t!"\t\t}",
  t!"",
  t!"\t\tfieldID := int(tag >> 3)",
  t!"\t\ttyp := tag & 0x7",
  t!"\t\t// fmt.Printf(\"tag=%x field=%d typ=%d idx=%d\\n\", tag, fieldID, typ, idx)",
  t!"",
  t!"\t\t// TODO(dan): It's odd that we're passing in only the repeatedness of the",
  t!"\t\t// field. Maybe pass in some sort of field descriptor instead?",
  t!"\t\tif _, ok := repeatedFields[fieldID]; ok {",
  t!"\t\t\t// For a repeated field, set the offset if this is the first one we've",
  t!"\t\t\t// found but don't overwrite an earlier offset. The repeated field",
  t!"\t\t\t// iterator will start from this offset and re-parse the rest of the",
  t!"\t\t\t// message to find the rest of them.",
  t!"\t\t\tif _, ok := offsets.Get(fieldID); !ok {",
  t!"\t\t\t\toffsets.Set(fieldID, uint64(idx))",
  t!"\t\t\t}",
  t!"\t\t} else {",
  t!"\t\t\t// For a non-repeated field, always overwrite the offset. The proto spec",
  t!"\t\t\t// says to keep only the last one.",
  t!"\t\t\toffsets.Set(fieldID, uint64(idx))",
  t!"\t\t\t// TODO(dan): The proto spec specifically allows a single message to be",
  t!"\t\t\t// split, but I don't understand why it would happen. It's hard to",
  t!"\t\t\t// support so leave it unsupported for now.",
  t!"\t\t}",
  t!"",
  t!"\t\ts := fieldDataSize(typ, buf[idx:])",
  t!"\t\tif s == 0 {",
  t!"\t\t\treturn io.ErrUnexpectedEOF",
  t!"\t\t}",
  t!"\t\tidx += s",
  t!"\t}",
  t!"}",
  t!"",
  t!"// FindNextField parses a bytes field (with no tag) that must be present at the",
  t!"// very start of buf and finds the next requested field, returning it ready to",
  t!"// be handed back to FindNextField.",
  t!"func FindNextField(buf []byte, field int) ([]byte, []byte) {",
  t!"\tif buf == nil {",
  t!"\t\treturn nil, nil",
  t!"\t}",
  t!"\t// NB: FindNextField doesn't do the same bounds checking that Decode does",
  t!"\t// because Decode has already validated the input.",
  t!"\tmsgLen, lenSize := binary.Uvarint(buf)",
  t!"\tmsg := buf[lenSize : lenSize+int(msgLen)]",
  t!"\tfor idx := lenSize + int(msgLen); idx < len(buf); {"]

/-- The lines 481-514 of /repo/zeropb.go. -/
def zeropbText9 : List Text := [
  t!"\t\ttag, size := binary.Uvarint(buf[idx:])",
  t!"\t\tidx += size",
  t!"\t\tf := int(tag >> 3)",
  t!"\t\ttyp := tag & 0x7",
  t!"\t\tif f == field {",
  t!"\t\t\treturn buf[idx:], msg",
  t!"\t\t}",
  t!"\t\tidx += fieldDataSize(typ, buf[idx:])",
  t!"\t}",
  t!"\treturn nil, msg",
  t!"}",
  t!"",
  t!"func fieldDataSize(typ uint64, buf []byte) int {",
  t!"\tswitch typ {",
  t!"\tcase proto.WireVarint:",
  t!"\t\t_, size := binary.Uvarint(buf)",
  t!"\t\treturn size",
  t!"\tcase proto.WireFixed32:",
  t!"\t\treturn 4",
  t!"\tcase proto.WireFixed64:",
  t!"\t\treturn 8",
  t!"\tcase proto.WireBytes:",
  t!"\t\tlen, lenSize := binary.Uvarint(buf)",
  t!"\t\tif lenSize == 0 {",
  t!"\t\t\treturn 0",
  t!"\t\t}",
  t!"\t\treturn lenSize + int(len)",
  t!"\tdefault:",
  t!"\t\tpanic(errors.Errorf(`unsupported type: %d`, typ))",
  t!"\t}",
  t!"}",
  t!"",
  t!"// RepeatedFields indicates which fields are repeated, indexed by field id.",
  t!"type RepeatedFields map[int]struct{}"]

/-- The lines of /repo/zeropb.go. -/
def zeropbText : List Text := zeropbText1 ++ zeropbText2 ++ zeropbText3 ++ zeropbText4 ++ zeropbText5 ++ zeropbText6 ++ zeropbText7 ++ zeropbText8 ++ zeropbText9

/-- The syntax trees are the files. -/
theorem offsets_source : tokenize (unlines offsetsText) = (offsetsFile.map Top.toks).flatten := by decide +kernel

theorem zeropb_source : tokenize (unlines zeropbText) = (zeropbFile.map Top.toks).flatten := by decide +kernel

end Zeropb.GoSrc
