import Verif.GoSrc.Syntax
/-!
# The functions of zeropb.go as syntax trees

`GoSrc/Text` proves that these trees print to exactly the tokens of the file.
-/

namespace Zeropb.GoSrc

/-- zeropb.go:17-24. -/
def srcGetBool : Func where
  recv := none
  name := .GetBool
  params := [([.buf], .bytes), ([.offsets], .Offsets), ([.fieldID], .int)]
  results := [.bool]
  body :=
    .seq (.define [some .offset, some .ok] (.method (.id .offsets) .Get (.arg (.id .fieldID)))) <|
    .seq (.ite (.not (.id .ok)) (.seq (.retVal (.arg .false_)) <|
      .skip) .skip) <|
    .seq (.define [some .x, none] (.lib .Uvarint (.arg (.sliceFrom (.id .buf) (.id .offset))))) <|
    .seq (.retVal (.arg (.bin .gt (.id .x) (.num 0)))) <|
    .skip

/-- zeropb.go:27-34. -/
def srcGetInt32 : Func where
  recv := none
  name := .GetInt32
  params := [([.buf], .bytes), ([.offsets], .Offsets), ([.fieldID], .int)]
  results := [.int32]
  body :=
    .seq (.define [some .offset, some .ok] (.method (.id .offsets) .Get (.arg (.id .fieldID)))) <|
    .seq (.ite (.not (.id .ok)) (.seq (.retVal (.arg (.num 0))) <|
      .skip) .skip) <|
    .seq (.define [some .x, none] (.lib .Uvarint (.arg (.sliceFrom (.id .buf) (.id .offset))))) <|
    .seq (.retVal (.arg (.conv .int32 (.id .x)))) <|
    .skip

/-- zeropb.go:37-44. -/
def srcGetInt64 : Func where
  recv := none
  name := .GetInt64
  params := [([.buf], .bytes), ([.offsets], .Offsets), ([.fieldID], .int)]
  results := [.int64]
  body :=
    .seq (.define [some .offset, some .ok] (.method (.id .offsets) .Get (.arg (.id .fieldID)))) <|
    .seq (.ite (.not (.id .ok)) (.seq (.retVal (.arg (.num 0))) <|
      .skip) .skip) <|
    .seq (.define [some .x, none] (.lib .Uvarint (.arg (.sliceFrom (.id .buf) (.id .offset))))) <|
    .seq (.retVal (.arg (.conv .int64 (.id .x)))) <|
    .skip

/-- zeropb.go:47-54. -/
def srcGetUint32 : Func where
  recv := none
  name := .GetUint32
  params := [([.buf], .bytes), ([.offsets], .Offsets), ([.fieldID], .int)]
  results := [.uint32]
  body :=
    .seq (.define [some .offset, some .ok] (.method (.id .offsets) .Get (.arg (.id .fieldID)))) <|
    .seq (.ite (.not (.id .ok)) (.seq (.retVal (.arg (.num 0))) <|
      .skip) .skip) <|
    .seq (.define [some .x, none] (.lib .Uvarint (.arg (.sliceFrom (.id .buf) (.id .offset))))) <|
    .seq (.retVal (.arg (.conv .uint32 (.id .x)))) <|
    .skip

/-- zeropb.go:57-64. -/
def srcGetUint64 : Func where
  recv := none
  name := .GetUint64
  params := [([.buf], .bytes), ([.offsets], .Offsets), ([.fieldID], .int)]
  results := [.uint64]
  body :=
    .seq (.define [some .offset, some .ok] (.method (.id .offsets) .Get (.arg (.id .fieldID)))) <|
    .seq (.ite (.not (.id .ok)) (.seq (.retVal (.arg (.num 0))) <|
      .skip) .skip) <|
    .seq (.define [some .x, none] (.lib .Uvarint (.arg (.sliceFrom (.id .buf) (.id .offset))))) <|
    .seq (.retVal (.arg (.id .x))) <|
    .skip

/-- zeropb.go:67-74. -/
def srcGetZigZagInt32 : Func where
  recv := none
  name := .GetZigZagInt32
  params := [([.buf], .bytes), ([.offsets], .Offsets), ([.fieldID], .int)]
  results := [.int32]
  body :=
    .seq (.define [some .offset, some .ok] (.method (.id .offsets) .Get (.arg (.id .fieldID)))) <|
    .seq (.ite (.not (.id .ok)) (.seq (.retVal (.arg (.num 0))) <|
      .skip) .skip) <|
    .seq (.define [some .x, none] (.lib .Varint (.arg (.sliceFrom (.id .buf) (.id .offset))))) <|
    .seq (.retVal (.arg (.conv .int32 (.id .x)))) <|
    .skip

/-- zeropb.go:77-84. -/
def srcGetZigZagInt64 : Func where
  recv := none
  name := .GetZigZagInt64
  params := [([.buf], .bytes), ([.offsets], .Offsets), ([.fieldID], .int)]
  results := [.int64]
  body :=
    .seq (.define [some .offset, some .ok] (.method (.id .offsets) .Get (.arg (.id .fieldID)))) <|
    .seq (.ite (.not (.id .ok)) (.seq (.retVal (.arg (.num 0))) <|
      .skip) .skip) <|
    .seq (.define [some .x, none] (.lib .Varint (.arg (.sliceFrom (.id .buf) (.id .offset))))) <|
    .seq (.retVal (.arg (.id .x))) <|
    .skip

/-- zeropb.go:88-94. -/
def srcGetFixedUint32 : Func where
  recv := none
  name := .GetFixedUint32
  params := [([.buf], .bytes), ([.offsets], .Offsets), ([.fieldID], .int)]
  results := [.uint32]
  body :=
    .seq (.define [some .offset, some .ok] (.method (.id .offsets) .Get (.arg (.id .fieldID)))) <|
    .seq (.ite (.not (.id .ok)) (.seq (.retVal (.arg (.num 0))) <|
      .skip) .skip) <|
    .seq (.retVal (.arg (.lib .leUint32 (.arg (.sliceRange (.id .buf) (.id .offset) (.bin .add (.id .offset) (.num 4))))))) <|
    .skip

/-- zeropb.go:98-104. -/
def srcGetFixedUint64 : Func where
  recv := none
  name := .GetFixedUint64
  params := [([.buf], .bytes), ([.offsets], .Offsets), ([.fieldID], .int)]
  results := [.uint64]
  body :=
    .seq (.define [some .offset, some .ok] (.method (.id .offsets) .Get (.arg (.id .fieldID)))) <|
    .seq (.ite (.not (.id .ok)) (.seq (.retVal (.arg (.num 0))) <|
      .skip) .skip) <|
    .seq (.retVal (.arg (.lib .leUint64 (.arg (.sliceRange (.id .buf) (.id .offset) (.bin .add (.id .offset) (.num 8))))))) <|
    .skip

/-- zeropb.go:108-114. -/
def srcGetFixedInt32 : Func where
  recv := none
  name := .GetFixedInt32
  params := [([.buf], .bytes), ([.offsets], .Offsets), ([.fieldID], .int)]
  results := [.int32]
  body :=
    .seq (.define [some .offset, some .ok] (.method (.id .offsets) .Get (.arg (.id .fieldID)))) <|
    .seq (.ite (.not (.id .ok)) (.seq (.retVal (.arg (.num 0))) <|
      .skip) .skip) <|
    .seq (.retVal (.arg (.conv .int32 (.lib .leUint32 (.arg (.sliceRange (.id .buf) (.id .offset) (.bin .add (.id .offset) (.num 4)))))))) <|
    .skip

/-- zeropb.go:118-124. -/
def srcGetFixedInt64 : Func where
  recv := none
  name := .GetFixedInt64
  params := [([.buf], .bytes), ([.offsets], .Offsets), ([.fieldID], .int)]
  results := [.int64]
  body :=
    .seq (.define [some .offset, some .ok] (.method (.id .offsets) .Get (.arg (.id .fieldID)))) <|
    .seq (.ite (.not (.id .ok)) (.seq (.retVal (.arg (.num 0))) <|
      .skip) .skip) <|
    .seq (.retVal (.arg (.conv .int64 (.lib .leUint64 (.arg (.sliceRange (.id .buf) (.id .offset) (.bin .add (.id .offset) (.num 8)))))))) <|
    .skip

/-- zeropb.go:128-135. -/
def srcGetFloat32 : Func where
  recv := none
  name := .GetFloat32
  params := [([.buf], .bytes), ([.offsets], .Offsets), ([.fieldID], .int)]
  results := [.float32]
  body :=
    .seq (.define [some .offset, some .ok] (.method (.id .offsets) .Get (.arg (.id .fieldID)))) <|
    .seq (.ite (.not (.id .ok)) (.seq (.retVal (.arg (.num 0))) <|
      .skip) .skip) <|
    .seq (.define [some .bits] (.lib .leUint32 (.arg (.sliceRange (.id .buf) (.id .offset) (.bin .add (.id .offset) (.num 4)))))) <|
    .seq (.retVal (.arg (.lib .Float32frombits (.arg (.id .bits))))) <|
    .skip

/-- zeropb.go:139-146. -/
def srcGetFloat64 : Func where
  recv := none
  name := .GetFloat64
  params := [([.buf], .bytes), ([.offsets], .Offsets), ([.fieldID], .int)]
  results := [.float64]
  body :=
    .seq (.define [some .offset, some .ok] (.method (.id .offsets) .Get (.arg (.id .fieldID)))) <|
    .seq (.ite (.not (.id .ok)) (.seq (.retVal (.arg (.num 0))) <|
      .skip) .skip) <|
    .seq (.define [some .bits] (.lib .leUint64 (.arg (.sliceRange (.id .buf) (.id .offset) (.bin .add (.id .offset) (.num 8)))))) <|
    .seq (.retVal (.arg (.lib .Float64frombits (.arg (.id .bits))))) <|
    .skip

/-- zeropb.go:149-158. -/
def srcGetString : Func where
  recv := none
  name := .GetString
  params := [([.buf], .bytes), ([.offsets], .Offsets), ([.fieldID], .int)]
  results := [.string]
  body :=
    .seq (.define [some .offset, some .ok] (.method (.id .offsets) .Get (.arg (.id .fieldID)))) <|
    .seq (.ite (.not (.id .ok)) (.seq (.retVal (.arg .emptyStr)) <|
      .skip) .skip) <|
    .seq (.define [some .len, some .lenSize] (.lib .Uvarint (.arg (.sliceFrom (.id .buf) (.id .offset))))) <|
    .seq (.addAssign .offset (.conv .uint64 (.id .lenSize))) <|
    .seq (.define [some .data] (.sliceRange (.id .buf) (.id .offset) (.bin .add (.id .offset) (.id .len)))) <|
    .seq (.retVal (.arg (.cast .string .data))) <|
    .skip

/-- zeropb.go:161-169. -/
def srcGetBytes : Func where
  recv := none
  name := .GetBytes
  params := [([.buf], .bytes), ([.offsets], .Offsets), ([.fieldID], .int)]
  results := [.bytes]
  body :=
    .seq (.define [some .offset, some .ok] (.method (.id .offsets) .Get (.arg (.id .fieldID)))) <|
    .seq (.ite (.not (.id .ok)) (.seq (.retVal (.arg .nil)) <|
      .skip) .skip) <|
    .seq (.define [some .len, some .lenSize] (.lib .Uvarint (.arg (.sliceFrom (.id .buf) (.id .offset))))) <|
    .seq (.addAssign .offset (.conv .uint64 (.id .lenSize))) <|
    .seq (.retVal (.arg (.sliceRange (.id .buf) (.id .offset) (.bin .add (.id .offset) (.id .len))))) <|
    .skip

/-- zeropb.go:173-180. -/
def srcSetBool : Func where
  recv := none
  name := .SetBool
  params := [([.buf], .bufPtr), ([.offsets], .Offsets), ([.fieldID], .int), ([.x], .bool)]
  results := []
  body :=
    .seq (.varArray .scratch (.num 1)) <|
    .seq (.ite (.id .x) (.seq (.assign (.index (.id .scratch) (.num 0)) (.num 1)) <|
      .skip) .skip) <|
    .seq (.varBytes .valLen .val (.args .nil (.arg (.slice (.id .scratch))))) <|
    .seq (.expr (.call .setSingle (.args (.id .buf) (.args (.id .offsets) (.args (.id .fieldID) (.args (.const .WireVarint) (.args (.id .valLen) (.arg (.id .val))))))))) <|
    .skip

/-- zeropb.go:184-190. -/
def srcSetInt32 : Func where
  recv := none
  name := .SetInt32
  params := [([.buf], .bufPtr), ([.offsets], .Offsets), ([.fieldID], .int), ([.x], .int32)]
  results := []
  body :=
    .seq (.varArray .scratch (.const .MaxVarintLen64)) <|
    .seq (.define [some .n] (.put .PutUvarint .scratch (.conv .uint64 (.id .x)))) <|
    .seq (.varBytes .valLen .val (.args .nil (.arg (.sliceTo (.id .scratch) (.id .n))))) <|
    .seq (.expr (.call .setSingle (.args (.id .buf) (.args (.id .offsets) (.args (.id .fieldID) (.args (.const .WireVarint) (.args (.id .valLen) (.arg (.id .val))))))))) <|
    .skip

/-- zeropb.go:194-199. -/
def srcSetInt64 : Func where
  recv := none
  name := .SetInt64
  params := [([.buf], .bufPtr), ([.offsets], .Offsets), ([.fieldID], .int), ([.x], .int64)]
  results := []
  body :=
    .seq (.varArray .scratch (.const .MaxVarintLen64)) <|
    .seq (.define [some .n] (.put .PutUvarint .scratch (.conv .uint64 (.id .x)))) <|
    .seq (.varBytes .valLen .val (.args .nil (.arg (.sliceTo (.id .scratch) (.id .n))))) <|
    .seq (.expr (.call .setSingle (.args (.id .buf) (.args (.id .offsets) (.args (.id .fieldID) (.args (.const .WireVarint) (.args (.id .valLen) (.arg (.id .val))))))))) <|
    .skip

/-- zeropb.go:203-208. -/
def srcSetUint32 : Func where
  recv := none
  name := .SetUint32
  params := [([.buf], .bufPtr), ([.offsets], .Offsets), ([.fieldID], .int), ([.x], .uint32)]
  results := []
  body :=
    .seq (.varArray .scratch (.const .MaxVarintLen32)) <|
    .seq (.define [some .n] (.put .PutUvarint .scratch (.conv .uint64 (.id .x)))) <|
    .seq (.varBytes .valLen .val (.args .nil (.arg (.sliceTo (.id .scratch) (.id .n))))) <|
    .seq (.expr (.call .setSingle (.args (.id .buf) (.args (.id .offsets) (.args (.id .fieldID) (.args (.const .WireVarint) (.args (.id .valLen) (.arg (.id .val))))))))) <|
    .skip

/-- zeropb.go:212-217. -/
def srcSetUint64 : Func where
  recv := none
  name := .SetUint64
  params := [([.buf], .bufPtr), ([.offsets], .Offsets), ([.fieldID], .int), ([.x], .uint64)]
  results := []
  body :=
    .seq (.varArray .scratch (.const .MaxVarintLen64)) <|
    .seq (.define [some .n] (.put .PutUvarint .scratch (.id .x))) <|
    .seq (.varBytes .valLen .val (.args .nil (.arg (.sliceTo (.id .scratch) (.id .n))))) <|
    .seq (.expr (.call .setSingle (.args (.id .buf) (.args (.id .offsets) (.args (.id .fieldID) (.args (.const .WireVarint) (.args (.id .valLen) (.arg (.id .val))))))))) <|
    .skip

/-- zeropb.go:221-226. -/
def srcSetZigZagInt32 : Func where
  recv := none
  name := .SetZigZagInt32
  params := [([.buf], .bufPtr), ([.offsets], .Offsets), ([.fieldID], .int), ([.x], .int32)]
  results := []
  body :=
    .seq (.varArray .scratch (.const .MaxVarintLen32)) <|
    .seq (.define [some .n] (.put .PutVarint .scratch (.conv .int64 (.id .x)))) <|
    .seq (.varBytes .valLen .val (.args .nil (.arg (.sliceTo (.id .scratch) (.id .n))))) <|
    .seq (.expr (.call .setSingle (.args (.id .buf) (.args (.id .offsets) (.args (.id .fieldID) (.args (.const .WireVarint) (.args (.id .valLen) (.arg (.id .val))))))))) <|
    .skip

/-- zeropb.go:230-235. -/
def srcSetZigZagInt64 : Func where
  recv := none
  name := .SetZigZagInt64
  params := [([.buf], .bufPtr), ([.offsets], .Offsets), ([.fieldID], .int), ([.x], .int64)]
  results := []
  body :=
    .seq (.varArray .scratch (.const .MaxVarintLen64)) <|
    .seq (.define [some .n] (.put .PutVarint .scratch (.id .x))) <|
    .seq (.varBytes .valLen .val (.args .nil (.arg (.sliceTo (.id .scratch) (.id .n))))) <|
    .seq (.expr (.call .setSingle (.args (.id .buf) (.args (.id .offsets) (.args (.id .fieldID) (.args (.const .WireVarint) (.args (.id .valLen) (.arg (.id .val))))))))) <|
    .skip

/-- zeropb.go:239-244. -/
def srcSetFixedUint32 : Func where
  recv := none
  name := .SetFixedUint32
  params := [([.buf], .bufPtr), ([.offsets], .Offsets), ([.fieldID], .int), ([.x], .uint32)]
  results := []
  body :=
    .seq (.varArray .scratch (.num 4)) <|
    .seq (.expr (.put .lePutUint32 .scratch (.id .x))) <|
    .seq (.varBytes .valLen .val (.args .nil (.arg (.slice (.id .scratch))))) <|
    .seq (.expr (.call .setSingle (.args (.id .buf) (.args (.id .offsets) (.args (.id .fieldID) (.args (.const .WireFixed32) (.args (.id .valLen) (.arg (.id .val))))))))) <|
    .skip

/-- zeropb.go:248-253. -/
def srcSetFixedUint64 : Func where
  recv := none
  name := .SetFixedUint64
  params := [([.buf], .bufPtr), ([.offsets], .Offsets), ([.fieldID], .int), ([.x], .uint64)]
  results := []
  body :=
    .seq (.varArray .scratch (.num 8)) <|
    .seq (.expr (.put .lePutUint64 .scratch (.id .x))) <|
    .seq (.varBytes .valLen .val (.args .nil (.arg (.slice (.id .scratch))))) <|
    .seq (.expr (.call .setSingle (.args (.id .buf) (.args (.id .offsets) (.args (.id .fieldID) (.args (.const .WireFixed64) (.args (.id .valLen) (.arg (.id .val))))))))) <|
    .skip

/-- zeropb.go:257-262. -/
def srcSetFixedInt32 : Func where
  recv := none
  name := .SetFixedInt32
  params := [([.buf], .bufPtr), ([.offsets], .Offsets), ([.fieldID], .int), ([.x], .int32)]
  results := []
  body :=
    .seq (.varArray .scratch (.num 4)) <|
    .seq (.expr (.put .lePutUint32 .scratch (.conv .uint32 (.id .x)))) <|
    .seq (.varBytes .valLen .val (.args .nil (.arg (.slice (.id .scratch))))) <|
    .seq (.expr (.call .setSingle (.args (.id .buf) (.args (.id .offsets) (.args (.id .fieldID) (.args (.const .WireFixed32) (.args (.id .valLen) (.arg (.id .val))))))))) <|
    .skip

/-- zeropb.go:266-271. -/
def srcSetFixedInt64 : Func where
  recv := none
  name := .SetFixedInt64
  params := [([.buf], .bufPtr), ([.offsets], .Offsets), ([.fieldID], .int), ([.x], .int64)]
  results := []
  body :=
    .seq (.varArray .scratch (.num 8)) <|
    .seq (.expr (.put .lePutUint64 .scratch (.conv .uint64 (.id .x)))) <|
    .seq (.varBytes .valLen .val (.args .nil (.arg (.slice (.id .scratch))))) <|
    .seq (.expr (.call .setSingle (.args (.id .buf) (.args (.id .offsets) (.args (.id .fieldID) (.args (.const .WireFixed64) (.args (.id .valLen) (.arg (.id .val))))))))) <|
    .skip

/-- zeropb.go:275-281. -/
def srcSetFloat32 : Func where
  recv := none
  name := .SetFloat32
  params := [([.buf], .bufPtr), ([.offsets], .Offsets), ([.fieldID], .int), ([.x], .float32)]
  results := []
  body :=
    .seq (.varArray .scratch (.num 4)) <|
    .seq (.define [some .bits] (.lib .Float32bits (.arg (.id .x)))) <|
    .seq (.expr (.put .lePutUint32 .scratch (.id .bits))) <|
    .seq (.varBytes .valLen .val (.args .nil (.arg (.slice (.id .scratch))))) <|
    .seq (.expr (.call .setSingle (.args (.id .buf) (.args (.id .offsets) (.args (.id .fieldID) (.args (.const .WireFixed32) (.args (.id .valLen) (.arg (.id .val))))))))) <|
    .skip

/-- zeropb.go:285-291. -/
def srcSetFloat64 : Func where
  recv := none
  name := .SetFloat64
  params := [([.buf], .bufPtr), ([.offsets], .Offsets), ([.fieldID], .int), ([.x], .float64)]
  results := []
  body :=
    .seq (.varArray .scratch (.num 8)) <|
    .seq (.define [some .bits] (.lib .Float64bits (.arg (.id .x)))) <|
    .seq (.expr (.put .lePutUint64 .scratch (.id .bits))) <|
    .seq (.varBytes .valLen .val (.args .nil (.arg (.slice (.id .scratch))))) <|
    .seq (.expr (.call .setSingle (.args (.id .buf) (.args (.id .offsets) (.args (.id .fieldID) (.args (.const .WireFixed64) (.args (.id .valLen) (.arg (.id .val))))))))) <|
    .skip

/-- zeropb.go:295-306. -/
def srcSetString : Func where
  recv := none
  name := .SetString
  params := [([.buf], .bufPtr), ([.offsets], .Offsets), ([.fieldID], .int), ([.x], .string)]
  results := []
  body :=
    .seq (.varArray .scratch (.const .MaxVarintLen64)) <|
    .seq (.define [some .hdr] (.cast .StringHeader .x)) <|
    .seq (.define [some .data] (.sliceOf (.selData (.id .hdr)) (.selLen (.id .hdr)) (.selLen (.id .hdr)))) <|
    .seq (.define [some .n] (.put .PutUvarint .scratch (.conv .uint64 (.lib .len (.arg (.id .data)))))) <|
    .seq (.varBytes .valLen .val (.args (.sliceTo (.id .scratch) (.id .n)) (.arg (.id .data)))) <|
    .seq (.expr (.call .setSingle (.args (.id .buf) (.args (.id .offsets) (.args (.id .fieldID) (.args (.const .WireBytes) (.args (.id .valLen) (.arg (.id .val))))))))) <|
    .skip

/-- zeropb.go:310-315. -/
def srcSetBytes : Func where
  recv := none
  name := .SetBytes
  params := [([.buf], .bufPtr), ([.offsets], .Offsets), ([.fieldID], .int), ([.x], .bytes)]
  results := []
  body :=
    .seq (.varArray .scratch (.const .MaxVarintLen64)) <|
    .seq (.define [some .n] (.put .PutUvarint .scratch (.conv .uint64 (.lib .len (.arg (.id .x)))))) <|
    .seq (.varBytes .valLen .val (.args (.sliceTo (.id .scratch) (.id .n)) (.arg (.id .x)))) <|
    .seq (.expr (.call .setSingle (.args (.id .buf) (.args (.id .offsets) (.args (.id .fieldID) (.args (.const .WireBytes) (.args (.id .valLen) (.arg (.id .val))))))))) <|
    .skip

/-- zeropb.go:319-324. -/
def srcAppendBytes : Func where
  recv := none
  name := .AppendBytes
  params := [([.buf], .bufPtr), ([.offsets], .Offsets), ([.fieldID], .int), ([.x], .bytes)]
  results := []
  body :=
    .seq (.varArray .scratch (.const .MaxVarintLen64)) <|
    .seq (.define [some .n] (.put .PutUvarint .scratch (.conv .uint64 (.lib .len (.arg (.id .x)))))) <|
    .seq (.varBytes .valLen .val (.args (.sliceTo (.id .scratch) (.id .n)) (.arg (.id .x)))) <|
    .seq (.expr (.call .appendSingle (.args (.id .buf) (.args (.id .offsets) (.args (.id .fieldID) (.args (.const .WireBytes) (.args (.id .valLen) (.arg (.id .val))))))))) <|
    .skip

/-- The body of loop 1 of zeropb.go:326-389. -/
def srcSetSingle_loop1 : Stmt :=
    .seq (.ite (.bin .land (.bin .ne (.id .offset) (.const .MaxUint16)) (.bin .gt (.conv .uint64 (.id .offset)) (.id .fieldEnd))) (.seq (.assign (.index (.sel (.id .offsets) .a) (.id .fieldID)) (.bin .sub (.id .offset) (.conv .uint16 (.id .removedBytes)))) <|
      .skip) .skip) <|
    .skip

/-- The body of loop 2 of zeropb.go:326-389. -/
def srcSetSingle_loop2 : Stmt :=
    .seq (.ite (.bin .gt (.id .offset) (.id .fieldEnd)) (.seq (.expr (.method (.id .offsets) .Set (.args (.id .fieldID) (.arg (.bin .sub (.id .offset) (.id .removedBytes)))))) <|
      .skip) .skip) <|
    .skip

/-- zeropb.go:326-389. -/
def srcSetSingle : Func where
  recv := none
  name := .setSingle
  params := [([.buf], .bufPtr), ([.offsets], .Offsets), ([.fieldID, .typ], .int), ([.valLen, .val], .bytes)]
  results := []
  body :=
    .seq (.varArray .scratch (.const .MaxVarintLen64)) <|
    .seq (.define [some .tag] (.conv .uint64 (.bin .or (.bin .shl (.id .fieldID) (.num 3)) (.id .typ)))) <|
    .seq (.define [some .tagLen] (.put .PutUvarint .scratch (.id .tag))) <|
    .seq (.iteInit (.define [some .offset, some .ok] (.method (.id .offsets) .Get (.arg (.id .fieldID)))) (.id .ok) (.seq (.var .oldLen .int) <|
      .seq (.switch (.id .typ) <|
      .case (.const .WireVarint) (.seq (.assignSnd .oldLen (.lib .Uvarint (.arg (.sliceFrom (.paren (.star (.id .buf))) (.id .offset))))) <|
        .skip) <|
      .case (.const .WireFixed32) (.seq (.assign (.id .oldLen) (.num 4)) <|
        .skip) <|
      .case (.const .WireFixed64) (.seq (.assign (.id .oldLen) (.num 8)) <|
        .skip) <|
      .case (.const .WireBytes) (.seq (.define [some .oldValLen, some .oldValLenLen] (.lib .Uvarint (.arg (.sliceFrom (.paren (.star (.id .buf))) (.id .offset))))) <|
        .seq (.assign (.id .oldLen) (.bin .add (.conv .int (.id .oldValLen)) (.id .oldValLenLen))) <|
        .skip) <|
      .default (.seq (.panicType (.id .typ)) <|
        .skip)) <|
      .seq (.ite (.bin .eq (.conv .int (.id .oldLen)) (.bin .add (.lib .len (.arg (.id .valLen))) (.lib .len (.arg (.id .val))))) (.seq (.addAssign .offset (.conv .uint64 (.lib .copy (.args (.sliceFrom (.paren (.star (.id .buf))) (.id .offset)) (.arg (.id .valLen)))))) <|
        .seq (.addAssign .offset (.conv .uint64 (.lib .copy (.args (.sliceFrom (.paren (.star (.id .buf))) (.id .offset)) (.arg (.id .val)))))) <|
        .seq (.ret) <|
        .skip) .skip) <|
      .seq (.define [some .fieldBegin, some .fieldEnd] (.args (.bin .sub (.id .offset) (.conv .uint64 (.id .tagLen))) (.arg (.bin .add (.id .offset) (.conv .uint64 (.id .oldLen)))))) <|
      .seq (.expr (.lib .copy (.args (.sliceFrom (.paren (.star (.id .buf))) (.id .fieldBegin)) (.arg (.sliceFrom (.paren (.star (.id .buf))) (.id .fieldEnd)))))) <|
      .seq (.define [some .removedBytes] (.bin .sub (.id .fieldEnd) (.id .fieldBegin))) <|
      .seq (.assign (.paren (.star (.id .buf))) (.sliceTo (.paren (.star (.id .buf))) (.bin .sub (.conv .uint64 (.lib .len (.arg (.star (.id .buf))))) (.id .removedBytes)))) <|
      .seq (.range .fieldID (some .offset) (.sel (.id .offsets) .a) srcSetSingle_loop1) <|
      .seq (.ite (.bin .ne (.sel (.id .offsets) .m) .nil) (.seq (.range .fieldID (some .offset) (.star (.sel (.id .offsets) .m)) srcSetSingle_loop2) <|
        .skip) .skip) <|
      .skip) .skip) <|
    .seq (.assign (.star (.id .buf)) (.append (.star (.id .buf)) (.sliceTo (.id .scratch) (.id .tagLen)))) <|
    .seq (.define [some .offset] (.lib .len (.arg (.star (.id .buf))))) <|
    .seq (.expr (.method (.id .offsets) .Set (.args (.id .fieldID) (.arg (.conv .uint64 (.id .offset)))))) <|
    .seq (.assign (.star (.id .buf)) (.append (.star (.id .buf)) (.id .valLen))) <|
    .seq (.assign (.star (.id .buf)) (.append (.star (.id .buf)) (.id .val))) <|
    .skip

/-- zeropb.go:391-405. -/
def srcAppendSingle : Func where
  recv := none
  name := .appendSingle
  params := [([.buf], .bufPtr), ([.offsets], .Offsets), ([.fieldID, .typ], .int), ([.valLen, .val], .bytes)]
  results := []
  body :=
    .seq (.varArray .scratch (.const .MaxVarintLen64)) <|
    .seq (.define [some .tag] (.conv .uint64 (.bin .or (.bin .shl (.id .fieldID) (.num 3)) (.id .typ)))) <|
    .seq (.define [some .tagLen] (.put .PutUvarint .scratch (.id .tag))) <|
    .seq (.assign (.star (.id .buf)) (.append (.star (.id .buf)) (.sliceTo (.id .scratch) (.id .tagLen)))) <|
    .seq (.define [some .offset] (.lib .len (.arg (.star (.id .buf))))) <|
    .seq (.iteInit (.define [none, some .ok] (.method (.id .offsets) .Get (.arg (.id .fieldID)))) (.not (.id .ok)) (.seq (.expr (.method (.id .offsets) .Set (.args (.id .fieldID) (.arg (.conv .uint64 (.id .offset)))))) <|
      .skip) .skip) <|
    .seq (.assign (.star (.id .buf)) (.append (.star (.id .buf)) (.id .valLen))) <|
    .seq (.assign (.star (.id .buf)) (.append (.star (.id .buf)) (.id .val))) <|
    .skip

/-- zeropb.go:411-417. -/
def srcGetRepeatedNonPacked : Func where
  recv := none
  name := .GetRepeatedNonPacked
  params := [([.buf], .bytes), ([.offsets], .Offsets), ([.fieldID], .int)]
  results := [.bytes]
  body :=
    .seq (.define [some .offset, some .ok] (.method (.id .offsets) .Get (.arg (.id .fieldID)))) <|
    .seq (.ite (.not (.id .ok)) (.seq (.retVal (.arg .nil)) <|
      .skip) .skip) <|
    .seq (.retVal (.arg (.sliceFrom (.id .buf) (.id .offset)))) <|
    .skip

/-- The body of loop 1 of zeropb.go:421-467. -/
def srcDecode_loop1 : Stmt :=
    .seq (.ite (.bin .eq (.id .idx) (.lib .len (.arg (.id .buf)))) (.seq (.retVal (.arg .nil)) <|
      .skip) (.ite (.bin .gt (.id .idx) (.lib .len (.arg (.id .buf)))) (.seq (.retVal (.arg .eof)) <|
        .skip) .skip)) <|
    .seq (.define [some .tag, some .size] (.lib .Uvarint (.arg (.sliceFrom (.id .buf) (.id .idx))))) <|
    .seq (.ite (.bin .eq (.id .size) (.num 0)) (.seq (.retVal (.arg .eof)) <|
      .skip) .skip) <|
    .seq (.addAssign .idx (.id .size)) <|
    .seq (.ite (.bin .ge (.id .idx) (.lib .len (.arg (.id .buf)))) (.seq (.retVal (.arg .eof)) <|
      .skip) .skip) <|
    .seq (.define [some .fieldID] (.conv .int (.bin .shr (.id .tag) (.num 3)))) <|
    .seq (.define [some .typ] (.bin .and (.id .tag) (.hex 7))) <|
    .seq (.iteInit (.define [none, some .ok] (.index (.id .repeatedFields) (.id .fieldID))) (.id .ok) (.seq (.iteInit (.define [none, some .ok] (.method (.id .offsets) .Get (.arg (.id .fieldID)))) (.not (.id .ok)) (.seq (.expr (.method (.id .offsets) .Set (.args (.id .fieldID) (.arg (.conv .uint64 (.id .idx)))))) <|
        .skip) .skip) <|
      .skip) (.seq (.expr (.method (.id .offsets) .Set (.args (.id .fieldID) (.arg (.conv .uint64 (.id .idx)))))) <|
      .skip)) <|
    .seq (.define [some .s] (.call .fieldDataSize (.args (.id .typ) (.arg (.sliceFrom (.id .buf) (.id .idx)))))) <|
    .seq (.ite (.bin .eq (.id .s) (.num 0)) (.seq (.retVal (.arg .eof)) <|
      .skip) .skip) <|
    .seq (.addAssign .idx (.id .s)) <|
    .skip

/-- zeropb.go:421-467. -/
def srcDecode : Func where
  recv := none
  name := .Decode
  params := [([.buf], .bytes), ([.offsets], .Offsets), ([.repeatedFields], .RepeatedFields)]
  results := [.error]
  body :=
    .seq (.expr (.method (.id .offsets) .Clear .noArgs)) <|
    .seq (.loop (.define [some .idx] (.num 0)) none srcDecode_loop1) <|
    .skip

/-- The condition of loop 1 of zeropb.go:472-491. -/
def srcFindNextField_cond1 : Expr :=
    .bin .lt (.id .idx) (.lib .len (.arg (.id .buf)))

/-- The body of loop 1 of zeropb.go:472-491. -/
def srcFindNextField_loop1 : Stmt :=
    .seq (.define [some .tag, some .size] (.lib .Uvarint (.arg (.sliceFrom (.id .buf) (.id .idx))))) <|
    .seq (.addAssign .idx (.id .size)) <|
    .seq (.define [some .f] (.conv .int (.bin .shr (.id .tag) (.num 3)))) <|
    .seq (.define [some .typ] (.bin .and (.id .tag) (.hex 7))) <|
    .seq (.ite (.bin .eq (.id .f) (.id .field)) (.seq (.retVal (.args (.sliceFrom (.id .buf) (.id .idx)) (.arg (.id .msg)))) <|
      .skip) .skip) <|
    .seq (.addAssign .idx (.call .fieldDataSize (.args (.id .typ) (.arg (.sliceFrom (.id .buf) (.id .idx)))))) <|
    .skip

/-- zeropb.go:472-491. -/
def srcFindNextField : Func where
  recv := none
  name := .FindNextField
  params := [([.buf], .bytes), ([.field], .int)]
  results := [.bytes, .bytes]
  body :=
    .seq (.ite (.bin .eq (.id .buf) .nil) (.seq (.retVal (.args .nil (.arg .nil))) <|
      .skip) .skip) <|
    .seq (.define [some .msgLen, some .lenSize] (.lib .Uvarint (.arg (.id .buf)))) <|
    .seq (.define [some .msg] (.sliceRange (.id .buf) (.id .lenSize) (.bin .add (.id .lenSize) (.conv .int (.id .msgLen))))) <|
    .seq (.loop (.define [some .idx] (.bin .add (.id .lenSize) (.conv .int (.id .msgLen)))) (some srcFindNextField_cond1) srcFindNextField_loop1) <|
    .seq (.retVal (.args .nil (.arg (.id .msg)))) <|
    .skip

/-- zeropb.go:493-511. -/
def srcFieldDataSize : Func where
  recv := none
  name := .fieldDataSize
  params := [([.typ], .uint64), ([.buf], .bytes)]
  results := [.int]
  body :=
    .seq (.switch (.id .typ) <|
    .case (.const .WireVarint) (.seq (.define [none, some .size] (.lib .Uvarint (.arg (.id .buf)))) <|
      .seq (.retVal (.arg (.id .size))) <|
      .skip) <|
    .case (.const .WireFixed32) (.seq (.retVal (.arg (.num 4))) <|
      .skip) <|
    .case (.const .WireFixed64) (.seq (.retVal (.arg (.num 8))) <|
      .skip) <|
    .case (.const .WireBytes) (.seq (.define [some .len, some .lenSize] (.lib .Uvarint (.arg (.id .buf)))) <|
      .seq (.ite (.bin .eq (.id .lenSize) (.num 0)) (.seq (.retVal (.arg (.num 0))) <|
        .skip) .skip) <|
      .seq (.retVal (.arg (.bin .add (.id .lenSize) (.conv .int (.id .len))))) <|
      .skip) <|
    .default (.seq (.panicErrorf (.id .typ)) <|
      .skip)) <|
    .skip

/-- zeropb.go. -/
def zeropbFile : List Top := [
  .package t!"zeropb",
  .imports [t!"encoding/binary", t!"io", t!"math", t!"reflect", t!"unsafe", t!"github.com/golang/protobuf/proto", t!"github.com/pkg/errors"],
  .func srcGetBool,
  .func srcGetInt32,
  .func srcGetInt64,
  .func srcGetUint32,
  .func srcGetUint64,
  .func srcGetZigZagInt32,
  .func srcGetZigZagInt64,
  .func srcGetFixedUint32,
  .func srcGetFixedUint64,
  .func srcGetFixedInt32,
  .func srcGetFixedInt64,
  .func srcGetFloat32,
  .func srcGetFloat64,
  .func srcGetString,
  .func srcGetBytes,
  .func srcSetBool,
  .func srcSetInt32,
  .func srcSetInt64,
  .func srcSetUint32,
  .func srcSetUint64,
  .func srcSetZigZagInt32,
  .func srcSetZigZagInt64,
  .func srcSetFixedUint32,
  .func srcSetFixedUint64,
  .func srcSetFixedInt32,
  .func srcSetFixedInt64,
  .func srcSetFloat32,
  .func srcSetFloat64,
  .func srcSetString,
  .func srcSetBytes,
  .func srcAppendBytes,
  .func srcSetSingle,
  .func srcAppendSingle,
  .func srcGetRepeatedNonPacked,
  .func srcDecode,
  .func srcFindNextField,
  .func srcFieldDataSize,
  .repeatedType]

end Zeropb.GoSrc
