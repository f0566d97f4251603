import Verif.GoSrc.Syntax
/-!
# The functions of offsets.go as syntax trees

`GoSrc/Text` proves that these trees print to exactly the tokens of the file.
-/

namespace Zeropb.GoSrc

/-- offsets.go:9-16. -/
def offsetsConsts : List (Id × Ty × Expr) := [(.offsetUnset, .uint16, .num 0), (.offsetInMap, .uint16, .const .MaxUint16), (.offsetMaxInArray, .uint16, .bin .sub (.id .offsetInMap) (.num 1))]

/-- offsets.go:42-44. -/
def srcWrapOffsets : Func where
  recv := none
  name := .WrapOffsets
  params := [([.a], .u16s), ([.m], .mapPtr)]
  results := [.Offsets]
  body :=
    .seq (.retVal (.arg (.offsetsLit (.id .a) (.id .m)))) <|
    .skip

/-- offsets.go:47-54. -/
def srcGet : Func where
  recv := (some (.o, .Offsets))
  name := .Get
  params := [([.fieldID], .int)]
  results := [.uint64, .bool]
  body :=
    .seq (.iteInit (.define [some .offset] (.index (.sel (.id .o) .a) (.id .fieldID))) (.bin .ne (.id .offset) (.id .offsetInMap)) (.seq (.retVal (.args (.conv .uint64 (.id .offset)) (.arg (.bin .ne (.id .offset) (.id .offsetUnset))))) <|
      .skip) .skip) <|
    .seq (.retVal (.args (.index (.paren (.star (.sel (.id .o) .m))) (.id .fieldID)) (.arg .true_))) <|
    .skip

/-- offsets.go:57-74. -/
def srcSet : Func where
  recv := (some (.o, .Offsets))
  name := .Set
  params := [([.fieldID], .int), ([.offset], .uint64)]
  results := []
  body :=
    .seq (.ite (.bin .le (.id .offset) (.conv .uint64 (.id .offsetMaxInArray))) (.seq (.iteInit (.define [some .previous] (.index (.sel (.id .o) .a) (.id .fieldID))) (.bin .eq (.id .previous) (.id .offsetInMap)) (.seq (.expr (.lib .delete (.args (.star (.sel (.id .o) .m)) (.arg (.id .fieldID))))) <|
        .skip) .skip) <|
      .seq (.assign (.index (.sel (.id .o) .a) (.id .fieldID)) (.conv .uint16 (.id .offset))) <|
      .skip) (.seq (.assign (.index (.sel (.id .o) .a) (.id .fieldID)) (.id .offsetInMap)) <|
      .seq (.ite (.bin .eq (.star (.sel (.id .o) .m)) .nil) (.seq (.assign (.star (.sel (.id .o) .m)) (.makeMap (.id .fieldID))) <|
        .skip) .skip) <|
      .seq (.assign (.index (.paren (.star (.sel (.id .o) .m))) (.id .fieldID)) (.id .offset)) <|
      .skip)) <|
    .skip

/-- The body of loop 1 of offsets.go:77-86. -/
def srcClear_loop1 : Stmt :=
    .seq (.assign (.index (.sel (.id .o) .a) (.id .i)) (.id .offsetUnset)) <|
    .skip

/-- The body of loop 2 of offsets.go:77-86. -/
def srcClear_loop2 : Stmt :=
    .seq (.expr (.lib .delete (.args (.star (.sel (.id .o) .m)) (.arg (.id .f))))) <|
    .skip

/-- offsets.go:77-86. -/
def srcClear : Func where
  recv := (some (.o, .Offsets))
  name := .Clear
  params := []
  results := []
  body :=
    .seq (.range .i none (.sel (.id .o) .a) srcClear_loop1) <|
    .seq (.ite (.bin .ne (.star (.sel (.id .o) .m)) .nil) (.seq (.range .f none (.star (.sel (.id .o) .m)) srcClear_loop2) <|
      .skip) .skip) <|
    .skip

/-- offsets.go. -/
def offsetsFile : List Top := [
  .package t!"zeropb",
  .imports [t!"math"],
  .consts offsetsConsts,
  .offsetsType,
  .func srcWrapOffsets,
  .func srcGet,
  .func srcSet,
  .func srcClear]

end Zeropb.GoSrc
