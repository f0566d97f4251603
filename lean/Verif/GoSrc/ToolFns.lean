import Verif.GoSrc.ToolWrite
/-!
# The small functions of package generate compute the model
-/

set_option linter.unusedSimpArgs false
set_option linter.constructorNameAsVariable false

namespace Zeropb.GoSrc.T
open Zeropb.Gen (Text Unicode Writer GenPanic StringTree Arg Field FieldPtr Desc FileDesc Request OutFile)

variable {σ ε : Type}

/-! ## The request as a value -/

/-- `*string`. -/
def strPtr (o : Option Text) : V ε := .box .string (o.map .str)

/-- `FieldDescriptorProto`. -/
def fieldVal (f : Field) : V ε := .struct .FieldDescriptorProto
  [(.Name, strPtr f.name), (.Number, .box .int32 (f.number.map .i32)),
   (.Label, .box .FieldDescriptorProto_Label (f.label.map (.named .FieldDescriptorProto_Label))),
   (.Type, .box .FieldDescriptorProto_Type (f.type.map (.named .FieldDescriptorProto_Type))), (.TypeName, strPtr f.typeName)]

/-- `*FieldDescriptorProto`. -/
def fieldPtrVal (f : FieldPtr) : V ε := .box .FieldDescriptorProto (f.map fieldVal)

/-- `DescriptorProto`. -/
def descVal (m : Desc) : V ε := .struct .DescriptorProto [(.Name, strPtr m.name), (.Field, .list (m.field.map fieldPtrVal))]

/-- `*DescriptorProto`. -/
def descPtrVal (m : Option Desc) : V ε := .box .DescriptorProto (m.map descVal)

/-- `FileDescriptorProto`. -/
def fileVal (f : FileDesc) : V ε := .struct .FileDescriptorProto
  [(.Name, strPtr f.name), (.Package, strPtr f.package), (.MessageType, .list (f.messageType.map descPtrVal))]

/-- `*FileDescriptorProto`. -/
def filePtrVal (f : Option FileDesc) : V ε := .box .FileDescriptorProto (f.map fileVal)

/-- `CodeGeneratorRequest`. -/
def requestVal (r : Request) : V ε := .struct .CodeGeneratorRequest
  [(.FileToGenerate, .list (r.fileToGenerate.map .str)), (.ProtoFile, .list (r.protoFile.map filePtrVal))]

/-! ## Calls -/

/-- Package generate, with calls at most `d` deep. -/
abbrev gen (w : World σ ε) (d : Nat) : Ctx σ ε := ctx w generatePackage d

variable {w : World σ ε} {d : Nat}

section
variable (vs : List (V ε)) (s : St σ ε)
theorem fn_fileGetName : (gen w (d + 1)).fns (some .FileDescriptorProto) .GetName vs s = invoke (gen w d) srcFileDescriptorProto_GetName vs s := rfl
theorem fn_fileGetPackage : (gen w (d + 1)).fns (some .FileDescriptorProto) .GetPackage vs s = invoke (gen w d) srcFileDescriptorProto_GetPackage vs s := rfl
theorem fn_descGetName : (gen w (d + 1)).fns (some .DescriptorProto) .GetName vs s = invoke (gen w d) srcDescriptorProto_GetName vs s := rfl
theorem fn_getName : (gen w (d + 1)).fns (some .FieldDescriptorProto) .GetName vs s = invoke (gen w d) srcFieldDescriptorProto_GetName vs s := rfl
theorem fn_getNumber : (gen w (d + 1)).fns (some .FieldDescriptorProto) .GetNumber vs s = invoke (gen w d) srcFieldDescriptorProto_GetNumber vs s := rfl
theorem fn_getLabel : (gen w (d + 1)).fns (some .FieldDescriptorProto) .GetLabel vs s = invoke (gen w d) srcFieldDescriptorProto_GetLabel vs s := rfl
theorem fn_getType : (gen w (d + 1)).fns (some .FieldDescriptorProto) .GetType vs s = invoke (gen w d) srcFieldDescriptorProto_GetType vs s := rfl
theorem fn_getTypeName : (gen w (d + 1)).fns (some .FieldDescriptorProto) .GetTypeName vs s = invoke (gen w d) srcFieldDescriptorProto_GetTypeName vs s := rfl
theorem fn_next : (gen w (d + 1)).fns (some .StringTreeIndent) .Next vs s = invoke (gen w d) srcStringTreeIndent_Next vs s := rfl
theorem fn_write : (gen w (d + 1)).fns (some .StringTree) .Write vs s = invoke (gen w d) srcStringTree_Write vs s := rfl
theorem fn_error : (gen w (d + 1)).fns (some .StringTree) .Error vs s = invoke (gen w d) srcStringTree_Error vs s := rfl
theorem fn_newStringTree : (gen w (d + 1)).fns none .NewStringTree vs s = invoke (gen w d) srcNewStringTree vs s := rfl
theorem fn_toGoCase : (gen w (d + 1)).fns none .toGoCase vs s = invoke (gen w d) srcToGoCase vs s := rfl
theorem fn_simple : (gen w (d + 1)).fns none .fieldToGoTypeSimple vs s = invoke (gen w d) srcFieldToGoTypeSimple vs s := rfl
theorem fn_message : (gen w (d + 1)).fns none .fieldToGoTypeMessage vs s = invoke (gen w d) srcFieldToGoTypeMessage vs s := rfl
theorem fn_generateSimpleField : (gen w (d + 1)).fns none .generateSimpleField vs s = invoke (gen w d) srcGenerateSimpleField vs s := rfl
theorem fn_generateMessageField : (gen w (d + 1)).fns none .generateMessageField vs s = invoke (gen w d) srcGenerateMessageField vs s := rfl
theorem fn_generateRepeatedMessageField : (gen w (d + 1)).fns none .generateRepeatedMessageField vs s = invoke (gen w d) srcGenerateRepeatedMessageField vs s := rfl
theorem fn_generateMessage : (gen w (d + 1)).fns none .generateMessage vs s = invoke (gen w d) srcGenerateMessage vs s := rfl
theorem fn_generateFile : (gen w (d + 1)).fns none .generateFile vs s = invoke (gen w d) srcGenerateFile vs s := rfl
theorem fn_generate : (gen w (d + 1)).fns none .Generate vs s = invoke (gen w d) srcGenerate vs s := rfl
end

theorem gen_apply (f : V ε) (vs : List (V ε)) (s : St σ ε) : (gen w (d + 1)).apply f vs s = applyClosure (gen w d) f vs s := rfl
theorem gen_U : (gen w d).U = w.U := by cases d <;> rfl
theorem gen_W : (gen w d).W = w.W := by cases d <;> rfl
theorem gen_consts (x : Id) : (gen w d).consts x = findConst generatePackage x := by cases d <;> rfl
theorem gen_structs (x : Id) : (gen w d).structs x = findStruct generatePackage x := by cases d <;> rfl

/-! ## Getters -/

/-- The body of a getter: `if m != nil && m.F != nil { return *m.F }; return dflt`. -/
theorem getter (t fn F : Id) (ty : Ty) (dflt : Expr) (fs : Option (List (Id × V ε))) (bt : Id) (o : Option (V ε)) (dv : V ε) (s : St σ ε)
    (hF : ∀ l, fs = some l → get F l = some (.box bt o)) (h0 : fs = none → o = none)
    (hd : ∀ env : Env ε, get .m env = some (.box t (fs.map (.struct t))) → env.length = 1 → eval (gen w d) env dflt s = .ok ([dv], s)) :
    invoke (gen w d) ⟨some (.m, .ptr (.name t)), fn, [], none, false, [([], ty)],
      .seq (.ite (.bin .land (.bin .ne (.id .m) .nil) (.bin .ne (.sel (.id .m) F) .nil)) (.seq (.retVal (.arg (.star (.sel (.id .m) F)))) .skip))
        (.seq (.retVal (.arg dflt)) .skip)⟩ [.box t (fs.map (.struct t))] s = .ok ([coerce ty (o.getD dv)], s) := by
  have h1 := hd [(.m, .box t (fs.map (.struct t)))] (by simp [get]) rfl
  cases fs with
  | none =>
    obtain rfl := h0 rfl
    simp only [Option.map] at h1
    simp [invoke, flatParams, bindArgs, coerce, exec, eval, get, binop, equal, isNil, single, h1, results, bind, Except.bind]
  | some l =>
    simp only [Option.map] at h1
    cases o <;>
    simp [invoke, flatParams, bindArgs, coerce, exec, eval, get, binop, equal, isNil, single, h1, results, bind, Except.bind, select, deref, fieldOf, hF l rfl,
      leaving, Out.leave]

theorem call_fieldPtr (k : Ctx σ ε) (f : FieldPtr) (g : Id) (vs : List (V ε)) (s : St σ ε) :
    callMethod k (fieldPtrVal f) g vs s = k.fns (some .FieldDescriptorProto) g (fieldPtrVal f :: vs) s := by
  simp [callMethod, fieldPtrVal, recvType, bind, Except.bind]

theorem call_field (k : Ctx σ ε) (f : Field) (g : Id) (vs : List (V ε)) (s : St σ ε) :
    callMethod k (fieldVal f) g vs s = k.fns (some .FieldDescriptorProto) g (fieldPtrVal (some f) :: vs) s := by
  simp [callMethod, fieldVal, fieldPtrVal, recvType, bind, Except.bind]

theorem call_desc (k : Ctx σ ε) (m : Desc) (g : Id) (vs : List (V ε)) (s : St σ ε) :
    callMethod k (descVal m) g vs s = k.fns (some .DescriptorProto) g (descPtrVal (some m) :: vs) s := by
  simp [callMethod, descVal, descPtrVal, recvType, bind, Except.bind]

theorem call_filePtr (k : Ctx σ ε) (f : Option FileDesc) (g : Id) (vs : List (V ε)) (s : St σ ε) :
    callMethod k (filePtrVal f) g vs s = k.fns (some .FileDescriptorProto) g (filePtrVal f :: vs) s := by
  simp [callMethod, filePtrVal, recvType, bind, Except.bind]

/-- descriptor.pb.go:858-863. -/
theorem run_getName (f : FieldPtr) (s : St σ ε) :
    (gen w (d + 1)).fns (some .FieldDescriptorProto) .GetName [fieldPtrVal f] s = .ok ([.str (Gen.getName f)], s) := by
  rw [fn_getName]
  rcases f with _ | ⟨name, _, _, _, _⟩
  · simp [invoke, srcFieldDescriptorProto_GetName, flatParams, bindArgs, coerce, exec, eval, get, binop, equal, isNil, single, results, bind, Except.bind, fieldPtrVal, Gen.getName]
  · cases name <;> simp [invoke, srcFieldDescriptorProto_GetName, flatParams, bindArgs, coerce, exec, eval, get, binop, equal, isNil, single, results, bind, Except.bind, fieldPtrVal,
      fieldVal, strPtr, select, deref, fieldOf, leaving, Out.leave, Gen.getName]

/-- descriptor.pb.go:865-870. -/
theorem run_getNumber (f : FieldPtr) (s : St σ ε) :
    (gen w (d + 1)).fns (some .FieldDescriptorProto) .GetNumber [fieldPtrVal f] s = .ok ([.i32 (Gen.getNumber f)], s) := by
  rw [fn_getNumber]
  rcases f with _ | ⟨_, number, _, _, _⟩
  · simp [invoke, srcFieldDescriptorProto_GetNumber, flatParams, bindArgs, coerce, exec, eval, get, binop, equal, isNil, single, results, bind, Except.bind, fieldPtrVal, Gen.getNumber]
  · cases number <;> simp [invoke, srcFieldDescriptorProto_GetNumber, flatParams, bindArgs, coerce, exec, eval, get, binop, equal, isNil, single, results, bind, Except.bind, fieldPtrVal,
      fieldVal, strPtr, select, deref, fieldOf, leaving, Out.leave, Gen.getNumber]

theorem const_optional : findConst generatePackage .FieldDescriptorProto_LABEL_OPTIONAL = some (V.named (ε := ε) .FieldDescriptorProto_Label 1) := rfl
theorem const_required : findConst generatePackage .FieldDescriptorProto_LABEL_REQUIRED = some (V.named (ε := ε) .FieldDescriptorProto_Label 2) := rfl
theorem const_repeated : findConst generatePackage .FieldDescriptorProto_LABEL_REPEATED = some (V.named (ε := ε) .FieldDescriptorProto_Label 3) := rfl
theorem const_message : findConst generatePackage .FieldDescriptorProto_TYPE_MESSAGE = some (V.named (ε := ε) .FieldDescriptorProto_Type 11) := rfl
theorem const_double : findConst generatePackage .FieldDescriptorProto_TYPE_DOUBLE = some (V.named (ε := ε) .FieldDescriptorProto_Type 1) := rfl
theorem const_offsets : findConst generatePackage .offsets = some (V.str (ε := ε) Gen.offsetsConst) := rfl

/-- descriptor.pb.go:872-877. -/
theorem run_getLabel (f : FieldPtr) (s : St σ ε) :
    (gen w (d + 1)).fns (some .FieldDescriptorProto) .GetLabel [fieldPtrVal f] s = .ok ([.named .FieldDescriptorProto_Label (Gen.getLabel f)], s) := by
  rw [fn_getLabel]
  rcases f with _ | ⟨_, _, label, _, _⟩
  · simp [invoke, srcFieldDescriptorProto_GetLabel, flatParams, bindArgs, coerce, exec, eval, get, binop, equal, isNil, single, results, bind, Except.bind, fieldPtrVal, Gen.getLabel,
      gen_consts, const_optional]
  · cases label <;> simp [invoke, srcFieldDescriptorProto_GetLabel, flatParams, bindArgs, coerce, exec, eval, get, binop, equal, isNil, single, results, bind, Except.bind, fieldPtrVal,
      fieldVal, strPtr, select, deref, fieldOf, leaving, Out.leave, Gen.getLabel, gen_consts, const_optional]

/-- descriptor.pb.go:879-884. -/
theorem run_getType (f : FieldPtr) (s : St σ ε) :
    (gen w (d + 1)).fns (some .FieldDescriptorProto) .GetType [fieldPtrVal f] s = .ok ([.named .FieldDescriptorProto_Type (Gen.getType f)], s) := by
  rw [fn_getType]
  rcases f with _ | ⟨_, _, _, type, _⟩
  · simp [invoke, srcFieldDescriptorProto_GetType, flatParams, bindArgs, coerce, exec, eval, get, binop, equal, isNil, single, results, bind, Except.bind, fieldPtrVal, Gen.getType,
      gen_consts, const_double]
  · cases type <;> simp [invoke, srcFieldDescriptorProto_GetType, flatParams, bindArgs, coerce, exec, eval, get, binop, equal, isNil, single, results, bind, Except.bind, fieldPtrVal,
      fieldVal, strPtr, select, deref, fieldOf, leaving, Out.leave, Gen.getType, gen_consts, const_double]

/-- descriptor.pb.go:886-891. -/
theorem run_getTypeName (f : FieldPtr) (s : St σ ε) :
    (gen w (d + 1)).fns (some .FieldDescriptorProto) .GetTypeName [fieldPtrVal f] s = .ok ([.str (Gen.getTypeName f)], s) := by
  rw [fn_getTypeName]
  rcases f with _ | ⟨_, _, _, _, typeName⟩
  · simp [invoke, srcFieldDescriptorProto_GetTypeName, flatParams, bindArgs, coerce, exec, eval, get, binop, equal, isNil, single, results, bind, Except.bind, fieldPtrVal, Gen.getTypeName]
  · cases typeName <;> simp [invoke, srcFieldDescriptorProto_GetTypeName, flatParams, bindArgs, coerce, exec, eval, get, binop, equal, isNil, single, results, bind, Except.bind, fieldPtrVal,
      fieldVal, strPtr, select, deref, fieldOf, leaving, Out.leave, Gen.getTypeName]

/-- descriptor.pb.go:572-577. -/
theorem run_descName (m : Desc) (s : St σ ε) :
    (gen w (d + 1)).fns (some .DescriptorProto) .GetName [descPtrVal (some m)] s = .ok ([.str m.getName], s) := by
  rw [fn_descGetName]
  rcases m with ⟨name, _⟩
  cases name <;> simp [invoke, srcDescriptorProto_GetName, flatParams, bindArgs, coerce, exec, eval, get, binop, equal, isNil, single, results, bind, Except.bind, descPtrVal,
      descVal, strPtr, select, deref, fieldOf, leaving, Out.leave, Gen.Desc.getName]

/-- descriptor.pb.go:444-449. -/
theorem run_fileName (f : FileDesc) (s : St σ ε) :
    (gen w (d + 1)).fns (some .FileDescriptorProto) .GetName [filePtrVal (some f)] s = .ok ([.str f.getName], s) := by
  rw [fn_fileGetName]
  rcases f with ⟨name, _, _⟩
  cases name <;> simp [invoke, srcFileDescriptorProto_GetName, flatParams, bindArgs, coerce, exec, eval, get, binop, equal, isNil, single, results, bind, Except.bind, filePtrVal,
      fileVal, strPtr, select, deref, fieldOf, leaving, Out.leave, Gen.FileDesc.getName]

/-- descriptor.pb.go:451-456. -/
theorem run_filePackage (f : FileDesc) (s : St σ ε) :
    (gen w (d + 1)).fns (some .FileDescriptorProto) .GetPackage [filePtrVal (some f)] s = .ok ([.str f.getPackage], s) := by
  rw [fn_fileGetPackage]
  rcases f with ⟨_, package, _⟩
  cases package <;> simp [invoke, srcFileDescriptorProto_GetPackage, flatParams, bindArgs, coerce, exec, eval, get, binop, equal, isNil, single, results, bind, Except.bind, filePtrVal,
      fileVal, strPtr, select, deref, fieldOf, leaving, Out.leave, Gen.FileDesc.getPackage]

/-- stringtree.go:16-18. -/
theorem run_next (n : Int) (s : St σ ε) :
    callMethod (gen w (d + 1)) (.named .StringTreeIndent n) .Next [] s = .ok ([.named .StringTreeIndent (Gen.next n)], s) := by
  simp [callMethod, recvType, bind, Except.bind, fn_next, invoke, srcStringTreeIndent_Next, flatParams, bindArgs, coerce, exec, eval, get, single, convert, binop, results, Gen.next]

/-! ## Names -/

/-- generate.go:204-240 `fieldToGoTypeSimple`. -/
theorem run_simple (n : Int) (s : St σ ε) :
    (gen w (d + 1)).fns none .fieldToGoTypeSimple [.named .FieldDescriptorProto_Type n] s =
    lifted (fun p => ([.str p.1, .str p.2], s)) (Gen.fieldToGoTypeSimple n) := by
  rw [fn_simple]
  by_cases h8 : n = 8
  · subst h8; cases d <;> rfl
  by_cases h5 : n = 5
  · subst h5; cases d <;> rfl
  by_cases h3 : n = 3
  · subst h3; cases d <;> rfl
  by_cases h13 : n = 13
  · subst h13; cases d <;> rfl
  by_cases h4 : n = 4
  · subst h4; cases d <;> rfl
  by_cases h17 : n = 17
  · subst h17; cases d <;> rfl
  by_cases h18 : n = 18
  · subst h18; cases d <;> rfl
  by_cases h7 : n = 7
  · subst h7; cases d <;> rfl
  by_cases h6 : n = 6
  · subst h6; cases d <;> rfl
  by_cases h15 : n = 15
  · subst h15; cases d <;> rfl
  by_cases h16 : n = 16
  · subst h16; cases d <;> rfl
  by_cases h1 : n = 1
  · subst h1; cases d <;> rfl
  by_cases h2 : n = 2
  · subst h2; cases d <;> rfl
  by_cases h9 : n = 9
  · subst h9; cases d <;> rfl
  by_cases h12 : n = 12
  · subst h12; cases d <;> rfl
  by_cases h14 : n = 14
  · subst h14; cases d <;> rfl
  have hc : ∀ x, (gen w d).consts x = findConst generatePackage x := gen_consts
  simp [invoke, srcFieldToGoTypeSimple, flatParams, bindArgs, coerce, bind, Except.bind, exec_seq, exec_switch, exec_case, exec_retVal, exec_skip, exec_panic, eval, get, single, hc, anyEqual,
    equal, leaving, findConst, generatePackage, descriptorGo, descriptorConsts1, panicOf, Out.leave, results, Gen.fieldToGoTypeSimple,
    h8, h5, h3, h13, h4, h17, h18, h7, h6, h15, h16, h1, h2, h9, h12, h14]

/-- generate.go:242-247 `fieldToGoTypeMessage`. -/
theorem lastIndex_go_bound (c : Char) (x : Text) (i b : Int) (hi : 0 ≤ i) (hb : -1 ≤ b ∧ b < i) :
    -1 ≤ Gen.lastIndex.go c x i b ∧ Gen.lastIndex.go c x i b < i + x.length := by
  induction x generalizing i b with
  | nil => simp [Gen.lastIndex.go]; omega
  | cons y ys ih =>
    simp only [Gen.lastIndex.go, List.length_cons]
    have := ih (i + 1) (if y = c then i else b) (by omega) (by split <;> omega)
    omega

theorem lastIndex_bound (c : Char) (x : Text) : -1 ≤ Gen.lastIndex c x ∧ Gen.lastIndex c x < x.length := by
  have := lastIndex_go_bound c x 0 (-1) (by omega) (by omega)
  unfold Gen.lastIndex; omega

theorem run_message (x : Text) (s : St σ ε) :
    (gen w (d + 1)).fns none .fieldToGoTypeMessage [.str x] s = .ok ([.str (Gen.fieldToGoTypeMessage x)], s) := by
  rw [fn_message]
  have hb := lastIndex_bound '.' x
  by_cases h : Gen.lastIndex '.' x = -1
  · simp [invoke, srcFieldToGoTypeMessage, flatParams, bindArgs, coerce, bind, Except.bind, exec, eval, get, single, library, bindNames, binop, equal, h, leaving, Out.leave, results,
      Gen.fieldToGoTypeMessage]
  · have h1 : 0 ≤ Gen.lastIndex '.' x + 1 ∧ Gen.lastIndex '.' x + 1 ≤ x.length := by omega
    simp [invoke, srcFieldToGoTypeMessage, flatParams, bindArgs, coerce, bind, Except.bind, exec, eval, get, single, library, bindNames, binop, equal, h, leaving, Out.leave, results,
      Gen.fieldToGoTypeMessage, h1, assignTo, put]

/-- The value `titleNext` ends up with. -/
def caseEnd (U : Unicode) : Bool → Text → Bool
  | b, [] => b
  | b, r :: rs => caseEnd U (if !U.isLetter r && !U.isDigit r then true else if b then false else b) rs

/-- The environment captured by `mapFn`. -/
def caseEnv (i : Nat) (x : Text) : Env ε := [(.titleNext, .obj i), (.s, .str x)]

/-- One call of `mapFn`. -/
theorem run_mapFn (H : List (V ε)) (e : σ) (b : Bool) (x : Text) (r : Char) :
    applyClosure (gen w d) (.closure (caseEnv H.length x) .r srcToGoCase_body1) [.rune r] ⟨H ++ [.bool b], e⟩ =
    .ok ([if !w.U.isLetter r && !w.U.isDigit r then .const (-1) else if b then .rune (w.U.toTitle r) else .rune r],
      ⟨H ++ [.bool (if !w.U.isLetter r && !w.U.isDigit r then true else if b then false else b)], e⟩) := by
  have hs : ∀ v : V ε, (H ++ [V.bool b]).set H.length v = H ++ [v] := fun v => by simp
  have hg : (H ++ [V.bool b])[H.length]? = some (.bool b) := by simp
  cases hl : w.U.isLetter r <;> cases hd : w.U.isDigit r <;> cases b <;>
  simp [applyClosure, caseEnv, srcToGoCase_body1, exec, eval, get, bind, Except.bind, single, library, gen_U, hl, hd, assignTo, hs, leaving, Out.leave]

/-- `strings.Map(mapFn, s)`. -/
theorem run_map (H : List (V ε)) (e : σ) (x : Text) (b : Bool) (y : Text) :
    mapRunes ((gen w (d + 1)).apply (.closure (caseEnv H.length x) .r srcToGoCase_body1)) y ⟨H ++ [.bool b], e⟩ =
    .ok (Gen.mapText (fun (titleNext : Bool) r =>
      if !w.U.isLetter r && !w.U.isDigit r then (true, none)
      else if titleNext then (false, some (w.U.toTitle r))
      else (titleNext, some r)) b y, ⟨H ++ [.bool (caseEnd w.U b y)], e⟩) := by
  induction y generalizing b with
  | nil => rfl
  | cons r rs ih =>
    simp only [mapRunes, gen_apply, run_mapFn, bind, Except.bind, Gen.mapText, caseEnd]
    cases hl : (!w.U.isLetter r && !w.U.isDigit r)
    · cases b <;> simp [ih]
    · simp [ih]

/-- generate.go:188-202 `toGoCase`. -/
theorem run_toGoCase (x : Text) (s : St σ ε) :
    (gen w (d + 2)).fns none .toGoCase [.str x] s = .ok ([.str (Gen.toGoCase w.U x)], ⟨s.heap ++ [.bool (caseEnd w.U true x)], s.ext⟩) := by
  have h := run_map (w := w) (d := d) s.heap s.ext x true x
  unfold caseEnv at h
  rw [fn_toGoCase]
  simp [invoke, srcToGoCase, flatParams, bindArgs, coerce, bind, Except.bind, exec_seq, exec_defineRef, exec_defineFunc, exec_retVal, eval, get, single, library, h, results, Gen.toGoCase]

end Zeropb.GoSrc.T
