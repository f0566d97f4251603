import Verif.GoSrc.ToolFile
import Verif.Gen.Main
/-!
# The source of the plugins computes the model
-/

set_option linter.unusedSimpArgs false
set_option linter.constructorNameAsVariable false

namespace Zeropb.GoSrc.T
open Zeropb.Gen (Text Unicode Writer GenPanic StringTree Arg Field FieldPtr Desc FileDesc Request OutFile ST Sys Outcome)

variable {ε : Type}

/-! ## Reading a request from memory -/

/-- `*string`. -/
def readStr : V ε → Option (Option Text)
  | .box .string none => some none
  | .box .string (some (.str x)) => some (some x)
  | _ => none

/-- `*int32`. -/
def readI32 : V ε → Option (Option U32)
  | .box .int32 none => some none
  | .box .int32 (some (.i32 x)) => some (some x)
  | _ => none

/-- A pointer to an enum value. -/
def readNamed (t : Id) : V ε → Option (Option Int)
  | .box u none => if u = t then some none else none
  | .box u (some (.named v n)) => if u = t ∧ v = t then some (some n) else none
  | _ => none

/-- `*FieldDescriptorProto`. -/
def readField : V ε → Option FieldPtr
  | .box .FieldDescriptorProto none => some none
  | .box .FieldDescriptorProto (some (.struct .FieldDescriptorProto [(.Name, a), (.Number, b), (.Label, c), (.Type, d), (.TypeName, e)])) => do
    let a ← readStr a
    let b ← readI32 b
    let c ← readNamed .FieldDescriptorProto_Label c
    let d ← readNamed .FieldDescriptorProto_Type d
    let e ← readStr e
    some (some ⟨a, b, c, d, e⟩)
  | _ => none

/-- `*DescriptorProto`. -/
def readDesc : V ε → Option (Option Desc)
  | .box .DescriptorProto none => some none
  | .box .DescriptorProto (some (.struct .DescriptorProto [(.Name, a), (.Field, .list fs)])) => do
    let a ← readStr a
    let fs ← fs.mapM readField
    some (some ⟨a, fs⟩)
  | _ => none

/-- `*FileDescriptorProto`. -/
def readFileDesc : V ε → Option (Option FileDesc)
  | .box .FileDescriptorProto none => some none
  | .box .FileDescriptorProto (some (.struct .FileDescriptorProto [(.Name, a), (.Package, b), (.MessageType, .list ms)])) => do
    let a ← readStr a
    let b ← readStr b
    let ms ← ms.mapM readDesc
    some (some ⟨a, b, ms⟩)
  | _ => none

/-- A `string`. -/
def readText : V ε → Option Text
  | .str x => some x
  | _ => none

/-- `CodeGeneratorRequest`. -/
def readRequest : V ε → Option Request
  | .struct .CodeGeneratorRequest [(.FileToGenerate, .list ns), (.ProtoFile, .list fs)] => do
    let ns ← ns.mapM readText
    let fs ← fs.mapM readFileDesc
    some ⟨ns, fs⟩
  | _ => none

theorem readStr_strPtr (o : Option Text) : readStr (strPtr (ε := ε) o) = some o := by cases o <;> rfl

theorem mapM_map {α β : Type} (g : α → Option β) (h : β → α) (hg : ∀ b, g (h b) = some b) (bs : List β) : (bs.map h).mapM g = some bs :=
  mapM_of_map g _ _ (by rw [List.map_map]; exact List.map_congr_left (fun b _ => hg b))

theorem readField_val (f : FieldPtr) : readField (fieldPtrVal (ε := ε) f) = some f := by
  rcases f with _ | ⟨a, b, c, d, e⟩
  · rfl
  · simp only [fieldPtrVal, Option.map, fieldVal, readField, readStr_strPtr]
    cases b <;> cases c <;> cases d <;> simp [readI32, readNamed]

theorem readDesc_val (m : Option Desc) : readDesc (descPtrVal (ε := ε) m) = some m := by
  rcases m with _ | ⟨a, fs⟩
  · rfl
  · simp [descPtrVal, descVal, readDesc, readStr_strPtr, mapM_map readField fieldPtrVal readField_val]

theorem readFileDesc_val (f : Option FileDesc) : readFileDesc (filePtrVal (ε := ε) f) = some f := by
  rcases f with _ | ⟨a, b, ms⟩
  · rfl
  · simp [filePtrVal, fileVal, readFileDesc, readStr_strPtr, mapM_map readDesc descPtrVal readDesc_val]

theorem readRequest_val (r : Request) : readRequest (requestVal (ε := ε) r) = some r := by
  simp [requestVal, readRequest, mapM_map readText V.str (fun _ => rfl), mapM_map readFileDesc filePtrVal readFileDesc_val]

/-! ## The operating system and the protobuf library -/

/-- What a process has written so far. -/
structure Streams where
  stdout : List Byte := []
  stderr : List Byte := []
deriving DecidableEq, Repr

/-- No other packages. -/
def bare (U : Unicode) : World Streams ε := ⟨U, ⟨fun x _ => (x, none)⟩, fun _ _ _ _ => .error .stuck, fun _ _ _ _ => .error .stuck⟩

/-- The packages that the plugins import, in terms of `Gen.Sys`; package generate is run from its source. -/
def sysLib (y : Sys ε) (p f : Id) (args : List (V ε)) (s : St Streams ε) : M (List (V ε) × St Streams ε) :=
  match p, f, args with
  | .ioutil, .ReadAll, [.file .Stdin] => .ok ([.raw y.stdin.1, errVal y.stdin.2], s)
  | .proto, .Unmarshal, [.raw b, .ref i] => match s.heap[i]?, y.unmarshal b with
    | some (.struct .CodeGeneratorRequest []), .ok r => .ok ([.nil], { s with heap := s.heap.set i (requestVal r) })
    | some (.struct .CodeGeneratorRequest []), .error e => .ok ([.err e], s)
    | _, _ => .error .stuck
  | .generate, .Generate, args => run (bare y.unicode) generatePackage 6 none .Generate args s
  | .proto, .Marshal, [v] => match readResponse s.heap v with
    | some files => match y.marshal files with
      | .ok b => .ok ([.raw b, .nil], s)
      | .error e => .ok ([.nil, .err e], s)
    | none => .error .stuck
  | .proto, .MarshalText, [.file .Stderr, .ref i] => match s.heap[i]?.bind readRequest with
    | some r => .ok ([errVal (y.marshalText r).2], { s with ext := { s.ext with stderr := s.ext.stderr ++ (y.marshalText r).1 } })
    | none => .error .stuck
  | .fmt, .Fprintf, [.file .Stderr, .str fmt, .err e] =>
    if fmt = t!"%+v\n" then .ok ([.int (y.errText e).length, .nil], { s with ext := { s.ext with stderr := s.ext.stderr ++ y.errText e } })
    else .error .stuck
  | _, _, _ => .error .stuck

/-- `os.Stdout.Write`. -/
def sysFile (y : Sys ε) (x f : Id) (args : List (V ε)) (s : St Streams ε) : M (List (V ε) × St Streams ε) :=
  match x, f, args with
  | .Stdout, .Write, [.raw b] =>
    .ok ([.int (y.write b).1, errVal (y.write b).2], { s with ext := { s.ext with stdout := s.ext.stdout ++ b.take (y.write b).1 } })
  | _, _, _ => .error .stuck

/-- The world of a plugin. -/
def osWorld (y : Sys ε) : World Streams ε := ⟨y.unicode, ⟨fun x _ => (x, none)⟩, sysLib y, sysFile y⟩

/-- A process that runs `main`. What was written before a panic is not kept: see `Gen.mainPlugin`. -/
def process (y : Sys ε) (p : List Top) (d : Nat) : Option Outcome :=
  match run (osWorld y) p d none .main [] ⟨[], {}⟩ with
  | .ok (_, s) => some ⟨s.ext.stdout, s.ext.stderr, 0⟩
  | .error (.panic p) => some ⟨[], y.panicText p, 2⟩
  | .error _ => none

section
variable {y : Sys ε} {d : Nat}

theorem isNil_errVal (o : Option ε) : isNil (errVal o) = .ok o.isNone := by cases o <;> rfl

theorem fn_runPlugin (vs : List (V ε)) (s : St Streams ε) : (ctx (osWorld y) pluginGo (d + 1)).fns none .run vs s = invoke (ctx (osWorld y) pluginGo d) srcRunPlugin vs s := rfl
theorem fn_runText (vs : List (V ε)) (s : St Streams ε) : (ctx (osWorld y) textGo (d + 1)).fns none .run vs s = invoke (ctx (osWorld y) textGo d) srcRunText vs s := rfl
theorem fn_mainPlugin (vs : List (V ε)) (s : St Streams ε) : run (osWorld y) pluginGo (d + 1) none .main vs s = invoke (ctx (osWorld y) pluginGo d) srcMainPlugin vs s := rfl
theorem fn_mainText (vs : List (V ε)) (s : St Streams ε) : run (osWorld y) textGo (d + 1) none .main vs s = invoke (ctx (osWorld y) textGo d) srcMainText vs s := rfl
theorem ctx_lib (p : List Top) : (ctx (osWorld y) p d).lib = sysLib y := by cases d <;> rfl
theorem ctx_file (p : List Top) : (ctx (osWorld y) p d).fileOp = sysFile y := by cases d <;> rfl

/-- protoc-gen-text/main.go:14-27 `run`. -/
theorem run_text (x : Streams) : ∃ H, (ctx (osWorld y) textGo (d + 1)).fns none .run [] ⟨[], x⟩ =
    .ok ([errVal (Gen.runText y).2], ⟨H, { x with stderr := x.stderr ++ (Gen.runText y).1 }⟩) := by
  rw [fn_runText]
  obtain ⟨⟨sb, se⟩, un, ma, wr, mt, et, pt, u⟩ := y
  cases se with
  | some e =>
    refine ⟨[], ?_⟩
    simp [invoke, srcRunText, flatParams, bindArgs, exec_seq, exec_define, exec_ite, exec_retVal, eval, get, bind, Except.bind, single, library, ctx_lib, sysLib, bindNames, binop, equal, isNil, errVal,
      leaving, Out.leave, results, coerce, Gen.runText]
  | none =>
    cases hu : un sb with
    | error e =>
      refine ⟨[.struct .CodeGeneratorRequest []], ?_⟩
      simp [invoke, srcRunText, flatParams, bindArgs, exec_seq, exec_define, exec_ite, exec_iteInit, exec_varRef, exec_skip, zero, exec_retVal, eval, get, bind, Except.bind, single, library, ctx_lib, sysLib, bindNames, binop, equal, isNil, errVal,
        leaving, Out.leave, results, coerce, Gen.runText, hu]
    | ok r =>
      refine ⟨[requestVal r], ?_⟩
      cases hm : (mt r).2 <;>
      simp [invoke, srcRunText, flatParams, bindArgs, exec_seq, exec_define, exec_ite, exec_iteInit, exec_varRef, exec_skip, zero, exec_retVal, eval, get, bind, Except.bind, single, library, ctx_lib, sysLib, bindNames, binop, equal, isNil, errVal,
        leaving, Out.leave, results, coerce, Gen.runText, hu, readRequest_val, hm]

/-- protoc-gen-zeropb/main.go:14-35 `run`. -/
theorem run_plugin (x : Streams) : match Gen.runPlugin y with
    | .error p => (ctx (osWorld y) pluginGo (d + 1)).fns none .run [] ⟨[], x⟩ = .error (.panic p)
    | .ok (out, err) => ∃ H, (ctx (osWorld y) pluginGo (d + 1)).fns none .run [] ⟨[], x⟩ = .ok ([errVal err], ⟨H, { x with stdout := x.stdout ++ out }⟩) := by
  rw [fn_runPlugin]
  obtain ⟨⟨sb, se⟩, un, ma, wr, mt, et, pt, u⟩ := y
  cases se with
  | some e =>
    refine ⟨[], ?_⟩
    simp [invoke, srcRunPlugin, flatParams, bindArgs, exec_seq, exec_define, exec_ite, exec_retVal, eval, get, bind, Except.bind, single, library, ctx_lib, sysLib, bindNames, binop, equal, isNil, errVal,
      leaving, Out.leave, results, coerce]
  | none =>
    simp only [Gen.runPlugin]
    cases hu : un sb with
    | error e =>
      refine ⟨[.struct .CodeGeneratorRequest []], ?_⟩
      simp [invoke, srcRunPlugin, flatParams, bindArgs, exec_seq, exec_define, exec_ite, exec_iteInit, exec_varRef, exec_skip, zero, exec_retVal, eval, get, bind, Except.bind, single, library, ctx_lib, sysLib, bindNames, binop, equal, isNil, errVal,
        leaving, Out.leave, results, coerce, hu]
    | ok r =>
      obtain ⟨j, H', h1, h2⟩ := run_generate (w := bare (ε := ε) u) (d := 0) [requestVal r] x 0 r rfl
      have h1 : run (bare u) generatePackage 6 none .Generate [.ref 0] ⟨[requestVal r], x⟩ = _ := h1
      simp only
      cases hg : Gen.generate u r with
      | error p =>
        rw [show (bare (ε := ε) u).U = u from rfl, hg, lifted_error] at h1
        simp [invoke, srcRunPlugin, flatParams, bindArgs, exec_seq, exec_define, exec_ite, exec_iteInit, exec_varRef, exec_skip, zero, exec_retVal, eval, get, bind, Except.bind, single, library, ctx_lib, sysLib, bindNames, binop, equal, isNil, errVal,
          leaving, Out.leave, results, coerce, hu, h1]
      | ok o =>
        have h2 := h2 o hg
        rw [show (bare (ε := ε) u).U = u from rfl, hg, lifted_ok] at h1
        simp only [List.cons_append, List.nil_append] at h1 h2
        cases hm : ma o with
        | error e =>
          simp only [hm]
          refine ⟨requestVal r :: H' o, ?_⟩
          simp [invoke, srcRunPlugin, flatParams, bindArgs, exec_seq, exec_define, exec_ite, exec_iteInit, exec_varRef, exec_skip, zero, exec_retVal, eval, get, bind, Except.bind, single, library, ctx_lib, sysLib, bindNames, binop, equal, isNil, errVal,
              leaving, Out.leave, results, coerce, hu, h1, h2, hm]
        | ok b =>
          simp only [hm]
          cases hw : (wr b).2 with
          | none =>
            rw [show wr b = ((wr b).1, none) from by rw [← hw]]
            refine ⟨requestVal r :: H' o, ?_⟩
            simp [invoke, srcRunPlugin, flatParams, bindArgs, exec_seq, exec_define, exec_ite, exec_iteInit, exec_varRef, exec_skip, zero, exec_retVal, eval, get, bind, Except.bind, single, library, ctx_lib, ctx_file, sysLib, sysFile, bindNames, binop, equal, isNil, errVal,
                leaving, Out.leave, results, coerce, hu, h1, h2, hm, hw, heapVar, callMethod]
          | some e =>
            rw [show wr b = ((wr b).1, some e) from by rw [← hw]]
            refine ⟨requestVal r :: H' o, ?_⟩
            simp [invoke, srcRunPlugin, flatParams, bindArgs, exec_seq, exec_define, exec_ite, exec_iteInit, exec_varRef, exec_skip, zero, exec_retVal, eval, get, bind, Except.bind, single, library, ctx_lib, ctx_file, sysLib, sysFile, bindNames, binop, equal, isNil, errVal,
                leaving, Out.leave, results, coerce, hu, h1, h2, hm, hw, heapVar, callMethod]

/-- The plugin that generates code. -/
theorem process_plugin : process y pluginGo (d + 2) = some (Gen.mainPlugin y) := by
  have h := run_plugin (y := y) (d := d) {}
  simp only [process, fn_mainPlugin, Gen.mainPlugin]
  cases hr : Gen.runPlugin y with
  | error p =>
    rw [hr] at h
    simp only at h
    simp [invoke, srcMainPlugin, flatParams, bindArgs, exec_seq, exec_iteInit, exec_define, eval, bind, Except.bind, h, leaving]
  | ok r =>
    obtain ⟨out, err⟩ := r
    rw [hr] at h
    obtain ⟨H, h⟩ := h
    cases err <;>
    simp [invoke, srcMainPlugin, flatParams, bindArgs, exec_seq, exec_iteInit, exec_define, exec_expr, exec_skip, eval, get, bind, Except.bind, h, leaving, bindNames, single, binop, equal, isNil, errVal,
      library, ctx_lib, sysLib, Out.leave]

/-- The plugin that prints the request. -/
theorem process_text : process y textGo (d + 2) = some (Gen.mainText y) := by
  obtain ⟨H, h⟩ := run_text (y := y) (d := d) {}
  simp only [process, fn_mainText, Gen.mainText]
  generalize Gen.runText y = r at h
  obtain ⟨out, err⟩ := r
  cases err <;>
  simp [invoke, srcMainText, flatParams, bindArgs, exec_seq, exec_iteInit, exec_define, exec_expr, exec_skip, eval, get, bind, Except.bind, h, leaving, bindNames, single, binop, equal, isNil, errVal,
      library, ctx_lib, sysLib, Out.leave]

end

end Zeropb.GoSrc.T
