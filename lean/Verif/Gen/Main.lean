import Verif.Gen.Generate
/-!
# cmd/protoc-gen-zeropb/main.go and cmd/protoc-gen-text/main.go

The file system and the protobuf library are parameters.
-/

namespace Zeropb.Gen

/-- What `run` calls outside this repository. `ε` are Go error values. -/
structure Sys (ε : Type) where
  /-- `ioutil.ReadAll(os.Stdin)`: the bytes read, and an error or nil -/
  stdin : List Byte × Option ε
  /-- `proto.Unmarshal` into a `CodeGeneratorRequest` -/
  unmarshal : List Byte → Except ε Request
  /-- `proto.Marshal` of `&CodeGeneratorResponse{File: files}` -/
  marshal : List OutFile → Except ε (List Byte)
  /-- `os.Stdout.Write`: how many bytes were written, and an error or nil -/
  write : List Byte → Nat × Option ε
  /-- `proto.MarshalText(os.Stderr, &req)`: the bytes written, and an error or nil -/
  marshalText : Request → List Byte × Option ε
  /-- `fmt.Sprintf("%+v\n", err)` -/
  errText : ε → List Byte
  /-- what the Go runtime prints about a panic -/
  panicText : GenPanic → List Byte
  unicode : Unicode

/-- What a process leaves behind. -/
structure Outcome where
  stdout : List Byte
  stderr : List Byte
  status : Nat
deriving DecidableEq, Repr

variable {ε : Type}

/-- protoc-gen-zeropb/main.go:14-35 `run`: the bytes written to standard output, and the error returned. -/
def runPlugin (s : Sys ε) : Except GenPanic (List Byte × Option ε) :=
  match s.stdin with
  | (_, some err) => .ok ([], some err)
  | (reqBytes, none) =>
    match s.unmarshal reqBytes with
    | .error err => .ok ([], some err)
    | .ok req =>
      match generate s.unicode req with
      | .error p => .error p
      | .ok files =>
        match s.marshal files with
        | .error err => .ok ([], some err)
        | .ok resBytes =>
          match s.write resBytes with
          | (n, some err) => .ok (resBytes.take n, some err)
          | (n, none) => .ok (resBytes.take n, none)

/-- protoc-gen-zeropb/main.go:37-41 `main`. A process that returns from `main` has exit status 0; one that panics prints the
panic to standard error and has exit status 2. -/
def mainPlugin (s : Sys ε) : Outcome :=
  match runPlugin s with
  | .ok (out, some err) => ⟨out, s.errText err, 0⟩
  | .ok (out, none) => ⟨out, [], 0⟩
  | .error p => ⟨[], s.panicText p, 2⟩

/-- protoc-gen-text/main.go:14-27 `run`: the bytes written to standard error, and the error returned. -/
def runText (s : Sys ε) : List Byte × Option ε :=
  match s.stdin with
  | (_, some err) => ([], some err)
  | (reqBytes, none) =>
    match s.unmarshal reqBytes with
    | .error err => ([], some err)
    | .ok req => s.marshalText req

/-- protoc-gen-text/main.go:29-33 `main`. -/
def mainText (s : Sys ε) : Outcome :=
  match runText s with
  | (txt, some err) => ⟨[], txt ++ s.errText err, 0⟩
  | (txt, none) => ⟨[], txt, 0⟩

end Zeropb.Gen
