import Verif.GoSrc.ToolText
import Verif.GoSrc.ToolMain
import Verif.Props.Main
import Verif.Props.SourceGen
import Verif.Props.SourceHistory
/-!
# C64: the committed Go source of the generator and the plugins computes the model

The functions of generate/generate.go, generate/stringtree.go, the parts of generate/descriptor.pb.go they
call, and both cmd/*/main.go are taken from their source text (`GoSrc/ToolText`, checked against the
syntax trees by `C64_text`), run by the interpreter of `GoSrc/ToolSem`, and shown to do what the model of
`Gen/` does, for all requests, arguments and writers.
-/

set_option linter.constructorNameAsVariable false

namespace Zeropb.GoSrc.T
open Zeropb.Gen (Text Unicode Writer GenPanic StringTree Field FieldPtr Desc FileDesc Request OutFile ST Outcome HasUnsupported filesOf)

variable {σ ε : Type}

/-- C64: the syntax trees that are interpreted are the files of the repository: printing them gives the tokens of the
text of the files (the `…Text`: the lines of the files; of descriptor.pb.go, the lines of what package generate uses of it). -/
theorem C64_text : tokenize (unlines descriptorText) = (descriptorGo.map Top.toks).flatten ∧
    tokenize (unlines stringtreeText) = (stringtreeGo.map Top.toks).flatten ∧
    tokenize (unlines generateText) = (generateGo.map Top.toks).flatten ∧
    tokenize (unlines pluginText) = (pluginGo.map Top.toks).flatten ∧
    tokenize (unlines textText) = (textGo.map Top.toks).flatten :=
  ⟨descriptor_source, stringtree_source, generate_source, plugin_source, text_source⟩

/-! ## StringTree -/

/-- In state `s`, `p` points to a StringTree around an `io.Writer` of another package, and it is in the state `t`. -/
def IsTree (s : St σ ε) (p : V ε) (t : StringTree σ ε) : Prop :=
  ∃ i, p = .ref i ∧ s.heap[i]? = some (treeVal .writer errVal t) ∧ s.ext = t.w

/-- All of memory except what `p` points to is as before. -/
def OnlyAt (p : V ε) (s s' : St σ ε) : Prop :=
  s.heap.length = s'.heap.length ∧ ∀ j, p ≠ .ref j → s'.heap[j]? = s.heap[j]?

/-- C64: `NewStringTree(w, indent)`. -/
theorem C64_new (w : World σ ε) (d : Nat) (indent : Text) (s : St σ ε) :
    ∃ p s', run w generatePackage (d + 1) none .NewStringTree [.writer, .str indent] s = .ok ([p], s') ∧
      IsTree s' p (Gen.newStringTree s.ext indent) ∧ s.heap <+: s'.heap := by
  refine ⟨.ref s.heap.length, ⟨s.heap ++ [treeVal .writer errVal (Gen.newStringTree (ε := ε) s.ext indent)], s.ext⟩, ?_, ⟨_, rfl, by simp, rfl⟩, List.prefix_append ..⟩
  refine (fn_newStringTree ..).trans ?_
  simp [invoke, srcNewStringTree, flatParams, bindArgs, coerce, exec, eval, get, single, bind, Except.bind, literal, gen_structs, findStruct, generatePackage, descriptorGo, stringtreeGo, fillFields,
    zero, results, treeVal, Gen.newStringTree, errVal]

/-- C64: `st.Write(args...)`, for every writer and all arguments. -/
theorem C64_write (w : World σ ε) (d : Nat) {s : St σ ε} {p : V ε} {t : StringTree σ ε} (h : IsTree s p t) (as : List Gen.Arg) :
    match t.write w.W as with
    | .error e => run w generatePackage (d + 1) (some .StringTree) .Write (p :: as.map argVal) s = .error (.panic e)
    | .ok t' => ∃ s', run w generatePackage (d + 1) (some .StringTree) .Write (p :: as.map argVal) s = .ok ([], s') ∧ IsTree s' p t' ∧ OnlyAt p s s' := by
  obtain ⟨i, rfl, hi, hx⟩ := h
  obtain ⟨H, x⟩ := s
  simp only at hi hx
  subst hx
  have hlt : i < H.length := (List.getElem?_eq_some_iff.mp hi).1
  let mk : StringTree σ ε → St σ ε := fun t => ⟨H.set i (treeVal .writer errVal t), t.w⟩
  have D : Device (gen w d) w.W i .writer errVal mk := {
    read := fun t => by simp [mk, hlt]
    isNil := isNil_errVal
    write := fun t y => by simp [callMethod, mk, gen_W, treeVal]
    set := fun t o => by simp [mk] }
  have hm : mk t = ⟨H, t.w⟩ := by
    simp only [mk]
    congr 1
    apply List.ext_getElem?
    intro j
    rw [List.getElem?_set]
    split
    · rename_i hj; subst hj; rw [hi]
    · rfl
  have hr : run w generatePackage (d + 1) (some .StringTree) .Write (.ref i :: as.map argVal) ⟨H, t.w⟩ = lifted (fun t' => ([], mk t')) (t.write w.W as) := by
    rw [← hm]
    exact (fn_write ..).trans (invoke_write D as t)
  cases ht : t.write w.W as with
  | error e => rw [ht] at hr; exact hr
  | ok t' =>
    rw [ht] at hr
    refine ⟨_, hr, ⟨i, rfl, D.read t', rfl⟩, by simp [mk], fun j hj => ?_⟩
    simp only [mk, List.getElem?_set]
    split
    · rename_i hij; subst hij; exact absurd rfl hj
    · rfl

/-- C64: `st.Error()`. -/
theorem C64_error (w : World σ ε) (d : Nat) {s : St σ ε} {p : V ε} {t : StringTree σ ε} (h : IsTree s p t) :
    run w generatePackage (d + 1) (some .StringTree) .Error [p] s = .ok ([errVal t.error], s) := by
  obtain ⟨i, rfl, hi, hx⟩ := h
  refine (fn_error ..).trans ?_
  simp [invoke, srcStringTree_Error, flatParams, bindArgs, coerce, exec, eval, get, single, bind, Except.bind, select, deref, hi, treeVal, fieldOf, results, Gen.StringTree.error]

/-- Several calls of `st.Write`. -/
def writeCalls (w : World σ ε) (d : Nat) (p : V ε) : List (List Gen.Arg) → St σ ε → M (St σ ε)
  | [], s => .ok s
  | as :: rest, s => do
    let (_, s) ← run w generatePackage d (some .StringTree) .Write (p :: as.map argVal) s
    writeCalls w d p rest s

/-- C64: any number of calls of `st.Write`. -/
theorem C64_writes (w : World σ ε) (d : Nat) {s : St σ ε} {p : V ε} {t : StringTree σ ε} (h : IsTree s p t) (calls : List (List Gen.Arg)) :
    match t.writes w.W calls with
    | .error e => writeCalls w (d + 1) p calls s = .error (.panic e)
    | .ok t' => ∃ s', writeCalls w (d + 1) p calls s = .ok s' ∧ IsTree s' p t' ∧ OnlyAt p s s' := by
  induction calls generalizing s t with
  | nil => exact ⟨s, rfl, h, rfl, fun _ _ => rfl⟩
  | cons as rest ih =>
    have h1 := C64_write w d h as
    simp only [Gen.StringTree.writes]
    cases ht : t.write w.W as with
    | error e =>
      rw [ht] at h1
      simp only [writeCalls, h1, bind, Except.bind]
    | ok t' =>
      rw [ht] at h1
      obtain ⟨s1, e1, e2, e3, e4⟩ := h1
      have h2 := ih e2
      simp only [bind, Except.bind]
      cases hr : t'.writes w.W rest with
      | error e =>
        rw [hr] at h2
        simp only [writeCalls, e1, bind, Except.bind]
        exact h2
      | ok t2 =>
        rw [hr] at h2
        obtain ⟨s2, f1, f2, f3, f4⟩ := h2
        refine ⟨s2, by simp only [writeCalls, e1, bind, Except.bind]; exact f1, f2, e3.trans f3, fun j hj => (f4 j hj).trans (e4 j hj)⟩

/-! ## Generate -/

/-- C64: `Generate(req)`. -/
theorem C64_generate (w : World σ ε) (d : Nat) {s : St σ ε} {i : Nat} {r : Request} (h : s.heap[i]? = some (requestVal r)) :
    match Gen.generate w.U r with
    | .error e => run w generatePackage (d + 6) none .Generate [.ref i] s = .error (.panic e)
    | .ok files => ∃ v s', run w generatePackage (d + 6) none .Generate [.ref i] s = .ok ([v, .nil], s') ∧
        readResponse s'.heap v = some files ∧ s.heap <+: s'.heap ∧ s'.ext = s.ext := by
  obtain ⟨H, x⟩ := s
  obtain ⟨j, H', h1, h2⟩ := run_generate (w := w) (d := d) H x i r h
  cases hg : Gen.generate w.U r with
  | error e => rw [hg] at h1; exact h1
  | ok o => rw [hg] at h1; exact ⟨_, _, h1, h2 o hg, List.prefix_append .., rfl⟩

/-- C64: for a request without unsupported fields, `Generate` returns the files with the declarations of `fileDecls`; for any
other it panics, about the type of a field. -/
theorem C64_files (w : World σ ε) (d : Nat) {s : St σ ε} {i : Nat} {r : Request} (h : s.heap[i]? = some (requestVal r)) :
    (¬ HasUnsupported r → ∃ v s', run w generatePackage (d + 6) none .Generate [.ref i] s = .ok ([v, .nil], s') ∧
      readResponse s'.heap v = some (filesOf w.U r) ∧ s.heap <+: s'.heap ∧ s'.ext = s.ext) ∧
    (HasUnsupported r → ∃ n, run w generatePackage (d + 6) none .Generate [.ref i] s = .error (.panic (.unsupportedType n))) := by
  have hg := C64_generate w d h
  refine ⟨fun hn => ?_, fun hu => ?_⟩
  · rw [Gen.generate_ok w.U hn] at hg; exact hg
  · obtain ⟨p, hp⟩ := Gen.generate_error w.U hu
    obtain ⟨n, rfl⟩ := (Zeropb.C45_panics w.U r).2 p hp
    rw [hp] at hg
    exact ⟨n, hg⟩

/-- C64: a call of `Generate` with a nil request panics. -/
theorem C64_nil (w : World σ ε) (d : Nat) (s : St σ ε) :
    run w generatePackage (d + 6) none .Generate [.box .CodeGeneratorRequest none] s = .error .nilDeref := by
  refine (fn_generate ..).trans ?_
  simp [invoke, srcGenerate, flatParams, bindArgs, coerce, exec_seq, exec_define, exec_range, eval, get, single, bind, Except.bind, bindNames, select, deref]

/-- C64: the text that `Generate` makes is the program that C63 is about. If the requested files are of one package, their names are Go identifiers and no
name is declared twice, the files in the response are, token by token, a package in the sense of C63. -/
theorem C64_output (w : World σ ε) (d : Nat) {s : St σ ε} {i : Nat} {r : Request} (h : s.heap[i]? = some (requestVal r)) (hu : ¬ HasUnsupported r) (pkg : Text)
    (hn : ∀ f ∈ r.requested, f.getPackage = pkg ∧ G.GoNames w.U f) (h1 : ((r.requested.flatMap (Gen.fileDecls w.U)).map Gen.Decl.declares).Nodup) :
    ∃ v s' files, run w generatePackage (d + 6) none .Generate [.ref i] s = .ok ([v, .nil], s') ∧ readResponse s'.heap v = some files ∧
      files.map (fun o => Zeropb.GoSrc.tokenize o.content) = r.requested.map (fun f => ((G.fileAst f.getPackage (Gen.fileDecls w.U f)).map G.Top.toks).flatten) ∧
      G.Package (r.requested.flatMap (fun f => G.fileAst f.getPackage (Gen.fileDecls w.U f))) (r.requested.flatMap (Gen.fileDecls w.U)) := by
  obtain ⟨v, s', e1, e2, _, _⟩ := (C64_files w d h).1 hu
  refine ⟨v, s', _, e1, e2, ?_, G.C63_package w.U pkg _ hn h1⟩
  obtain ⟨hlen, ht⟩ := G.C63_text w.U r _ (Gen.generate_ok w.U hu)
  apply List.ext_getElem (by simp [hlen])
  intro k hk1 hk2
  simp only [List.length_map] at hk1 hk2
  simp only [List.getElem_map]
  exact ht k _ _ (List.getElem?_eq_getElem hk1) (List.getElem?_eq_getElem hk2) (hn _ (List.getElem_mem hk2)).2

/-! ## The plugins -/

/-- C64: cmd/protoc-gen-zeropb, as a process: what it writes and its exit status are those of the model. -/
theorem C64_plugin (y : Gen.Sys ε) (d : Nat) : process y pluginGo (d + 2) = some (Gen.mainPlugin y) := process_plugin

/-- C64: cmd/protoc-gen-text, as a process. -/
theorem C64_textPlugin (y : Gen.Sys ε) (d : Nat) : process y textGo (d + 2) = some (Gen.mainText y) := process_text

/-- C64: when nothing goes wrong, the process writes the encoded response with the files of `filesOf` and nothing else. -/
theorem C64_success (y : Gen.Sys ε) (d : Nat) {req : Request} {res : List Byte} (h1 : y.stdin.2 = none)
    (h2 : y.unmarshal y.stdin.1 = .ok req) (h3 : ¬ HasUnsupported req) (h4 : y.marshal (filesOf y.unicode req) = .ok res)
    (h5 : y.write res = (res.length, none)) : process y pluginGo (d + 2) = some ⟨res, [], 0⟩ := by
  rw [C64_plugin, Gen.C57_success y h1 h2 h3 h4 h5]

/-! ## The hypotheses are met -/

/-- A request for a file with one message that has a field of each kind. -/
def sampleRequest : Request :=
  ⟨[t!"a.proto"], [none, some { name := some t!"a.proto", package := some t!"p", messageType := [none, some { name := some t!"M", field :=
    [some { name := some t!"x_y", number := some 1#32, label := some 1, type := some 5 }, none,
     some { name := some t!"m", number := some 2#32, label := some 1, type := some 11, typeName := some t!".p.M" },
     some { name := some t!"r", number := some 3#32, label := some 3, type := some 11, typeName := some t!".p.M" }] }] },
    some { name := some t!"b.proto" }]⟩

theorem sample_supported : ¬ HasUnsupported sampleRequest := by
  intro h
  obtain ⟨p, hp⟩ := Gen.generate_error Gen.asciiUnicode h
  have : (match Gen.generate Gen.asciiUnicode sampleRequest with | .ok _ => true | .error _ => false) = true := by decide +kernel
  rw [hp] at this
  exact Bool.noConfusion this

/-- `C64_generate` and `C64_files` apply to it, whatever the writer: the request is at address 0. -/
example (W : Writer Unit Unit) : ∃ v s', run ⟨Gen.asciiUnicode, W, fun _ _ _ _ => .error .stuck, fun _ _ _ _ => .error .stuck⟩ generatePackage 6 none .Generate [.ref 0]
    ⟨[requestVal sampleRequest], ()⟩ = .ok ([v, .nil], s') ∧ readResponse s'.heap v = some (filesOf Gen.asciiUnicode sampleRequest) := by
  obtain ⟨v, s', h1, h2, _⟩ := (C64_files ⟨Gen.asciiUnicode, W, fun _ _ _ _ => .error .stuck, fun _ _ _ _ => .error .stuck⟩ 0
    (s := ⟨[requestVal sampleRequest], ()⟩) (i := 0) (r := sampleRequest) rfl).1 sample_supported
  exact ⟨v, s', h1, h2⟩

/-- The response: one file, with the declarations of one message. -/
example : (filesOf Gen.asciiUnicode sampleRequest).map (·.name) = [t!"a.zeropb.go"] ∧
    (filesOf Gen.asciiUnicode sampleRequest).all (fun o => 400 < o.content.length) := by decide +kernel

/-- The interpreter, run on it by the kernel. -/
example : (match run (ε := Unit) (bare Gen.asciiUnicode) generatePackage 6 none .Generate [.ref 0] ⟨[requestVal sampleRequest], {}⟩ with
    | .ok ([v, .nil], s') => decide ((readResponse s'.heap v).map (List.map OutFile.content) = some ((filesOf Gen.asciiUnicode sampleRequest).map OutFile.content))
    | _ => false) = true := by decide +kernel

/-- A request with a group is unsupported. -/
example : HasUnsupported ⟨[t!"a.proto"], [some { name := some t!"a.proto", messageType := [some { name := some t!"M", field :=
    [some { name := some t!"g", number := some 1#32, label := some 1, type := some 10 }] }] }]⟩ :=
  ⟨{ name := some t!"a.proto", messageType := [some { name := some t!"M", field := [some { name := some t!"g", number := some 1#32, label := some 1, type := some 10 }] }] },
    by simp [Gen.Request.requested, Gen.FileDesc.getName], _, List.mem_singleton.mpr rfl, _, List.mem_singleton.mpr rfl, by decide, by decide⟩

/-- `C64_output` applies to a request for golden/test.proto and one for golden/raft.proto. -/
example : ∀ g ∈ [Gen.testFile, Gen.raftFile], (Request.mk [g.getName] [some g]).requested = [g] ∧
    (∀ f ∈ (Request.mk [g.getName] [some g]).requested, f.getPackage = g.getPackage ∧ G.GoNames Gen.asciiUnicode f) ∧
    (((Request.mk [g.getName] [some g]).requested.flatMap (Gen.fileDecls Gen.asciiUnicode)).map Gen.Decl.declares).Nodup ∧
    ¬ HasUnsupported ⟨[g.getName], [some g]⟩ := by
  have hr : ∀ g : FileDesc, (Request.mk [g.getName] [some g]).requested = [g] := by intro g; simp [Gen.Request.requested]
  intro g hg
  refine ⟨hr g, ?_, ?_, ?_⟩
  · rw [hr]
    intro f hf
    obtain rfl := List.mem_singleton.mp hf
    simp only [List.mem_cons, List.not_mem_nil, or_false] at hg
    rcases hg with rfl | rfl
    · exact ⟨rfl, G.testFile_names⟩
    · exact ⟨rfl, G.raftFile_names⟩
  · rw [hr]
    simp only [List.mem_cons, List.not_mem_nil, or_false] at hg
    rcases hg with rfl | rfl <;> decide +kernel
  · intro h
    obtain ⟨p, hp⟩ := Gen.generate_error Gen.asciiUnicode h
    have : (match Gen.generate Gen.asciiUnicode ⟨[g.getName], [some g]⟩ with | .ok _ => true | .error _ => false) = true := by
      simp only [List.mem_cons, List.not_mem_nil, or_false] at hg
      rcases hg with rfl | rfl <;> decide +kernel
    rw [hp] at this
    exact Bool.noConfusion this

/-- `C64_write`: a tree at address 1. -/
example (H : V Unit) : IsTree (σ := List Byte) ⟨[H, treeVal .writer errVal (Gen.newStringTree ([] : List Byte) t!" ")], []⟩ (.ref 1) (Gen.newStringTree [] t!" ") :=
  ⟨1, rfl, rfl, rfl⟩

/-- `C64_success`: the process of a plugin for which everything works, and one that reads something else. -/
example : process Gen.okSys pluginGo 2 = some ⟨(Gen.mainPlugin Gen.okSys).stdout, [], 0⟩ ∧ (Gen.mainPlugin Gen.okSys).stdout ≠ [] ∧
    process { Gen.okSys with stdin := ([0x02#8], none) } pluginGo 2 = some ⟨[], [0x0a#8], 0⟩ := by
  refine ⟨?_, by decide +kernel, ?_⟩
  · rw [C64_plugin _ 0]; decide +kernel
  · rw [C64_plugin _ 0]; decide +kernel

end Zeropb.GoSrc.T
