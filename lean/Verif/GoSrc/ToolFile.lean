import Verif.GoSrc.ToolGen
/-!
# The source of Generate computes the model
-/

set_option linter.unusedSimpArgs false
set_option linter.constructorNameAsVariable false

namespace Zeropb.GoSrc.T
open Zeropb.Gen (Text Unicode Writer GenPanic StringTree Arg Field FieldPtr Desc FileDesc Request OutFile ST)

variable {σ ε : Type} {w : World σ ε} {d : Nat}

theorem bind_ok {α : Type} (r : Except GenPanic α) : (r >>= Except.ok) = r := by cases r <;> rfl

/-- generate.go:45-50. -/
theorem messages_loop (H : List (V ε)) (x : σ) (n : Int) (env : Env ε) (hst : get .st env = some (.ref (H.length + 1))) (hi : get .indent env = some (.named .StringTreeIndent n))
    (ms : List (Option Desc)) (J : List (V ε)) :
    ∃ J', ∀ t, rangeLoop (fun v env s => leaving env.length (exec (gen w (d + 4)) srcGenerateFile_body1 none ((.m, v) :: env) s)) (ms.map descPtrVal) env (mk H J x t) =
    lifted (fun t' => (.next env, mk H (J ++ J') x t')) (Gen.generateMessages w.U n t ms) := by
  induction ms generalizing J with
  | nil => exact ⟨[], fun t => by simp [rangeLoop, Gen.generateMessages]⟩
  | cons m ms ih =>
    cases m with
    | none =>
      obtain ⟨J', h'⟩ := ih J
      refine ⟨J', fun t => ?_⟩
      have hr : leaving env.length (exec (gen w (d + 4)) srcGenerateFile_body1 none ((.m, descPtrVal none) :: env) (mk H J x t)) = .ok (.cont env, mk H J x t) := by
        simp [srcGenerateFile_body1, exec_seq, exec_ite, exec_continue, eval, get, descPtrVal, bind, Except.bind, single, binop, equal, isNil, leaving, Out.leave]
      rw [List.map_cons, rangeLoop, hr, Gen.generateMessages]
      exact h' t
    | some m =>
      obtain ⟨J1, h1⟩ := run_generateMessage (w := w) (d := d) H J x n m
      obtain ⟨J2, h2⟩ := ih (J ++ J1)
      refine ⟨J1 ++ J2, fun t => ?_⟩
      have h0 : eval (gen w (d + 4)) ((.m, descPtrVal (some m)) :: env) (.bin .eq (.id .m) .nil) (mk H J x t) = .ok ([.bool false], mk H J x t) := by
        simp [eval, get, descPtrVal, bind, Except.bind, single, binop, equal, isNil]
      have he : eval (gen w (d + 4)) ((.m, descPtrVal (some m)) :: env) (.call .generateMessage (.args (.id .st) (.args (.id .indent) (.arg (.star (.id .m)))))) (mk H J x t) =
          lifted (fun t' => ([], mk H (J ++ J1) x t')) (Gen.generateMessage w.U t n m) := by
        rw [← h1 t]
        simp [eval, get, hst, hi, bind, Except.bind, single, descPtrVal, deref]
      have hr : leaving env.length (exec (gen w (d + 4)) srcGenerateFile_body1 none ((.m, descPtrVal (some m)) :: env) (mk H J x t)) =
          lifted (fun t' => (.next env, mk H (J ++ J1) x t')) (Gen.generateMessage w.U t n m) := by
        rw [srcGenerateFile_body1, seq_next (exec_ite_false h0), seq_skip, exec_expr, he]
        cases Gen.generateMessage w.U t n m <;> simp [leaving, bind, Except.bind, Out.leave]
      rw [List.map_cons, rangeLoop, hr, Gen.generateMessages]
      cases Gen.generateMessage w.U t n m with
      | error p => rfl
      | ok t' =>
        rw [← List.append_assoc]
        exact h2 t'

/-- What a `*CodeGeneratorResponse_File` points to. -/
def readFile (heap : List (V ε)) : V ε → Option OutFile
  | .ref i => match heap[i]? with
    | some (.struct .CodeGeneratorResponse_File [(.Name, .ref a), (.Content, .ref b)]) => match heap[a]?, heap[b]? with
      | some (.str x), some (.str y) => some ⟨x, y⟩
      | _, _ => none
    | _ => none
  | _ => none

/-- The environment of `generateFile`. -/
def fileEnv (i : Nat) (f : FileDesc) : Env ε := [(.indent, .named .StringTreeIndent 0), (.st, .ref (i + 1)), (.buf, .obj i), (.req, filePtrVal (some f))]

theorem newStringTree_call (i : Nat) (x : Text) (s : St σ ε) :
    (gen w (d + 1)).fns none .NewStringTree [.ref i, .str x] s = .ok ([.ref s.heap.length], ⟨s.heap ++ [treeVal (ε' := Empty) (.ref i) (fun _ => .nil) (Gen.newStringTree ([] : Text) x)], s.ext⟩) := by
  rw [fn_newStringTree]
  simp [invoke, srcNewStringTree, flatParams, bindArgs, coerce, exec, eval, get, single, bind, Except.bind, literal, gen_structs, findStruct, generatePackage, descriptorGo, stringtreeGo, fillFields,
    zero, results, treeVal, Gen.newStringTree]

open Lean.Parser.Tactic in
/-- Evaluates the arguments of a `Write` in `generateFile`. -/
macro "ef" : tactic => `(tactic| simp [fileEnv, eval, get, bind, Except.bind, single, heapVar, argVal, Gen.s, filePtrVal, fileVal, select, fieldOf, deref])

/-- What a function that returns two values does after its body. -/
def done2 (r : Out ε × St σ ε) : M (List (V ε) × St σ ε) :=
  match r.1 with
  | .ret [a, b] => .ok ([a, b], r.2)
  | _ => .error .stuck

/-- generate.go:36-50: the text of a file. -/
def fileTree (U : Unicode) (f : FileDesc) : Except GenPanic ST := do
  let st : ST := Gen.newStringTree [] t!"  "
  let st ← st.write Gen.builder [.indent 0, Gen.s t!"// Code generated by protoc-gen-zeropb. DO NOT EDIT.\n\n"]
  let st ← st.write Gen.builder [.indent 0, Gen.s t!"package ", .string f.getPackage, Gen.s t!"\n\n"]
  let st ← st.write Gen.builder [.indent 0, Gen.s t!"import \"github.com/danhhz/zeropb\"", Gen.s t!"\n\n"]
  Gen.generateMessages U 0 st f.messageType

theorem generateFile_tree (U : Unicode) (f : FileDesc) :
    Gen.generateFile U f = fileTree U f >>= fun t => .ok ⟨Gen.replaceAll t!".proto" t!".zeropb.go" f.getName, t.w⟩ := by
  simp only [Gen.generateFile, fileTree, bind_assoc]
  rfl

/-- The memory after `generateFile`. -/
def fileHeap (H J : List (V ε)) (name : Text) (t : ST) : List (V ε) :=
  (.builder t.w :: treeVal (.ref H.length) (fun _ => .nil) t :: J) ++
    [.str name, .str t.w, .struct .CodeGeneratorResponse_File [(.Name, .ref (H.length + J.length + 2)), (.Content, .ref (H.length + J.length + 3))]]

/-- generate.go:36-56 `generateFile`. -/
theorem run_generateFile_tree (H : List (V ε)) (x : σ) (f : FileDesc) : ∃ J,
    (gen w (d + 5)).fns none .generateFile [filePtrVal (some f)] ⟨H, x⟩ =
    lifted (fun t => ([.ref (H.length + J.length + 4), .nil], ⟨H ++ fileHeap H J (Gen.replaceAll t!".proto" t!".zeropb.go" f.getName) t, x⟩)) (fileTree w.U f) := by
  obtain ⟨J, hloop⟩ := messages_loop (w := w) (d := d) H x 0 (fileEnv H.length f) rfl rfl f.messageType []
  refine ⟨J, ?_⟩
  have hd : ∀ s, invoke (gen w (d + 4)) srcGenerateFile [filePtrVal (some f)] s = (exec (gen w (d + 4)) srcGenerateFile.body none [(.req, filePtrVal (some f))] s >>= done2) := fun s => by
    unfold invoke
    refine (congrArg (· >>= _) (show bindArgs _ _ _ = .ok [(.req, filePtrVal (some f))] from rfl)).trans ?_
    simp only [bind, Except.bind]
    cases exec (gen w (d + 4)) srcGenerateFile.body none [(.req, filePtrVal (some f))] s with
    | error e => rfl
    | ok r =>
      obtain ⟨o, s'⟩ := r
      cases o with
      | next e => rfl
      | cont e => rfl
      | ret vs => rcases vs with _ | ⟨a, _ | ⟨b, _ | _⟩⟩ <;> rfl
  rw [fn_generateFile, hd]
  unfold srcGenerateFile fileTree
  rw [seq_next (a := .varRef _ _) (env' := [(.buf, .obj H.length), (.req, filePtrVal (some f))]) (s' := ⟨H ++ [.builder []], x⟩) rfl]
  refine define_step (vs := [.ref (H.length + 1)]) (s' := mk H [] x (Gen.newStringTree [] t!"  ")) ?_ rfl ?_
  · have := newStringTree_call (w := w) (d := d + 3) H.length t!"  " ⟨H ++ [.builder []], x⟩
    simp [eval, get, bind, Except.bind, mk, this, Gen.newStringTree]
  rw [seq_next (a := .var _ _) (env' := fileEnv H.length f) (s' := mk H [] x (Gen.newStringTree [] t!"  ")) rfl]
  refine write_step (fn_write · ·) (by simp [get, fileEnv]) (by ef) (fun _ => ?_)
  have hp := fun s => run_filePackage (w := w) (d := d + 3) (σ := σ) (ε := ε) f s
  refine write_step (fn_write · ·) (as := [.indent 0, .string t!"package ", .string f.getPackage, .string t!"\n\n"]) (by simp [get, fileEnv]) (by
    simp only [filePtrVal, Option.map_some] at hp
    simp [fileEnv, eval, get, bind, Except.bind, single, heapVar, callMethod, recvType, filePtrVal, argVal, hp]) (fun _ => ?_)
  refine write_step (fn_write · ·) (by simp [get, fileEnv]) (by ef) (fun _ => ?_)
  rename_i t
  rw [← bind_ok (Gen.generateMessages w.U 0 t f.messageType)]
  refine range_step (by ef) (hloop t) (fun t => ?_)
  simp only [List.nil_append]
  have hn := fun s => run_fileName (w := w) (d := d + 3) (σ := σ) (ε := ε) f s
  simp only [filePtrVal, Option.map_some] at hn
  rw [seq_next (a := .defineRef _ _) (env' := (.name, .obj (H.length + J.length + 2)) :: fileEnv H.length f)
    (s' := mk H (J ++ [.str (Gen.replaceAll t!".proto" t!".zeropb.go" f.getName)]) x t) (by
      simp [exec_defineRef, fileEnv, eval, get, bind, Except.bind, single, heapVar, callMethod, recvType, filePtrVal, hn, library, mk]
      omega)]
  rw [seq_next (a := .defineRef _ _) (env' := (.content, .obj (H.length + J.length + 3)) :: (.name, .obj (H.length + J.length + 2)) :: fileEnv H.length f)
    (s' := mk H (J ++ [.str (Gen.replaceAll t!".proto" t!".zeropb.go" f.getName), .str t.w]) x t) (by
      simp [exec_defineRef, fileEnv, eval, get, bind, Except.bind, single, heapVar, callMethod, mk]
      omega)]
  refine define_step (vs := [.ref (H.length + J.length + 4)]) (env' := (.res, .ref (H.length + J.length + 4)) :: (.content, .obj (H.length + J.length + 3)) :: (.name, .obj (H.length + J.length + 2)) :: fileEnv H.length f)
    (s' := ⟨H ++ fileHeap H J (Gen.replaceAll t!".proto" t!".zeropb.go" f.getName) t, x⟩) ?_ rfl ?_
  · simp [eval, get, bind, Except.bind, single, literal, gen_structs, findStruct, generatePackage, descriptorGo, stringtreeGo, generateGo, mk, fileHeap]
    omega
  · rw [seq_skip]
    simp [exec_retVal, eval, get, bind, Except.bind, done2]

theorem readFile_fileHeap (H J : List (V ε)) (name : Text) (t : ST) : readFile (H ++ fileHeap H J name t) (.ref (H.length + J.length + 4)) = some ⟨name, t.w⟩ := by
  have h1 : (H ++ fileHeap H J name t)[H.length + J.length + 4]? =
      some (.struct .CodeGeneratorResponse_File [(.Name, .ref (H.length + J.length + 2)), (.Content, .ref (H.length + J.length + 3))]) := by
    rw [List.getElem?_append_right (by omega), fileHeap, List.getElem?_append_right (by simp; omega)]
    have : H.length + J.length + 4 - H.length - (V.builder t.w :: treeVal (.ref H.length) (fun _ => .nil) t :: J).length = 2 := by simp; omega
    rw [this]; rfl
  have h2 : (H ++ fileHeap H J name t)[H.length + J.length + 2]? = some (.str name) := by
    rw [List.getElem?_append_right (by omega), fileHeap, List.getElem?_append_right (by simp; omega)]
    have : H.length + J.length + 2 - H.length - (V.builder t.w :: treeVal (.ref H.length) (fun _ => .nil) t :: J).length = 0 := by simp; omega
    rw [this]; rfl
  have h3 : (H ++ fileHeap H J name t)[H.length + J.length + 3]? = some (.str t.w) := by
    rw [List.getElem?_append_right (by omega), fileHeap, List.getElem?_append_right (by simp; omega)]
    have : H.length + J.length + 3 - H.length - (V.builder t.w :: treeVal (.ref H.length) (fun _ => .nil) t :: J).length = 1 := by simp; omega
    rw [this]; rfl
  simp [readFile, h1, h2, h3]

/-- `readFile` does not depend on what is allocated later. -/
theorem readFile_append {heap : List (V ε)} {v : V ε} {o : OutFile} (h : readFile heap v = some o) (H' : List (V ε)) : readFile (heap ++ H') v = some o := by
  have hg : ∀ (i : Nat) (u : V ε), heap[i]? = some u → (heap ++ H')[i]? = some u := fun i u hu => by
    rw [List.getElem?_append_left (List.getElem?_eq_some_iff.mp hu).1]; exact hu
  unfold readFile at h
  split at h
  · split at h
    · rename_i hs
      split at h
      · rename_i hx hy
        simp [readFile, hg _ _ hs, hg _ _ hx, hg _ _ hy, h]
      · cases h
    · cases h
  · cases h

/-- generate.go:36-56 `generateFile`. -/
theorem run_generateFile (H : List (V ε)) (x : σ) (f : FileDesc) : ∃ (j : Nat) (H' : OutFile → List (V ε)),
    (gen w (d + 5)).fns none .generateFile [filePtrVal (some f)] ⟨H, x⟩ = lifted (fun o => ([.ref j, .nil], ⟨H ++ H' o, x⟩)) (Gen.generateFile w.U f) ∧
    ∀ o, Gen.generateFile w.U f = .ok o → readFile (H ++ H' o) (.ref j) = some o := by
  obtain ⟨J, h⟩ := run_generateFile_tree (w := w) (d := d) H x f
  cases ht : fileTree w.U f with
  | error p => exact ⟨0, fun _ => [], by rw [h, generateFile_tree, ht]; rfl, by rw [generateFile_tree, ht]; intro o ho; cases ho⟩
  | ok t =>
    refine ⟨H.length + J.length + 4, fun _ => fileHeap H J (Gen.replaceAll t!".proto" t!".zeropb.go" f.getName) t, by rw [h, generateFile_tree, ht]; rfl, ?_⟩
    rw [generateFile_tree, ht]; intro o ho; cases ho
    exact readFile_fileHeap ..

/-! ## Generate -/

/-- What a `*CodeGeneratorResponse` points to. -/
def readResponse (heap : List (V ε)) : V ε → Option (List OutFile)
  | .ref i => match heap[i]? with
    | some (.struct .CodeGeneratorResponse [(.File, .list vs)]) => vs.mapM (readFile heap)
    | _ => none
  | _ => none

/-- The environment of `Generate`. -/
def genEnv (rv : V ε) (ks : List Text) (vs : List (V ε)) : Env ε := [(.files, .list vs), (.filesToGenerate, .set ks), (.req, rv)]

/-- generate.go:12-15. -/
theorem set_loop (rv : V ε) (s : St σ ε) (ks fs : List Text) :
    rangeLoop (fun v env s => leaving env.length (exec (gen w d) srcGenerate_body1 none ((.f, v) :: env) s)) (fs.map .str) [(.filesToGenerate, .set ks), (.req, rv)] s =
    .ok (.next [(.filesToGenerate, .set (ks ++ fs)), (.req, rv)], s) := by
  induction fs generalizing ks with
  | nil => simp [rangeLoop]
  | cons f fs ih =>
    have h : leaving [(Id.filesToGenerate, V.set (ε := ε) ks), (.req, rv)].length (exec (gen w d) srcGenerate_body1 none [(.f, .str f), (.filesToGenerate, .set ks), (.req, rv)] s) =
        .ok (.next [(.filesToGenerate, .set (ks ++ [f])), (.req, rv)], s) := by
      simp [srcGenerate_body1, exec_seq, exec_assign, exec_skip, eval, get, bind, Except.bind, single, assignTo, put, leaving, Out.leave]
    rw [List.map_cons, rangeLoop, h]
    have := ih (ks ++ [f])
    rw [List.append_assoc] at this
    exact this

/-- generate.go:16-29. -/
theorem files_loop (rv : V ε) (x : σ) (ks : List Text) (fs : List (Option FileDesc)) (H : List (V ε)) (vs : List (V ε)) (acc : List OutFile)
    (hv : vs.map (readFile H) = acc.map some) :
    ∃ (vs' : List OutFile → List (V ε)) (H' : List OutFile → List (V ε)),
    rangeLoop (fun v env s => leaving env.length (exec (gen w (d + 5)) srcGenerate_body2 none ((.fileReq, v) :: env) s)) (fs.map filePtrVal) (genEnv rv ks vs) ⟨H, x⟩ =
      lifted (fun files => (.next (genEnv rv ks (vs' files)), ⟨H ++ H' files, x⟩)) (Gen.generateFiles w.U ks acc fs) ∧
    ∀ files, Gen.generateFiles w.U ks acc fs = .ok files → (vs' files).map (readFile (H ++ H' files)) = files.map some := by
  induction fs generalizing H vs acc with
  | nil =>
    refine ⟨fun _ => vs, fun _ => [], by simp [rangeLoop, Gen.generateFiles], fun files h => ?_⟩
    simp only [Gen.generateFiles, Except.ok.injEq] at h
    simpa [← h] using hv
  | cons f fs ih =>
    cases f with
    | none =>
      obtain ⟨vs', H', h1, h2⟩ := ih H vs acc hv
      refine ⟨vs', H', ?_, by simpa [Gen.generateFiles] using h2⟩
      have hr : leaving (genEnv rv ks vs).length (exec (gen w (d + 5)) srcGenerate_body2 none ((.fileReq, filePtrVal none) :: genEnv rv ks vs) ⟨H, x⟩) = .ok (.cont (genEnv rv ks vs), ⟨H, x⟩) := by
        simp [srcGenerate_body2, exec_seq, exec_ite, exec_continue, eval, get, filePtrVal, bind, Except.bind, single, binop, equal, isNil, leaving, Out.leave]
      rw [List.map_cons, rangeLoop, hr, Gen.generateFiles]
      exact h1
    | some f =>
      have h0 : eval (gen w (d + 5)) ((.fileReq, filePtrVal (some f)) :: genEnv rv ks vs) (.bin .eq (.id .fileReq) .nil) ⟨H, x⟩ = .ok ([.bool false], ⟨H, x⟩) := by
        simp [eval, get, filePtrVal, bind, Except.bind, single, binop, equal, isNil]
      have hn := fun s => run_fileName (w := w) (d := d + 4) (σ := σ) (ε := ε) f s
      simp only [filePtrVal, Option.map_some] at hn
      have h1 : exec (gen w (d + 5)) (.define [none, some .ok] (.index (.id .filesToGenerate) (.method (.id .fileReq) .GetName .noArgs))) none ((.fileReq, filePtrVal (some f)) :: genEnv rv ks vs) ⟨H, x⟩ =
          .ok (.next ((.ok, .bool (decide (f.getName ∈ ks))) :: (.fileReq, filePtrVal (some f)) :: genEnv rv ks vs), ⟨H, x⟩) := by
        simp [exec_define, eval, get, genEnv, bind, Except.bind, single, heapVar, callMethod, recvType, filePtrVal, hn, bindNames]
      have h2 : eval (gen w (d + 5)) ((.ok, .bool (decide (f.getName ∈ ks))) :: (.fileReq, filePtrVal (some f)) :: genEnv rv ks vs) (.not (.id .ok)) ⟨H, x⟩ =
          .ok ([.bool (!decide (f.getName ∈ ks))], ⟨H, x⟩) := by
        simp [eval, get, bind, Except.bind]
      by_cases hm : f.getName ∈ ks
      · obtain ⟨j, H1, hg, hread⟩ := run_generateFile (w := w) (d := d) H x f
        simp only [hm, decide_true, Bool.not_true] at h1 h2
        have hi : exec (gen w (d + 5)) (.iteInit (.define [none, some .ok] (.index (.id .filesToGenerate) (.method (.id .fileReq) .GetName .noArgs))) (.not (.id .ok)) (.seq .continue_ .skip)) none
            ((.fileReq, filePtrVal (some f)) :: genEnv rv ks vs) ⟨H, x⟩ = .ok (.next ((.fileReq, filePtrVal (some f)) :: genEnv rv ks vs), ⟨H, x⟩) := by
          rw [exec_iteInit, h1]
          simp only [bind, Except.bind, h2]
          simp [leaving, bind, Except.bind, Out.leave, genEnv]
        cases hf : Gen.generateFile w.U f with
        | error p =>
          refine ⟨fun _ => [], fun _ => [], ?_, fun files h => by simp [Gen.generateFiles, hm, hf, bind, Except.bind] at h⟩
          have he : eval (gen w (d + 5)) ((.fileReq, filePtrVal (some f)) :: genEnv rv ks vs) (.call .generateFile (.arg (.id .fileReq))) ⟨H, x⟩ = .error (.panic p) := by
            rw [hf] at hg
            simp only [filePtrVal] at hg
            simp only [eval, get, filePtrVal, bind, Except.bind, if_true]
            exact hg
          have hr : leaving (genEnv rv ks vs).length (exec (gen w (d + 5)) srcGenerate_body2 none ((.fileReq, filePtrVal (some f)) :: genEnv rv ks vs) ⟨H, x⟩) = .error (.panic p) := by
            rw [srcGenerate_body2, seq_next (exec_ite_false h0), seq_next hi, exec_seq, exec_define, he]; rfl
          rw [List.map_cons, rangeLoop, hr]
          simp [Gen.generateFiles, hm, hf, bind, Except.bind]
        | ok o =>
          have hread := hread o hf
          obtain ⟨vs', H', h3, h4⟩ := ih (H ++ H1 o) (vs ++ [.ref j]) (acc ++ [o]) (by
            simp only [List.map_append, List.map_cons, List.map_nil, hread]
            congr 1
            rw [← hv]
            apply List.map_congr_left
            intro v hvm
            have : readFile H v ∈ acc.map some := by rw [← hv]; exact List.mem_map_of_mem hvm
            obtain ⟨o', _, ho'⟩ := List.mem_map.mp this
            rw [← ho']
            exact readFile_append ho'.symm _)
          refine ⟨vs', fun fl => H1 o ++ H' fl, ?_, fun files h => ?_⟩
          · have he : eval (gen w (d + 5)) ((.fileReq, filePtrVal (some f)) :: genEnv rv ks vs) (.call .generateFile (.arg (.id .fileReq))) ⟨H, x⟩ = .ok ([.ref j, .nil], ⟨H ++ H1 o, x⟩) := by
              rw [hf] at hg
              simp only [filePtrVal] at hg
              simp only [eval, get, filePtrVal, bind, Except.bind, if_true]
              exact hg
            have hd : exec (gen w (d + 5)) (.define [some .fileRes, some .err] (.call .generateFile (.arg (.id .fileReq)))) none ((.fileReq, filePtrVal (some f)) :: genEnv rv ks vs) ⟨H, x⟩ =
                .ok (.next ((.err, .nil) :: (.fileRes, .ref j) :: (.fileReq, filePtrVal (some f)) :: genEnv rv ks vs), ⟨H ++ H1 o, x⟩) := by
              rw [exec_define, he]; rfl
            have hr : leaving (genEnv rv ks vs).length (exec (gen w (d + 5)) srcGenerate_body2 none ((.fileReq, filePtrVal (some f)) :: genEnv rv ks vs) ⟨H, x⟩) =
                .ok (.next (genEnv rv ks (vs ++ [.ref j])), ⟨H ++ H1 o, x⟩) := by
              rw [srcGenerate_body2, seq_next (exec_ite_false h0), seq_next hi, seq_next hd,
                seq_next (exec_ite_false (s' := ⟨H ++ H1 o, x⟩) (by simp [eval, get, bind, Except.bind, single, binop, equal, isNil])), seq_skip]
              simp [exec_assign, eval, get, genEnv, bind, Except.bind, single, assignTo, put, leaving, Out.leave]
            rw [List.map_cons, rangeLoop, hr]
            simp only [Gen.generateFiles, hm, if_true, hf, ← List.append_assoc]
            exact h3
          · simp only [Gen.generateFiles, hm, if_true, hf, bind, Except.bind] at h
            rw [← List.append_assoc]
            exact h4 files h
      · simp only [hm, decide_false, Bool.not_false] at h1 h2
        obtain ⟨vs', H', h3, h4⟩ := ih H vs acc hv
        refine ⟨vs', H', ?_, by simpa [Gen.generateFiles, hm] using h4⟩
        have hi : exec (gen w (d + 5)) (.iteInit (.define [none, some .ok] (.index (.id .filesToGenerate) (.method (.id .fileReq) .GetName .noArgs))) (.not (.id .ok)) (.seq .continue_ .skip)) none
            ((.fileReq, filePtrVal (some f)) :: genEnv rv ks vs) ⟨H, x⟩ = .ok (.cont ((.fileReq, filePtrVal (some f)) :: genEnv rv ks vs), ⟨H, x⟩) := by
          rw [exec_iteInit, h1]
          simp only [bind, Except.bind, h2]
          simp [leaving, bind, Except.bind, Out.leave, genEnv, seq_skip, exec_continue]
        have hr : leaving (genEnv rv ks vs).length (exec (gen w (d + 5)) srcGenerate_body2 none ((.fileReq, filePtrVal (some f)) :: genEnv rv ks vs) ⟨H, x⟩) = .ok (.cont (genEnv rv ks vs), ⟨H, x⟩) := by
          rw [srcGenerate_body2, seq_next (exec_ite_false h0), exec_seq, hi]
          simp [bind, Except.bind, leaving, Out.leave, genEnv]
        rw [List.map_cons, rangeLoop, hr]
        simp only [Gen.generateFiles, hm, if_false]
        exact h3

theorem mapM_of_map {α β : Type} (g : α → Option β) (vs : List α) (bs : List β) (h : vs.map g = bs.map some) : vs.mapM g = some bs := by
  induction vs generalizing bs with
  | nil => cases bs with
    | nil => rfl
    | cons b bs => cases h
  | cons v vs ih =>
    cases bs with
    | nil => cases h
    | cons b bs =>
      simp only [List.map_cons, List.cons.injEq] at h
      simp [List.mapM_cons, h.1, ih bs h.2]

/-- The fields of the request. -/
theorem select_request (s : St σ ε) (i : Nat) (r : Request) (hi : s.heap[i]? = some (requestVal r)) :
    select s .FileToGenerate (.ref i) = .ok (.list (r.fileToGenerate.map .str)) ∧ select s .ProtoFile (.ref i) = .ok (.list (r.protoFile.map filePtrVal)) := by
  constructor <;> simp [select, deref, hi, requestVal, fieldOf, get, bind, Except.bind]

/-- generate.go:11-32 `Generate`. -/
theorem run_generate (H : List (V ε)) (x : σ) (i : Nat) (r : Request) (hi : H[i]? = some (requestVal r)) : ∃ (j : List OutFile → Nat) (H' : List OutFile → List (V ε)),
    (gen w (d + 6)).fns none .Generate [.ref i] ⟨H, x⟩ = lifted (fun o => ([.ref (j o), .nil], ⟨H ++ H' o, x⟩)) (Gen.generate w.U r) ∧
    ∀ o, Gen.generate w.U r = .ok o → readResponse (H ++ H' o) (.ref (j o)) = some o := by
  obtain ⟨s1, s2⟩ := select_request (σ := σ) ⟨H, x⟩ i r hi
  obtain ⟨vs', H', h1, h2⟩ := files_loop (w := w) (d := d) (.ref i) x r.fileToGenerate r.protoFile H [] [] rfl
  refine ⟨fun o => (H ++ H' o).length, fun o => H' o ++ [.struct .CodeGeneratorResponse [(.File, .list (vs' o))]], ?_, fun o ho => ?_⟩
  · rw [fn_generate]
    have hd : invoke (gen w (d + 5)) srcGenerate [.ref i] ⟨H, x⟩ = (exec (gen w (d + 5)) srcGenerate.body none [(.req, .ref i)] ⟨H, x⟩ >>= done2) := by
      unfold invoke
      refine (congrArg (· >>= _) (show bindArgs _ _ _ = .ok [(.req, .ref i)] from rfl)).trans ?_
      simp only [bind, Except.bind]
      cases exec (gen w (d + 5)) srcGenerate.body none [(.req, .ref i)] ⟨H, x⟩ with
      | error e => rfl
      | ok r =>
        obtain ⟨o, s'⟩ := r
        cases o with
        | next e => rfl
        | cont e => rfl
        | ret vs => rcases vs with _ | ⟨a, _ | ⟨b, _ | _⟩⟩ <;> rfl
    rw [hd]
    unfold srcGenerate
    simp only
    rw [seq_next (a := .define _ _) (env' := [(.filesToGenerate, .set []), (.req, .ref i)]) (s' := ⟨H, x⟩) rfl]
    have hs := set_loop (w := w) (d := d + 5) (.ref i) ⟨H, x⟩ [] r.fileToGenerate
    rw [List.nil_append] at hs
    rw [seq_next (a := .range _ _ _) (env' := [(.filesToGenerate, .set r.fileToGenerate), (.req, .ref i)]) (s' := ⟨H, x⟩) (by
      simp only [exec_range, eval, get, reduceCtorEq, if_false, if_true, bind, Except.bind, single, s1]
      exact hs)]
    rw [seq_next (a := .define _ _) (env' := genEnv (.ref i) r.fileToGenerate []) (s' := ⟨H, x⟩) (by
      simp [exec_define, eval, get, bind, Except.bind, bindNames, genEnv])]
    rw [Gen.generate, ← bind_ok (Gen.generateFiles ..)]
    refine range_step (vs := r.protoFile.map filePtrVal) (s1 := ⟨H, x⟩) (by
      simp only [genEnv, eval, get, reduceCtorEq, if_false, if_true, bind, Except.bind, single, s2]) h1 (fun o => ?_)
    simp only [exec_seq, exec_define, exec_retVal, genEnv, eval, get, reduceCtorEq, if_false, if_true, bind, Except.bind, single, literal, gen_structs, bindNames]
    simp [findStruct, generatePackage, descriptorGo, stringtreeGo, generateGo, done2, bindNames, get]
  · have := h2 o ho
    have hmap : (vs' o).mapM (readFile (H ++ (H' o ++ [.struct .CodeGeneratorResponse [(.File, .list (vs' o))]]))) = some o := by
      apply mapM_of_map
      rw [← this]
      apply List.map_congr_left
      intro v hvm
      have hm : readFile (H ++ H' o) v ∈ o.map some := by rw [← this]; exact List.mem_map_of_mem hvm
      obtain ⟨o', _, ho'⟩ := List.mem_map.mp hm
      rw [← ho', ← List.append_assoc]
      exact readFile_append ho'.symm _
    rw [readResponse]
    rw [show (H ++ (H' o ++ [V.struct Id.CodeGeneratorResponse [(Id.File, .list (vs' o))]]))[(H ++ H' o).length]? = some (.struct .CodeGeneratorResponse [(.File, .list (vs' o))]) by
      rw [← List.append_assoc]; simp]
    exact hmap

end Zeropb.GoSrc.T
