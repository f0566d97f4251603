import Verif.GoSrc.ToolFns
/-!
# The source of generate.go computes the model
-/

set_option linter.unusedSimpArgs false
set_option linter.constructorNameAsVariable false

namespace Zeropb.GoSrc.T
open Zeropb.Gen (Text Unicode Writer GenPanic StringTree Arg Field FieldPtr Desc FileDesc Request OutFile ST)

variable {σ ε : Type} {w : World σ ε} {d : Nat}

/-- The state while a file is generated: the heap `H` before, the builder, the StringTree, and what was allocated since. -/
def mk (H J : List (V ε)) (x : σ) (t : ST) : St σ ε :=
  ⟨H ++ .builder t.w :: treeVal (.ref H.length) (fun _ => .nil) t :: J, x⟩

theorem mk_device (H J : List (V ε)) (x : σ) (k : Ctx σ ε) : Device k Gen.builder (H.length + 1) (.ref H.length) (fun _ => .nil) (mk H J x) where
  read t := by simp [mk]
  isNil o := by
    cases o with
    | none => rfl
    | some e => exact e.elim
  write t y := by
    simp [callMethod, mk, Gen.builder, treeVal]
  set t o := by
    simp [mk, treeVal, List.set_append]

theorem mk_push (H J : List (V ε)) (x : σ) (t : ST) (v : V ε) : (⟨(mk H J x t).heap ++ [v], (mk H J x t).ext⟩ : St σ ε) = mk H (J ++ [v]) x t := by
  simp [mk]

/-- `st.Write(args)`. -/
theorem write_step {k : Ctx σ ε} (hk : ∀ vs s, k.fns (some .StringTree) .Write vs s = invoke (gen w d) srcStringTree_Write vs s)
    {H J : List (V ε)} {x : σ} {env : Env ε} (hst : get .st env = some (.ref (H.length + 1))) {v : Option (V ε)} {args : Expr} {rest : Stmt} {t : ST}
    {as : List Arg} (ha : eval k env args (mk H J x t) = .ok (as.map argVal, mk H J x t)) {β γ : Type} {P : Out ε × St σ ε → M γ} {F : β → γ} {m : ST → Except GenPanic β}
    (hr : ∀ t', (exec k rest none env (mk H J x t') >>= P) = lifted F (m t')) :
    (exec k (.seq (.expr (.method (.id .st) .Write args)) rest) v env (mk H J x t) >>= P) = lifted F (t.write Gen.builder as >>= m) := by
  have hw := invoke_write (mk_device H J x (gen w d)) as t
  have h1 : (mk H J x t).heap[H.length + 1]? = some (treeVal (.ref H.length) (fun _ => .nil) t) := (mk_device H J x k).read t
  simp only [bind, Except.bind] at hr ⊢
  simp only [exec_seq, exec_expr, eval, heapVar, hst, bind, Except.bind, single, ha, callMethod, h1, treeVal, hk, hw]
  cases t.write Gen.builder as with
  | error p => rfl
  | ok t' => simp only [lifted_ok, hr]

/-- The last `st.Write(args)`. -/
theorem write_last {k : Ctx σ ε} (hk : ∀ vs s, k.fns (some .StringTree) .Write vs s = invoke (gen w d) srcStringTree_Write vs s)
    {H J : List (V ε)} {x : σ} {env : Env ε} (hst : get .st env = some (.ref (H.length + 1))) {v : Option (V ε)} {args : Expr} {rest : Stmt} {t : ST}
    {as : List Arg} (ha : eval k env args (mk H J x t) = .ok (as.map argVal, mk H J x t)) {γ : Type} {P : Out ε × St σ ε → M γ} {F : ST → γ}
    (hr : ∀ t', (exec k rest none env (mk H J x t') >>= P) = .ok (F t')) :
    (exec k (.seq (.expr (.method (.id .st) .Write args)) rest) v env (mk H J x t) >>= P) = lifted F (t.write Gen.builder as) := by
  rw [write_step hk hst ha (m := Except.ok) hr]
  cases t.write Gen.builder as <;> rfl

/-- A declaration that cannot fail. -/
theorem define_step {k : Ctx σ ε} {xs : List (Option Id)} {e : Expr} {rest : Stmt} {v : Option (V ε)} {env env' : Env ε} {s s' : St σ ε} {vs : List (V ε)}
    (he : eval k env e s = .ok (vs, s')) (hb : bindNames xs vs env = .ok env') {γ : Type} {P : Out ε × St σ ε → M γ} {r : M γ}
    (hr : (exec k rest none env' s' >>= P) = r) :
    (exec k (.seq (.define xs e) rest) v env s >>= P) = r := by
  rw [← hr]
  simp only [exec_seq, exec_define, he, hb, bind, Except.bind]

/-- A declaration that can panic. -/
theorem define_lift {k : Ctx σ ε} {xs : List (Option Id)} {e : Expr} {rest : Stmt} {v : Option (V ε)} {env : Env ε} {s : St σ ε} (s' : St σ ε) {α β γ : Type}
    {r : Except GenPanic α} {vals : α → List (V ε)} {env' : α → Env ε} (he : eval k env e s = lifted (fun a => (vals a, s')) r)
    (hb : ∀ a, bindNames xs (vals a) env = .ok (env' a)) {P : Out ε × St σ ε → M γ} {F : β → γ} {m : α → Except GenPanic β}
    (hr : ∀ a, (exec k rest none (env' a) s' >>= P) = lifted F (m a)) :
    (exec k (.seq (.define xs e) rest) v env s >>= P) = lifted F (r >>= m) := by
  simp only [bind, Except.bind] at hr ⊢
  simp only [exec_seq, exec_define, he, bind, Except.bind]
  cases r with
  | error p => rfl
  | ok a => simp only [lifted_ok, hb, hr]

/-- What a function without results does after its body. -/
def done (r : Out ε × St σ ε) : M (List (V ε) × St σ ε) :=
  match r.1 with
  | .next _ => .ok ([], r.2)
  | .ret [] => .ok ([], r.2)
  | _ => .error .stuck

theorem invoke_done (k : Ctx σ ε) (f : Func) (vs : List (V ε)) (s : St σ ε) (hf : f.results = []) (env : Env ε)
    (hb : bindArgs ((match f.recv with | none => [] | some p => [p]) ++ flatParams f.params) f.variadic vs = .ok env) :
    invoke k f vs s = (exec k f.body none env s >>= done) := by
  unfold invoke
  refine (congrArg (· >>= _) hb).trans ?_
  simp only [bind, Except.bind, hf]
  cases exec k f.body none env s with
  | error e => rfl
  | ok r =>
    obtain ⟨o, s'⟩ := r
    cases o with
    | next e => rfl
    | cont e => rfl
    | ret vs => cases vs <;> rfl

section
variable (f : Field) (s : St σ ε)
/-- The struct of a field. -/
abbrev fieldStruct (f : Field) : V ε := .struct .FieldDescriptorProto
  [(.Name, strPtr f.name), (.Number, .box .int32 (f.number.map .i32)),
   (.Label, .box .FieldDescriptorProto_Label (f.label.map (.named .FieldDescriptorProto_Label))),
   (.Type, .box .FieldDescriptorProto_Type (f.type.map (.named .FieldDescriptorProto_Type))), (.TypeName, strPtr f.typeName)]
theorem fieldPtr_some : (.box .FieldDescriptorProto (some (fieldStruct f)) : V ε) = fieldPtrVal (some f) := rfl
end

theorem run_next' (n : Int) (s : St σ ε) :
    (gen w (d + 1)).fns (some .StringTreeIndent) .Next [.named .StringTreeIndent n] s = .ok ([.named .StringTreeIndent (Gen.next n)], s) := run_next (w := w) (d := d) n s

open Lean.Parser.Tactic in
/-- Evaluates the arguments of a `Write`. -/
macro "ev" : tactic => `(tactic| simp [eval, get, bind, Except.bind, single, heapVar, run_next', fieldVal, callMethod, recvType, fieldPtr_some, run_getNumber, run_getName, run_getType, run_getTypeName, gen_consts, const_offsets, argVal, binop, convert, Gen.s, run_toGoCase, mk_push, run_message, run_simple])

open Lean.Parser.Tactic in
/-- One `st.Write` that is not the last statement. -/
macro "wr" : tactic => `(tactic| refine write_step (fn_write · ·) (by simp [get]) (by ev) (fun _ => ?_))

open Lean.Parser.Tactic in
/-- The last statement of a function. -/
macro "wrl" : tactic => `(tactic| (refine write_last (fn_write · ·) (by simp [get]) (by ev) (fun _ => ?_); rfl))

/-- The environment of the functions that generate a field. -/
def fieldEnv (i : Nat) (n : Int) (msg : Text) (f : Field) : Env ε :=
  [(.st, .ref i), (.indent, .named .StringTreeIndent n), (.messageGoType, .str msg), (.f, fieldVal f)]

/-- What the functions that generate a field leave behind. -/
abbrev junk (U : Unicode) (J : List (V ε)) (f : Field) : List (V ε) := J ++ [.bool (caseEnd U true (Gen.getName (some f)))]

/-- generate.go:125-138 `generateSimpleField`. -/
theorem run_simpleField (H J : List (V ε)) (x : σ) (t : ST) (n : Int) (msg : Text) (f : Field) :
    (gen w (d + 3)).fns none .generateSimpleField [.ref (H.length + 1), .named .StringTreeIndent n, .str msg, fieldVal f] (mk H J x t) =
    lifted (fun t' => ([], mk H (junk w.U J f) x t')) (Gen.generateSimpleField w.U t n msg (some f)) := by
  rw [fn_generateSimpleField, invoke_done _ _ _ _ rfl (fieldEnv (H.length + 1) n msg f) rfl]
  unfold srcGenerateSimpleField Gen.generateSimpleField fieldEnv
  refine define_step (vs := [.str (Gen.toGoCase w.U (Gen.getName (some f)))]) (s' := mk H (junk w.U J f) x t) (by ev) rfl ?_
  refine define_lift (mk H (junk w.U J f) x t) (r := Gen.fieldToGoTypeSimple (Gen.getType (some f))) (vals := fun p => [.str p.1, .str p.2]) (by ev) (fun a => rfl) (fun a => ?_)
  obtain ⟨goType, fnName⟩ := a
  wr; wr; wr; wr; wr; wrl

/-- generate.go:140-158 `generateMessageField`. -/
theorem run_messageField (H J : List (V ε)) (x : σ) (t : ST) (n : Int) (msg : Text) (f : Field) :
    (gen w (d + 3)).fns none .generateMessageField [.ref (H.length + 1), .named .StringTreeIndent n, .str msg, fieldVal f] (mk H J x t) =
    lifted (fun t' => ([], mk H (junk w.U J f) x t')) (Gen.generateMessageField w.U t n msg (some f)) := by
  rw [fn_generateMessageField, invoke_done _ _ _ _ rfl (fieldEnv (H.length + 1) n msg f) rfl]
  unfold srcGenerateMessageField Gen.generateMessageField fieldEnv
  refine define_step (vs := [.str (Gen.toGoCase w.U (Gen.getName (some f)))]) (s' := mk H (junk w.U J f) x t) (by ev) rfl ?_
  refine define_step (vs := [.str (Gen.fieldToGoTypeMessage (Gen.getTypeName (some f)))]) (s' := mk H (junk w.U J f) x t) (by ev) rfl ?_
  wr; wr; wr; wr; wr; wr; wr; wr; wr; wr; wrl

/-- generate.go:160-186 `generateRepeatedMessageField`. -/
theorem run_repeatedMessageField (H J : List (V ε)) (x : σ) (t : ST) (n : Int) (msg : Text) (f : Field) :
    (gen w (d + 3)).fns none .generateRepeatedMessageField [.ref (H.length + 1), .named .StringTreeIndent n, .str msg, fieldVal f] (mk H J x t) =
    lifted (fun t' => ([], mk H (junk w.U J f) x t')) (Gen.generateRepeatedMessageField w.U t n msg (some f)) := by
  rw [fn_generateRepeatedMessageField, invoke_done _ _ _ _ rfl (fieldEnv (H.length + 1) n msg f) rfl]
  unfold srcGenerateRepeatedMessageField Gen.generateRepeatedMessageField fieldEnv
  refine define_step (vs := [.str (Gen.toGoCase w.U (Gen.getName (some f)))]) (s' := mk H (junk w.U J f) x t) (by ev) rfl ?_
  refine define_step (vs := [.str (Gen.fieldToGoTypeMessage (Gen.getTypeName (some f)))]) (s' := mk H (junk w.U J f) x t) (by ev) rfl ?_
  refine define_step (vs := [.str (msg ++ Gen.fieldToGoTypeMessage (Gen.getTypeName (some f)) ++ t!"Iterator")]) (s' := mk H (junk w.U J f) x t) (by ev) rfl ?_
  wr; wr; wr; wr; wr; wr; wr; wr; wr; wr; wr; wr; wr; wr; wr; wrl

/-! ## Messages -/

/-- A loop. -/
theorem range_step {k : Ctx σ ε} {y : Id} {e : Expr} {b rest : Stmt} {v : Option (V ε)} {env : Env ε} {s s1 : St σ ε} {vs : List (V ε)} {α β γ : Type}
    {r : Except GenPanic α} {env' : α → Env ε} {s' : α → St σ ε} (he : eval k env e s = .ok ([.list vs], s1))
    (hl : rangeLoop (fun v env s => leaving env.length (exec k b none ((y, v) :: env) s)) vs env s1 = lifted (fun a => (.next (env' a), s' a)) r)
    {P : Out ε × St σ ε → M γ} {F : β → γ} {m : α → Except GenPanic β} (hr : ∀ a, (exec k rest none (env' a) (s' a) >>= P) = lifted F (m a)) :
    (exec k (.seq (.range y e b) rest) v env s >>= P) = lifted F (r >>= m) := by
  simp only [bind, Except.bind] at hr ⊢
  simp only [exec_seq, exec_range, he, hl, bind, Except.bind]
  cases r with
  | error p => rfl
  | ok a => simp only [lifted_ok, hr]

theorem exec_ite_true {k : Ctx σ ε} {e : Expr} {b : Stmt} {v : Option (V ε)} {env : Env ε} {s s' : St σ ε} (he : eval k env e s = .ok ([.bool true], s')) :
    exec k (.ite e b) v env s = leaving env.length (exec k b none env s') := by
  simp only [exec_ite, he, bind, Except.bind]

theorem exec_ite_false {k : Ctx σ ε} {e : Expr} {b : Stmt} {v : Option (V ε)} {env : Env ε} {s s' : St σ ε} (he : eval k env e s = .ok ([.bool false], s')) :
    exec k (.ite e b) v env s = .ok (.next env, s') := by
  simp only [exec_ite, he, bind, Except.bind]

/-- The environment of `generateMessage`. -/
def messageEnv (i : Nat) (n : Int) (m : Desc) (l : U32) : Env ε :=
  [(.largestFieldID, .i32 l), (.messageGoType, .str m.getName), (.st, .ref i), (.indent, .named .StringTreeIndent n), (.m, descVal m)]

theorem deref_fieldPtr (f : Field) (s : St σ ε) : deref s (fieldPtrVal (some f)) = .ok (fieldVal f) := rfl

theorem bind_okM {α : Type} (r : M α) : (r >>= fun a => .ok a) = r := by cases r <;> rfl

theorem binop_gt (a b : U32) : binop .gt (.i32 a) (.i32 b) = .ok (V.bool (ε := ε) (decide (a.toInt > b.toInt))) := by rw [binop]

theorem eval_bin {k : Ctx σ ε} {env : Env ε} {op : Op} {a b : Expr} {x y v : V ε} {s s1 s2 : St σ ε} (hop : op ≠ .land) (ha : eval k env a s = .ok ([x], s1))
    (hb : eval k env b s1 = .ok ([y], s2)) (hv : binop op x y = .ok v) : eval k env (.bin op a b) s = .ok ([v], s2) := by
  cases op <;> simp_all [eval, bind, Except.bind, single]

theorem largest_branch (i : Nat) (n : Int) (m : Desc) (s : St σ ε) (f : FieldPtr) (l y : U32) (b : Bool) (hy : Gen.getNumber f = y)
    (hb : binop .gt (.i32 y) (.i32 l) = .ok (V.bool (ε := ε) b)) :
    leaving (messageEnv (ε := ε) i n m l).length (exec (gen w (d + 1)) srcGenerateMessage_body1 none ((.f, fieldPtrVal f) :: messageEnv i n m l) s) =
      .ok (.next (messageEnv i n m (if b then y else l)), s) := by
  have hn := run_getNumber (w := w) (d := d) f s
  rw [hy] at hn
  have h1 : eval (gen w (d + 1)) ((.f, fieldPtrVal f) :: messageEnv i n m l) (.method (.id .f) .GetNumber .noArgs) s = .ok ([.i32 y], s) := by
    simp only [fieldPtrVal] at hn
    simp [eval, get, heapVar, bind, Except.bind, single, callMethod, recvType, fieldPtrVal, hn]
  have h2 : eval (gen w (d + 1)) ((.id, .i32 y) :: (.f, fieldPtrVal f) :: messageEnv i n m l) (.bin .gt (.id .id) (.id .largestFieldID)) s = .ok ([.bool b], s) := by
    exact eval_bin (s1 := s) (by decide) (by simp [eval, get]) (by simp [eval, get, messageEnv]) hb
  have h3 : exec (gen w (d + 1)) (.seq (.assign (.id .largestFieldID) (.id .id)) .skip) none ((.id, .i32 y) :: (.f, fieldPtrVal f) :: messageEnv i n m l) s =
      .ok (.next ((.id, .i32 y) :: (.f, fieldPtrVal f) :: messageEnv i n m y), s) := by
    simp [exec_seq, exec_assign, exec_skip, eval, get, messageEnv, bind, Except.bind, single, assignTo, put]
  have h4 : exec (gen w (d + 1)) (.define [some .id] (.method (.id .f) .GetNumber .noArgs)) none ((.f, fieldPtrVal f) :: messageEnv i n m l) s =
      .ok (.next ((.id, .i32 y) :: (.f, fieldPtrVal f) :: messageEnv i n m l), s) := by
    rw [exec_define, h1]; rfl
  rw [srcGenerateMessage_body1, exec_seq, exec_iteInit, h4]
  simp only [h2, h3, bind, Except.bind]
  cases b <;> simp [bind, Except.bind, leaving, Out.leave, messageEnv, exec_skip]

/-- One round of the loop of generate.go:61-66. -/
theorem largest_round (i : Nat) (n : Int) (m : Desc) (s : St σ ε) (f : FieldPtr) (l : U32) :
    leaving (messageEnv (ε := ε) i n m l).length (exec (gen w (d + 1)) srcGenerateMessage_body1 none ((.f, fieldPtrVal f) :: messageEnv i n m l) s) =
      .ok (.next (messageEnv i n m (if (Gen.getNumber f).toInt > l.toInt then Gen.getNumber f else l)), s) := by
  by_cases hc : (Gen.getNumber f).toInt > l.toInt
  · rw [largest_branch i n m s f l _ true rfl (by rw [binop_gt, decide_eq_true hc]), if_pos hc]; rfl
  · rw [largest_branch i n m s f l _ false rfl (by rw [binop_gt, decide_eq_false hc]), if_neg hc]; rfl

/-- generate.go:61-66. -/
theorem largest_loop (i : Nat) (n : Int) (m : Desc) (s : St σ ε) (fs : List FieldPtr) (l : U32) :
    rangeLoop (fun v env s => leaving env.length (exec (gen w (d + 1)) srcGenerateMessage_body1 none ((.f, v) :: env) s)) (fs.map fieldPtrVal) (messageEnv i n m l) s =
    .ok (.next (messageEnv i n m (fs.foldl (fun largest f => let id := Gen.getNumber f; if id.toInt > largest.toInt then id else largest) l)), s) := by
  induction fs generalizing l with
  | nil => rfl
  | cons f fs ih =>
    have h := largest_round (w := w) (d := d) i n m s f l
    rw [List.map_cons, rangeLoop, h]
    exact ih _

open Lean.Parser.Tactic in
/-- The same for `generateMessage`. -/
macro "em" : tactic => `(tactic| simp [messageEnv, eval, get, bind, Except.bind, single, heapVar, run_next, gen_consts, const_offsets, argVal, binop, convert, Gen.s, descVal, select, fieldOf, deref])

open Lean.Parser.Tactic in
/-- One `st.Write` that is not the last statement. -/
macro "wm" : tactic => `(tactic| refine write_step (fn_write · ·) (by simp [get, messageEnv]) (by em) (fun _ => ?_))

/-- generate.go:77-81. -/
theorem table_loop (H J : List (V ε)) (x : σ) (n : Int) (m : Desc) (l : U32) (fs : List FieldPtr) (t : ST) :
    rangeLoop (fun v env s => leaving env.length (exec (gen w (d + 1)) srcGenerateMessage_body2 none ((.f, v) :: env) s)) (fs.map fieldPtrVal) (messageEnv (H.length + 1) n m l) (mk H J x t) =
    lifted (fun t' => (.next (messageEnv (H.length + 1) n m l), mk H J x t')) (Gen.generateRepeatedTable n t fs) := by
  induction fs generalizing t with
  | nil => rfl
  | cons f fs ih =>
    have hn := fun s => run_getNumber (w := w) (d := d) (σ := σ) (ε := ε) f s
    have hl := fun s => run_getLabel (w := w) (d := d) (σ := σ) (ε := ε) f s
    have h : leaving (messageEnv (ε := ε) (H.length + 1) n m l).length (exec (gen w (d + 1)) srcGenerateMessage_body2 none ((.f, fieldPtrVal f) :: messageEnv (H.length + 1) n m l) (mk H J x t)) =
        if Gen.getLabel f = 3 then
          lifted (fun t' => (.next (messageEnv (H.length + 1) n m l), mk H J x t')) (t.write Gen.builder [.indent (Gen.next n), .int32 (Gen.getNumber f), Gen.s t!": struct{}{},\n"])
        else .ok (.next (messageEnv (H.length + 1) n m l), mk H J x t) := by
      simp only [fieldPtrVal] at hn hl
      by_cases hc : Gen.getLabel f = 3
      · have hw := write_last (w := w) (d := d) (k := gen w (d + 1)) (fn_write · ·) (H := H) (J := J) (x := x) (t := t)
          (env := (.f, .box .FieldDescriptorProto (f.map fieldVal)) :: messageEnv (H.length + 1) n m l) (by simp [get, messageEnv]) (v := none)
          (args := .args (.method (.id .indent) .Next .noArgs) (.args (.conv (.name .int32) (.method (.id .f) .GetNumber .noArgs)) (.arg (.str t!": struct{}{},\n"))))
          (as := [.indent (Gen.next n), .int32 (Gen.getNumber f), Gen.s t!": struct{}{},\n"])
          (by simp [eval, get, messageEnv, bind, Except.bind, single, heapVar, callMethod, recvType, run_next', hn, convert, argVal, Gen.s])
          (rest := .skip) (P := fun r => .ok r) (F := fun t' => (.next ((.f, .box .FieldDescriptorProto (f.map fieldVal)) :: messageEnv (H.length + 1) n m l), mk H J x t')) (fun t' => rfl)
        replace hw := (bind_okM _).symm.trans hw
        have he : eval (gen w (d + 1)) ((.f, fieldPtrVal f) :: messageEnv (H.length + 1) n m l) (.bin .eq (.method (.id .f) .GetLabel .noArgs) (.id .FieldDescriptorProto_LABEL_REPEATED)) (mk H J x t) =
            .ok ([.bool true], mk H J x t) := by
          simp [eval, get, heapVar, single, callMethod, fieldPtrVal, recvType, bind, Except.bind, hl, messageEnv, gen_consts, const_repeated, binop, equal, hc]
        rw [srcGenerateMessage_body2, exec_seq, exec_ite_true he, fieldPtrVal, hw, if_pos hc]
        cases t.write Gen.builder _ <;> simp [leaving, Out.leave, exec_skip, bind, Except.bind]
      · simp [srcGenerateMessage_body2, exec_seq, exec_ite, exec_skip, fieldPtrVal, eval, get, heapVar, single, callMethod, recvType, bind, Except.bind, hl, messageEnv, gen_consts, const_repeated, binop, equal, hc,
          leaving, Out.leave]
    simp only [List.map_cons, rangeLoop, h, bind, Except.bind, Gen.generateRepeatedTable]
    by_cases hc : Gen.getLabel f = 3
    · simp only [hc, if_true]
      cases t.write Gen.builder _ with
      | error p => rfl
      | ok t' => simp only [lifted_ok, ih]
    · simp only [hc, if_false, ih]

/-! ## Fields -/

theorem seq_next {k : Ctx σ ε} {a b : Stmt} {v : Option (V ε)} {env env' : Env ε} {s s' : St σ ε} (h : exec k a none env s = .ok (.next env', s')) :
    exec k (.seq a b) v env s = exec k b none env' s' := by simp only [exec_seq, h, bind, Except.bind]

theorem seq_skip {k : Ctx σ ε} {a : Stmt} {v : Option (V ε)} {env : Env ε} {s : St σ ε} : exec k (.seq a .skip) v env s = exec k a none env s := by
  rw [exec_seq]
  cases exec k a none env s with
  | error e => rfl
  | ok r => rcases r with ⟨_ | _ | _, _⟩ <;> rfl

theorem switch_step {k : Ctx σ ε} {e : Expr} {cs : Stmt} {u : Option (V ε)} {v : V ε} {env : Env ε} {s s' : St σ ε} (h : eval k env e s = .ok ([v], s')) :
    exec k (.switch e cs) u env s = exec k cs (some v) env s' := by simp only [exec_switch, h, bind, Except.bind, single]

theorem case_true {k : Ctx σ ε} {es : Expr} {b rest : Stmt} {v : V ε} {us : List (V ε)} {env : Env ε} {s s' : St σ ε} (h : eval k env es s = .ok (us, s'))
    (ha : anyEqual v us = .ok true) : exec k (.case es b rest) (some v) env s = leaving env.length (exec k b none env s') := by
  simp only [exec_case, h, ha, bind, Except.bind, if_true]

theorem case_false {k : Ctx σ ε} {es : Expr} {b rest : Stmt} {v : V ε} {us : List (V ε)} {env : Env ε} {s s' : St σ ε} (h : eval k env es s = .ok (us, s'))
    (ha : anyEqual v us = .ok false) : exec k (.case es b rest) (some v) env s = exec k rest (some v) env s' := by
  simp only [exec_case, h, ha, bind, Except.bind, Bool.false_eq_true, if_false]

/-- The call of one of the three functions that generate a field. -/
theorem field_call (H J : List (V ε)) (x : σ) (n : Int) (m : Desc) (l : U32) (f : Field) (t : ST) (fn : Id) (v : Option (V ε)) (model : Except GenPanic ST)
    (h : (gen w (d + 3)).fns none fn [.ref (H.length + 1), .named .StringTreeIndent n, .str m.getName, fieldVal f] (mk H J x t) =
      lifted (fun t' => ([], mk H (junk w.U J f) x t')) model) :
    exec (gen w (d + 3)) (.seq (.expr (.call fn (.args (.id .st) (.args (.id .indent) (.args (.id .messageGoType) (.arg (.star (.id .f)))))))) .skip) v
      ((.f, fieldPtrVal (some f)) :: messageEnv (H.length + 1) n m l) (mk H J x t) =
    lifted (fun t' => (.next ((.f, fieldPtrVal (some f)) :: messageEnv (H.length + 1) n m l), mk H (junk w.U J f) x t')) model := by
  have ha : eval (gen w (d + 3)) ((.f, fieldPtrVal (some f)) :: messageEnv (H.length + 1) n m l) (.args (.id .st) (.args (.id .indent) (.args (.id .messageGoType) (.arg (.star (.id .f)))))) (mk H J x t) =
      .ok ([.ref (H.length + 1), .named .StringTreeIndent n, .str m.getName, fieldVal f], mk H J x t) := by
    simp [eval, get, messageEnv, bind, Except.bind, single, fieldPtrVal, deref]
  have he : eval (gen w (d + 3)) ((.f, fieldPtrVal (some f)) :: messageEnv (H.length + 1) n m l) (.call fn (.args (.id .st) (.args (.id .indent) (.args (.id .messageGoType) (.arg (.star (.id .f))))))) (mk H J x t) =
      lifted (fun t' => ([], mk H (junk w.U J f) x t')) model := by
    rw [eval, ha]; exact h
  rw [exec_seq, exec_expr, he]
  cases model <;> rfl

/-- One round of the loop of generate.go:101-122. -/
theorem field_round (H J : List (V ε)) (x : σ) (n : Int) (m : Desc) (l : U32) (f : Field) :
    ∃ J' o, (o = .next (messageEnv (H.length + 1) n m l) ∨ o = .cont (messageEnv (H.length + 1) n m l)) ∧ ∀ t,
    leaving (messageEnv (ε := ε) (H.length + 1) n m l).length (exec (gen w (d + 3)) srcGenerateMessage_body3 none ((.f, fieldPtrVal (some f)) :: messageEnv (H.length + 1) n m l) (mk H J x t)) =
      lifted (fun t' => (o, mk H (J ++ J') x t')) (Gen.generateField w.U t n m.getName f) := by
  have hl := fun s => run_getLabel (w := w) (d := d + 2) (σ := σ) (ε := ε) (some f) s
  have hty := fun s => run_getType (w := w) (d := d + 2) (σ := σ) (ε := ε) (some f) s
  have h0 : ∀ s, eval (gen w (d + 3)) ((.f, fieldPtrVal (some f)) :: messageEnv (H.length + 1) n m l) (.bin .eq (.id .f) .nil) s = .ok ([.bool false], s) := fun s => by
    simp [eval, get, fieldPtrVal, bind, Except.bind, single, binop, equal, isNil]
  have h1 : ∀ s, eval (gen w (d + 3)) ((.f, fieldPtrVal (some f)) :: messageEnv (H.length + 1) n m l) (.method (.id .f) .GetLabel .noArgs) s =
      .ok ([.named .FieldDescriptorProto_Label (Gen.getLabel (some f))], s) := fun s => by
    simp only [fieldPtrVal] at hl
    simp [eval, get, heapVar, bind, Except.bind, single, callMethod, recvType, fieldPtrVal]
    exact hl s
  have h2 : ∀ s, eval (gen w (d + 3)) ((.f, fieldPtrVal (some f)) :: messageEnv (H.length + 1) n m l) (.method (.id .f) .GetType .noArgs) s =
      .ok ([.named .FieldDescriptorProto_Type (Gen.getType (some f))], s) := fun s => by
    simp only [fieldPtrVal] at hty
    simp [eval, get, heapVar, bind, Except.bind, single, callMethod, recvType, fieldPtrVal]
    exact hty s
  have c1 : ∀ s, eval (gen w (d + 3)) ((.f, fieldPtrVal (some f)) :: messageEnv (H.length + 1) n m l) (.args (.id .FieldDescriptorProto_LABEL_OPTIONAL) (.arg (.id .FieldDescriptorProto_LABEL_REQUIRED))) s =
      .ok ([.named .FieldDescriptorProto_Label 1, .named .FieldDescriptorProto_Label 2], s) := fun s => by
    simp [eval, get, messageEnv, gen_consts, const_optional, const_required, bind, Except.bind]
  have c2 : ∀ s, eval (gen w (d + 3)) ((.f, fieldPtrVal (some f)) :: messageEnv (H.length + 1) n m l) (.arg (.id .FieldDescriptorProto_LABEL_REPEATED)) s =
      .ok ([.named .FieldDescriptorProto_Label 3], s) := fun s => by
    simp [eval, get, messageEnv, gen_consts, const_repeated, bind, Except.bind]
  have c3 : ∀ s, eval (gen w (d + 3)) ((.f, fieldPtrVal (some f)) :: messageEnv (H.length + 1) n m l) (.arg (.id .FieldDescriptorProto_TYPE_MESSAGE)) s =
      .ok ([.named .FieldDescriptorProto_Type 11], s) := fun s => by
    simp [eval, get, messageEnv, gen_consts, const_message, bind, Except.bind]
  have hskip : ∀ J t, (leaving (messageEnv (ε := ε) (H.length + 1) n m l).length
      (.ok (.next ((.f, fieldPtrVal (some f)) :: messageEnv (H.length + 1) n m l), mk H J x t) : M (Out ε × St σ ε))) =
      .ok (.next (messageEnv (H.length + 1) n m l), mk H J x t) := fun J t => by simp [leaving, bind, Except.bind, Out.leave, messageEnv]
  generalize hL : Gen.getLabel (some f) = L at h1
  generalize hT : Gen.getType (some f) = T at h2
  simp only [srcGenerateMessage_body3]
  by_cases l12 : L = 1 ∨ L = 2
  · have a1 : anyEqual (.named .FieldDescriptorProto_Label L) [V.named (ε := ε) .FieldDescriptorProto_Label 1, .named .FieldDescriptorProto_Label 2] = .ok true := by
      rcases l12 with rfl | rfl <;> rfl
    refine ⟨[.bool (caseEnd w.U true (Gen.getName (some f)))], .next (messageEnv (H.length + 1) n m l), .inl rfl, fun t => ?_⟩
    by_cases t11 : T = 11
    · have a2 : anyEqual (.named .FieldDescriptorProto_Type T) [V.named (ε := ε) .FieldDescriptorProto_Type 11] = .ok true := by rw [t11]; rfl
      have hc := field_call H J x n m l f t .generateMessageField none _ (run_messageField (w := w) (d := d) H J x t n m.getName f)
      rw [seq_next (exec_ite_false (h0 _)), seq_skip, switch_step (h1 _), case_true (c1 _) a1, seq_skip, switch_step (h2 _), case_true (c3 _) a2, hc,
        Gen.generateField, hL, hT, if_pos l12, if_pos t11]
      cases Gen.generateMessageField w.U t n m.getName (some f) <;> simp [leaving, bind, Except.bind, Out.leave, messageEnv]
    · have a2 : anyEqual (.named .FieldDescriptorProto_Type T) [V.named (ε := ε) .FieldDescriptorProto_Type 11] = .ok false := by simp [anyEqual, equal, t11, bind, Except.bind]
      have hc := field_call H J x n m l f t .generateSimpleField none _ (run_simpleField (w := w) (d := d) H J x t n m.getName f)
      rw [seq_next (exec_ite_false (h0 _)), seq_skip, switch_step (h1 _), case_true (c1 _) a1, seq_skip, switch_step (h2 _), case_false (c3 _) a2, exec_default, hc,
        Gen.generateField, hL, hT, if_pos l12, if_neg t11]
      cases Gen.generateSimpleField w.U t n m.getName (some f) <;> simp [leaving, bind, Except.bind, Out.leave, messageEnv]
  · have a1 : anyEqual (.named .FieldDescriptorProto_Label L) [V.named (ε := ε) .FieldDescriptorProto_Label 1, .named .FieldDescriptorProto_Label 2] = .ok false := by
      simp only [not_or] at l12
      simp [anyEqual, equal, l12.1, l12.2, bind, Except.bind]
    by_cases l3 : L = 3
    · have a3 : anyEqual (.named .FieldDescriptorProto_Label L) [V.named (ε := ε) .FieldDescriptorProto_Label 3] = .ok true := by rw [l3]; rfl
      by_cases t11 : T = 11
      · have a2 : anyEqual (.named .FieldDescriptorProto_Type T) [V.named (ε := ε) .FieldDescriptorProto_Type 11] = .ok true := by rw [t11]; rfl
        refine ⟨[.bool (caseEnd w.U true (Gen.getName (some f)))], .next (messageEnv (H.length + 1) n m l), .inl rfl, fun t => ?_⟩
        have hc := field_call H J x n m l f t .generateRepeatedMessageField none _ (run_repeatedMessageField (w := w) (d := d) H J x t n m.getName f)
        rw [seq_next (exec_ite_false (h0 _)), seq_skip, switch_step (h1 _), case_false (c1 _) a1, case_true (c2 _) a3, seq_skip, switch_step (h2 _), case_true (c3 _) a2, hc,
          Gen.generateField, hL, hT, if_neg l12, if_pos l3, if_pos t11]
        cases Gen.generateRepeatedMessageField w.U t n m.getName (some f) <;> simp [leaving, bind, Except.bind, Out.leave, messageEnv]
      · have a2 : anyEqual (.named .FieldDescriptorProto_Type T) [V.named (ε := ε) .FieldDescriptorProto_Type 11] = .ok false := by simp [anyEqual, equal, t11, bind, Except.bind]
        refine ⟨[], .cont (messageEnv (H.length + 1) n m l), .inr rfl, fun t => ?_⟩
        rw [seq_next (exec_ite_false (h0 _)), seq_skip, switch_step (h1 _), case_false (c1 _) a1, case_true (c2 _) a3, seq_skip, switch_step (h2 _), case_false (c3 _) a2, exec_default,
          seq_skip, exec_continue, Gen.generateField, hL, hT, if_neg l12, if_pos l3, if_neg t11]
        simp [leaving, bind, Except.bind, Out.leave, messageEnv]
    · have a3 : anyEqual (.named .FieldDescriptorProto_Label L) [V.named (ε := ε) .FieldDescriptorProto_Label 3] = .ok false := by simp [anyEqual, equal, l3, bind, Except.bind]
      refine ⟨[], .next (messageEnv (H.length + 1) n m l), .inl rfl, fun t => ?_⟩
      rw [seq_next (exec_ite_false (h0 _)), seq_skip, switch_step (h1 _), case_false (c1 _) a1, case_false (c2 _) a3, exec_skip, Gen.generateField, hL, if_neg l12, if_neg l3]
      simp [leaving, bind, Except.bind, Out.leave, messageEnv]

/-- generate.go:101-122. -/
theorem field_loop (H : List (V ε)) (x : σ) (n : Int) (m : Desc) (l : U32) (fs : List FieldPtr) (J : List (V ε)) :
    ∃ J', ∀ t, rangeLoop (fun v env s => leaving env.length (exec (gen w (d + 3)) srcGenerateMessage_body3 none ((.f, v) :: env) s)) (fs.map fieldPtrVal) (messageEnv (H.length + 1) n m l) (mk H J x t) =
    lifted (fun t' => (.next (messageEnv (H.length + 1) n m l), mk H (J ++ J') x t')) (Gen.generateFields w.U n m.getName t fs) := by
  induction fs generalizing J with
  | nil => exact ⟨[], fun t => by simp [rangeLoop, Gen.generateFields]⟩
  | cons f fs ih =>
    cases f with
    | none =>
      obtain ⟨J', h'⟩ := ih J
      refine ⟨J', fun t => ?_⟩
      have hr : leaving (messageEnv (ε := ε) (H.length + 1) n m l).length (exec (gen w (d + 3)) srcGenerateMessage_body3 none ((.f, fieldPtrVal none) :: messageEnv (H.length + 1) n m l) (mk H J x t)) =
          .ok (.cont (messageEnv (H.length + 1) n m l), mk H J x t) := by
        simp [srcGenerateMessage_body3, exec_seq, exec_ite, exec_continue, eval, get, fieldPtrVal, bind, Except.bind, single, binop, equal, isNil, leaving, Out.leave, messageEnv]
      rw [List.map_cons, rangeLoop, hr, Gen.generateFields]
      exact h' t
    | some f =>
      obtain ⟨J1, o, ho, h1⟩ := field_round (w := w) (d := d) H J x n m l f
      obtain ⟨J2, h2⟩ := ih (J ++ J1)
      refine ⟨J1 ++ J2, fun t => ?_⟩
      rw [List.map_cons, rangeLoop, h1, Gen.generateFields]
      cases Gen.generateField w.U t n m.getName f with
      | error p => rfl
      | ok t' =>
        rw [← List.append_assoc]
        rcases ho with rfl | rfl <;> exact h2 t'

/-- generate.go:58-123 `generateMessage`. -/
theorem run_generateMessage (H J : List (V ε)) (x : σ) (n : Int) (m : Desc) : ∃ J', ∀ t,
    (gen w (d + 4)).fns none .generateMessage [.ref (H.length + 1), .named .StringTreeIndent n, descVal m] (mk H J x t) =
    lifted (fun t' => ([], mk H (J ++ J') x t')) (Gen.generateMessage w.U t n m) := by
  obtain ⟨J', h3⟩ := field_loop (w := w) (d := d) H x n m (Gen.largestFieldID m.field) m.field J
  refine ⟨J', fun t => ?_⟩
  rw [fn_generateMessage, invoke_done _ _ _ _ rfl [(.st, .ref (H.length + 1)), (.indent, .named .StringTreeIndent n), (.m, descVal m)] rfl]
  unfold srcGenerateMessage Gen.generateMessage
  have hname := run_descName (w := w) (d := d + 2) m (mk H J x t)
  refine define_step (vs := [.str m.getName]) (s' := mk H J x t) (by
    simp only [descPtrVal, Option.map] at hname
    simp only [descVal] at hname
    simp [eval, get, heapVar, descVal, bind, Except.bind, single, callMethod, recvType]
    exact hname) rfl ?_
  rw [seq_next (env' := messageEnv (H.length + 1) n m 0#32) (s' := mk H J x t) (by rfl)]
  have hf : ∀ l t, eval (gen w (d + 3)) (messageEnv (H.length + 1) n m l) (.sel (.id .m) .Field) (mk H J x t) = .ok ([.list (m.field.map fieldPtrVal)], mk H J x t) := fun l t => by em
  rw [seq_next (a := .range _ _ _) (env' := messageEnv (H.length + 1) n m (Gen.largestFieldID m.field)) (s' := mk H J x t) (by
    rw [exec_range, hf]; exact largest_loop ..)]
  wm; wm; wm; wm; wm; wm; wm; wm
  refine range_step (hf _ _) (table_loop ..) (fun t => ?_)
  wm; wm; wm; wm; wm; wm; wm; wm; wm; wm; wm; wm; wm; wm; wm
  rw [seq_skip, exec_range, hf]
  refine (congrArg (· >>= done) (h3 _)).trans ?_
  cases Gen.generateFields w.U n m.getName _ m.field <;> rfl

end Zeropb.GoSrc.T
