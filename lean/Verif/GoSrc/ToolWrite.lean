import Verif.GoSrc.ToolStep
/-!
# The source of StringTree.Write computes the model

For any writer: see `Device`.
-/

set_option linter.unusedSimpArgs false
set_option linter.constructorNameAsVariable false

namespace Zeropb.GoSrc.T
open Zeropb.Gen (Text Unicode Writer GenPanic StringTree Arg)

variable {σ ε τ ε' : Type}

/-- The value of an argument of `Write`. -/
def argVal : Arg → V ε
  | .indent n => .named .StringTreeIndent n
  | .bytes b => .bytes b
  | .string s => .str s
  | .stringer s => .stringer s
  | .int32 n => .i32 n
  | .other => .other

/-- The struct behind a `*StringTree`. -/
def treeVal (wv : V ε) (e : Option ε' → V ε) (t : StringTree τ ε') : V ε :=
  .struct .StringTree [(.w, wv), (.indent, .str t.indent), (.err, e t.err)]

/-- A StringTree in the heap of a running program: `mk t` is the state in which heap cell `i` is the struct of the
StringTree `t` and the writer `wv` it wraps behaves like `W` and has the state `t.w`. -/
structure Device (k : Ctx σ ε) (W : Writer τ ε') (i : Nat) (wv : V ε) (e : Option ε' → V ε) (mk : StringTree τ ε' → St σ ε) : Prop where
  read : ∀ t, (mk t).heap[i]? = some (treeVal wv e t)
  isNil : ∀ o, isNil (e o) = .ok o.isNone
  write : ∀ t x, callMethod k wv .Write [.bytes x] (mk t) = .ok ([.int x.length, e (W.write t.w x).2], mk { t with w := (W.write t.w x).1 })
  set : ∀ t o, { mk t with heap := (mk t).heap.set i (treeVal wv e { t with err := o }) } = mk { t with err := o }

/-- The model's outcome of `Write`, as that of a program. -/
def lifted {α β : Type} (f : α → β) : Except GenPanic α → M β
  | .ok a => .ok (f a)
  | .error p => .error (.panic p)

@[simp] theorem lifted_ok {α β : Type} (f : α → β) (a : α) : lifted f (.ok a) = .ok (f a) := rfl
@[simp] theorem lifted_error {α β : Type} (f : α → β) (p : GenPanic) : lifted f (.error p) = .error (.panic p) := rfl

variable {k : Ctx σ ε} {W : Writer τ ε'} {i : Nat} {wv : V ε} {e : Option ε' → V ε} {mk : StringTree τ ε' → St σ ε}

/-- `_, st.err = st.w.Write(x)`. -/
theorem exec_put (D : Device k W i wv e mk) (env : Env ε) (hst : get .st env = some (.ref i)) (v : Option (V ε)) (a : Expr) (t : StringTree τ ε')
    (x : Text) (ha : eval k env a (mk t) = .ok ([.bytes x], mk t)) :
    exec k (.assignSnd (.sel (.id .st) .err) (.method (.sel (.id .st) .w) .Write (.arg a))) v env (mk t) = .ok (.next env, mk (t.put W x)) := by
  have h1 := D.read t
  have h2 := D.write t x
  have h3 := D.read { t with w := (W.write t.w x).1 }
  have h4 := D.set { t with w := (W.write t.w x).1 } (W.write t.w x).2
  simp only [exec, eval, heapVar, hst, single, select, deref, h1, treeVal, fieldOf, get, reduceCtorEq, if_false, if_true, bind, Except.bind,
    ha, List.append_nil, h2, assignTo, h3, putField, Option.map, StringTree.put] at h4 ⊢
  exact congrArg (fun s => Except.ok (Out.next env, s)) h4

/-- The environment of the body of `Write`. -/
def writeEnv (i : Nat) (vs : List (V ε)) : Env ε := [(.st, .ref i), (.strs, .list vs)]

/-- One round of the loop of `Write`. -/
theorem write_round (D : Device k W i wv e mk) (vs : List (V ε)) (a : Arg) (t : StringTree τ ε') :
    leaving (writeEnv i vs).length (exec k srcStringTree_Write_body1 none ((.str, argVal a) :: writeEnv i vs) (mk t)) =
    if t.err.isSome then .ok (.ret [], mk t)
    else match a with
      | .indent x => lifted (fun s => (.next (writeEnv i vs), mk (t.put W s))) (Gen.repeatText t.indent x)
      | .bytes x | .string x | .stringer x => .ok (.next (writeEnv i vs), mk (t.put W x))
      | .int32 x => .ok (.next (writeEnv i vs), mk (t.put W (Gen.itoa x.toInt)))
      | .other => .error (.panic .unknownArg) := by
  have h1 := D.read t
  have h2 := D.isNil t.err
  have hput := fun (a : Arg) (b : Expr) (x : Text) (hb : eval k ((.x, argVal a) :: (.str, argVal a) :: writeEnv i vs) b (mk t) = .ok ([.bytes x], mk t)) =>
    exec_put D ((.x, argVal a) :: (.str, argVal a) :: writeEnv i vs) (by simp [get, writeEnv]) none b t x hb
  cases he : t.err with
  | some x =>
    rw [he] at h2
    simp [leaving, srcStringTree_Write_body1, exec, eval, writeEnv, get, bind, Except.bind, single, select, deref, h1, treeVal, fieldOf, binop, equal, h2, he, Out.leave]
  | none =>
    rw [he] at h2
    cases a with
    | indent x =>
      cases hr : Gen.repeatText t.indent x with
      | error p =>
        simp [leaving, srcStringTree_Write_body1, exec, eval, writeEnv, get, bind, Except.bind, single, select, deref, h1, treeVal, fieldOf, binop, equal, h2, he,
          Out.leave, argVal, hasType, convert, library, heapVar, hr]
      | ok y =>
        have h := hput (.indent x)
          (.conv (.slice (.name .byte)) (.pkg .strings .Repeat (.args (.sel (.id .st) .indent) (.arg (.conv (.name .int) (.id .x)))))) y (by
            simp [eval, get, writeEnv, bind, Except.bind, single, select, deref, h1, treeVal, fieldOf, convert, argVal, library, hr])
        simp only [writeEnv, argVal] at h
        simp [leaving, srcStringTree_Write_body1, exec_seq, exec_skip, exec_ite, exec_typeSwitch, exec_typeCase, eval, writeEnv, get, bind, Except.bind, single, select, deref, h1, treeVal, fieldOf, binop, equal, h2, he,
          Out.leave, argVal, hasType, h, hr]
    | bytes x =>
      have h := hput (.bytes x) (.id .x) x (by simp [eval, get, argVal])
      simp only [writeEnv, argVal] at h
      simp [leaving, srcStringTree_Write_body1, exec_seq, exec_skip, exec_ite, exec_typeSwitch, exec_typeCase, eval, writeEnv, get, bind, Except.bind, single, select, deref, h1, treeVal, fieldOf, binop, equal, h2, he,
          Out.leave, argVal, hasType, h]
    | string x =>
      have h := hput (.string x) (.conv (.slice (.name .byte)) (.id .x)) x (by simp [eval, get, argVal, bind, Except.bind, single, convert])
      simp only [writeEnv, argVal] at h
      simp [leaving, srcStringTree_Write_body1, exec_seq, exec_skip, exec_ite, exec_typeSwitch, exec_typeCase, eval, writeEnv, get, bind, Except.bind, single, select, deref, h1, treeVal, fieldOf, binop, equal, h2, he,
          Out.leave, argVal, hasType, h]
    | stringer x =>
      have h := exec_put D ((.s, .str x) :: (.x, argVal (.stringer x)) :: (.str, argVal (.stringer x)) :: writeEnv i vs) (by simp [get, writeEnv]) none
        (.conv (.slice (.name .byte)) (.id .s)) t x (by simp [eval, get, argVal, bind, Except.bind, single, convert])
      simp only [writeEnv, argVal] at h
      simp [leaving, srcStringTree_Write_body1, exec_seq, exec_skip, exec_ite, exec_typeSwitch, exec_typeCase, exec_define, eval, writeEnv, get, bind, Except.bind, single, select, deref, h1, treeVal, fieldOf, binop, equal, h2, he,
          Out.leave, argVal, hasType, heapVar, callMethod, bindNames, h]
    | int32 x =>
      have h := hput (.int32 x) (.conv (.slice (.name .byte)) (.pkg .strconv .Itoa (.arg (.conv (.name .int) (.id .x))))) (Gen.itoa x.toInt) (by
        simp [eval, get, argVal, bind, Except.bind, single, convert, library])
      simp only [writeEnv, argVal] at h
      simp [leaving, srcStringTree_Write_body1, exec_seq, exec_skip, exec_ite, exec_typeSwitch, exec_typeCase, eval, writeEnv, get, bind, Except.bind, single, select, deref, h1, treeVal, fieldOf, binop, equal, h2, he,
          Out.leave, argVal, hasType, h]
    | other =>
      simp [leaving, srcStringTree_Write_body1, exec, eval, writeEnv, get, bind, Except.bind, single, select, deref, h1, treeVal, fieldOf, binop, equal, h2, he,
          Out.leave, argVal, hasType, library, panicOf]

/-- The loop of `Write`. -/
theorem write_loop (D : Device k W i wv e mk) (vs : List (V ε)) (as : List Arg) (t : StringTree τ ε') :
    ∃ o, (o = .ret [] ∨ o = .next (writeEnv i vs)) ∧
    rangeLoop (fun v env s => leaving env.length (exec k srcStringTree_Write_body1 none ((.str, v) :: env) s)) (as.map argVal) (writeEnv i vs) (mk t) =
      lifted (fun t' => (o, mk t')) (t.write W as) := by
  induction as generalizing t with
  | nil => exact ⟨_, .inr rfl, by simp [rangeLoop, StringTree.write]⟩
  | cons a as ih =>
    have h := write_round D vs a t
    by_cases he : t.err.isSome
    · refine ⟨.ret [], .inl rfl, ?_⟩
      simp only [he, if_true] at h
      simp [rangeLoop, h, bind, Except.bind, StringTree.write, he]
    · simp only [he, Bool.false_eq_true, if_false] at h
      cases a with
      | indent x =>
        cases hr : Gen.repeatText t.indent x with
        | error p =>
          refine ⟨.ret [], .inl rfl, ?_⟩
          simp only [hr, lifted_error] at h
          simp [rangeLoop, h, bind, Except.bind, StringTree.write, he, hr]
        | ok y =>
          obtain ⟨o, ho, hl⟩ := ih (t.put W y)
          refine ⟨o, ho, ?_⟩
          simp only [hr, lifted_ok] at h
          simpa [rangeLoop, h, bind, Except.bind, StringTree.write, he, hr] using hl
      | other =>
        refine ⟨.ret [], .inl rfl, ?_⟩
        simp only at h
        simp [rangeLoop, h, bind, Except.bind, StringTree.write, he]
      | bytes x =>
        obtain ⟨o, ho, hl⟩ := ih (t.put W x)
        refine ⟨o, ho, ?_⟩
        simp only at h
        simpa [rangeLoop, h, bind, Except.bind, StringTree.write, he] using hl
      | string x =>
        obtain ⟨o, ho, hl⟩ := ih (t.put W x)
        refine ⟨o, ho, ?_⟩
        simp only at h
        simpa [rangeLoop, h, bind, Except.bind, StringTree.write, he] using hl
      | stringer x =>
        obtain ⟨o, ho, hl⟩ := ih (t.put W x)
        refine ⟨o, ho, ?_⟩
        simp only at h
        simpa [rangeLoop, h, bind, Except.bind, StringTree.write, he] using hl
      | int32 x =>
        obtain ⟨o, ho, hl⟩ := ih (t.put W (Gen.itoa x.toInt))
        refine ⟨o, ho, ?_⟩
        simp only at h
        simpa [rangeLoop, h, bind, Except.bind, StringTree.write, he] using hl

/-- `Write` (stringtree.go:35-56). -/
theorem invoke_write (D : Device k W i wv e mk) (as : List Arg) (t : StringTree τ ε') :
    invoke k srcStringTree_Write (.ref i :: as.map argVal) (mk t) = lifted (fun t' => ([], mk t')) (t.write W as) := by
  obtain ⟨o, ho, hl⟩ := write_loop D (as.map argVal) as t
  unfold writeEnv at ho hl
  simp only [invoke, srcStringTree_Write, flatParams, List.append_nil, bindArgs, coerce, bind, Except.bind, exec_seq, exec_range, eval, get,
    reduceCtorEq, if_true, if_false, hl]
  cases t.write W as with
  | error p => rfl
  | ok t' => rcases ho with rfl | rfl <;> simp [exec_skip, results, bind, Except.bind]

end Zeropb.GoSrc.T
