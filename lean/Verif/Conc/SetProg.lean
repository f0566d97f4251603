import Verif.Conc.Cost
import Verif.GoSrc.Setters
/-!
# The accesses of the setters
-/

set_option linter.constructorNameAsVariable false
set_option linter.unusedSimpArgs false

namespace Zeropb.GoSrc.Conc
open Zeropb.GoSrc.G

attribute [local congr] bindHead load_congr GoSrc.bind_head newArr_congr newMap_congr rangeArr_congr rangeMap_congr

/-- `v` is a `[]byte` argument whose bytes are read as those of `x`. -/
structure CArg (v : Val) (x : Src) : Prop where
  contents : Conc.contents v = readSrc x
  length : v.length = .ok (strLen x)
  coerce : ∀ t, v.coerce t = v

theorem CArg.bytes (x : Src) : CArg (.bytes x) x := ⟨rfl, by cases x <;> rfl, fun _ => rfl⟩
theorem CArg.nil : CArg .nil (.lit []) := ⟨rfl, rfl, fun _ => rfl⟩

/-- `*buf = append(*buf, x...)`. -/
def appendP (rt : Rt) (i : Nat) (x : Src) : Prog Unit :=
  .load (.buf i) fun (b : HSlice) => readSrc x >>= fun bs => append rt b bs >>= fun r => .store (.buf i r) (.done ())

/-- The end of `setSingle` (zeropb.go:383-388). -/
def tailP (rt : Rt) (i f : Nat) (tag : List Byte) (vl x : Src) : Prog (List Val) :=
  appendP rt i (.lit tag) >>= fun _ => .load (.buf i) fun (b : HSlice) => setP i f (BitVec.ofNat 64 b.len) >>= fun _ =>
    appendP rt i vl >>= fun _ => appendP rt i x >>= fun _ => .done []

/-- What becomes of a statement of a function without results. -/
def ends (r : Out × Vars) : Prog (List Val) := match r.1 with
  | .next => .done []
  | .ret vs => lift (results [] vs)

/-- `*buf = append(*buf, e...)`, whatever the other variables are. -/
theorem prog_append {rt : Rt} {call : Calls} {fuel i : Nat} {env : Vars} {e : Expr} {v : Val} {x : Src} (hb : lookup .buf env = some (.bufPtr i))
    (he : eval rt call e env = .done (v, env)) (hv : CArg v x) :
    exec rt call fuel (.assign (.star (.id .buf)) (.append (.star (.id .buf)) e)) env = (appendP rt i x >>= fun _ => .done (.next, env)) := by
  csimp [hb, he, hv.contents, appendP]
  refine congrArg (Prog.load _) (funext fun (b : HSlice) => ?_)
  csimp []
  refine congrArg (readSrc x >>= ·) (funext fun bs => ?_)
  refine congrArg (append rt b bs >>= ·) (funext fun r => ?_)
  csimp [hb]

theorem exec_seq {rt : Rt} {call : Calls} {fuel : Nat} {a b : Stmt} {env : Vars} {α : Type} {p : Prog α} {g : α → Vars} (h : exec rt call fuel a env = (p >>= fun x => .done (.next, g x))) :
    exec rt call fuel (.seq a b) env = (p >>= fun x => exec rt call fuel b (g x)) := by
  csimp [h]

theorem prog_tail (rt : Rt) (fuel d i f typ : Nat) {vl v : Val} {x y : Src} (tag : List Byte) (hvl : CArg vl x) (hv : CArg v y) :
    (exec rt (goCall rt fuel (d + 1)) fuel ssTail (ssEnv i f typ vl v tag) >>= ends) = tailP rt i f tag x y := by
  have hle : tag.length ≤ (tag ++ List.drop tag.length (List.replicate 10 0#8)).length := by simp
  unfold ssTail
  rw [exec_seq (prog_append (i := i) (x := .lit tag) rfl (by simp only [ssEnv]; csimp [hle, List.take_left]) (.bytes _))]
  rw [exec_seq (p := .load (.buf i) fun (b : HSlice) => .done b) (g := fun b => (.offset, .int b.len) :: ssEnv i f typ vl v tag) (by
    simp only [ssEnv]
    csimp []
    refine congrArg (Prog.load _) (funext fun (b : HSlice) => ?_)
    csimp [])]
  unfold tailP
  simp only [bind_assoc']
  refine congrArg (appendP rt i _ >>= ·) (funext fun _ => ?_)
  refine congrArg (Prog.load _) (funext fun (b : HSlice) => ?_)
  simp only [bindEq, done_bind]
  rw [exec_seq (p := setP i f (BitVec.ofNat 64 b.len)) (g := fun _ => (.offset, .int b.len) :: ssEnv i f typ vl v tag) (by
    simp only [ssEnv]
    csimp [intToU64_nat, prog_Set])]
  rw [bind_assoc']
  refine congrArg (setP i f _ >>= ·) (funext fun _ => ?_)
  rw [exec_seq (prog_append (i := i) rfl rfl hvl), bind_assoc']
  refine congrArg (appendP rt i _ >>= ·) (funext fun _ => ?_)
  rw [exec_seq (prog_append (i := i) rfl rfl hv), bind_assoc']
  rfl

/-- `appendSingle` (zeropb.go:391-405). -/
def appendSingleP (rt : Rt) (i f : Nat) (tag : List Byte) (x y : Src) : Prog (List Val) :=
  appendP rt i (.lit tag) >>= fun _ => .load (.buf i) fun (b : HSlice) => find i f >>= fun o =>
    (if o.isSome then .done [] else setP i f (BitVec.ofNat 64 b.len)) >>= fun _ => appendP rt i x >>= fun _ => appendP rt i y >>= fun _ => .done []

/-- The statements of `appendSingle` behind the first (zeropb.go:396-404). -/
def asTail : Stmt :=
    .seq (.assign (.star (.id .buf)) (.append (.star (.id .buf)) (.sliceTo (.id .scratch) (.id .tagLen)))) <|
    .seq (.define [some .offset] (.lib .len (.arg (.star (.id .buf))))) <|
    .seq (.iteInit (.define [none, some .ok] (.method (.id .offsets) .Get (.arg (.id .fieldID)))) (.not (.id .ok)) (.seq (.expr (.method (.id .offsets) .Set (.args (.id .fieldID) (.arg (.conv .uint64 (.id .offset)))))) <|
      .skip) .skip) <|
    .seq (.assign (.star (.id .buf)) (.append (.star (.id .buf)) (.id .valLen))) <|
    .seq (.assign (.star (.id .buf)) (.append (.star (.id .buf)) (.id .val))) <|
    .skip

theorem prog_asTail (rt : Rt) (fuel d i f typ : Nat) {vl v : Val} {x y : Src} (tag : List Byte) (hvl : CArg vl x) (hv : CArg v y) :
    (exec rt (goCall rt fuel (d + 1)) fuel asTail (ssEnv i f typ vl v tag) >>= ends) = appendSingleP rt i f tag x y := by
  have hle : tag.length ≤ (tag ++ List.drop tag.length (List.replicate 10 0#8)).length := by simp
  unfold asTail
  rw [exec_seq (prog_append (i := i) (x := .lit tag) rfl (by simp only [ssEnv]; csimp [hle, List.take_left]) (.bytes _))]
  rw [exec_seq (p := .load (.buf i) fun (b : HSlice) => .done b) (g := fun b => (.offset, .int b.len) :: ssEnv i f typ vl v tag) (by
    simp only [ssEnv]
    csimp []
    refine congrArg (Prog.load _) (funext fun (b : HSlice) => ?_)
    csimp [])]
  unfold appendSingleP
  simp only [bind_assoc']
  refine congrArg (appendP rt i _ >>= ·) (funext fun _ => ?_)
  refine congrArg (Prog.load _) (funext fun (b : HSlice) => ?_)
  simp only [bindEq, done_bind]
  rw [exec_seq (p := find i f >>= fun o => if o.isSome then .done [] else setP i f (BitVec.ofNat 64 b.len)) (g := fun _ => (.offset, .int b.len) :: ssEnv i f typ vl v tag) (by
    simp only [ssEnv]
    csimp [prog_Get]
    refine congrArg (find i f >>= ·) (funext fun o => ?_)
    cases o with
    | none => csimp [intToU64_nat, prog_Set, Bool.false_eq_true]
    | some off => csimp [])]
  simp only [bind_assoc']
  refine congrArg (find i f >>= ·) (funext fun _ => ?_)
  refine congrArg (_ >>= ·) (funext fun _ => ?_)
  rw [exec_seq (prog_append (i := i) rfl rfl hvl), bind_assoc']
  refine congrArg (appendP rt i _ >>= ·) (funext fun _ => ?_)
  rw [exec_seq (prog_append (i := i) rfl rfl hv), bind_assoc']
  rfl

theorem invoke_ends {rt : Rt} {call : Calls} {fuel : Nat} {f : Func} (hr : f.results = []) {args : List Val} {env : Vars} (ha : bindArgs f.formals args = .ok env) :
    invoke rt call fuel f args = (exec rt call fuel f.body env >>= ends) := by
  unfold invoke
  rw [ha, hr]
  show (exec rt call fuel f.body env >>= fun r => _) = _
  refine congrArg (_ >>= ·) (funext fun r => ?_)
  obtain ⟨o, env'⟩ := r
  cases o <;> rfl

theorem prog_prefix (rt : Rt) (call : Calls) (fuel i f typ : Nat) {vl v : Val} {tag : List Byte} (ht : putUvarint maxVarintLen64 (tagOf f typ) = .ok tag) (rest : Stmt) :
    exec rt call fuel (.seq (.varArray .scratch (.const .MaxVarintLen64)) (
    .seq (.define [some .tag] (.conv .uint64 (.bin .or (.bin .shl (.id .fieldID) (.num 3)) (.id .typ)))) (
    .seq (.define [some .tagLen] (.put .PutUvarint .scratch (.id .tag))) rest)))
      [(.buf, .bufPtr i), (.offsets, .offs i), (.fieldID, .int f), (.typ, .int typ), (.valLen, vl), (.val, v)] =
    exec rt call fuel rest (ssEnv i f typ vl v tag) := by
  csimp [tag_eq, List.length_replicate, ht, ssEnv]
  rfl

theorem prog_appendSingle (rt : Rt) (fuel d i f typ : Nat) {vl v : Val} {x y : Src} {tag : List Byte} (ht : putUvarint maxVarintLen64 (tagOf f typ) = .ok tag) (hvl : CArg vl x) (hv : CArg v y) :
    goCall rt fuel (d + 2) .appendSingle [.bufPtr i, .offs i, .int f, .int typ, vl, v] = appendSingleP rt i f tag x y := by
  rw [goCall, show funcOf .appendSingle = some srcAppendSingle from rfl]
  dsimp only
  rw [invoke_ends rfl (env := [(.buf, .bufPtr i), (.offsets, .offs i), (.fieldID, .int f), (.typ, .int typ), (.valLen, vl), (.val, v)]) (by
    csimp [srcAppendSingle, hvl.coerce, hv.coerce])]
  rw [← prog_asTail rt fuel d i f typ tag hvl hv, show srcAppendSingle.body = .seq (.varArray .scratch (.const .MaxVarintLen64)) (
    .seq (.define [some .tag] (.conv .uint64 (.bin .or (.bin .shl (.id .fieldID) (.num 3)) (.id .typ)))) (
    .seq (.define [some .tagLen] (.put .PutUvarint .scratch (.id .tag))) asTail)) from rfl, prog_prefix rt _ fuel i f typ ht]

/-- The length of the old value (zeropb.go:335-349). -/
def oldLenP (i typ : Nat) (off : U64) : Prog Int :=
  if typ = 0 then .load (.buf i) fun (b : HSlice) => lift (GoSrc.lift (b.dropFrom off.toNat)) >>= fun t => readVarint (.mem t) >>= fun bs => .done (uvarint bs).2
  else if typ = 5 then .done 4
  else if typ = 1 then .done 8
  else if typ = 2 then .load (.buf i) fun (b : HSlice) => lift (GoSrc.lift (b.dropFrom off.toNat)) >>= fun t => readVarint (.mem t) >>= fun bs =>
    .done (addInt (u64ToInt (uvarint bs).1) (uvarint bs).2)
  else .stop (.fail .unsupportedType)

theorem prog_switch (rt : Rt) (call : Calls) (fuel i f typ : Nat) (vl v : Val) (tag : List Byte) (off : U64) :
    exec rt call fuel ssSwitch ((.oldLen, .int 0) :: (.ok, .bool true) :: (.offset, .u64 off) :: ssEnv i f typ vl v tag) =
    (oldLenP i typ off >>= fun n => .done (.next, (.oldLen, .int n) :: (.ok, .bool true) :: (.offset, .u64 off) :: ssEnv i f typ vl v tag)) := by
  unfold oldLenP
  simp only [ssEnv]
  by_cases h0 : typ = 0
  · have h0' : (typ : Int) = 0 := by omega
    rw [if_pos h0]
    csimp [ssSwitch, eq_true h0']
    refine congrArg (Prog.load _) (funext fun (b : HSlice) => ?_)
    rcases e1 : b.dropFrom off.toNat with e | s
    · csimp [e1]
    · csimp [e1]
  rw [if_neg h0]
  have h0' : ¬ (typ : Int) = 0 := by omega
  by_cases h5 : typ = 5
  · have h5' : (typ : Int) = 5 := by omega
    rw [if_pos h5]
    csimp [ssSwitch, h0', eq_true h5']
  rw [if_neg h5]
  have h5' : ¬ (typ : Int) = 5 := by omega
  by_cases h1 : typ = 1
  · have h1' : (typ : Int) = 1 := by omega
    rw [if_pos h1]
    csimp [ssSwitch, h0', h5', eq_true h1']
  rw [if_neg h1]
  have h1' : ¬ (typ : Int) = 1 := by omega
  by_cases h2 : typ = 2
  · have h2' : (typ : Int) = 2 := by omega
    rw [if_pos h2]
    csimp [ssSwitch, h0', h5', h1', eq_true h2']
    refine congrArg (Prog.load _) (funext fun (b : HSlice) => ?_)
    rcases e1 : b.dropFrom off.toNat with e | s
    · csimp [e1]
    · csimp [e1]
  rw [if_neg h2]
  have h2' : ¬ (typ : Int) = 2 := by omega
  csimp [ssSwitch, h0', h5', h1', h2']

/-- `copy((*buf)[off:], x)`. -/
def copyP (i : Nat) (off : U64) (x : Src) : Prog Nat :=
  .load (.buf i) fun (b : HSlice) => lift (GoSrc.lift (b.dropFrom off.toNat)) >>= fun t => readSrc x >>= fun bs => writeTo t.arr t.off (bs.take t.len) >>= fun _ =>
    .done (min bs.length t.len)

theorem prog_copy {rt : Rt} {call : Calls} {i : Nat} {env : Vars} {o : Expr} {off : U64} {e : Expr} {v : Val} {x : Src} (hb : lookup .buf env = some (.bufPtr i))
    (ho : eval rt call o env = .done (.u64 off, env)) (he : eval rt call e env = .done (v, env)) (hv : CArg v x) :
    eval rt call (.lib .copy (.args (.sliceFrom (.paren (.star (.id .buf))) o) (.arg e))) env = (copyP i off x >>= fun n => .done (.int n, env)) := by
  csimp [hb, ho, he, copyP]
  refine congrArg (Prog.load _) (funext fun (b : HSlice) => ?_)
  rcases e1 : b.dropFrom off.toNat with e | t
  · csimp [e1]
  csimp [ho, e1, libApply, hv.contents, he]

theorem prog_addAssign {rt : Rt} {call : Calls} {fuel : Nat} {off : U64} {a b : Val} {env : Vars} {e : Expr} {p : Prog Nat}
    (h : eval rt call e ((.oldLen, a) :: (.ok, b) :: (.offset, .u64 off) :: env) = (p >>= fun n => .done (.int n, (.oldLen, a) :: (.ok, b) :: (.offset, .u64 off) :: env))) :
    exec rt call fuel (.addAssign .offset (.conv .uint64 e)) ((.oldLen, a) :: (.ok, b) :: (.offset, .u64 off) :: env) =
    (p >>= fun n => .done (.next, (.oldLen, a) :: (.ok, b) :: (.offset, .u64 (off + BitVec.ofNat 64 n)) :: env)) := by
  csimp [h, intToU64_nat]

theorem prog_same (rt : Rt) (call : Calls) (fuel i f typ : Nat) {vl v : Val} {x y : Src} (tag : List Byte) (off : U64) (n : Int) (hvl : CArg vl x) (hv : CArg v y) (rest : Stmt) :
    (exec rt call fuel (.seq ssSame rest) ((.oldLen, .int n) :: (.ok, .bool true) :: (.offset, .u64 off) :: ssEnv i f typ vl v tag)) =
    if n = addInt (strLen x) (strLen y) then
      copyP i off x >>= fun k => copyP i (off + BitVec.ofNat 64 k) y >>= fun l =>
        .done (.ret [], (.oldLen, .int n) :: (.ok, .bool true) :: (.offset, .u64 (off + BitVec.ofNat 64 k + BitVec.ofNat 64 l)) :: ssEnv i f typ vl v tag)
    else exec rt call fuel rest ((.oldLen, .int n) :: (.ok, .bool true) :: (.offset, .u64 off) :: ssEnv i f typ vl v tag) := by
  by_cases h1 : n = addInt (strLen x) (strLen y)
  · rw [if_pos h1]
    have c1 := fun off => prog_copy (rt := rt) (call := call) (i := i) (env := (.oldLen, .int n) :: (.ok, .bool true) :: (.offset, .u64 off) :: ssEnv i f typ vl v tag) (o := .id .offset)
      (off := off) (e := .id .valLen) (x := x) rfl rfl rfl hvl
    have c2 := fun off => prog_copy (rt := rt) (call := call) (i := i) (env := (.oldLen, .int n) :: (.ok, .bool true) :: (.offset, .u64 off) :: ssEnv i f typ vl v tag) (o := .id .offset)
      (off := off) (e := .id .val) (x := y) rfl rfl rfl hv
    have a1 := fun off => prog_addAssign (fuel := fuel) (c1 off)
    have a2 := fun off => prog_addAssign (fuel := fuel) (c2 off)
    unfold ssSame
    rw [exec, exec, show eval rt call (.bin .eq (.conv .int (.id .oldLen)) (.bin .add (.lib .len (.arg (.id .valLen))) (.lib .len (.arg (.id .val)))))
        ((.oldLen, .int n) :: (.ok, .bool true) :: (.offset, .u64 off) :: ssEnv i f typ vl v tag) =
        .done (.bool true, (.oldLen, .int n) :: (.ok, .bool true) :: (.offset, .u64 off) :: ssEnv i f typ vl v tag) by
      simp only [ssEnv]; csimp [hvl.length, hv.length, eq_true h1]]
    simp only [done_bind, inScope]
    rw [exec_seq (a1 off)]
    simp only [bind_assoc']
    refine congrArg (copyP i off x >>= ·) (funext fun k => ?_)
    rw [exec_seq (a2 _)]
    simp only [bind_assoc']
    refine congrArg (copyP i _ y >>= ·) (funext fun l => ?_)
    rfl
  · rw [if_neg h1]
    simp only [ssEnv]
    csimp [ssSame, hvl.length, hv.length, h1]

/-- One round of the first loop of `setSingle` (zeropb.go:368-373). -/
def adjust1 (i : Nat) (fe rb : U64) (k : Nat) : Prog Unit :=
  .load (.slot i k) fun (x : Option U16) => match x with
    | none => .stop .stuck
    | some x => if x ≠ 65535#16 ∧ x.setWidth 64 > fe then
        .load (.slots i) fun (n : Nat) => if k < n then .store (.slot i k (x - rb.setWidth 16)) (.done ()) else .stop (.fail .indexOutOfRange)
      else .done ()

/-- One round of the second loop (zeropb.go:375-379). -/
def adjust2 (i id : Nat) (fe rb : U64) (k : Nat) : Prog Unit :=
  .load (.map id) fun (m : GoMap) => match m.find k with
    | none => .done ()
    | some x => if x > fe then setP i k (x - rb) >>= fun _ => .done () else .done ()

/-- Both loops. -/
def adjustP (rt : Rt) (i : Nat) (fe rb : U64) : Prog Unit :=
  .load (.slots i) fun (n : Nat) => forP (adjust1 i fe rb) (List.range n) >>= fun _ => .load (.ref i) fun (r : Option Nat) => match r with
    | none => .done ()
    | some id => .load (.map id) fun (m : GoMap) => forP (adjust2 i id fe rb) (rt.perm m.keys)

/-- Removing the old value (zeropb.go:358-381). -/
def removeP (rt : Rt) (i : Nat) (fb fe : U64) : Prog Unit :=
  .load (.buf i) fun (b : HSlice) => lift (GoSrc.lift (b.dropFrom fb.toNat)) >>= fun t =>
    .load (.buf i) fun (b : HSlice) => lift (GoSrc.lift (b.dropFrom fe.toNat)) >>= fun u =>
      readSlice u >>= fun bs => writeTo t.arr t.off (bs.take t.len) >>= fun _ =>
    .load (.buf i) fun (b : HSlice) => .load (.buf i) fun (c : HSlice) =>
      lift (GoSrc.lift (b.range 0 (BitVec.ofNat 64 c.len - (fe - fb)).toNat)) >>= fun r => .store (.buf i r) (adjustP rt i fe (fe - fb))

theorem prog_adjust1 (rt : Rt) (call : Calls) (fuel i f typ : Nat) (vl v : Val) (tag : List Byte) (n : Int) (off fb fe rb : U64) :
    rangeArr (exec rt call fuel srcSetSingle_loop1) .fieldID (some .offset) i ((.removedBytes, .u64 rb) :: (.fieldEnd, .u64 fe) ::
      (.fieldBegin, .u64 fb) :: (.oldLen, .int n) :: (.ok, .bool true) :: (.offset, .u64 off) :: ssEnv i f typ vl v tag) =
    ((.load (.slots i) fun (n : Nat) => forP (adjust1 i fe rb) (List.range n) : Prog Unit) >>= fun _ => .done (.next, (.removedBytes, .u64 rb) :: (.fieldEnd, .u64 fe) ::
      (.fieldBegin, .u64 fb) :: (.oldLen, .int n) :: (.ok, .bool true) :: (.offset, .u64 off) :: ssEnv i f typ vl v tag)) := by
  refine congrArg (Prog.load _) (funext fun (n : Nat) => ?_)
  refine forEach_forP ?_ _
  intro k
  refine congrArg (Prog.load _) (funext fun (x : Option U16) => ?_)
  simp only [ssEnv]
  cases x with
  | none => rfl
  | some x =>
    by_cases h1 : x = 65535#16
    · csimp [srcSetSingle_loop1, bindSnd, eq_true h1, false_and]
    · by_cases h2 : x.setWidth 64 > fe
      · csimp [srcSetSingle_loop1, bindSnd, h1, eq_true h2]
        refine congrArg (Prog.load _) (funext fun (n : Nat) => ?_)
        by_cases hn : k < n
        · csimp [Int.ofNat_lt.2 hn, hn]
        · csimp [show ¬ (k : Int) < n by omega, hn]
      · csimp [srcSetSingle_loop1, bindSnd, h1, h2]

theorem prog_adjust2 (rt : Rt) (fuel d i f typ : Nat) (vl v : Val) (tag : List Byte) (n : Int) (off fb fe rb : U64) (id : Nat) :
    rangeMap rt (exec rt (goCall rt fuel (d + 1)) fuel srcSetSingle_loop2) .fieldID (some .offset) id ((.removedBytes, .u64 rb) :: (.fieldEnd, .u64 fe) ::
      (.fieldBegin, .u64 fb) :: (.oldLen, .int n) :: (.ok, .bool true) :: (.offset, .u64 off) :: ssEnv i f typ vl v tag) =
    ((.load (.map id) fun (m : GoMap) => forP (adjust2 i id fe rb) (rt.perm m.keys) : Prog Unit) >>= fun _ => .done (.next, (.removedBytes, .u64 rb) :: (.fieldEnd, .u64 fe) ::
      (.fieldBegin, .u64 fb) :: (.oldLen, .int n) :: (.ok, .bool true) :: (.offset, .u64 off) :: ssEnv i f typ vl v tag)) := by
  refine congrArg (Prog.load _) (funext fun (m : GoMap) => ?_)
  refine forEach_forP ?_ _
  intro k
  refine congrArg (Prog.load _) (funext fun (m : GoMap) => ?_)
  simp only [ssEnv]
  cases hf : m.find k with
  | none => csimp [hf]
  | some x =>
    by_cases h1 : x > fe
    · csimp [srcSetSingle_loop2, bindSnd, hf, eq_true h1, prog_Set]
    · csimp [srcSetSingle_loop2, bindSnd, hf, h1]

theorem prog_remove (rt : Rt) (fuel d i f typ : Nat) (vl v : Val) (tag : List Byte) (n : Int) (off : U64) :
    exec rt (goCall rt fuel (d + 1)) fuel ssRemove ((.oldLen, .int n) :: (.ok, .bool true) :: (.offset, .u64 off) :: ssEnv i f typ vl v tag) =
    (removeP rt i (off - BitVec.ofNat 64 tag.length) (off + intToU64 n) >>= fun _ =>
      .done (.next, (.removedBytes, .u64 (off + intToU64 n - (off - BitVec.ofNat 64 tag.length))) :: (.fieldEnd, .u64 (off + intToU64 n)) ::
        (.fieldBegin, .u64 (off - BitVec.ofNat 64 tag.length)) :: (.oldLen, .int n) :: (.ok, .bool true) :: (.offset, .u64 off) :: ssEnv i f typ vl v tag)) := by
  obtain ⟨fb, hfb⟩ : ∃ x, off - BitVec.ofNat 64 tag.length = x := ⟨_, rfl⟩
  obtain ⟨fe, hfe⟩ : ∃ x, off + intToU64 n = x := ⟨_, rfl⟩
  obtain ⟨rb, hrb⟩ : ∃ x, fe - fb = x := ⟨_, rfl⟩
  have l1 := prog_adjust1 rt (goCall rt fuel (d + 1)) fuel i f typ vl v tag n off fb fe rb
  have l2 := prog_adjust2 rt fuel d i f typ vl v tag n off fb fe rb
  simp only [ssEnv] at l1 l2 ⊢
  csimp [ssRemove, removeP, adjustP, intToU64_nat, hfb, hfe, hrb]
  refine congrArg (Prog.load _) (funext fun (b : HSlice) => ?_)
  rcases e1 : b.dropFrom fb.toNat with e | t
  · csimp [e1]
  csimp [e1]
  refine congrArg (Prog.load _) (funext fun (b : HSlice) => ?_)
  rcases e2 : b.dropFrom fe.toNat with e | u
  · csimp [e2]
  csimp [e2, libApply, contents, readSrc]
  refine congrArg (readSlice u >>= ·) (funext fun bs => ?_)
  refine congrArg (writeTo _ _ _ >>= ·) (funext fun _ => ?_)
  refine congrArg (Prog.load _) (funext fun (b : HSlice) => ?_)
  csimp []
  refine congrArg (Prog.load _) (funext fun (c : HSlice) => ?_)
  rcases e3 : b.range 0 (BitVec.ofNat 64 c.len - rb).toNat with e | r
  · csimp [e3, intToU64_nat]
  csimp [e3, intToU64_nat]
  refine congrArg (Prog.store _) ?_
  rw [l1]
  csimp []
  refine congrArg (Prog.load _) (funext fun (n : Nat) => ?_)
  csimp []
  refine congrArg (forP _ _ >>= ·) (funext fun _ => ?_)
  refine congrArg (Prog.load _) (funext fun (r : Option Nat) => ?_)
  cases r with
  | none => csimp []
  | some id =>
    csimp [l2]

/-- `setSingle` (zeropb.go:326-389). -/
def setSingleP (rt : Rt) (i f typ : Nat) (tag : List Byte) (x y : Src) : Prog (List Val) :=
  find i f >>= fun o => match o with
    | none => tailP rt i f tag x y
    | some off => oldLenP i typ off >>= fun n =>
      if n = addInt (strLen x) (strLen y) then copyP i off x >>= fun k => copyP i (off + BitVec.ofNat 64 k) y >>= fun _ => .done []
      else removeP rt i (off - BitVec.ofNat 64 tag.length) (off + intToU64 n) >>= fun _ => tailP rt i f tag x y

theorem prog_setSingle (rt : Rt) (fuel d i f typ : Nat) {vl v : Val} {x y : Src} {tag : List Byte} (ht : putUvarint maxVarintLen64 (tagOf f typ) = .ok tag) (hvl : CArg vl x) (hv : CArg v y) :
    goCall rt fuel (d + 2) .setSingle [.bufPtr i, .offs i, .int f, .int typ, vl, v] = setSingleP rt i f typ tag x y := by
  rw [goCall, show funcOf .setSingle = some srcSetSingle from rfl]
  dsimp only
  rw [invoke_ends rfl (env := [(.buf, .bufPtr i), (.offsets, .offs i), (.fieldID, .int f), (.typ, .int typ), (.valLen, vl), (.val, v)]) (by
    csimp [srcSetSingle, hvl.coerce, hv.coerce])]
  rw [ss_body, prog_prefix rt _ fuel i f typ ht]
  have htail := prog_tail rt fuel d i f typ tag hvl hv
  rw [exec, exec, inScope]
  rw [show exec rt (goCall rt fuel (d + 1)) fuel (.define [some .offset, some .ok] (.method (.id .offsets) .Get (.arg (.id .fieldID)))) (ssEnv i f typ vl v tag) =
      (find i f >>= fun o => .done (.next, (.ok, .bool o.isSome) :: (.offset, .u64 (o.getD 0#64)) :: ssEnv i f typ vl v tag)) by
    simp only [ssEnv]; csimp [prog_Get]]
  unfold setSingleP
  simp only [bind_assoc', done_bind]
  refine congrArg (find i f >>= ·) (funext fun o => ?_)
  cases o with
  | none => rw [← htail]; rfl
  | some off =>
    have hf : exec rt (goCall rt fuel (d + 1)) fuel ssFound ((.ok, .bool true) :: (.offset, .u64 off) :: ssEnv i f typ vl v tag) =
        (oldLenP i typ off >>= fun n => if n = addInt (strLen x) (strLen y) then
          copyP i off x >>= fun k => copyP i (off + BitVec.ofNat 64 k) y >>= fun l =>
          .done (.ret [], (.oldLen, .int n) :: (.ok, .bool true) :: (.offset, .u64 (off + BitVec.ofNat 64 k + BitVec.ofNat 64 l)) :: ssEnv i f typ vl v tag)
        else removeP rt i (off - BitVec.ofNat 64 tag.length) (off + intToU64 n) >>= fun _ =>
          .done (.next, (.removedBytes, .u64 (off + intToU64 n - (off - BitVec.ofNat 64 tag.length))) :: (.fieldEnd, .u64 (off + intToU64 n)) ::
        (.fieldBegin, .u64 (off - BitVec.ofNat 64 tag.length)) :: (.oldLen, .int n) :: (.ok, .bool true) :: (.offset, .u64 off) :: ssEnv i f typ vl v tag)) := by
      unfold ssFound
      rw [exec_seq (p := .done ()) (g := fun _ => (.oldLen, .int 0) :: (.ok, .bool true) :: (.offset, .u64 off) :: ssEnv i f typ vl v tag) rfl, done_bind,
        exec_seq (prog_switch rt _ fuel i f typ vl v tag off)]
      refine congrArg (_ >>= ·) (funext fun n => ?_)
      rw [prog_same rt _ fuel i f typ tag off n hvl hv, prog_remove]
    show (inScope (exec rt (goCall rt fuel (d + 1)) fuel ssFound) ((.ok, .bool true) :: (.offset, .u64 off) :: ssEnv i f typ vl v tag) >>= fun a => _) = _
    rw [inScope, hf]
    simp only [bind_assoc']
    refine congrArg (_ >>= ·) (funext fun n => ?_)
    by_cases hn : n = addInt (strLen x) (strLen y)
    · rw [if_pos hn, if_pos hn]
      simp only [bind_assoc']
      refine congrArg (_ >>= ·) (funext fun k => ?_)
      refine congrArg (_ >>= ·) (funext fun l => ?_)
      rfl
    · rw [if_neg hn, if_neg hn]
      simp only [bind_assoc']
      refine congrArg (_ >>= ·) (funext fun _ => ?_)
      rw [← htail]
      rfl

end Zeropb.GoSrc.Conc
