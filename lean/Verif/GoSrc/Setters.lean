import Verif.GoSrc.Dec
import Verif.Proof.Get
/-!
# The interpreted source of `setSingle` and `appendSingle` computes the model
-/

set_option linter.constructorNameAsVariable false
set_option linter.unusedSimpArgs false
set_option linter.unusedVariables false

namespace Zeropb.GoSrc

attribute [local congr] bind_head rangeArr_congr rangeMap_congr loopWhile_congr

/-! ## Arithmetic -/

theorem intToU64_u64ToInt (x : U64) : intToU64 (u64ToInt x) = x := by
  apply BitVec.eq_of_toNat_eq
  have h := x.isLt
  simp only [intToU64, u64ToInt, wrapInt, BitVec.toNat_ofInt]
  omega

theorem tag_eq (f typ : Nat) :
    intToU64 (u64ToInt (intToU64 (u64ToInt (intToU64 (f : Int) <<< 3)) ||| intToU64 (typ : Int))) = tagOf f typ := by
  rw [intToU64_u64ToInt, intToU64_u64ToInt, intToU64_nat, intToU64_nat]
  rfl

theorem addInt_nat {a b : Nat} (h : a + b < maxLen) : addInt (a : Int) (b : Int) = ((a + b : Nat) : Int) := by
  simp only [addInt, wrapInt]
  simp only [maxLen] at h
  omega

theorem putUvarint_length : ∀ (n : Nat) (x : U64) (bs : List Byte), putUvarint n x = .ok bs → bs.length ≤ n
  | 0, _, _, h => by cases h
  | n + 1, x, bs, h => by
    rw [putUvarint] at h
    split at h
    · cases e : putUvarint n (x >>> 7) with
      | error e' => rw [e] at h; cases h
      | ok rest =>
        rw [e] at h
        simp only [bind, Except.bind, pure, Except.pure, Except.ok.injEq] at h
        subst h
        have := putUvarint_length n _ _ e
        simp; omega
    · simp only [pure, Except.pure, Except.ok.injEq] at h
      subst h
      simp

theorem xbind_ok {ε α β : Type} (a : α) (f : α → Except ε β) : (Except.ok a >>= f) = f a := rfl
theorem xbind_error {ε α β : Type} (e : ε) (f : α → Except ε β) : ((Except.error e : Except ε α) >>= f) = .error e := rfl
theorem xpure {ε α : Type} (a : α) : (pure a : Except ε α) = .ok a := rfl

/-! ## The arguments of setters -/

/-- `v` is a `[]byte` with contents `s`. -/
structure Arg (v : Val) (s : Src) : Prop where
  contents : ∀ w : World, v.contents w = .ok (w.src s)
  length : v.length = .ok (strLen s)
  coerce : ∀ t, v.coerce t = v

theorem Arg.bytes (s : Src) : Arg (.bytes s) s := ⟨fun _ => rfl, by cases s <;> rfl, fun _ => rfl⟩
theorem Arg.nil : Arg .nil (.lit []) := ⟨fun _ => rfl, rfl, fun _ => rfl⟩

/-- The memory a setter argument refers to exists. -/
def World.WFsrc (w : World) : Src → Prop
  | .lit _ => True
  | .mem s => w.WFs s

theorem src_length {w : World} {s : Src} (h : World.WFsrc w s) : (w.src s).length = strLen s := by
  cases s with
  | lit bs => rfl
  | mem s => exact World.slice_len h

/-! ## The parts of `setSingle` -/

/-- zeropb.go:383-388. -/
def ssTail : Stmt :=
    .seq (.assign (.star (.id .buf)) (.append (.star (.id .buf)) (.sliceTo (.id .scratch) (.id .tagLen)))) <|
    .seq (.define [some .offset] (.lib .len (.arg (.star (.id .buf))))) <|
    .seq (.expr (.method (.id .offsets) .Set (.args (.id .fieldID) (.arg (.conv .uint64 (.id .offset)))))) <|
    .seq (.assign (.star (.id .buf)) (.append (.star (.id .buf)) (.id .valLen))) <|
    .seq (.assign (.star (.id .buf)) (.append (.star (.id .buf)) (.id .val))) <|
    .skip

/-- zeropb.go:336-349. -/
def ssSwitch : Stmt :=
      .switch (.id .typ) <|
      .case (.const .WireVarint) (.seq (.assignSnd .oldLen (.lib .Uvarint (.arg (.sliceFrom (.paren (.star (.id .buf))) (.id .offset))))) <|
        .skip) <|
      .case (.const .WireFixed32) (.seq (.assign (.id .oldLen) (.num 4)) <|
        .skip) <|
      .case (.const .WireFixed64) (.seq (.assign (.id .oldLen) (.num 8)) <|
        .skip) <|
      .case (.const .WireBytes) (.seq (.define [some .oldValLen, some .oldValLenLen] (.lib .Uvarint (.arg (.sliceFrom (.paren (.star (.id .buf))) (.id .offset))))) <|
        .seq (.assign (.id .oldLen) (.bin .add (.conv .int (.id .oldValLen)) (.id .oldValLenLen))) <|
        .skip) <|
      .default (.seq (.panicType (.id .typ)) <|
        .skip)

/-- zeropb.go:350-354. -/
def ssSame : Stmt :=
      .ite (.bin .eq (.conv .int (.id .oldLen)) (.bin .add (.lib .len (.arg (.id .valLen))) (.lib .len (.arg (.id .val))))) (.seq (.addAssign .offset (.conv .uint64 (.lib .copy (.args (.sliceFrom (.paren (.star (.id .buf))) (.id .offset)) (.arg (.id .valLen)))))) <|
        .seq (.addAssign .offset (.conv .uint64 (.lib .copy (.args (.sliceFrom (.paren (.star (.id .buf))) (.id .offset)) (.arg (.id .val)))))) <|
        .seq (.ret) <|
        .skip) .skip

/-- zeropb.go:358-381. -/
def ssRemove : Stmt :=
      .seq (.define [some .fieldBegin, some .fieldEnd] (.args (.bin .sub (.id .offset) (.conv .uint64 (.id .tagLen))) (.arg (.bin .add (.id .offset) (.conv .uint64 (.id .oldLen)))))) <|
      .seq (.expr (.lib .copy (.args (.sliceFrom (.paren (.star (.id .buf))) (.id .fieldBegin)) (.arg (.sliceFrom (.paren (.star (.id .buf))) (.id .fieldEnd)))))) <|
      .seq (.define [some .removedBytes] (.bin .sub (.id .fieldEnd) (.id .fieldBegin))) <|
      .seq (.assign (.paren (.star (.id .buf))) (.sliceTo (.paren (.star (.id .buf))) (.bin .sub (.conv .uint64 (.lib .len (.arg (.star (.id .buf))))) (.id .removedBytes)))) <|
      .seq (.range .fieldID (some .offset) (.sel (.id .offsets) .a) srcSetSingle_loop1) <|
      .seq (.ite (.bin .ne (.sel (.id .offsets) .m) .nil) (.seq (.range .fieldID (some .offset) (.star (.sel (.id .offsets) .m)) srcSetSingle_loop2) <|
        .skip) .skip) <|
      .skip

/-- zeropb.go:335-381. -/
def ssFound : Stmt := .seq (.var .oldLen .int) <| .seq ssSwitch <| .seq ssSame <| ssRemove

/-- zeropb.go:327-333. -/
theorem ss_body : srcSetSingle.body =
    .seq (.varArray .scratch (.const .MaxVarintLen64)) (
    .seq (.define [some .tag] (.conv .uint64 (.bin .or (.bin .shl (.id .fieldID) (.num 3)) (.id .typ)))) (
    .seq (.define [some .tagLen] (.put .PutUvarint .scratch (.id .tag))) (
    .seq (.iteInit (.define [some .offset, some .ok] (.method (.id .offsets) .Get (.arg (.id .fieldID)))) (.id .ok) ssFound .skip) ssTail))) := rfl

/-- The variables of `setSingle` and `appendSingle`, the tag written. -/
def ssEnv (i f typ : Nat) (vl v : Val) (tag : List Byte) : List (Id × Val) :=
  [(.tagLen, .int tag.length), (.tag, .u64 (tagOf f typ)), (.scratch, .array (tag ++ (List.replicate 10 0#8).drop tag.length)),
   (.buf, .bufPtr i), (.offsets, .offs i), (.fieldID, .int f), (.typ, .int typ), (.valLen, vl), (.val, v)]

/-- The memory a statement without result leaves. -/
def outHeap (r : M (Out × St)) : M Heap := r >>= fun r => match r.1 with
  | .next => .ok r.2.h
  | .ret [] => .ok r.2.h
  | .ret _ => .error .stuck

theorem append_maps {rt : Rt} {w : World} {b : HSlice} {bs : List Byte} {r : HSlice × World} (h : w.append rt b bs = .ok r) :
    r.2.maps = w.maps := by
  unfold World.append at h
  split at h
  · split at h
    · simp only [Except.ok.injEq] at h; subst h; rfl
    · simp only [Except.ok.injEq] at h; subst h; rfl
  · cases h

theorem ss_tail (rt : Rt) (d i f typ : Nat) {vl v : Val} {valLen : List Byte} {val : Src} (tag : List Byte) (h : Heap)
    (hvl : Arg vl (.lit valLen)) (hv : Arg v val) (hw : ∀ id, (h.ms i).m = some id → id < h.w.maps.length) :
    outHeap (exec rt (goCall rt (d + 1)) ssTail ⟨h, ssEnv i f typ vl v tag⟩) =
    (lift (HMsg.appendField rt h.w (h.ms i) f tag valLen val) >>= fun r => .ok (h.upd i r)) := by
  simp only [HMsg.appendField, ssEnv]
  have hle : tag.length ≤ (tag ++ List.drop tag.length (List.replicate 10 0#8)).length := by simp
  rcases e1 : h.w.append rt (h.ms i).buf tag with e | ⟨b, w1⟩
  · gosimp [ssTail, outHeap, hle, List.take_left, e1, xbind_error]
  have hm1 : w1.maps = h.w.maps := append_maps e1
  have ho : w1.offs { h.ms i with buf := b } = w1.offs (h.ms i) := rfl
  have hset := go_Set rt d i f (BitVec.ofNat 64 b.len) (h.upd i ({ h.ms i with buf := b }, w1)) (by
    simp only [upd_ms, upd_w, hm1]; exact hw)
  simp only [upd_ms, upd_w, ho, upd_upd] at hset
  rcases e2 : (w1.offs (h.ms i)).set f (BitVec.ofNat 64 b.len) with e | o
  · gosimp [ssTail, outHeap, hle, List.take_left, e1, put_eq, upd_mk, upd_ms, upd_w, intToU64_nat, hset, e2, xbind_ok, xbind_error]
  obtain ⟨⟨buf0, a2, m2⟩, w2, hst⟩ : ∃ m2 w2, w1.storeOffs (h.ms i) o = (m2, w2) := ⟨_, _, rfl⟩
  have hst' : w1.storeOffs { h.ms i with buf := b } o = (⟨b, a2, m2⟩, w2) := by rw [World.storeOffs_buf, hst]
  rcases e3 : w2.append rt b valLen with e | ⟨b3, w3⟩
  · gosimp [ssTail, outHeap, hle, List.take_left, e1, put_eq, upd_mk, upd_ms, upd_w, intToU64_nat, hset, e2, hst, hst', upd_upd, hvl.contents, e3,
      xbind_ok, xbind_error]
  rcases e4 : w3.append rt b3 (w3.src val) with e | ⟨b4, w4⟩
  · gosimp [ssTail, outHeap, hle, List.take_left, e1, put_eq, upd_mk, upd_ms, upd_w, intToU64_nat, hset, e2, hst, hst', upd_upd, hvl.contents, e3,
      hv.contents, e4, xbind_ok, xbind_error, mk_upd]
  · gosimp [ssTail, outHeap, hle, List.take_left, e1, put_eq, upd_mk, upd_ms, upd_w, intToU64_nat, hset, e2, hst, hst', upd_upd, hvl.contents, e3,
      hv.contents, e4, xbind_ok, xbind_error, mk_upd, xpure]

theorem ss_switch (rt : Rt) (call : Calls) (i f typ : Nat) (vl v : Val) (tag : List Byte) (h : Heap) (off : U64) (hb : h.w.WFs (h.ms i).buf) :
    exec rt call ssSwitch ⟨h, (.oldLen, .int 0) :: (.ok, .bool true) :: (.offset, .u64 off) :: ssEnv i f typ vl v tag⟩ =
    (lift (oldLenOf (h.w.slice (h.ms i).buf) off typ) >>= fun n =>
      .ok (.next, ⟨h, (.oldLen, .int n) :: (.ok, .bool true) :: (.offset, .u64 off) :: ssEnv i f typ vl v tag⟩)) := by
  simp only [oldLenOf, ssEnv, World.slice_dropFrom hb]
  by_cases h0 : typ = 0
  · rw [if_pos (show typ = wireVarint from h0)]
    have h0' : (typ : Int) = 0 := by omega
    rcases e1 : (h.ms i).buf.dropFrom off.toNat with e | s
    · gosimp [ssSwitch, eq_true h0', e1, Except.map, xbind_error]
    · gosimp [ssSwitch, eq_true h0', e1, Except.map, xbind_ok, xpure]
  rw [if_neg (show ¬ typ = wireVarint from h0)]
  have h0' : ¬ (typ : Int) = 0 := by omega
  by_cases h5 : typ = 5
  · rw [if_pos (show typ = wireFixed32 from h5)]
    have h5' : (typ : Int) = 5 := by omega
    gosimp [ssSwitch, h0', eq_true h5', xpure]
  rw [if_neg (show ¬ typ = wireFixed32 from h5)]
  have h5' : ¬ (typ : Int) = 5 := by omega
  by_cases h1 : typ = 1
  · rw [if_pos (show typ = wireFixed64 from h1)]
    have h1' : (typ : Int) = 1 := by omega
    gosimp [ssSwitch, h0', h5', eq_true h1', xpure]
  rw [if_neg (show ¬ typ = wireFixed64 from h1)]
  have h1' : ¬ (typ : Int) = 1 := by omega
  by_cases h2 : typ = 2
  · rw [if_pos (show typ = wireBytes from h2)]
    have h2' : (typ : Int) = 2 := by omega
    rcases e1 : (h.ms i).buf.dropFrom off.toNat with e | s
    · gosimp [ssSwitch, h0', h5', h1', eq_true h2', e1, Except.map, xbind_error]
    · gosimp [ssSwitch, h0', h5', h1', eq_true h2', e1, Except.map, xbind_ok, xpure]
  rw [if_neg (show ¬ typ = wireBytes from h2)]
  have h2' : ¬ (typ : Int) = 2 := by omega
  gosimp [ssSwitch, h0', h5', h1', h2']

theorem ss_same (rt : Rt) (call : Calls) (i f typ : Nat) {vl v : Val} {valLen : List Byte} {val : Src} (tag : List Byte) (h : Heap) (off : U64)
    (n : Int) (hvl : Arg vl (.lit valLen)) (hv : Arg v val) (hs : World.WFsrc h.w val) (hl : valLen.length + strLen val < maxLen) :
    exec rt call ssSame ⟨h, (.oldLen, .int n) :: (.ok, .bool true) :: (.offset, .u64 off) :: ssEnv i f typ vl v tag⟩ =
    if n = ((valLen.length + (h.w.src val).length : Nat) : Int) then
      lift (do
        let dst1 ← (h.ms i).buf.dropFrom off.toNat
        let w := h.w.copy dst1 valLen
        let offset := off + BitVec.ofNat 64 (min valLen.length dst1.len)
        let dst2 ← (h.ms i).buf.dropFrom offset.toNat
        return (w.copy dst2 (w.src val), offset + BitVec.ofNat 64 (min (w.src val).length dst2.len))) >>= fun r =>
      .ok (.ret [], ⟨h.upd i (h.ms i, r.1), (.oldLen, .int n) :: (.ok, .bool true) :: (.offset, .u64 r.2) :: ssEnv i f typ vl v tag⟩)
    else .ok (.next, ⟨h, (.oldLen, .int n) :: (.ok, .bool true) :: (.offset, .u64 off) :: ssEnv i f typ vl v tag⟩) := by
  simp only [ssEnv]
  rw [src_length hs]
  have e0 : addInt (valLen.length : Int) (strLen val : Int) = ((valLen.length + strLen val : Nat) : Int) := addInt_nat hl
  have e0' : strLen (.lit valLen) = valLen.length := rfl
  by_cases h1 : n = ((valLen.length + strLen val : Nat) : Int)
  · rw [if_pos h1]
    rcases e1 : (h.ms i).buf.dropFrom off.toNat with e | dst1
    · gosimp [ssSame, hvl.length, hv.length, e0', e0, eq_true h1, e1, xbind_error]
    rcases e2 : (h.ms i).buf.dropFrom (off + BitVec.ofNat 64 (min valLen.length dst1.len)).toNat with e | dst2
    · gosimp [ssSame, hvl.length, hv.length, e0', e0, eq_true h1, e1, xbind_ok, xbind_error, hvl.contents, intToU64_nat, e2]
    · gosimp [ssSame, hvl.length, hv.length, e0', e0, eq_true h1, e1, xbind_ok, xbind_error, xpure, hvl.contents, hv.contents, intToU64_nat, e2]
      rw [← mk_ms]
  · rw [if_neg h1]
    gosimp [ssSame, hvl.length, hv.length, e0', e0, h1]

theorem ss_loop1 (rt : Rt) (call : Calls) (i f typ : Nat) (vl v : Val) (tag : List Byte) (n : Int) (off fb fe rb : U64) (h : Heap) :
    rangeArr (exec rt call srcSetSingle_loop1) .fieldID (some .offset) i ⟨h, (.removedBytes, .u64 rb) :: (.fieldEnd, .u64 fe) ::
      (.fieldBegin, .u64 fb) :: (.oldLen, .int n) :: (.ok, .bool true) :: (.offset, .u64 off) :: ssEnv i f typ vl v tag⟩ =
    .ok (.next, ⟨h.setA i (adjustArray (h.ms i).a fe rb), (.removedBytes, .u64 rb) :: (.fieldEnd, .u64 fe) ::
      (.fieldBegin, .u64 fb) :: (.oldLen, .int n) :: (.ok, .bool true) :: (.offset, .u64 off) :: ssEnv i f typ vl v tag⟩) := by
  let E := (.removedBytes, .u64 rb) :: (.fieldEnd, .u64 fe) ::
      (.fieldBegin, .u64 fb) :: (.oldLen, .int n) :: (.ok, .bool true) :: (.offset, .u64 off) :: ssEnv i f typ vl v tag
  let g : U16 → U16 := fun offset => if offset ≠ 65535#16 ∧ offset.setWidth 64 > fe then offset - rb.setWidth 16 else offset
  have key := forEach_fold (σ := List U16) (P := fun a => a.length = (h.ms i).a.length)
    (q := fun a => ⟨h.setA i a, E⟩) (g := fun a k => a.set k (g (a.getD k 0#16)))
    (body := fun n s => match (s.h.ms i).a[n]? with
      | some x => inScope (fun s => exec rt call srcSetSingle_loop1 { s with env := bindSnd (some .offset) (.u16 x) ((.fieldID, .int n) :: s.env) }) s
      | none => .error .stuck) (List.range (h.ms i).a.length) (h.ms i).a rfl ?_
  · rw [foldl_set_map _ _ _ _ (Nat.le_refl _), setA_self, List.take_length, List.drop_length, List.append_nil] at key
    exact key.1
  · intro k hk a ha
    have hk := List.mem_range.1 hk
    refine ⟨?_, by simp [ha]⟩
    have e1 : (((h.setA i a).ms i).a) = a := by simp [Heap.setA, upd_ms]
    obtain ⟨x, e2⟩ : ∃ x, a[k]? = some x := ⟨_, List.getElem?_eq_getElem (by omega)⟩
    have hl : (k : Int) < (a.length : Int) := by omega
    have e3 : a.getD k 0#16 = x := by rw [List.getD_eq_getElem?_getD, e2, Option.getD_some]
    simp only [e1, e2, bindSnd, e3, g, E, ssEnv]
    by_cases h1 : x = 65535#16
    · rw [if_neg (fun h => h.1 h1)]
      gosimp [srcSetSingle_loop1, eq_true h1]
      congr 3
      have : a.set k x = a := by
        rw [← (List.getElem?_eq_some_iff.1 e2).2, List.set_getElem_self]
      rw [this]
    · by_cases h2 : x.setWidth 64 > fe
      · rw [if_pos ⟨h1, h2⟩]
        gosimp [srcSetSingle_loop1, h1, eq_true h2, e1, hl, put_eq]
        simp only [Heap.setA, upd_ms, upd_upd, upd_w]
      · rw [if_neg (fun h => h2 h.2)]
        gosimp [srcSetSingle_loop1, h1, h2]
        congr 3
        have : a.set k x = a := by
          rw [← (List.getElem?_eq_some_iff.1 e2).2, List.set_getElem_self]
        rw [this]

theorem withOffs_getD {h : Heap} {i id : Nat} {o : Offsets} {mp : GoMap} (hm : (h.ms i).m = some id) (hid : id < h.w.maps.length) (ho : o.m = some mp) :
    (h.withOffs i o).w.maps.getD id [] = mp := by
  simp only [Heap.withOffs, upd_w, World.storeOffs, hm, ho, getD_set _ _ _ _ hid]

theorem ss_loop2_aux (rt : Rt) (d i f typ : Nat) (vl v : Val) (tag : List Byte) (n : Int) (off fb fe rb : U64) (h : Heap) {id : Nat}
    (hm : (h.ms i).m = some id) (hid : id < h.w.maps.length) : ∀ (ks : List Nat) (o : Offsets), o.m ≠ none →
    forEach (fun n s => match (s.h.w.maps.getD id []).find n with
      | some x => inScope (fun s => exec rt (goCall rt (d + 1)) srcSetSingle_loop2
          { s with env := bindSnd (some .offset) (.u64 x) ((.fieldID, .int n) :: s.env) }) s
      | none => .ok (.next, s)) ks ⟨h.withOffs i o, (.removedBytes, .u64 rb) :: (.fieldEnd, .u64 fe) ::
      (.fieldBegin, .u64 fb) :: (.oldLen, .int n) :: (.ok, .bool true) :: (.offset, .u64 off) :: ssEnv i f typ vl v tag⟩ =
    (lift (adjustMap fe rb ks o) >>= fun o' => .ok (.next, ⟨h.withOffs i o', (.removedBytes, .u64 rb) :: (.fieldEnd, .u64 fe) ::
      (.fieldBegin, .u64 fb) :: (.oldLen, .int n) :: (.ok, .bool true) :: (.offset, .u64 off) :: ssEnv i f typ vl v tag⟩)) := by
  intro ks
  induction ks with
  | nil => intro o _; rfl
  | cons k ks ih =>
    intro o ho
    cases hom : o.m with
    | none => exact absurd hom ho
    | some mp =>
    have hw : ∀ id, (h.ms i).m = some id → id < h.w.maps.length := by
      intro id' h'; rw [hm] at h'; simp only [Option.some.injEq] at h'; omega
    have hset := fun f x => go_Set' hw (fun _ => ho) rt d f x
    have e1 : (h.withOffs i o).w.maps.getD id [] = mp := withOffs_getD hm hid hom
    simp only [forEach, adjustMap, e1, hom, Option.bind_some]
    cases hf : mp.find k with
    | none => exact ih o ho
    | some x =>
      simp only
      by_cases h1 : x > fe
      · rw [if_pos h1]
        rcases e2 : o.set k (x - rb) with e | o'
        · simp only [ssEnv]
          gosimp [bindSnd, srcSetSingle_loop2, eq_true h1, hset, e2, xbind_error]
        · rw [xbind_ok]
          refine Eq.trans (bind_head _ (y := .ok (.next, ⟨h.withOffs i o', (.removedBytes, .u64 rb) :: (.fieldEnd, .u64 fe) ::
            (.fieldBegin, .u64 fb) :: (.oldLen, .int n) :: (.ok, .bool true) :: (.offset, .u64 off) :: ssEnv i f typ vl v tag⟩)) ?_)
            (Eq.trans ?_ (ih o' (set_isSome e2 ho)))
          · simp only [ssEnv, bindSnd]
            gosimp [srcSetSingle_loop2, eq_true h1, hset, e2, xbind_error]
          · rfl
      · rw [if_neg h1]
        refine Eq.trans (bind_head _ (y := .ok (.next, ⟨h.withOffs i o, (.removedBytes, .u64 rb) :: (.fieldEnd, .u64 fe) ::
            (.fieldBegin, .u64 fb) :: (.oldLen, .int n) :: (.ok, .bool true) :: (.offset, .u64 off) :: ssEnv i f typ vl v tag⟩)) ?_)
            (Eq.trans ?_ (ih o ho))
        · simp only [ssEnv, bindSnd]
          gosimp [srcSetSingle_loop2, h1]
        · rfl

theorem withOffs_self (h : Heap) (i : Nat) : h.withOffs i (h.w.offs (h.ms i)) = h := by
  rw [Heap.withOffs, storeOffs_self, upd_self]

theorem ss_loop2 (rt : Rt) (d i f typ : Nat) (vl v : Val) (tag : List Byte) (n : Int) (off fb fe rb : U64) (h : Heap) {id : Nat}
    (hm : (h.ms i).m = some id) (hid : id < h.w.maps.length) :
    rangeMap rt (exec rt (goCall rt (d + 1)) srcSetSingle_loop2) .fieldID (some .offset) id ⟨h, (.removedBytes, .u64 rb) :: (.fieldEnd, .u64 fe) ::
      (.fieldBegin, .u64 fb) :: (.oldLen, .int n) :: (.ok, .bool true) :: (.offset, .u64 off) :: ssEnv i f typ vl v tag⟩ =
    (lift (adjustMap fe rb (rt.perm (((h.w.offs (h.ms i)).m.getD []).keys)) (h.w.offs (h.ms i))) >>= fun o' =>
      .ok (.next, ⟨h.withOffs i o', (.removedBytes, .u64 rb) :: (.fieldEnd, .u64 fe) ::
      (.fieldBegin, .u64 fb) :: (.oldLen, .int n) :: (.ok, .bool true) :: (.offset, .u64 off) :: ssEnv i f typ vl v tag⟩)) := by
  have ho : (h.w.offs (h.ms i)).m = some (h.w.maps.getD id []) := by simp only [World.offs, hm, Option.map_some]
  have := ss_loop2_aux rt d i f typ vl v tag n off fb fe rb h hm hid (rt.perm (((h.w.offs (h.ms i)).m.getD []).keys)) (h.w.offs (h.ms i))
    (by rw [ho]; simp)
  rw [withOffs_self, ho, Option.getD_some] at this
  rw [ho, Option.getD_some]
  exact this

theorem perm_nil (rt : Rt) : rt.perm [] = [] := (rt.perm_ok []).eq_nil

theorem ss_remove (rt : Rt) (d i f typ : Nat) (vl v : Val) (tag : List Byte) (n : Int) (off : U64) (h : Heap)
    (hw : ∀ id, (h.ms i).m = some id → id < h.w.maps.length) :
    ∃ E', exec rt (goCall rt (d + 1)) ssRemove ⟨h, (.oldLen, .int n) :: (.ok, .bool true) :: (.offset, .u64 off) :: ssEnv i f typ vl v tag⟩ =
    (lift (HMsg.removeField rt h.w (h.ms i) off tag.length n) >>= fun r => .ok (.next, ⟨h.upd i r, E'⟩)) ∧
    E' = (.removedBytes, .u64 (off + intToU64 n - (off - BitVec.ofNat 64 tag.length))) :: (.fieldEnd, .u64 (off + intToU64 n)) ::
      (.fieldBegin, .u64 (off - BitVec.ofNat 64 tag.length)) :: (.oldLen, .int n) :: (.ok, .bool true) :: (.offset, .u64 off) ::
      ssEnv i f typ vl v tag := by
  refine ⟨_, ?_, rfl⟩
  simp only [HMsg.removeField]
  obtain ⟨fb, hfb⟩ : ∃ x, off - BitVec.ofNat 64 tag.length = x := ⟨_, rfl⟩
  obtain ⟨fe, hfe⟩ : ∃ x, off + intToU64 n = x := ⟨_, rfl⟩
  obtain ⟨rb, hrb⟩ : ∃ x, fe - fb = x := ⟨_, rfl⟩
  rw [hfb, hfe, hrb]
  rcases e1 : (h.ms i).buf.dropFrom fb.toNat with e | dst
  · simp only [ssEnv]
    gosimp [ssRemove, intToU64_nat, hfb, hfe, hrb, e1, xbind_error]
  rcases e2 : (h.ms i).buf.dropFrom fe.toNat with e | src
  · simp only [ssEnv]
    gosimp [ssRemove, intToU64_nat, hfb, hfe, hrb, e1, e2, xbind_error, xbind_ok]
  obtain ⟨w1, hw1⟩ : ∃ w1, h.w.copy dst (h.w.slice src).data = w1 := ⟨_, rfl⟩
  have hm1 : w1.maps = h.w.maps := by rw [← hw1]; rfl
  rw [xbind_ok, xbind_ok, hw1]
  rcases e3 : (h.ms i).buf.range 0 (BitVec.ofNat 64 (h.ms i).buf.len - rb).toNat with e | b
  · simp only [ssEnv]
    gosimp [ssRemove, intToU64_nat, hfb, hfe, hrb, e1, e2, e3, xbind_error, xbind_ok, hw1]
  rw [xbind_ok]
  obtain ⟨h1, hh1⟩ : ∃ h1, (h.upd i ({ h.ms i with buf := b }, w1)) = h1 := ⟨_, rfl⟩
  have l1 := ss_loop1 rt (goCall rt (d + 1)) i f typ vl v tag n off fb fe rb h1
  have q1 : h1.setA i (adjustArray (h1.ms i).a fe rb) = h.upd i ({ h.ms i with buf := b, a := adjustArray (h.ms i).a fe rb }, w1) := by
    rw [← hh1]; simp only [Heap.setA, upd_ms, upd_w, upd_upd]
  rw [q1] at l1
  simp only [ssEnv] at l1
  cases hm : (h.ms i).m with
  | none =>
    obtain ⟨h2, hh2⟩ : ∃ h2, h.upd i ({ h.ms i with buf := b, a := adjustArray (h.ms i).a fe rb }, w1) = h2 := ⟨_, rfl⟩
    have hm2 : (h2.ms i).m = none := by rw [← hh2, upd_ms]; exact hm
    simp only [ssEnv]
    gosimp [ssRemove, intToU64_nat, hfb, hfe, hrb, e1, e2, e3, hw1, put_eq, upd_mk, hh1, l1, hh2, upd_ms, hm2]
    rw [← hh2]
    simp only [World.offs, World.storeOffs, hm, Option.map_none, Option.getD_none, GoMap.keys, List.map_nil, perm_nil, adjustMap, xbind_ok, xpure, lift]
  | some id =>
    obtain ⟨h2, hh2⟩ : ∃ h2, h.upd i ({ h.ms i with buf := b, a := adjustArray (h.ms i).a fe rb }, w1) = h2 := ⟨_, rfl⟩
    have hm2 : (h2.ms i).m = some id := by rw [← hh2, upd_ms]; exact hm
    have hid2 : id < h2.w.maps.length := by rw [← hh2, upd_w, hm1]; exact hw id hm
    have l2 := ss_loop2 rt d i f typ vl v tag n off fb fe rb h2 hm2 hid2
    have ho2 : h2.w.offs (h2.ms i) = ⟨adjustArray (w1.offs (h.ms i)).a fe rb, (w1.offs (h.ms i)).m⟩ := by
      rw [← hh2, upd_ms, upd_w]; rfl
    rw [ho2] at l2
    simp only at l2
    rcases e4 : adjustMap fe rb (rt.perm (((w1.offs (h.ms i)).m.getD []).keys)) ⟨adjustArray (w1.offs (h.ms i)).a fe rb, (w1.offs (h.ms i)).m⟩ with e | o'
    · rw [e4] at l2
      simp only [ssEnv] at l2 ⊢
      gosimp [ssRemove, intToU64_nat, hfb, hfe, hrb, e1, e2, e3, hw1, put_eq, upd_mk, hh1, l1, hh2, upd_ms, hm2, l2, xbind_error]
    · rw [e4] at l2
      simp only [ssEnv] at l2 ⊢
      gosimp [ssRemove, intToU64_nat, hfb, hfe, hrb, e1, e2, e3, hw1, put_eq, upd_mk, hh1, l1, hh2, upd_ms, hm2, l2, xbind_ok, xpure]
      congr 3
      have hs : (w1.offs (h.ms i)).m ≠ none := by simp [World.offs, hm]
      have ho' := adjustMap_map e4 hs
      rw [Heap.withOffs, ← hh2, upd_ms, upd_w, upd_upd]
      congr 1
      cases ho'm : o'.m with
      | none => exact absurd ho'm ho'
      | some mp => simp only [World.storeOffs, hm, ho'm]

theorem invoke_void (rt : Rt) (call : Calls) (f : Func) (hr : f.results = []) {args : List Val} {env : List (Id × Val)} (h : Heap)
    (ha : bindArgs f.formals args = .ok env) :
    invoke rt call f args h = (outHeap (exec rt call f.body ⟨h, env⟩) >>= fun h => .ok ([], h)) := by
  simp only [invoke, ha, bind_ok, hr]
  cases exec rt call f.body ⟨h, env⟩ with
  | error e => rfl
  | ok r =>
    obtain ⟨o, st⟩ := r
    cases o with
    | next => rfl
    | ret vs => cases vs <;> rfl

/-- The variables declared by zeropb.go:335-368. -/
def rmVars (off : U64) (tagLen : Nat) (n : Int) : List (Id × Val) :=
  [(.removedBytes, .u64 (off + intToU64 n - (off - BitVec.ofNat 64 tagLen))), (.fieldEnd, .u64 (off + intToU64 n)),
      (.fieldBegin, .u64 (off - BitVec.ofNat 64 tagLen)), (.oldLen, .int n)]

/-- zeropb.go:351-353, the memory and the final value of `offset`. -/
def sameLen (w : World) (m : HMsg) (off : U64) (valLen : List Byte) (val : Src) : Res (World × U64) := do
  let dst1 ← m.buf.dropFrom off.toNat
  let w := w.copy dst1 valLen
  let offset := off + BitVec.ofNat 64 (min valLen.length dst1.len)
  let dst2 ← m.buf.dropFrom offset.toNat
  return (w.copy dst2 (w.src val), offset + BitVec.ofNat 64 (min (w.src val).length dst2.len))

theorem ss_found (rt : Rt) (d i f typ : Nat) {vl v : Val} {valLen : List Byte} {val : Src} (tag : List Byte) (off : U64) (h : Heap)
    (hvl : Arg vl (.lit valLen)) (hv : Arg v val) (hs : World.WFsrc h.w val) (hl : valLen.length + strLen val < maxLen)
    (hb : h.w.WFs (h.ms i).buf) (hw : ∀ id, (h.ms i).m = some id → id < h.w.maps.length) :
    exec rt (goCall rt (d + 1)) ssFound ⟨h, (.ok, .bool true) :: (.offset, .u64 off) :: ssEnv i f typ vl v tag⟩ =
    (lift (oldLenOf (h.w.slice (h.ms i).buf) off typ) >>= fun n =>
      if n = ((valLen.length + (h.w.src val).length : Nat) : Int) then
        lift (sameLen h.w (h.ms i) off valLen val) >>= fun r =>
        .ok (.ret [], ⟨h.upd i (h.ms i, r.1), (.oldLen, .int n) :: (.ok, .bool true) :: (.offset, .u64 r.2) :: ssEnv i f typ vl v tag⟩)
      else lift (HMsg.removeField rt h.w (h.ms i) off tag.length n) >>= fun r => .ok (.next, ⟨h.upd i r, rmVars off tag.length n ++
        (.ok, .bool true) :: (.offset, .u64 off) :: ssEnv i f typ vl v tag⟩)) := by
  simp only [ssFound]
  have hsw := ss_switch rt (goCall rt (d + 1)) i f typ vl v tag h off hb
  rcases e1 : oldLenOf (h.w.slice (h.ms i).buf) off typ with e | n
  · rw [e1, lift_error, bind_error] at hsw
    gosimp [hsw]
  · rw [e1, lift_ok, bind_ok] at hsw
    have hsm := ss_same rt (goCall rt (d + 1)) i f typ tag h off n hvl hv hs hl
    by_cases h1 : n = ((valLen.length + (h.w.src val).length : Nat) : Int)
    · rw [if_pos h1] at hsm
      have hsm : exec rt (goCall rt (d + 1)) ssSame _ = (lift (sameLen h.w (h.ms i) off valLen val) >>= fun r => _) := hsm
      rw [lift_ok, bind_ok, if_pos h1]
      generalize sameLen h.w (h.ms i) off valLen val = q at hsm ⊢
      cases q with
      | error e =>
        rw [lift_error, bind_error] at hsm
        gosimp [hsw, hsm]
      | ok r =>
        rw [lift_ok, bind_ok] at hsm
        gosimp [hsw, hsm]
    · rw [if_neg h1] at hsm
      rw [lift_ok, bind_ok, if_neg h1]
      obtain ⟨E', hE, hE'⟩ := ss_remove rt d i f typ vl v tag n off h hw
      subst hE'
      gosimp [hsw, hsm, hE]
      rfl

theorem outHeap_next {rt : Rt} {call : Calls} {a b : Stmt} {s s' : St} (h : exec rt call a s = .ok (.next, s')) :
    outHeap (exec rt call (.seq a b) s) = outHeap (exec rt call b s') := by
  simp only [exec, h, bind_ok]

theorem outHeap_error {rt : Rt} {call : Calls} {a b : Stmt} {s : St} {e : Stop} (h : exec rt call a s = .error e) :
    outHeap (exec rt call (.seq a b) s) = .error e := by
  simp only [exec, h, bind_error, outHeap]

theorem outHeap_ret {rt : Rt} {call : Calls} {a b : Stmt} {s s' : St} (h : exec rt call a s = .ok (.ret [], s')) :
    outHeap (exec rt call (.seq a b) s) = .ok s'.h := by
  simp only [exec, h, bind_ok, outHeap]

/-- zeropb.go:327-331 and 392-395: the tag is written. -/
theorem ss_start (rt : Rt) (call : Calls) (i f typ : Nat) (vl v : Val) (h : Heap) (rest : Stmt) :
    outHeap (exec rt call (.seq (.varArray .scratch (.const .MaxVarintLen64)) (
    .seq (.define [some .tag] (.conv .uint64 (.bin .or (.bin .shl (.id .fieldID) (.num 3)) (.id .typ)))) (
    .seq (.define [some .tagLen] (.put .PutUvarint .scratch (.id .tag))) rest)))
      ⟨h, [(.buf, .bufPtr i), (.offsets, .offs i), (.fieldID, .int f), (.typ, .int typ), (.valLen, vl), (.val, v)]⟩) =
    (lift (putUvarint maxVarintLen64 (tagOf f typ)) >>= fun tag => outHeap (exec rt call rest ⟨h, ssEnv i f typ vl v tag⟩)) := by
  have hput : maxVarintLen64 = 10 := rfl
  rcases e1 : putUvarint maxVarintLen64 (tagOf f typ) with e | tag
  · rw [hput] at e1
    gosimp [outHeap, hput, tag_eq, List.length_replicate, e1, xbind_error]
  · rw [lift_ok, bind_ok]
    rw [hput] at e1
    rw [outHeap_next (s' := ⟨h, [(.scratch, .array (List.replicate 10 0#8)), (.buf, .bufPtr i), (.offsets, .offs i), (.fieldID, .int f),
        (.typ, .int typ), (.valLen, vl), (.val, v)]⟩),
      outHeap_next (s' := ⟨h, [(.tag, .u64 (tagOf f typ)), (.scratch, .array (List.replicate 10 0#8)), (.buf, .bufPtr i), (.offsets, .offs i),
        (.fieldID, .int f), (.typ, .int typ), (.valLen, vl), (.val, v)]⟩), outHeap_next (s' := ⟨h, ssEnv i f typ vl v tag⟩)]
    · simp only [ssEnv]
      gosimp [hput, tag_eq, List.length_replicate, e1]
    · gosimp [hput, tag_eq]
    · gosimp [hput, tag_eq]

/-- zeropb.go:326-389. -/
theorem go_setSingle (rt : Rt) (d i f typ : Nat) {vl v : Val} {valLen : List Byte} {val : Src} (h : Heap)
    (hvl : Arg vl (.lit valLen)) (hv : Arg v val) (hs : World.WFsrc h.w val) (hl : valLen.length + strLen val < maxLen) (hb : h.w.WF (h.ms i)) :
    goCall rt (d + 2) .setSingle [.bufPtr i, .offs i, .int f, .const typ, vl, v] h =
    (lift (HMsg.setSingle rt h.w (h.ms i) f typ valLen val) >>= fun r => .ok ([], h.upd i r)) := by
  rw [goCall, show funcOf .setSingle = some srcSetSingle from rfl]
  simp only [HMsg.setSingle]
  have hargs : bindArgs srcSetSingle.formals [.bufPtr i, .offs i, .int f, .const typ, vl, v] =
      .ok [(.buf, .bufPtr i), (.offsets, .offs i), (.fieldID, .int f), (.typ, .int typ), (.valLen, vl), (.val, v)] := by
    gosimp [srcSetSingle, hvl.coerce, hv.coerce]
  rw [invoke_void rt _ _ rfl h hargs, ss_body, ss_start]
  rcases e1 : putUvarint maxVarintLen64 (tagOf f typ) with e | tag
  · rfl
  rw [lift_ok, bind_ok, xbind_ok]
  have hw := hb.2
  have hg := go_Get rt d i f h
  rcases e2 : (h.w.offs (h.ms i)).get f with e | ⟨off, _ | _⟩
  · rw [xbind_error, lift_error, bind_error, outHeap_error (e := .fail e)]
    · rfl
    · simp only [ssEnv]
      gosimp [hg, e2]
  · rw [outHeap_next (s' := ⟨h, ssEnv i f typ vl v tag⟩), ss_tail rt d i f typ tag h hvl hv hw]
    · simp only [xbind_ok, Bool.false_eq_true, if_false]
      cases HMsg.appendField rt h.w (h.ms i) f tag valLen val <;> rfl
    · simp only [ssEnv]
      gosimp [hg, e2]
  · have hf := ss_found rt d i f typ tag off h hvl hv hs hl hb.1 hw
    simp only [xbind_ok, if_true]
    rcases e3 : oldLenOf (h.w.slice (h.ms i).buf) off typ with e | n
    · rw [xbind_error, lift_error, bind_error, outHeap_error (e := .fail e)]
      · rfl
      · rw [e3, lift_error, bind_error] at hf
        simp only [ssEnv] at hf ⊢
        gosimp [hg, e2, hf]
    rw [e3, lift_ok, bind_ok] at hf
    rw [xbind_ok]
    by_cases h1 : n = ((valLen.length + (h.w.src val).length : Nat) : Int)
    · rw [if_pos h1] at hf ⊢
      have hsame : (do
          let dst1 ← (h.ms i).buf.dropFrom off.toNat
          let w := h.w.copy dst1 valLen
          let offset := off + BitVec.ofNat 64 (min valLen.length dst1.len)
          let dst2 ← (h.ms i).buf.dropFrom offset.toNat
          let w := w.copy dst2 (w.src val)
          return (h.ms i, w) : Res (HMsg × World)) = (sameLen h.w (h.ms i) off valLen val >>= fun r => .ok (h.ms i, r.1)) := by
        simp only [sameLen]
        cases (h.ms i).buf.dropFrom off.toNat with
        | error e => rfl
        | ok dst1 =>
          simp only [xbind_ok]
          cases (h.ms i).buf.dropFrom (off + BitVec.ofNat 64 (min valLen.length dst1.len)).toNat <;> rfl
      rw [hsame]
      generalize sameLen h.w (h.ms i) off valLen val = q at hf ⊢
      cases q with
      | error e =>
        rw [xbind_error, lift_error, bind_error, outHeap_error (e := .fail e)]
        · rfl
        · rw [lift_error, bind_error] at hf
          simp only [ssEnv] at hf ⊢
          gosimp [hg, e2, hf]
      | ok r =>
        rw [lift_ok, bind_ok] at hf
        rw [outHeap_ret (s' := ⟨h.upd i (h.ms i, r.1), ssEnv i f typ vl v tag⟩)]
        · rfl
        · simp only [ssEnv] at hf ⊢
          gosimp [hg, e2, hf]
    · rw [if_neg h1] at hf ⊢
      rcases e4 : HMsg.removeField rt h.w (h.ms i) off tag.length n with e | ⟨m2, w2⟩
      · rw [xbind_error, lift_error, bind_error, outHeap_error (e := .fail e)]
        · rfl
        · rw [e4, lift_error, bind_error] at hf
          simp only [ssEnv] at hf ⊢
          gosimp [hg, e2, hf]
      · rw [e4, lift_ok, bind_ok] at hf
        have hw2 : ∀ id, ((h.upd i (m2, w2)).ms i).m = some id → id < (h.upd i (m2, w2)).w.maps.length := by
          have hr := removeField_refines rt hb off tag.length n
          simp only [upd_ms, upd_w]
          rw [e4] at hr
          unfold Refines at hr
          split at hr
          · cases hr
          · obtain ⟨m', w', q1, _, q2, _⟩ := hr
            simp only [Except.ok.injEq, Prod.mk.injEq] at q1
            rw [q1.1, q1.2]; exact q2.2
        rw [outHeap_next (s' := ⟨h.upd i (m2, w2), ssEnv i f typ vl v tag⟩), ss_tail rt d i f typ tag _ hvl hv hw2]
        · simp only [xbind_ok, upd_w, upd_ms, upd_upd]
          cases HMsg.appendField rt w2 m2 f tag valLen val <;> rfl
        · simp only [ssEnv, rmVars, List.cons_append, List.nil_append] at hf ⊢
          gosimp [hg, e2, hf]

/-- zeropb.go:396-404. -/
def asTail : Stmt :=
    .seq (.assign (.star (.id .buf)) (.append (.star (.id .buf)) (.sliceTo (.id .scratch) (.id .tagLen)))) <|
    .seq (.define [some .offset] (.lib .len (.arg (.star (.id .buf))))) <|
    .seq (.iteInit (.define [none, some .ok] (.method (.id .offsets) .Get (.arg (.id .fieldID)))) (.not (.id .ok)) (.seq (.expr (.method (.id .offsets) .Set (.args (.id .fieldID) (.arg (.conv .uint64 (.id .offset)))))) <|
      .skip) .skip) <|
    .seq (.assign (.star (.id .buf)) (.append (.star (.id .buf)) (.id .valLen))) <|
    .seq (.assign (.star (.id .buf)) (.append (.star (.id .buf)) (.id .val))) <|
    .skip

theorem as_body : srcAppendSingle.body =
    .seq (.varArray .scratch (.const .MaxVarintLen64)) (
    .seq (.define [some .tag] (.conv .uint64 (.bin .or (.bin .shl (.id .fieldID) (.num 3)) (.id .typ)))) (
    .seq (.define [some .tagLen] (.put .PutUvarint .scratch (.id .tag))) asTail)) := rfl

/-- zeropb.go:391-405. -/
theorem go_appendSingle (rt : Rt) (d i f typ : Nat) {vl v : Val} {valLen : List Byte} {val : Src} (h : Heap)
    (hvl : Arg vl (.lit valLen)) (hv : Arg v val) (hw : ∀ id, (h.ms i).m = some id → id < h.w.maps.length) :
    goCall rt (d + 2) .appendSingle [.bufPtr i, .offs i, .int f, .const typ, vl, v] h =
    (lift (HMsg.appendSingle rt h.w (h.ms i) f typ valLen val) >>= fun r => .ok ([], h.upd i r)) := by
  rw [goCall, show funcOf .appendSingle = some srcAppendSingle from rfl]
  simp only [HMsg.appendSingle]
  have hargs : bindArgs srcAppendSingle.formals [.bufPtr i, .offs i, .int f, .const typ, vl, v] =
      .ok [(.buf, .bufPtr i), (.offsets, .offs i), (.fieldID, .int f), (.typ, .int typ), (.valLen, vl), (.val, v)] := by
    gosimp [srcAppendSingle, hvl.coerce, hv.coerce]
  rw [invoke_void rt _ _ rfl h hargs, as_body, ss_start]
  rcases e1 : putUvarint maxVarintLen64 (tagOf f typ) with e | tag
  · rfl
  rw [lift_ok, bind_ok, xbind_ok]
  simp only [ssEnv]
  have hle : tag.length ≤ (tag ++ List.drop tag.length (List.replicate 10 0#8)).length := by simp
  rcases e1 : h.w.append rt (h.ms i).buf tag with e | ⟨b, w1⟩
  · gosimp [asTail, outHeap, hle, List.take_left, e1, xbind_error]
  have hm1 : w1.maps = h.w.maps := append_maps e1
  have ho : w1.offs { h.ms i with buf := b } = w1.offs (h.ms i) := rfl
  have hget := go_Get rt d i f (h.upd i ({ h.ms i with buf := b }, w1))
  have hset := go_Set rt d i f (BitVec.ofNat 64 b.len) (h.upd i ({ h.ms i with buf := b }, w1)) (by
    simp only [upd_ms, upd_w, hm1]; exact hw)
  simp only [upd_ms, upd_w, ho, upd_upd] at hset hget
  rcases e2 : (w1.offs (h.ms i)).get f with e | ⟨off, _ | _⟩
  · gosimp [asTail, outHeap, hle, List.take_left, e1, put_eq, upd_mk, upd_ms, upd_w, intToU64_nat, hget, e2, xbind_ok, xbind_error]
  · rcases e3 : (w1.offs (h.ms i)).set f (BitVec.ofNat 64 b.len) with e | o
    · gosimp [asTail, outHeap, hle, List.take_left, e1, put_eq, upd_mk, upd_ms, upd_w, intToU64_nat, hget, e2, hset, e3, xbind_ok, xbind_error]
    obtain ⟨⟨buf0, a2, m2⟩, w2, hst⟩ : ∃ m2 w2, w1.storeOffs (h.ms i) o = (m2, w2) := ⟨_, _, rfl⟩
    have hst' : w1.storeOffs { h.ms i with buf := b } o = (⟨b, a2, m2⟩, w2) := by rw [World.storeOffs_buf, hst]
    rcases e4 : w2.append rt b valLen with e | ⟨b3, w3⟩
    · gosimp [asTail, outHeap, hle, List.take_left, e1, put_eq, upd_mk, upd_ms, upd_w, intToU64_nat, hget, e2, hset, e3, hst, hst', upd_upd,
        hvl.contents, e4, xbind_ok, xbind_error]
    rcases e5 : w3.append rt b3 (w3.src val) with e | ⟨b4, w4⟩
    · gosimp [asTail, outHeap, hle, List.take_left, e1, put_eq, upd_mk, upd_ms, upd_w, intToU64_nat, hget, e2, hset, e3, hst, hst', upd_upd,
        hvl.contents, e4, hv.contents, e5, xbind_ok, xbind_error, mk_upd]
    · gosimp [asTail, outHeap, hle, List.take_left, e1, put_eq, upd_mk, upd_ms, upd_w, intToU64_nat, hget, e2, hset, e3, hst, hst', upd_upd,
        hvl.contents, e4, hv.contents, e5, xbind_ok, xbind_error, mk_upd, xpure]
  · have hst := storeOffs_self w1 (h.ms i)
    rcases e4 : w1.append rt b valLen with e | ⟨b3, w3⟩
    · gosimp [asTail, outHeap, hle, List.take_left, e1, put_eq, upd_mk, upd_ms, upd_w, intToU64_nat, hget, e2, hst, upd_upd,
        hvl.contents, e4, xbind_ok, xbind_error, xpure, Bool.false_eq_true]
    rcases e5 : w3.append rt b3 (w3.src val) with e | ⟨b4, w4⟩
    · gosimp [asTail, outHeap, hle, List.take_left, e1, put_eq, upd_mk, upd_ms, upd_w, intToU64_nat, hget, e2, hst, upd_upd,
        hvl.contents, e4, hv.contents, e5, xbind_ok, xbind_error, mk_upd, xpure, Bool.false_eq_true]
    · gosimp [asTail, outHeap, hle, List.take_left, e1, put_eq, upd_mk, upd_ms, upd_w, intToU64_nat, hget, e2, hst, upd_upd,
        hvl.contents, e4, hv.contents, e5, xbind_ok, xbind_error, mk_upd, xpure, Bool.false_eq_true]

end Zeropb.GoSrc
