import Verif.GoSrc.StrText
import Verif.GoSrc.StrCall
import Verif.Props.Text
import Verif.Props.Mem
import Verif.Props.SourceHistory
/-!
# The hand-written files beside the generated code, run from their source (C68)

golden/testzeropb/string.go, golden/testzeropb/internals.go and golden/raftzeropb/internals.go. `X.run` interprets their syntax trees;
methods of the generated code and functions of package zeropb that they call are run from their source, too.
-/

set_option linter.constructorNameAsVariable false
set_option linter.unusedSimpArgs false

namespace Zeropb.GoSrc.X
open Zeropb.Gen (Text asciiUnicode fileDecls messageDecls testFile raftFile Decl)
open G (GVal GSt Program testPackage testPackage_ok raftPackage Ran)
open Wire

/-! ## Specification -/

/-- What ends a call of `Text` or `WriteText`. -/
inductive Ends (r : M (Except XVal (List XVal) × XSt)) (s : XSt) : List XVal ⊕ DecErr → XSt → Prop where
  | ret {vs s'} : r = .ok (.ok vs, s') → Ends r s (.inl vs) s'
  | panic {e s'} : r = .ok (.error (.g (.val (errVal (some e)))), s') → Ends r s (.inr e) s'

/-- The text of a field with the value that `c` holds for it: nothing if there is none, else its name and its value. -/
def shownValue (F : Fmt) (c : Contents) (p : Nat × Text) : List Byte :=
  match testSchema.kind p.1, c.sing p.1 with
  | some k, some v =>
    match decodeVal k v with
    | some x => asc p.2 ++ asc t!"=" ++ F.val k x ++ asc t!" "
    | none => []
  | _, _ => []

/-- `txt` is the text of a message with the contents `c`, whose embedded messages are nested less than `n` deep. -/
def ShowsContents (F : Fmt) (n : Nat) (c : Contents) (txt : List Byte) : Prop :=
  ∃ (sub : List Byte) (els : List (List Byte)), txt = (protoNames.map (shownValue F c)).flatten ++ sub ++ els.flatten ∧
    (c.sing 17 = none → sub = []) ∧
    (∀ b, c.sing 17 = some (.bytes b) → ∃ t, Shows F n b t ∧ sub = asc t!"message=<" ++ t ++ asc t!"> ") ∧
    Each (fun b e => ∃ t, Shows F n b t ∧ e = asc t!"messages=<" ++ t ++ asc t!"> ") (c.elems 34) els

/-! ## Proof -/

/-- C68: the text of the three files is that of the syntax trees. -/
theorem C68_source :
    tokenize (unlines stringText) = (stringGo.map Top.toks).flatten ∧
    tokenize (unlines testInternalsText) = (testInternalsGo.map Top.toks).flatten ∧
    tokenize (unlines raftInternalsText) = (raftInternalsGo.map Top.toks).flatten :=
  ⟨string_source, testInternals_source, raftInternals_source⟩

/-- What a file declares: receiver type and name. -/
def Top.declares : Top → Option (Option Text × Text)
  | .func f => some (match f.recv.2 with | .name t | .ptr t => some t | _ => none, f.name)
  | _ => none

/-- C68: nothing is declared twice: the methods in the hand-written files have names that the generated files of the same package do not
use, and differ from each other. -/
theorem C68_declares :
    (testSources.filterMap Top.declares ++ ([testFile].flatMap (fileDecls asciiUnicode)).map Decl.declares).Nodup ∧
    (raftInternalsGo.filterMap Top.declares ++ ([raftFile].flatMap (fileDecls asciiUnicode)).map Decl.declares).Nodup := by
  constructor <;> decide +kernel

/-- C68: `WriteText(w)`, run from its source on any struct in memory, whatever it holds, does what the model of it does: it fails as the
model fails; or it writes the text of the model to `w`, and nothing elsewhere, and then panics with the error of the model or returns.
Everything that existed before is as it was. -/
theorem C68_model (F : Fmt) (rt : Rt) (d n : Nat) (s : XSt) (i k : Nat) (hi : i < s.g.next) (hw : s.g.h.w.WF (s.g.h.ms i)) :
    match writeText F n (s.g.h.w.msg (s.g.h.ms i)) with
    | .error e => run F testPackage testSources rt d n t!"TestMessage" t!"WriteText" i [.writer k] s = .error (.fail e)
    | .ok (txt, err) => ∃ s', Ends (run F testPackage testSources rt d n t!"TestMessage" t!"WriteText" i [.writer k] s) s
        (match err with | none => .inl [] | some e => .inr e) s' ∧ Wrote k txt s s' ∧ Quiet s.g s'.g := by
  have h := writeText_shown F rt d n s i k hi hw
  have key : run F testPackage testSources rt d n t!"TestMessage" t!"WriteText" i [.writer k] s =
      callMeth F testPackage testSources (goCall rt (d + 3)) (G.run testPackage rt d) n srcWriteText (.g (.struct t!"TestMessage" i)) [.writer k] s := rfl
  rw [key]
  unfold Prints at h
  revert h
  cases writeText F n (s.g.h.w.msg (s.g.h.ms i)) with
  | error e => exact id
  | ok r =>
    obtain ⟨t, p⟩ := r
    cases p with
    | some e => rintro ⟨s', f1, f2, f3⟩; exact ⟨s', .panic f1, f3, f2⟩
    | none => rintro ⟨s', f1, f2, f3⟩; exact ⟨s', .ret f1, f3, f2⟩

/-- C68: `WriteText(w)` on a message that may be read writes its text to `w`, nothing to other writers, and returns. -/
theorem C68_writeText (F : Fmt) (rt : Rt) (d : Nat) {n : Nat} {s : XSt} {i : Nat} (k : Nat) {txt : List Byte} (hi : i < s.g.next) (hw : s.g.h.w.WF (s.g.h.ms i))
    (hm : Readable testSchema (s.g.h.w.msg (s.g.h.ms i))) (ht : Shows F n (s.g.h.w.msg (s.g.h.ms i)).encode.data txt) (extra : Nat) :
    ∃ s', run F testPackage testSources rt d (n + extra) t!"TestMessage" t!"WriteText" i [.writer k] s = .ok (.ok [], s') ∧
      (s'.outs k).flatten = (s.outs k).flatten ++ txt ∧ (∀ j, j ≠ k → s'.outs j = s.outs j) ∧ Quiet s.g s'.g := by
  have h := C68_model F rt d (n + extra) s i k hi hw
  rw [C56_text F hm ht extra] at h
  obtain ⟨s', h1, h2, h3⟩ := h
  cases h1 with
  | ret h1 => exact ⟨s', h1, h2.2, h2.1, h3⟩

/-- C68: `Text()` on a message that may be read returns its text. -/
theorem C68_text (F : Fmt) (rt : Rt) (d : Nat) {n : Nat} {s : XSt} {i : Nat} {txt : List Byte} (hw : s.g.h.w.WF (s.g.h.ms i))
    (hm : Readable testSchema (s.g.h.w.msg (s.g.h.ms i))) (ht : Shows F n (s.g.h.w.msg (s.g.h.ms i)).encode.data txt) (extra : Nat) :
    ∃ s', run F testPackage testSources rt d (n + extra + 1) t!"TestMessage" t!"Text" i [] s = .ok (.ok [.g (.val (.str (.lit txt)))], s') ∧
      (∀ j, j < s.g.next → s'.outs j = s.outs j) ∧ Quiet s.g s'.g := by
  have h := text_shown F rt d (n + extra) s i hw
  rw [C56_text F hm ht extra] at h
  obtain ⟨s', h1, h2, h3⟩ := h
  exact ⟨s', h1, h3, h2⟩

/-- C68: if a message embedded in it, at any depth, cannot be decoded, `WriteText(w)` panics with the decoder's error, having written the text
up to that message; `Text()` panics with the same error. -/
theorem C68_error (F : Fmt) (rt : Rt) (d : Nat) {n : Nat} {s : XSt} {i : Nat} (k : Nat) {txt : List Byte} {e : DecErr} (hi : i < s.g.next)
    (hw : s.g.h.w.WF (s.g.h.ms i)) (hm : Readable testSchema (s.g.h.w.msg (s.g.h.ms i))) (ht : Stops F n (s.g.h.w.msg (s.g.h.ms i)).encode.data txt e) :
    (∃ s', run F testPackage testSources rt d n t!"TestMessage" t!"WriteText" i [.writer k] s = .ok (.error (.g (.val (errVal (some e)))), s') ∧
      (s'.outs k).flatten = (s.outs k).flatten ++ txt ∧ (∀ j, j ≠ k → s'.outs j = s.outs j) ∧ Quiet s.g s'.g) ∧
    ∃ s', run F testPackage testSources rt d (n + 1) t!"TestMessage" t!"Text" i [] s = .ok (.error (.g (.val (errVal (some e)))), s') ∧ Quiet s.g s'.g := by
  have h := C68_model F rt d n s i k hi hw
  have h' := text_shown F rt d n s i hw
  rw [C56_error F n hm ht] at h h'
  obtain ⟨s1, h1, h2, h3⟩ := h
  obtain ⟨s2, g1, g2, _⟩ := h'
  cases h1 with
  | panic h1 => exact ⟨⟨s1, h1, h2.2, h2.1, h3⟩, s2, g1, g2⟩

/-- What any run of generated methods leads to, the model's API leads to. -/
theorem ran_reach {p : Program} {ds mds : List Decl} {msg : Text} {S : Schema} (hp : G.Package p ds) (hc : G.Closed ds) (hi : Implements S msg mds)
    (hsub : ∀ x ∈ mds, x ∈ ds) {i : Nat} {s s' : GSt} {ops : List Zeropb.Op} (h : Ran p mds msg S i s ops s') :
    s.h.w.WF (s.h.ms i) → i < s.next → Reach S (s.h.w.msg (s.h.ms i)) → Reach S (s'.h.w.msg (s'.h.ms i)) := by
  induction h with
  | done s => exact fun _ _ h => h
  | @call s rt d name args op out s1 ops s2 hiss hrun _ ih =>
    intro h1 h2 h3
    obtain ⟨hv, hf⟩ := G.C63_call hp hc hi hsub rt d h1 h3.off_length h2 hiss
    cases hq : op.run S (s.h.w.msg (s.h.ms i)) with
    | error e => rw [hq] at hf; rw [hrun] at hf; cases hf
    | ok m' =>
      rw [hq] at hf
      obtain ⟨s1', f1, f2, f3, f4, _⟩ := hf
      rw [hrun] at f1
      injection f1 with f1
      injection f1 with _ f1
      subst f1
      exact ih f3 (Nat.lt_of_lt_of_le h2 f4) (by rw [f2]; exact Zeropb.Op.run_reach hv h3 hq)
  | @other s s1 ops s2 hk _ ih =>
    intro h1 h2 h3
    obtain ⟨k1, k2, k3, k4⟩ := hk
    exact ih k3 (Nat.lt_of_lt_of_le h2 k4) (by rw [k2]; exact h3)

theorem each_map {R : Wire.Val → List Byte → Prop} {l : List (List Byte)} {els : List (List Byte)} (h : Each (fun b e => R (.bytes b) e) l els) :
    Each R (l.map Wire.Val.bytes) els := by
  induction h with
  | nil => exact .nil
  | cons h _ ih => exact .cons h ih

/-- C68: after any run of generated methods on a zero message, `Text()` returns the text of what the calls have put into it. -/
theorem C68_history (F : Fmt) (rt : Rt) (d : Nat) {n : Nat} {s : GSt} {x : XSt} {i : Nat} {ops : List Zeropb.Op} {txt : List Byte}
    (h0 : s.h.ms i = .zero 35) (hn : i < s.next) (h : Ran testPackage (messageDecls asciiUnicode testDesc) t!"TestMessage" testSchema i s ops x.g)
    (ht : ShowsContents F n (applyAll ops .empty) txt) (extra : Nat) :
    ∃ x', run F testPackage testSources rt d (n + 1 + extra + 1) t!"TestMessage" t!"Text" i [] x = .ok (.ok [.g (.val (.str (.lit txt)))], x') ∧
      (∀ j, j < x.g.next → x'.outs j = x.outs j) ∧ Quiet x.g x'.g := by
  obtain ⟨z1, z2⟩ := G.start_tracks (S := testSchema) h0
  obtain ⟨a1, a2, rs, b1, b2, b3, b4, _⟩ := G.ran_tracks testPackage_ok G.testPackage_closed G.test_implements G.test_sub h z1 hn z2
  have hr := ran_reach testPackage_ok G.testPackage_closed G.test_implements G.test_sub h z1 hn (by rw [h0]; exact .zero)
  refine C68_text F rt d (n := n + 1) a1 (.reach hr) ?_ extra
  obtain ⟨sub, els, t1, t2, t3, t4⟩ := ht
  have h17 : lastVal 17 rs = (applyAll ops .empty).sing 17 := b3 17 rfl
  have hf : protoNames.map (shownField F rs) = protoNames.map (shownValue F (applyAll ops .empty)) := by
    refine List.map_congr_left ?_
    intro p hp
    have : ∀ p ∈ protoNames, testSchema.rep p.1 = false := by decide
    unfold shownField shownValue
    rw [b3 p.1 (this p hp)]
    cases testSchema.kind p.1 <;> cases (applyAll ops .empty).sing p.1 <;> rfl
  refine ⟨rs, sub, els, b1.holds.isMessage, b2, by rw [hf]; exact t1, by rw [h17]; exact t2, by rw [h17]; exact t3, ?_⟩
  rw [b4 34 rfl rfl]
  refine each_map ?_
  clear t1
  revert t4
  generalize (applyAll ops .empty).elems 34 = l
  intro t4
  induction t4 with
  | nil => exact .nil
  | cons h _ ih => exact .cons (by obtain ⟨t, h⟩ := h; exact ⟨_, t, rfl, h⟩) ih

/-- C68: `Offsets()`, in both packages, returns the array and the map of the message it is called on, and changes nothing. Wrapped with
`zeropb.WrapOffsets`, they tell for every declared field number whether the field occurs in the message. -/
theorem C68_offsets (F : Fmt) (p : Program) (rt : Rt) (d n : Nat) (t : Text) (fs : List Top)
    (hf : (fs = testSources ∧ t = t!"TestMessage") ∨ (fs = raftInternalsGo ∧ (t = t!"Entry" ∨ t = t!"Message" ∨ t = t!"SnapshotMetadata" ∨ t = t!"Snapshot")))
    (s : XSt) (i : Nat) :
    ∃ a m o, run F p fs rt d (n + 1) t t!"Offsets" i [] s = .ok (.ok [.g (.val a), .g (.val m)], s) ∧
      goCall rt (d + 1) .WrapOffsets [a, m] s.g.h = .ok ([o], s.g.h) ∧
      ∀ (S : Schema) (rs : List Record) (f : Nat), Readable S (s.g.h.w.msg (s.g.h.ms i)) → IsMessage rs (s.g.h.w.msg (s.g.h.ms i)).encode.data → f < S.n →
        ∃ off, goCall rt (d + 1) .Get [o, .int f] s.g.h = .ok ([.u64 off, .bool (decide (∃ r ∈ rs, r.num = f))], s.g.h) := by
  refine ⟨.arrOf i, .mapPtr i, .offs i, ?_, ?_, ?_⟩
  · have : ∃ u, method fs t t!"Offsets" = some (srcOffsets u) ∧ u = t := by
      rcases hf with ⟨rfl, rfl⟩ | ⟨rfl, rfl | rfl | rfl | rfl⟩ <;> exact ⟨_, rfl, rfl⟩
    obtain ⟨u, h, rfl⟩ := this
    unfold run
    rw [h]
    simp only [callMeth, srcOffsets, receiver, params, if_pos]
    rfl
  · rw [go_WrapOffsets]
  · intro S rs f hm hr hlt
    obtain ⟨h1, _⟩ := hm.records hr
    obtain ⟨off, ho⟩ := h1.present hlt
    refine ⟨off, ?_⟩
    rw [go_Get]
    change (lift ((s.g.h.w.msg (s.g.h.ms i)).off.get f) >>= _) = _
    rw [ho]
    have hp : (lastVal f rs).isSome = decide (∃ r ∈ rs, r.num = f) := by
      cases hl : lastVal f rs with
      | some v => exact (decide_eq_true ⟨_, lastVal_mem hl, rfl⟩).symm
      | none =>
        refine (decide_eq_false ?_).symm
        rintro ⟨r, hr, rfl⟩
        unfold lastVal at hl
        rw [Option.map_eq_none_iff, List.getLast?_eq_none_iff] at hl
        exact absurd (List.mem_filter.2 ⟨hr, decide_eq_true rfl⟩) (by rw [hl]; simp)
    rw [hp]
    rfl

/-! ## Examples -/

/-- `C68_history`: `m.SetInt32(7)`, then `m.Text()` returns `int32=7 `. -/
example (F : Fmt) (rt : Rt) (outs : Nat → List (List Byte)) : ∃ s1 x', G.run testPackage rt 0 t!"TestMessage" t!"SetInt32" [.ptr t!"TestMessage" 0, .val (.i32 7#32)] G.zeroState = .ok ([], s1) ∧
    run F testPackage testSources rt 0 2 t!"TestMessage" t!"Text" 0 [] ⟨s1, outs⟩ = .ok (.ok [.g (.val (.str (.lit (asc t!"int32=7 "))))], x') := by
  have H := fun {s' ops} => G.C63_history (s' := s') (ops := ops) testPackage_ok G.testPackage_closed G.test_implements G.test_sub (i := 0) (s := G.zeroState) rfl (by decide)
  have hiss : G.Issues (messageDecls asciiUnicode testDesc) t!"TestMessage" testSchema rt 0 G.zeroState (t!"Set" ++ t!"Int32")
      [.ptr t!"TestMessage" 0, .val (.i32 7#32)] (.set rt 2 .int32 7#32) :=
    G.Issues.set (k := .int32) (by decide +kernel) rfl (fun s hs => by rcases hs with hs | hs <;> cases hs) (by decide)
  obtain ⟨s1, e1, _⟩ := (H (Ran.done G.zeroState)).2 rt 0 _ _ _ hiss (show 0 + (20 + 0) < maxLen by decide)
  obtain ⟨x', h1, _⟩ := C68_history F rt 0 (x := ⟨s1, outs⟩) (n := 0) (txt := asc t!"int32=7 ") rfl (by decide) (Ran.call hiss e1 (Ran.done s1))
    ⟨[], [], rfl, fun _ => rfl, fun b hb => (by cases hb), .nil⟩ 0
  exact ⟨s1, x', e1, h1⟩

/-- Memory with a struct that holds `badChild`: an embedded message of one byte, 0x08. -/
def badState : XSt := ⟨⟨⟨⟨[badChild.buf.data], []⟩, fun _ => ⟨⟨0, 0, 4, 4⟩, badChild.off.a, none⟩⟩, 1, fun _ => none⟩, fun _ => []⟩

/-- `C68_error`: `Text()` panics with `io.ErrUnexpectedEOF`. -/
example (F : Fmt) (rt : Rt) : ∃ s', run F testPackage testSources rt 0 2 t!"TestMessage" t!"Text" 0 [] badState = .ok (.error (.g (.val .eof)), s') := by
  have hm : badState.g.h.w.msg (badState.g.h.ms 0) = badChild := rfl
  have hr : IsMessage [⟨17, .bytes [0x08#8]⟩] badChild.encode.data := by
    have e : badChild.encode.data = ([0x8a#8, 0x01#8] ++ ([0x01#8] ++ [0x08#8])) ++ [] := rfl
    rw [e]
    refine .cons ⟨[0x8a#8, 0x01#8], [0x01#8] ++ [0x08#8], rfl, ?_, [0x01#8], ?_, rfl⟩ .nil
    · exact ⟨[0x8a#8], 0x01#8, rfl, by decide, by decide, by decide, by decide, by decide⟩
    · exact ⟨[], 0x01#8, rfl, by decide, by decide, by decide, by decide, by decide⟩
  have hreach : Reach testSchema badChild := Reach.set (rt := Rt.exact) (k := .bytes) (f := 17) (x := [0x08#8]) .zero rfl rfl (by decide) rfl
  obtain ⟨_, s', h, _⟩ := C68_error F rt 0 (n := 1) (s := badState) (i := 0) 0 (txt := []) (e := .unexpectedEOF) (by decide) ⟨⟨by decide, by decide⟩, by intro id h; cases h⟩
    (by rw [hm]; exact .reach hreach) (by rw [hm]; exact ⟨_, hr, (Reach.records hreach hr).2, Or.inl ⟨_, rfl, undecodable_tag, rfl⟩⟩)
  exact ⟨s', h⟩

/-- `C68_writeText`: `int32=7` and one empty element, in memory, written to writer 3. -/
example (F : Fmt) (rt : Rt) : ∃ (s s' : XSt), run F testPackage testSources rt 0 2 t!"TestMessage" t!"WriteText" 0 [.writer 3] s = .ok (.ok [], s') ∧
    (s'.outs 3).flatten = asc t!"int32=7 string=hi messages=<> " ∧ s'.outs 0 = [] := by
  let s : XSt := ⟨⟨⟨⟨[demo.buf.data ++ demo.buf.spare], []⟩, fun _ => ⟨⟨0, 0, 9, 18⟩, demo.off.a, none⟩⟩, 1, fun _ => none⟩, fun _ => []⟩
  have hm : s.g.h.w.msg (s.g.h.ms 0) = demo := by decide +kernel
  obtain ⟨s', h1, h2, h3, _⟩ := C68_writeText F rt 0 (n := 2) (s := s) (i := 0) 3 (txt := asc t!"int32=7 string=hi messages=<> ") (by decide) ⟨⟨by decide, by decide⟩, by intro id h; cases h⟩
    (by rw [hm]; exact .reach demo_reach) (by
      rw [hm]
      refine ⟨_, [], [asc t!"messages=<> "], IsMinTagMessage_isMessage demo_records, demo_reach.records
        (IsMinTagMessage_isMessage demo_records) |>.2, rfl, fun _ => rfl, fun b hb => ?_, .cons ⟨[], [], rfl, ?_, rfl⟩ .nil⟩
      · simp [lastVal] at hb
      · exact ⟨[], [], [], .nil, by intro r hr; simp at hr, rfl, fun _ => rfl, fun b hb => by simp [lastVal] at hb, .nil⟩) 0
  exact ⟨s, s', h1, h2, h3 0 (by decide)⟩

end Zeropb.GoSrc.X
