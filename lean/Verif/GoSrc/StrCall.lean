import Verif.GoSrc.StrWrite
/-!
# Running `WriteText` and `Text`
-/

set_option linter.constructorNameAsVariable false
set_option linter.unusedSimpArgs false

namespace Zeropb.GoSrc.X
open Zeropb.Gen (Text asciiUnicode fileDecls messageDecls testFile Decl)
open G (GVal GSt Program testPackage testPackage_ok)

/-- The state after the receiver `i` has been copied. -/
def copied (s : XSt) (i : Nat) : XSt := ⟨⟨s.g.h.put s.g.next (s.g.h.ms i), s.g.next + 1, s.g.its⟩, s.outs⟩

/-- The state after `sub` has been declared. -/
def declared (s : XSt) : XSt := ⟨⟨s.g.h.put s.g.next (.zero 35), s.g.next + 1, s.g.its⟩, s.outs⟩

theorem test_slots : G.slots testPackage t!"TestMessage" = some 35 := by decide +kernel

section
variable {F : Fmt} {rt : Rt} {d : Nat} {meth : Meths} {env : Env} {i kw : Nat} {s : XSt}

local notation "ev" => eval F testPackage testSources (goCall rt (d + 3)) (G.run testPackage rt d) meth
local notation "ex" => exec F testPackage testSources (goCall rt (d + 3)) (G.run testPackage rt d) meth

theorem exec_declare : ex (.declare t!"sub" (.name t!"TestMessage")) env s =
    .ok (.ok (.next ((t!"sub", .g (.struct t!"TestMessage" s.g.next)) :: env)), declared s) := by
  rw [exec, test_slots]
  rfl

theorem exec_define (h : get t!"m" env = some (.g (.struct t!"TestMessage" i))) :
    ex (.define t!"offsets" (.pkg t!"zeropb" t!"WrapOffsets" (args wrapArgs))) env s = .ok (.ok (.next ((t!"offsets", .g (.val (.offs i))) :: env)), s) := by
  rw [exec, bind_ok (eval_wrap h)]
  rfl

/-- The loop statement. -/
theorem exec_loopStmt {rec : Msg → Res (List Byte × Option DecErr)} (hrec : Shown meth rec) {g0 : GSt} {m sub : HMsg} {s0 : XSt} {out : List Byte}
    (hv : Vars env g0 kw) (h : In g0 s.g m sub) (hm : g0.h.w.WF m) (hout : Wrote kw out s0 s) :
    match (g0.h.w.msg m).messages 34 with
    | .error e => ex (block [.loop t!"it" (getter t!"Messages") showElem]) env s = .error (.fail e)
    | .ok it => match iterate (textStep rec) (it, s.g.h.w.msg sub, out) with
      | .error e => ex (block [.loop t!"it" (getter t!"Messages") showElem]) env s = .error (.fail e)
      | .ok (t, some e) => ∃ s', ex (block [.loop t!"it" (getter t!"Messages") showElem]) env s = .ok (.error (.g (.val (errVal (some e)))), s') ∧
          Quiet g0 s'.g ∧ Wrote kw t s0 s'
      | .ok (t, none) => ∃ s', ex (block [.loop t!"it" (getter t!"Messages") showElem]) env s = .ok (.ok (.next env), s') ∧ Quiet g0 s'.g ∧ Wrote kw t s0 s' := by
  have he := eval_messages (F := F) (rt := rt) (d := d) (meth := meth) hv h hm
  cases hq : (g0.h.w.msg m).messages 34 with
  | error e =>
    rw [hq] at he
    refine exec_cons_fail ?_
    rw [exec, bind_fail he]
  | ok it =>
    rw [hq] at he
    obtain ⟨it', e1, rfl, e3⟩ := he
    let s1 : XSt := ⟨⟨s.g.h, s.g.next + 1, fun k => if k = s.g.next then it' else s.g.its k⟩, s.outs⟩
    let env1 : Env := (t!"it", .g (.iter t!"TestMessageTestMessageIterator" s.g.next)) :: env
    have hnew : newVar t!"it" (.iterVal t!"TestMessageTestMessageIterator" it') env s = .ok (.ok env1, s1) := rfl
    have hqs : Quiet s.g s1.g := ⟨rfl, Nat.le_refl _, fun _ _ => rfl, fun _ _ => rfl, fun j hj => by show (if j = s.g.next then _ else _) = _; rw [if_neg (by omega)], Nat.le_succ _⟩
    have hits : s1.g.its s.g.next = it' := if_pos rfl
    have hl := exec_loop (F := F) (rt := rt) (d := d) (s := s1) (env := env1) (j := s.g.next) hrec
      (hv.cons (by decide) (by decide) (by decide)) (by rw [get, if_pos rfl]) (by have := h.next; omega) (Nat.lt_succ_self _)
      (h.later hqs) (by rw [hits]; exact e3) hout
    rw [hits] at hl
    change match iterate (textStep rec) (it'.map s.g.h.w.slice, s.g.h.w.msg sub, out) with
      | .error e => _
      | .ok (t, some e) => _
      | .ok (t, none) => _ at hl
    have key : ex (.loop t!"it" (getter t!"Messages") showElem) env s = (do
        let o ← forever (ex showElem) env1
        pure (leave env.length o) : E Out) s1 := by
      rw [exec, bind_ok e1]
      rfl
    dsimp only
    revert hl
    cases iterate (textStep rec) (it'.map s.g.h.w.slice, s.g.h.w.msg sub, out) with
    | error e =>
      intro hl
      refine exec_cons_fail ?_
      rw [key, bind_fail hl]
    | ok r =>
      obtain ⟨t, p⟩ := r
      cases p with
      | some e =>
        rintro ⟨s', f1, f2, f3⟩
        refine ⟨s', exec_cons_panic ?_, f2, f3⟩
        rw [key, bind_panic f1]
      | none =>
        rintro ⟨s', f1, f2, f3⟩
        refine ⟨s', ?_, f2, f3⟩
        rw [exec_cons (env' := env) (s' := s')]
        · rfl
        · rw [key, bind_ok f1, leave_cons]
          rfl

/-- The body of `WriteText`. -/
theorem exec_body {rec : Msg → Res (List Byte × Option DecErr)} (hrec : Shown meth rec) {s0 : XSt} {i : Nat} (hw : s0.g.h.w.WF (s0.g.h.ms i)) :
    Prints s0 kw (do
      let m := s0.g.h.w.msg (s0.g.h.ms i)
      let out ← writeFields F m textFields []
      let (sub, ok, err) ← m.subMessage testRep 17 (Msg.zero 35)
      match err with
      | some e => return (out, some e)
      | none =>
        if ok then
          let out := out ++ asc t!"message=<"
          let (t, p) ← rec sub
          match p with
          | some e => return (out ++ t, some e)
          | none =>
            let it ← m.messages 34
            iterate (textStep rec) (it, sub, out ++ t ++ asc t!"> ")
        else
          let it ← m.messages 34
          iterate (textStep rec) (it, sub, out))
      (ex srcWriteText.body [(t!"m", .g (.struct t!"TestMessage" s0.g.next)), (t!"w", .writer kw)] (copied s0 i))
      (fun s' => .ok (.ok (.next [(t!"sub", .g (.struct t!"TestMessage" (s0.g.next + 1))), (t!"offsets", .g (.val (.offs s0.g.next))),
        (t!"m", .g (.struct t!"TestMessage" s0.g.next)), (t!"w", .writer kw)]), s')) := by
  let g0 := s0.g
  let s1 := copied s0 i
  let env1 : Env := [(t!"offsets", .g (.val (.offs s0.g.next))), (t!"m", .g (.struct t!"TestMessage" s0.g.next)), (t!"w", .writer kw)]
  let rest : List Stmt := [.declare t!"sub" (.name t!"TestMessage"), showMessage, .loop t!"it" (getter t!"Messages") showElem]
  have hms : s1.g.h.ms s0.g.next = s0.g.h.ms i := if_pos rfl
  have hb : ex srcWriteText.body [(t!"m", .g (.struct t!"TestMessage" s0.g.next)), (t!"w", .writer kw)] s1 = ex (block (shown.map showOf ++ rest)) env1 s1 :=
    exec_cons (exec_define rfl)
  have hf := exec_fields (F := F) (rt := rt) (d := d) (meth := meth) (env := env1) (i := s0.g.next) (kw := kw) rest rfl rfl rfl shown s1 [] (fun _ h => h)
    (by rw [hms]; exact hw.1)
  rw [hms, ← textFields_eq, ← hb] at hf
  change match writeFields F (s0.g.h.w.msg (s0.g.h.ms i)) textFields [] with
    | .error e => _
    | .ok out => _ at hf
  simp only [bind, Except.bind, pure, Except.pure]
  cases hq : writeFields F (s0.g.h.w.msg (s0.g.h.ms i)) textFields [] with
  | error e => rw [hq] at hf; exact hf
  | ok out =>
    rw [hq] at hf
    obtain ⟨s2, bs, e1, e2, e3, e4⟩ := hf
    rw [List.nil_append] at e4
    subst e4
    dsimp only
    change ex srcWriteText.body _ (copied s0 i) = _ at e1
    rw [e1]
    let env2 : Env := (t!"sub", .g (.struct t!"TestMessage" (s0.g.next + 1))) :: env1
    have hnx : s2.g.next = s0.g.next + 1 := by rw [e2]; rfl
    have hd : ex (block rest) env1 s2 = ex (block rest.tail) env2 (declared s2) := by
      show ex (block (_ :: rest.tail)) env1 s2 = _
      refine exec_cons ?_
      rw [exec_declare, hnx]
    rw [hd]
    have hv : Vars env2 s0.g kw := ⟨rfl, rfl, rfl⟩
    have hin : In s0.g (declared s2).g (s0.g.h.ms i) (.zero 35) := by
      constructor
      · constructor
        · show s2.g.h.w.arrs = _; rw [e2]; rfl
        · show s0.g.h.w.maps.length ≤ s2.g.h.w.maps.length; rw [e2]; exact Nat.le_refl _
        · intro id _; show s2.g.h.w.maps.getD id [] = _; rw [e2]; rfl
        · intro j hj
          show (if j = s2.g.next then _ else s2.g.h.ms j) = _
          rw [if_neg (by omega), e2]
          show (if j = s0.g.next then _ else s0.g.h.ms j) = _
          rw [if_neg (by omega)]
        · intro j _; show s2.g.its j = _; rw [e2]; rfl
        · show s0.g.next ≤ s2.g.next + 1; omega
      · show s0.g.next + 2 ≤ s2.g.next + 1; omega
      · show (if s0.g.next = s2.g.next then _ else s2.g.h.ms s0.g.next) = _
        rw [if_neg (by omega), e2]; exact hms
      · show (if s0.g.next + 1 = s2.g.next then _ else _) = _
        rw [if_pos hnx.symm]
      · exact ⟨⟨by decide, Nat.zero_le _⟩, by intro id h; cases h⟩
      · intro id h; cases h
    have hout : Wrote kw out s0 (declared s2) := by
      refine Wrote.of_outs (s2 := s2) ?_ rfl
      exact e3
    have hzero : (declared s2).g.h.w.msg (.zero 35) = Msg.zero 35 := by rfl
    have hsm := exec_showMessage (F := F) (rt := rt) (d := d) hrec hv hin hw hout
    rw [hzero] at hsm
    have hrest : rest.tail = showMessage :: [.loop t!"it" (getter t!"Messages") showElem] := rfl
    rw [hrest]
    cases hsub : (s0.g.h.w.msg (s0.g.h.ms i)).subMessage testRep 17 (Msg.zero 35) with
    | error e => rw [hsub] at hsm; exact exec_cons_fail hsm
    | ok r =>
      obtain ⟨v, ok, err⟩ := r
      rw [hsub] at hsm
      cases err with
      | some e =>
        have : ∃ s', ex showMessage env2 (declared s2) = .ok (.error (.g (.val (errVal (some e)))), s') ∧ Quiet s0.g s'.g ∧ Wrote kw out s0 s' := by
          cases ok <;> exact hsm
        obtain ⟨s', f1, f2, f3⟩ := this
        exact ⟨s', exec_cons_panic f1, f2, f3⟩
      | none =>
        have hloop : ∀ (s' : XSt) (sub' : HMsg) (out : List Byte), In s0.g s'.g (s0.g.h.ms i) sub' → s'.g.h.w.msg sub' = v → Wrote kw out s0 s' →
            ex showMessage env2 (declared s2) = .ok (.ok (.next env2), s') →
            Prints s0 kw (Except.bind ((s0.g.h.w.msg (s0.g.h.ms i)).messages 34) (fun it => iterate (textStep rec) (it, v, out)))
              (ex (block (showMessage :: [.loop t!"it" (getter t!"Messages") showElem])) env2 (declared s2)) (fun s' => .ok (.ok (.next env2), s')) := by
          intro s' sub' out h1 h2 h3 h4
          have hl := exec_loopStmt (F := F) (rt := rt) (d := d) hrec hv h1 hw h3
          rw [h2] at hl
          rw [exec_cons h4]
          unfold Prints Except.bind
          revert hl
          cases (s0.g.h.w.msg (s0.g.h.ms i)).messages 34 with
          | error e => exact id
          | ok it =>
            dsimp only
            cases iterate (textStep rec) (it, v, out) with
            | error e => exact id
            | ok r =>
              obtain ⟨t, p⟩ := r
              cases p <;> exact id
        cases ok with
        | false =>
          obtain ⟨s', sub', f1, f2, f3, f4⟩ := hsm
          dsimp only
          rw [if_neg (by decide)]
          exact hloop s' sub' _ f2 f3 f4 f1
        | true =>
          dsimp only at hsm ⊢
          rw [if_pos rfl]
          cases hr : rec v with
          | error e => rw [hr] at hsm; exact exec_cons_fail hsm
          | ok r =>
            obtain ⟨t, p⟩ := r
            rw [hr] at hsm
            dsimp only at hsm ⊢
            cases p with
            | some e =>
              obtain ⟨s', f1, f2, f3⟩ := hsm
              exact ⟨s', exec_cons_panic f1, f2, f3⟩
            | none =>
              obtain ⟨s', sub', f1, f2, f3, f4⟩ := hsm
              exact hloop s' sub' _ f2 f3 f4 f1

/-- `WriteText` of string.go, run on any struct, does what the model says. -/
theorem writeText_shown (F : Fmt) (rt : Rt) (d : Nat) :
    ∀ n, Shown (callMeth F testPackage testSources (goCall rt (d + 3)) (G.run testPackage rt d) n) (writeText F n) := by
  intro n
  induction n with
  | zero => intro s j k _ _; rfl
  | succ n ih =>
    intro s j k hj hw
    have hb := exec_body (F := F) (rt := rt) (d := d) (kw := k) ih (s0 := s) (i := j) hw
    have key : callMeth F testPackage testSources (goCall rt (d + 3)) (G.run testPackage rt d) (n + 1) srcWriteText (.g (.struct t!"TestMessage" j)) [.writer k] s =
        (do match ← exec F testPackage testSources (goCall rt (d + 3)) (G.run testPackage rt d)
              (callMeth F testPackage testSources (goCall rt (d + 3)) (G.run testPackage rt d) n) srcWriteText.body
              [(t!"m", .g (.struct t!"TestMessage" s.g.next)), (t!"w", .writer k)] with
            | .next _ => pure []
            | .ret vs => if vs.length = 0 then pure vs else stuck
            | .brk => stuck : E (List XVal)) (copied s j) := rfl
    rw [key]
    change Prints s k (writeText F (n + 1) (s.g.h.w.msg (s.g.h.ms j))) _ _ at hb
    unfold Prints at hb ⊢
    revert hb
    cases writeText F (n + 1) (s.g.h.w.msg (s.g.h.ms j)) with
    | error e => intro hb; exact bind_fail hb
    | ok r =>
      obtain ⟨t, p⟩ := r
      cases p with
      | some e => rintro ⟨s', f1, f2, f3⟩; exact ⟨s', bind_panic f1, f2, f3⟩
      | none => rintro ⟨s', f1, f2, f3⟩; exact ⟨s', bind_ok f1, f2, f3⟩

/-- The state after the builder has been declared. -/
def building (s : XSt) : XSt := ⟨⟨s.g.h, s.g.next + 1, s.g.its⟩, fun j => if j = s.g.next then [] else s.outs j⟩

/-- `Text` of string.go, run on any struct: what `WriteText` writes. -/
theorem text_shown (F : Fmt) (rt : Rt) (d n : Nat) (s : XSt) (i : Nat) (hw : s.g.h.w.WF (s.g.h.ms i)) :
    match writeText F n (s.g.h.w.msg (s.g.h.ms i)) with
    | .error e => run F testPackage testSources rt d (n + 1) t!"TestMessage" t!"Text" i [] s = .error (.fail e)
    | .ok (_, some e) => ∃ s', run F testPackage testSources rt d (n + 1) t!"TestMessage" t!"Text" i [] s = .ok (.error (.g (.val (errVal (some e)))), s') ∧
        Quiet s.g s'.g ∧ ∀ j, j < s.g.next → s'.outs j = s.outs j
    | .ok (t, none) => ∃ s', run F testPackage testSources rt d (n + 1) t!"TestMessage" t!"Text" i [] s = .ok (.ok [.g (.val (.str (.lit t)))], s') ∧
        Quiet s.g s'.g ∧ ∀ j, j < s.g.next → s'.outs j = s.outs j := by
  let s1 := copied s i
  let s2 := building s1
  let meth := callMeth F testPackage testSources (goCall rt (d + 3)) (G.run testPackage rt d) n
  let env : Env := [(t!"buf", .builder (s.g.next + 1)), (t!"m", .g (.struct t!"TestMessage" s.g.next))]
  let call : Stmt := .expr (.method (.id t!"m") t!"WriteText" (args [.addr (.id t!"buf")]))
  let ret : Stmt := .ret (args [.method (.id t!"buf") t!"String" .noArgs])
  have key : run F testPackage testSources rt d (n + 1) t!"TestMessage" t!"Text" i [] s =
      (do match ← exec F testPackage testSources (goCall rt (d + 3)) (G.run testPackage rt d) meth (block [call, ret]) env with
          | .next _ => stuck
          | .ret vs => if vs.length = 1 then pure vs else stuck
          | .brk => stuck : E (List XVal)) s2 := rfl
  have hms : s2.g.h.ms s.g.next = s.g.h.ms i := if_pos rfl
  have hcall : exec F testPackage testSources (goCall rt (d + 3)) (G.run testPackage rt d) meth call env s2 = (do
      let _ ← meth srcWriteText (.g (.struct t!"TestMessage" s.g.next)) [.writer (s.g.next + 1)]
      pure (.next env) : E Out) s2 := rfl
  have hq : Quiet s.g s2.g := ⟨rfl, Nat.le_refl _, fun _ _ => rfl, fun j hj => by
      show (if j = s.g.next then _ else s.g.h.ms j) = _
      rw [if_neg (by omega)], fun _ _ => rfl, by show s.g.next ≤ s.g.next + 1 + 1; omega⟩
  have ho : ∀ j, j < s.g.next → s2.outs j = s.outs j := fun j hj => by
    show (if j = s.g.next + 1 then [] else s.outs j) = _
    rw [if_neg (by omega)]
  have h := writeText_shown F rt d n s2 s.g.next (s.g.next + 1) (by show s.g.next < s.g.next + 1 + 1; omega) (by rw [hms]; exact hw)
  rw [hms] at h
  change Prints s2 (s.g.next + 1) (writeText F n (s.g.h.w.msg (s.g.h.ms i))) _ _ at h
  unfold Prints at h
  rw [key]
  revert h
  cases writeText F n (s.g.h.w.msg (s.g.h.ms i)) with
  | error e =>
    intro h
    refine bind_fail (exec_cons_fail ?_)
    rw [hcall]
    exact bind_fail h
  | ok r =>
    obtain ⟨t, p⟩ := r
    cases p with
    | some e =>
      rintro ⟨s', f1, f2, f3⟩
      refine ⟨s', bind_panic (exec_cons_panic ?_), hq.trans f2, fun j hj => (f3.1 j (by omega)).trans (ho j hj)⟩
      rw [hcall]
      exact bind_panic f1
    | none =>
      rintro ⟨s', f1, f2, f3⟩
      refine ⟨s', ?_, hq.trans f2, fun j hj => (f3.1 j (by omega)).trans (ho j hj)⟩
      have hout : (s'.outs (s.g.next + 1)).flatten = t := by
        rw [f3.2, show s2.outs (s.g.next + 1) = [] from if_pos rfl]
        rfl
      rw [bind_ok (s' := s') (a := .ret [.g (.val (.str (.lit t)))])]
      · rfl
      · rw [exec_cons (env' := env) (s' := s')]
        · have hret : exec F testPackage testSources (goCall rt (d + 3)) (G.run testPackage rt d) meth (block [ret]) env s' =
              .ok (.ok (.ret [.g (.val (.str (.lit (s'.outs (s.g.next + 1)).flatten)))]), s') := rfl
          rw [hret, hout]
        · rw [hcall, bind_ok f1]
          rfl

end

end Zeropb.GoSrc.X
