import Verif.GoSrc.StrRun
/-!
# Running `WriteText`: nested messages
-/

set_option linter.constructorNameAsVariable false
set_option linter.unusedSimpArgs false

namespace Zeropb

/-! ## Memory -/

/-- Reading an embedded message into a struct, in memory and by value. -/
theorem subMessage_refines (rep : Nat → Bool) {w : World} {m x : HMsg} (hm : w.WFs m.buf) (hx : w.WF x) (f : Nat) :
    match (w.msg m).subMessage rep f (w.msg x) with
    | .error e => m.subMessage rep w f x = .error e
    | .ok (v, ok, err) => ∃ x' w', m.subMessage rep w f x = .ok (x', w', ok, err) ∧ w'.msg x' = v ∧ w'.WF x' ∧ w'.arrs = w.arrs ∧
        w.maps.length ≤ w'.maps.length ∧ (∀ id, id < w.maps.length → x.m ≠ some id → w'.maps.getD id [] = w.maps.getD id []) ∧
        (x'.m = x.m ∨ ∃ id, x'.m = some id ∧ w.maps.length ≤ id) := by
  have hv : getBytes (w.msg m).buf (w.msg m).off f = _ := getBytes_view hm f
  unfold Msg.subMessage HMsg.subMessage
  rw [hv]
  cases hg : m.getBytes w f with
  | error e => rfl
  | ok o =>
    cases o with
    | none => exact ⟨x, w, rfl, rfl, hx, rfl, Nat.le_refl _, fun _ _ _ => rfl, Or.inl rfl⟩
    | some b =>
      have hb : w.WFs b := by
        obtain ⟨_, _, e⟩ := getBytes_owns hg
        exact HSlice.range_wf hm e
      have hd := decode_refines rep hx hb
      simp only [bind, Except.bind, Except.map, Option.map]
      cases hdv : (w.msg x).decode rep (w.slice b) with
      | error e => rw [hdv] at hd; rw [show x.decode rep w b = .error e from hd]
      | ok r =>
        obtain ⟨v, err⟩ := r
        rw [hdv] at hd
        obtain ⟨x', w', h1, h2, h3, h4, h5, h6⟩ := hd
        rw [h1]
        exact ⟨x', w', rfl, h2, h3, h5, h6.mgrow, h6.maps, h6.mown⟩

theorem hFindNextField_wf {w : World} {b : HSlice} (hb : w.WFs b) {f : Nat} {r : Option HSlice × Option HSlice}
    (h : hFindNextField w (some b) f = .ok r) : (∀ t, r.1 = some t → w.WFs t) ∧ ∀ t, r.2 = some t → w.WFs t := by
  unfold hFindNextField at h
  simp only [bind, Except.bind] at h
  cases hr : b.range (uvarint (w.slice b).data).2 (addInt (uvarint (w.slice b).data).2 (u64ToInt (uvarint (w.slice b).data).1)) with
  | error e => rw [hr] at h; cases h
  | ok msg =>
    rw [hr] at h
    dsimp only at h
    cases hi : iterate (hFindStep w b f) (addInt (uvarint (w.slice b).data).2 (u64ToInt (uvarint (w.slice b).data).1)) with
    | error e => rw [hi] at h; cases h
    | ok next =>
      rw [hi] at h
      cases h
      refine ⟨?_, fun t ht => by cases ht; exact HSlice.range_wf hb hr⟩
      refine iterate_post (step := hFindStep w b f) (Q := fun a => ∀ t, a = some t → w.WFs t) ?_ hi
      intro idx a ha t ht
      subst ht
      unfold hFindStep at ha
      simp only [bind, Except.bind, pure, Except.pure] at ha
      split at ha
      · cases ha
      · split at ha
        · cases ha
        · split at ha
          · split at ha
            · cases ha
            next hd => cases ha; exact HSlice.dropFrom_wf hb hd
          · split at ha
            · cases ha
            · split at ha <;> cases ha

/-- `Next`, in memory and by value. -/
theorem hNext_refines (rep : Nat → Bool) {w : World} {it : Option HSlice} {x : HMsg} (hi : ∀ b, it = some b → w.WFs b) (hx : w.WF x) (f : Nat) :
    match Msg.next rep (it.map w.slice) f (w.msg x) with
    | .error e => hNext rep w it f x = .error e
    | .ok (vi, v, ok, err) => ∃ it' x' w', hNext rep w it f x = .ok (it', x', w', ok, err) ∧ it'.map w'.slice = vi ∧ (∀ b, it' = some b → w'.WFs b) ∧
        w'.msg x' = v ∧ w'.WF x' ∧ w'.arrs = w.arrs ∧
        w.maps.length ≤ w'.maps.length ∧ (∀ id, id < w.maps.length → x.m ≠ some id → w'.maps.getD id [] = w.maps.getD id []) ∧
        (x'.m = x.m ∨ ∃ id, x'.m = some id ∧ w.maps.length ≤ id) := by
  have hv := findNextField_view hi f
  have hwf : ∀ r, hFindNextField w it f = .ok r → (∀ t, r.1 = some t → w.WFs t) ∧ ∀ t, r.2 = some t → w.WFs t := by
    intro r hr
    cases it with
    | none => cases hr; exact ⟨(by intro t h; cases h), (by intro t h; cases h)⟩
    | some b => exact hFindNextField_wf (hi b rfl) hr
  unfold Msg.next hNext
  rw [hv]
  cases hg : hFindNextField w it f with
  | error e => rfl
  | ok r =>
    obtain ⟨it', b⟩ := r
    obtain ⟨h1, h2⟩ := hwf _ hg
    cases b with
    | none => exact ⟨it', x, w, rfl, rfl, h1, rfl, hx, rfl, Nat.le_refl _, fun _ _ _ => rfl, Or.inl rfl⟩
    | some b =>
      have hd := decode_refines rep hx (h2 b rfl)
      simp only [bind, Except.bind, Except.map, Option.map]
      cases hdv : (w.msg x).decode rep (w.slice b) with
      | error e => rw [hdv] at hd; rw [show x.decode rep w b = .error e from hd]
      | ok r =>
        obtain ⟨v, err⟩ := r
        rw [hdv] at hd
        obtain ⟨x', w', e1, e2, e3, e4, e5, e6⟩ := hd
        rw [e1]
        have hs : ∀ t, w'.slice t = w.slice t := fun t => World.slice_arrs e5 t
        refine ⟨it', x', w', rfl, ?_, ?_, e2, e3, e5, e6.mgrow, e6.maps, e6.mown⟩
        · cases it' with
          | none => rfl
          | some t => exact congrArg some (hs t)
        · intro t ht
          have := h1 t ht
          unfold World.WFs World.arr at this ⊢
          rw [e5]; exact this

namespace GoSrc.X
open Zeropb.Gen (Text asciiUnicode fileDecls messageDecls testFile Decl)
open G (GVal GSt Program testPackage testPackage_ok)

/-- Everything that existed is as it was. -/
structure Quiet (g g' : GSt) : Prop where
  arrs : g'.h.w.arrs = g.h.w.arrs
  mgrow : g.h.w.maps.length ≤ g'.h.w.maps.length
  maps : ∀ id, id < g.h.w.maps.length → g'.h.w.maps.getD id [] = g.h.w.maps.getD id []
  structs : ∀ j, j < g.next → g'.h.ms j = g.h.ms j
  iters : ∀ j, j < g.next → g'.its j = g.its j
  next : g.next ≤ g'.next

theorem Quiet.refl (g : GSt) : Quiet g g := ⟨rfl, Nat.le_refl _, fun _ _ => rfl, fun _ _ => rfl, fun _ _ => rfl, Nat.le_refl _⟩

theorem Quiet.trans {g1 g2 g3 : GSt} (h : Quiet g1 g2) (h' : Quiet g2 g3) : Quiet g1 g3 where
  arrs := h'.arrs.trans h.arrs
  mgrow := Nat.le_trans h.mgrow h'.mgrow
  maps id hid := (h'.maps id (Nat.lt_of_lt_of_le hid h.mgrow)).trans (h.maps id hid)
  structs j hj := (h'.structs j (Nat.lt_of_lt_of_le hj h.next)).trans (h.structs j hj)
  iters j hj := (h'.iters j (Nat.lt_of_lt_of_le hj h.next)).trans (h.iters j hj)
  next := Nat.le_trans h.next h'.next

theorem Quiet.wfs {g g' : GSt} (h : Quiet g g') {b : HSlice} (hb : g.h.w.WFs b) : g'.h.w.WFs b := by
  unfold World.WFs World.arr at hb ⊢
  rw [h.arrs]; exact hb

theorem Quiet.wf {g g' : GSt} (h : Quiet g g') {m : HMsg} (hm : g.h.w.WF m) : g'.h.w.WF m :=
  ⟨h.wfs hm.1, fun id hid => Nat.lt_of_lt_of_le (hm.2 id hid) h.mgrow⟩

theorem Quiet.slice {g g' : GSt} (h : Quiet g g') (b : HSlice) : g'.h.w.slice b = g.h.w.slice b := World.slice_arrs h.arrs b

theorem Quiet.msg {g g' : GSt} (h : Quiet g g') {m : HMsg} (hm : g.h.w.WF m) : g'.h.w.msg m = g.h.w.msg m := by
  unfold World.msg World.offs
  rw [h.slice]
  cases hmm : m.m with
  | none => rfl
  | some id => simp only [Option.map, h.maps id (hm.2 id hmm)]

/-- `bs` has been written to writer `k`, in one or more pieces, and nothing to the others. -/
def Wrote (k : Nat) (bs : List Byte) (s s' : XSt) : Prop :=
  (∀ j, j ≠ k → s'.outs j = s.outs j) ∧ (s'.outs k).flatten = (s.outs k).flatten ++ bs

theorem Wrote.refl (k : Nat) (s : XSt) : Wrote k [] s s := ⟨fun _ _ => rfl, by simp⟩

theorem Wrote.trans {k : Nat} {a b : List Byte} {s1 s2 s3 : XSt} (h : Wrote k a s1 s2) (h' : Wrote k b s2 s3) : Wrote k (a ++ b) s1 s3 :=
  ⟨fun j hj => (h'.1 j hj).trans (h.1 j hj), by rw [h'.2, h.2, List.append_assoc]⟩

theorem Wrote.of_outs {k : Nat} {a : List Byte} {s1 s2 s3 : XSt} (h : Wrote k a s1 s2) (h' : s3.outs = s2.outs) : Wrote k a s1 s3 := by
  unfold Wrote
  rw [h']; exact h

theorem wrote_to (k : Nat) (bs : List Byte) (s : XSt) : Wrote k bs s (writeTo k bs s) :=
  ⟨fun j hj => by simp [writeTo, hj], by simp [writeTo]⟩

/-- Agreement with the model: the failure of the model, or its text written and the `panic` it says; then `next`. -/
def Prints {α : Type} (s : XSt) (k : Nat) (q : Res (List Byte × Option DecErr)) (r : M (Except XVal α × XSt)) (next : XSt → M (Except XVal α × XSt)) : Prop :=
  match q with
  | .error e => r = .error (.fail e)
  | .ok (t, some e) => ∃ s', r = .ok (.error (.g (.val (errVal (some e)))), s') ∧ Quiet s.g s'.g ∧ Wrote k t s s'
  | .ok (t, none) => ∃ s', r = next s' ∧ Quiet s.g s'.g ∧ Wrote k t s s'

section
variable {F : Fmt} {rt : Rt} {d : Nat} {meth : Meths} {env : Env} {i kw : Nat} {s : XSt}

local notation "ev" => eval F testPackage testSources (goCall rt (d + 3)) (G.run testPackage rt d) meth
local notation "ex" => exec F testPackage testSources (goCall rt (d + 3)) (G.run testPackage rt d) meth

theorem exec_cons {a : Stmt} {l : List Stmt} {env' : Env} {s' : XSt} (h : ex a env s = .ok (.ok (.next env'), s')) :
    ex (block (a :: l)) env s = ex (block l) env' s' := by
  rw [block, exec, bind_ok h]

theorem exec_cons_panic {a : Stmt} {l : List Stmt} {v : XVal} {s' : XSt} (h : ex a env s = .ok (.error v, s')) :
    ex (block (a :: l)) env s = .ok (.error v, s') := by
  rw [block, exec, bind_panic h]

theorem exec_cons_fail {a : Stmt} {l : List Stmt} {e : Stop} (h : ex a env s = .error e) : ex (block (a :: l)) env s = .error e := by
  rw [block, exec, bind_fail h]

theorem exec_cons_brk {a : Stmt} {l : List Stmt} {s' : XSt} (h : ex a env s = .ok (.ok .brk, s')) : ex (block (a :: l)) env s = .ok (.ok .brk, s') := by
  rw [block, exec, bind_ok h]
  rfl

/-- The blocks for the scalar fields. -/
theorem exec_fields (rest : List Stmt) (hm : get t!"m" env = some (.g (.struct t!"TestMessage" i)))
    (ho : get t!"offsets" env = some (.g (.val (.offs i)))) (hw : get t!"w" env = some (.writer kw)) (l : List (Nat × Text × Kind × Text)) :
    ∀ (s : XSt) (out : List Byte), (∀ x ∈ l, x ∈ shown) → s.g.h.w.WFs (s.g.h.ms i).buf →
    match writeFields F (s.g.h.w.msg (s.g.h.ms i)) (l.map (fun x => (x.1, x.2.1, x.2.2.1))) out with
    | .error e => ex (block (l.map showOf ++ rest)) env s = .error (.fail e)
    | .ok out' => ∃ s' bs, ex (block (l.map showOf ++ rest)) env s = ex (block rest) env s' ∧ s'.g = s.g ∧ Wrote kw bs s s' ∧ out' = out ++ bs := by
  induction l with
  | nil => intro s out _ _; exact ⟨s, [], rfl, rfl, .refl _ _, by simp⟩
  | cons x l ih =>
    intro s out hl hb
    have hx := hl x (List.mem_cons_self ..)
    have hl := fun y hy => hl y (List.mem_cons_of_mem x hy)
    have h := exec_showField (F := F) (rt := rt) (d := d) (meth := meth) (s := s) hx hm ho hw hb
    rw [List.map_cons, writeFields, List.map_cons, List.cons_append]
    simp only [bind, Except.bind]
    cases hg : (s.g.h.w.msg (s.g.h.ms i)).off.get x.1 with
    | error e => rw [hg] at h; exact exec_cons_fail h
    | ok r =>
      obtain ⟨o, b⟩ := r
      rw [hg] at h
      cases b with
      | false =>
        dsimp only at h ⊢
        rw [exec_cons h]
        exact ih s out hl hb
      | true =>
        dsimp only at h ⊢
        rw [if_pos rfl]
        cases hv : (s.g.h.w.msg (s.g.h.ms i)).get x.2.2.1 x.1 with
        | error e => rw [hv] at h; exact exec_cons_fail h
        | ok y =>
          rw [hv] at h
          dsimp only at h ⊢
          rw [exec_cons h]
          have ih := ih (writeTo kw (asc x.2.1 ++ asc t!"=" ++ F.val x.2.2.1 y ++ asc t!" ") s)
            (out ++ (asc x.2.1 ++ asc t!"=" ++ F.val x.2.2.1 y ++ asc t!" ")) hl hb
          rw [show (writeTo kw (asc x.2.1 ++ asc t!"=" ++ F.val x.2.2.1 y ++ asc t!" ") s).g = s.g from rfl] at ih
          revert ih
          cases writeFields F (s.g.h.w.msg (s.g.h.ms i)) (l.map (fun x => (x.1, x.2.1, x.2.2.1)))
            (out ++ (asc x.2.1 ++ asc t!"=" ++ F.val x.2.2.1 y ++ asc t!" ")) with
          | error e => exact id
          | ok out' =>
            rintro ⟨s', bs, h1, h2, h3, h4⟩
            exact ⟨s', _, h1, h2, (wrote_to _ _ _).trans h3, by rw [h4, List.append_assoc]⟩

/-- ``io.WriteString(w, `t`)`` -/
theorem exec_writeString (hw : get t!"w" env = some (.writer kw)) (t : Text) :
    ex (writeString t) env s = .ok (.ok (.next env), writeTo kw (asc t) s) := by
  have ha : ev env (args [.id t!"w", .raw t]) s = .ok (.ok [.writer kw, .g (.val (.str (.lit (asc t))))], s) := by
    rw [args2, eval, bind_ok (eval_id hw), eval, eval]
    rfl
  unfold writeString
  rw [exec, bind_ok (s' := writeTo kw (asc t) s) (a := [])]
  · rfl
  · rw [eval, bind_ok ha]
    simp only [library, state_bind]
    rw [if_neg (by decide), if_pos (by decide)]
    rfl

/-- `sub.WriteText(w)` between two strings. -/
theorem exec_showSub (rest : List Stmt) (before after : Text) (hw : get t!"w" env = some (.writer kw)) (hs : get t!"sub" env = some (.g (.struct t!"TestMessage" i)))
    {q : Res (List Byte × Option DecErr)}
    (h : Prints (writeTo kw (asc before) s) kw q (meth srcWriteText (.g (.struct t!"TestMessage" i)) [.writer kw] (writeTo kw (asc before) s)) (fun s' => .ok (.ok [], s'))) :
    Prints s kw (q.map (fun r => (match r.2 with | some _ => asc before ++ r.1 | none => asc before ++ r.1 ++ asc after, r.2)))
      (ex (block (showSub before after ++ rest)) env s) (fun s' => ex (block rest) env s') := by
  unfold showSub
  rw [List.cons_append, exec_cons (exec_writeString hw before)]
  have hcall : ∀ s, ev env (.method (.id t!"sub") t!"WriteText" (args [.id t!"w"])) s = meth srcWriteText (.g (.struct t!"TestMessage" i)) [.writer kw] s := by
    intro s
    have ha : ev env (args [.id t!"w"]) s = .ok (.ok [.writer kw], s) := by rw [args1, eval]; exact eval_id hw
    rw [eval, bind_ok (eval_id hs), bind_ok ha]
    rfl
  have hstmt : ∀ s, ex (.expr (.method (.id t!"sub") t!"WriteText" (args [.id t!"w"]))) env s =
      (meth srcWriteText (.g (.struct t!"TestMessage" i)) [.writer kw] >>= fun _ => pure (.next env)) s := by
    intro s
    rw [exec, show ev env (.method (.id t!"sub") t!"WriteText" (args [.id t!"w"])) = meth srcWriteText (.g (.struct t!"TestMessage" i)) [.writer kw] from funext hcall]
  have hq : Quiet s.g (writeTo kw (asc before) s).g := Quiet.refl _
  have hwr := wrote_to kw (asc before) s
  rw [List.cons_append]
  unfold Prints at h ⊢
  cases q with
  | error e => exact exec_cons_fail (by rw [hstmt, bind_fail h])
  | ok r =>
    obtain ⟨t, p⟩ := r
    cases p with
    | some e =>
      obtain ⟨s', h1, h2, h3⟩ := h
      exact ⟨s', exec_cons_panic (by rw [hstmt, bind_panic h1]), hq.trans h2, hwr.trans h3⟩
    | none =>
      obtain ⟨s', h1, h2, h3⟩ := h
      refine ⟨writeTo kw (asc after) s', ?_, hq.trans h2, (hwr.trans h3).trans (wrote_to _ _ _)⟩
      rw [exec_cons (env' := env) (s' := s') (by rw [hstmt, bind_ok h1]; rfl), List.cons_append, exec_cons (exec_writeString hw after), List.nil_append]

/-! ## The embedded message and the loop -/

theorem test_table : ∃ nums, Decl.repeatedTable t!"TestMessage" nums ∈ testDecls ∧ (fun n : Nat => decide ((n : Int) ∈ nums)) = testRep := by
  obtain ⟨nums, h1, h2⟩ := G.test_implements.table
  exact ⟨nums, G.test_sub _ ((h1 _ _).2 ⟨rfl, rfl⟩), G.rep_table h2⟩

/-- The state of a call of `WriteText` that began in memory `g0`: its copy `m` of the message, its variable `sub`. -/
structure In (g0 g : GSt) (m sub : HMsg) : Prop where
  quiet : Quiet g0 g
  next : g0.next + 2 ≤ g.next
  copy : g.h.ms g0.next = m
  var : g.h.ms (g0.next + 1) = sub
  wf : g.h.w.WF sub
  own : ∀ id, sub.m = some id → g0.h.w.maps.length ≤ id

theorem In.later {g0 g g' : GSt} {m sub : HMsg} (h : In g0 g m sub) (hq : Quiet g g') : In g0 g' m sub where
  quiet := h.quiet.trans hq
  next := Nat.le_trans h.next hq.next
  copy := (hq.structs _ (by have := h.next; omega)).trans h.copy
  var := (hq.structs _ (by have := h.next; omega)).trans h.var
  wf := hq.wf h.wf
  own := h.own

/-- `sub` has been filled. -/
theorem In.fill {g0 g : GSt} {m sub sub' : HMsg} {w' : World} (h : In g0 g m sub) (hw : w'.WF sub') (ha : w'.arrs = g.h.w.arrs)
    (hl : g.h.w.maps.length ≤ w'.maps.length) (hm : ∀ id, id < g.h.w.maps.length → sub.m ≠ some id → w'.maps.getD id [] = g.h.w.maps.getD id [])
    (ho : sub'.m = sub.m ∨ ∃ id, sub'.m = some id ∧ g.h.w.maps.length ≤ id) (its : Nat → Option HSlice) (hi : ∀ j, j < g0.next → its j = g.its j) :
    In g0 ⟨g.h.upd (g0.next + 1) (sub', w'), g.next, its⟩ m sub' where
  quiet := {
    arrs := ha.trans h.quiet.arrs
    mgrow := Nat.le_trans h.quiet.mgrow hl
    maps := fun id hid => by
      refine (hm id (Nat.lt_of_lt_of_le hid h.quiet.mgrow) ?_).trans (h.quiet.maps id hid)
      intro hs
      have := h.own id hs
      omega
    structs := fun j hj => by
      show (if j = g0.next + 1 then sub' else g.h.ms j) = _
      rw [if_neg (by omega)]
      exact h.quiet.structs j hj
    iters := fun j hj => (hi j hj).trans (h.quiet.iters j hj)
    next := h.quiet.next }
  next := h.next
  copy := by
    show (if g0.next = g0.next + 1 then sub' else g.h.ms g0.next) = _
    rw [if_neg (by omega)]
    exact h.copy
  var := by
    show (if g0.next + 1 = g0.next + 1 then sub' else _) = _
    rw [if_pos rfl]
  wf := hw
  own := by
    intro id hid
    rcases ho with ho | ⟨id', ho, hle⟩
    · exact h.own id (ho ▸ hid)
    · rw [hid] at ho
      cases ho
      exact Nat.le_trans h.quiet.mgrow hle

/-- The values of the variables. -/
structure Vars (env : Env) (g0 : GSt) (kw : Nat) : Prop where
  m : get t!"m" env = some (.g (.struct t!"TestMessage" g0.next))
  sub : get t!"sub" env = some (.g (.struct t!"TestMessage" (g0.next + 1)))
  w : get t!"w" env = some (.writer kw)

theorem Vars.cons {g0 : GSt} {x : Text} {v : XVal} (h : Vars env g0 kw) (h1 : x ≠ t!"m") (h2 : x ≠ t!"sub") (h3 : x ≠ t!"w") : Vars ((x, v) :: env) g0 kw :=
  ⟨by rw [get, if_neg h1]; exact h.m, by rw [get, if_neg h2]; exact h.sub, by rw [get, if_neg h3]; exact h.w⟩

theorem generated_ok {p : Program} {gen : GenCalls} {t f : Text} {r : GVal} {vs : List XVal} {us rs : List GVal} {xs : List XVal} {g : GSt}
    (h1 : gvals vs = .ok us) (h2 : gen t f (r :: us) s.g = .ok (rs, g)) (h3 : results p t f rs = .ok xs) :
    generated p gen t f r vs s = .ok (.ok xs, { s with g := g }) := by
  simp only [generated, state_bind, h1, known_ok_bind, h2, setState_bind, h3]
  rfl

theorem generated_fail {p : Program} {gen : GenCalls} {t f : Text} {r : GVal} {vs : List XVal} {us : List GVal} {e : Stop}
    (h1 : gvals vs = .ok us) (h2 : gen t f (r :: us) s.g = .error e) : generated p gen t f r vs s = .error e := by
  simp only [generated, state_bind, h1, known_ok_bind, h2, known_error_bind]

/-- `m.Message(&sub)` -/
theorem eval_message {g0 : GSt} {m sub : HMsg} (hv : Vars env g0 kw) (h : In g0 s.g m sub) (hm : g0.h.w.WF m) :
    match (g0.h.w.msg m).subMessage testRep 17 (s.g.h.w.msg sub) with
    | .error e => ev env (.method (.id t!"m") t!"Message" (args [.addr (.id t!"sub")])) s = .error (.fail e)
    | .ok (v, ok, err) => ∃ s' sub', ev env (.method (.id t!"m") t!"Message" (args [.addr (.id t!"sub")])) s =
          .ok (.ok [.g (.val (.bool ok)), .g (.val (errVal err))], s') ∧ In g0 s'.g m sub' ∧ s'.outs = s.outs ∧ s'.g.h.w.msg sub' = v := by
  obtain ⟨nums, ht, hrep⟩ := test_table
  have ha : ev env (args [.addr (.id t!"sub")]) s = .ok (.ok [.g (.ptr t!"TestMessage" (g0.next + 1))], s) := by
    rw [args1, eval, eval, hv.sub]; rfl
  have hd : Decl.getMessage t!"TestMessage" t!"Message" t!"TestMessage" 17 ∈ testDecls := by decide +kernel
  have hmeth : G.method testPackage t!"TestMessage" t!"Message" = some (G.srcGetMessage t!"TestMessage" t!"Message" t!"TestMessage" 17) := testPackage_ok.method hd rfl
  have hres : ∀ vs, results testPackage t!"TestMessage" t!"Message" vs = .ok (vs.map .g) := by
    intro vs
    unfold results
    rw [hmeth]
    rfl
  have hrun := G.C63_getMessage testPackage_ok rt d (i := g0.next) (j := g0.next + 1) s.g hd (by decide +kernel) ht
    (by rw [h.copy]; exact h.quiet.wfs hm.1) (by rw [h.var]; exact h.wf)
  rw [hrep, h.copy, h.var] at hrun
  have key : ev env (.method (.id t!"m") t!"Message" (args [.addr (.id t!"sub")])) s =
      generated testPackage (G.run testPackage rt d) t!"TestMessage" t!"Message" (.ptr t!"TestMessage" g0.next) [.g (.ptr t!"TestMessage" (g0.next + 1))] s := by
    rw [eval, bind_ok (eval_id hv.m), bind_ok ha]
    rfl
  have href := subMessage_refines testRep (m := m) (h.quiet.wfs hm.1) h.wf 17
  rw [h.quiet.msg hm] at href
  rw [key]
  cases hq : (g0.h.w.msg m).subMessage testRep 17 (s.g.h.w.msg sub) with
  | error e =>
    rw [hq] at href
    rw [show m.subMessage testRep s.g.h.w 17 sub = .error e from href] at hrun
    exact generated_fail rfl hrun
  | ok r =>
    obtain ⟨v, ok, err⟩ := r
    rw [hq] at href
    obtain ⟨sub', w', h1, h2, h3, h4, h5, h6, h7⟩ := href
    rw [h1] at hrun
    exact ⟨_, sub', generated_ok rfl hrun (hres _), h.fill h3 h4 h5 h6 h7 _ (fun j _ => rfl), rfl, h2⟩

/-- `it.Next(&sub)` -/
theorem eval_next {g0 : GSt} {m sub : HMsg} {j : Nat} (hv : Vars env g0 kw) (hit : get t!"it" env = some (.g (.iter t!"TestMessageTestMessageIterator" j)))
    (hj : g0.next ≤ j) (h : In g0 s.g m sub) (hb : ∀ b, s.g.its j = some b → s.g.h.w.WFs b) :
    match Msg.next testRep ((s.g.its j).map s.g.h.w.slice) 34 (s.g.h.w.msg sub) with
    | .error e => ev env (.method (.id t!"it") t!"Next" (args [.addr (.id t!"sub")])) s = .error (.fail e)
    | .ok (vi, v, ok, err) => ∃ s' sub', ev env (.method (.id t!"it") t!"Next" (args [.addr (.id t!"sub")])) s =
          .ok (.ok [.g (.val (.bool ok)), .g (.val (errVal err))], s') ∧ In g0 s'.g m sub' ∧ s'.outs = s.outs ∧ s'.g.h.w.msg sub' = v ∧
          s'.g.next = s.g.next ∧ (s'.g.its j).map s'.g.h.w.slice = vi ∧ ∀ b, s'.g.its j = some b → s'.g.h.w.WFs b := by
  obtain ⟨nums, ht, hrep⟩ := test_table
  have ha : ev env (args [.addr (.id t!"sub")]) s = .ok (.ok [.g (.ptr t!"TestMessage" (g0.next + 1))], s) := by
    rw [args1, eval, eval, hv.sub]; rfl
  have hd : Decl.iterNext t!"TestMessageTestMessageIterator" t!"TestMessage" 34 ∈ testDecls := by decide +kernel
  have hmeth : G.method testPackage t!"TestMessageTestMessageIterator" t!"Next" = some (G.srcNext t!"TestMessageTestMessageIterator" t!"TestMessage" 34) :=
    testPackage_ok.method hd rfl
  have hres : ∀ vs, results testPackage t!"TestMessageTestMessageIterator" t!"Next" vs = .ok (vs.map .g) := by
    intro vs
    unfold results
    rw [hmeth]
    rfl
  have hrun := G.C63_next testPackage_ok rt d (i := j) (j := g0.next + 1) s.g hd (by decide +kernel) ht hb (by rw [h.var]; exact h.wf)
  rw [hrep, h.var] at hrun
  have key : ev env (.method (.id t!"it") t!"Next" (args [.addr (.id t!"sub")])) s =
      generated testPackage (G.run testPackage rt d) t!"TestMessageTestMessageIterator" t!"Next" (.iter t!"TestMessageTestMessageIterator" j)
        [.g (.ptr t!"TestMessage" (g0.next + 1))] s := by
    rw [eval, bind_ok (eval_id hit), bind_ok ha]
  have href := hNext_refines testRep hb h.wf 34
  rw [key]
  cases hq : Msg.next testRep ((s.g.its j).map s.g.h.w.slice) 34 (s.g.h.w.msg sub) with
  | error e =>
    rw [hq] at href
    rw [show hNext testRep s.g.h.w (s.g.its j) 34 sub = .error e from href] at hrun
    exact generated_fail rfl hrun
  | ok r =>
    obtain ⟨vi, v, ok, err⟩ := r
    rw [hq] at href
    obtain ⟨it', sub', w', h1, hi1, hi2, h2, h3, h4, h5, h6, h7⟩ := href
    rw [h1] at hrun
    refine ⟨_, sub', generated_ok rfl hrun (hres _), h.fill h3 h4 h5 h6 h7 _ (fun k hk => ?_), rfl, h2, rfl, ?_, ?_⟩
    · exact if_neg (by omega)
    · simp only [if_true]; exact hi1
    · simp only [if_true]; exact hi2

/-- `m.Messages()` -/
theorem eval_messages {g0 : GSt} {m sub : HMsg} (hv : Vars env g0 kw) (h : In g0 s.g m sub) (hm : g0.h.w.WF m) :
    match (g0.h.w.msg m).messages 34 with
    | .error e => ev env (getter t!"Messages") s = .error (.fail e)
    | .ok it => ∃ it', ev env (getter t!"Messages") s = .ok (.ok [.iterVal t!"TestMessageTestMessageIterator" it'], s) ∧
        it'.map s.g.h.w.slice = it ∧ ∀ b, it' = some b → s.g.h.w.WFs b := by
  have hd : Decl.getRepeated t!"TestMessage" t!"Messages" t!"TestMessageTestMessageIterator" 34 ∈ testDecls := by decide +kernel
  have hi : Decl.iterType t!"TestMessageTestMessageIterator" ∈ testDecls := by decide +kernel
  have hmeth : G.method testPackage t!"TestMessage" t!"Messages" = some (G.srcGetRepeated t!"TestMessage" t!"Messages" t!"TestMessageTestMessageIterator" 34) :=
    testPackage_ok.method hd rfl
  have hres : ∀ it', results testPackage t!"TestMessage" t!"Messages" [.val (optBytes it')] = .ok [.iterVal t!"TestMessageTestMessageIterator" it'] := by
    intro it'
    unfold results
    rw [hmeth]
    dsimp only [G.srcGetRepeated]
    rw [testPackage_ok.iter hi, if_pos rfl]
    cases it' <;> rfl
  have hrun := G.C63_getRepeated testPackage_ok rt d (i := g0.next) s.g hd hi
  rw [h.copy] at hrun
  have h2 : ev env .noArgs s = .ok (.ok [], s) := rfl
  have key : ev env (getter t!"Messages") s =
      generated testPackage (G.run testPackage rt d) t!"TestMessage" t!"Messages" (.ptr t!"TestMessage" g0.next) [] s := by
    unfold getter
    rw [eval, bind_ok (eval_id hv.m), bind_ok h2]
    rfl
  have hwm := h.quiet.wfs hm.1
  have hview := messages_view hwm 34
  have hmsg := h.quiet.msg hm
  have hval : (g0.h.w.msg m).messages 34 = (m.messages s.g.h.w 34).map (Option.map s.g.h.w.slice) := by
    rw [← hmsg]; exact hview
  rw [key, hval]
  cases hq : m.messages s.g.h.w 34 with
  | error e => rw [hq] at hrun; exact generated_fail rfl hrun
  | ok it' =>
    rw [hq] at hrun
    refine ⟨it', generated_ok rfl hrun (hres _), rfl, ?_⟩
    intro b hb
    subst hb
    unfold HMsg.messages at hq
    simp only [bind, Except.bind, pure, Except.pure] at hq
    split at hq
    · cases hq
    · split at hq
      · cases hq
      · split at hq
        · cases hq
        next hdf => cases hq; exact HSlice.dropFrom_wf hwm hdf

/-- `if ok, err := call; err != nil { panic(err) } else …` -/
theorem exec_checked {call : Expr} {els : Stmt} {ok : Bool} {err : Option DecErr} {s' : XSt}
    (h : ev env call s = .ok (.ok [.g (.val (.bool ok)), .g (.val (errVal err))], s')) :
    ex (.ite t!"ok" t!"err" call (.notNil (.id t!"err")) panicErr els) env s =
    match err with
    | some e => .ok (.error (.g (.val (errVal (some e)))), s')
    | none => (ex els ((t!"err", .g (.val .nil)) :: (t!"ok", .g (.val (.bool ok))) :: env) >>= fun o => pure (leave env.length o)) s' := by
  have hb : ∀ v1 v2, bindVar t!"err" v2 (bindVar t!"ok" v1 env) = (t!"err", v2) :: (t!"ok", v1) :: env := fun v1 v2 => by
    rw [bindVar, if_neg (by decide), bindVar, if_neg (by decide)]
  have hid : ∀ v s, ev ((t!"err", v) :: (t!"ok", .g (.val (.bool ok))) :: env) (.id t!"err") s = .ok (.ok [v], s) := fun v s => eval_id (by rw [get, if_pos rfl])
  rw [exec, bind_ok h]
  dsimp only
  rw [hb]
  cases err with
  | none =>
    have hk : ev ((t!"err", .g (.val (errVal none))) :: (t!"ok", .g (.val (.bool ok))) :: env) (.notNil (.id t!"err")) s' = .ok (.ok [.g (.val (.bool false))], s') := by
      rw [eval, bind_ok (hid _ _)]; rfl
    rw [bind_ok hk]
    simp only [condition, pure_bind', Bool.false_eq_true, if_false]
    rfl
  | some e =>
    have hk : ev ((t!"err", .g (.val (errVal (some e)))) :: (t!"ok", .g (.val (.bool ok))) :: env) (.notNil (.id t!"err")) s' = .ok (.ok [.g (.val (.bool true))], s') := by
      rw [eval, bind_ok (hid _ _)]; rfl
    have hp : ex panicErr ((t!"err", .g (.val (errVal (some e)))) :: (t!"ok", .g (.val (.bool ok))) :: env) s' = .ok (.error (.g (.val (errVal (some e)))), s') := by
      unfold panicErr
      refine exec_cons_panic ?_
      rw [exec, bind_ok (hid _ _)]
      rfl
    rw [bind_ok hk]
    simp only [condition, pure_bind', if_true]
    rw [bind_panic hp]

theorem exec_test {k : Expr} {t : Stmt} {b : Bool} (h : ev env k s = .ok (.ok [.g (.val (.bool b))], s)) :
    ex (.test k t) env s = if b then (ex t env >>= fun o => pure (leave env.length o)) s else .ok (.ok (.next env), s) := by
  rw [exec, bind_ok h]
  simp only [condition, pure_bind']
  cases b <;> rfl

theorem leave_cons2 {x y : Text × XVal} : leave env.length (.next (x :: y :: env)) = .next env := by
  rw [leave, show (x :: y :: env).length - env.length = 2 by simp only [List.length_cons]; omega]
  rfl

theorem leave_self : leave env.length (.next env) = .next env := by
  simp [leave]

theorem Vars.two {g0 : GSt} {v1 v2 : XVal} (h : Vars env g0 kw) : Vars ((t!"err", v2) :: (t!"ok", v1) :: env) g0 kw :=
  (h.cons (by decide) (by decide) (by decide)).cons (by decide) (by decide) (by decide)

/-- What `sub.WriteText(w)` does. -/
def Shown (meth : Meths) (rec : Msg → Res (List Byte × Option DecErr)) : Prop :=
  ∀ (s : XSt) (j k : Nat), j < s.g.next → s.g.h.w.WF (s.g.h.ms j) →
    Prints s k (rec (s.g.h.w.msg (s.g.h.ms j))) (meth srcWriteText (.g (.struct t!"TestMessage" j)) [.writer k] s) (fun s' => .ok (.ok [], s'))

/-- `sub.WriteText(w)` between two strings, for the variable `sub`. -/
theorem exec_showVar {rec : Msg → Res (List Byte × Option DecErr)} (hrec : Shown meth rec) {g0 : GSt} {m sub : HMsg} (before after : Text) (hv : Vars env g0 kw) (h : In g0 s.g m sub) :
    match rec (s.g.h.w.msg sub) with
    | .error e => ex (block (showSub before after)) env s = .error (.fail e)
    | .ok (t, some e) => ∃ s', ex (block (showSub before after)) env s = .ok (.error (.g (.val (errVal (some e)))), s') ∧ Quiet s.g s'.g ∧ Wrote kw (asc before ++ t) s s'
    | .ok (t, none) => ∃ s', ex (block (showSub before after)) env s = .ok (.ok (.next env), s') ∧ Quiet s.g s'.g ∧ Wrote kw (asc before ++ t ++ asc after) s s' := by
  have hp := hrec (writeTo kw (asc before) s) (g0.next + 1) kw (by have := h.next; exact Nat.lt_of_lt_of_le (by omega) this)
    (by show s.g.h.w.WF (s.g.h.ms _); rw [h.var]; exact h.wf)
  have hq := exec_showSub (F := F) (rt := rt) (d := d) (s := s) [] before after hv.w hv.sub hp
  rw [List.append_nil] at hq
  rw [show (writeTo kw (asc before) s).g = s.g from rfl, h.var] at hq
  revert hq
  cases rec (s.g.h.w.msg sub) with
  | error e => exact id
  | ok r =>
    obtain ⟨t, p⟩ := r
    cases p with
    | some e => exact id
    | none => exact id

/-- The embedded message. -/
theorem exec_showMessage {rec : Msg → Res (List Byte × Option DecErr)} (hrec : Shown meth rec) {g0 : GSt} {m sub : HMsg} {s0 : XSt} {out : List Byte}
    (hv : Vars env g0 kw) (h : In g0 s.g m sub) (hm : g0.h.w.WF m) (hout : Wrote kw out s0 s) :
    match (g0.h.w.msg m).subMessage testRep 17 (s.g.h.w.msg sub) with
    | .error e => ex showMessage env s = .error (.fail e)
    | .ok (_, _, some e) => ∃ s', ex showMessage env s = .ok (.error (.g (.val (errVal (some e)))), s') ∧ Quiet g0 s'.g ∧ Wrote kw out s0 s'
    | .ok (v, false, none) => ∃ s' sub', ex showMessage env s = .ok (.ok (.next env), s') ∧ In g0 s'.g m sub' ∧ s'.g.h.w.msg sub' = v ∧ Wrote kw out s0 s'
    | .ok (v, true, none) => match rec v with
      | .error e => ex showMessage env s = .error (.fail e)
      | .ok (t, some e) => ∃ s', ex showMessage env s = .ok (.error (.g (.val (errVal (some e)))), s') ∧ Quiet g0 s'.g ∧ Wrote kw (out ++ asc t!"message=<" ++ t) s0 s'
      | .ok (t, none) => ∃ s' sub', ex showMessage env s = .ok (.ok (.next env), s') ∧ In g0 s'.g m sub' ∧ s'.g.h.w.msg sub' = v ∧
          Wrote kw (out ++ asc t!"message=<" ++ t ++ asc t!"> ") s0 s' := by
  have he := eval_message (F := F) (rt := rt) (d := d) (meth := meth) hv h hm
  cases hq : (g0.h.w.msg m).subMessage testRep 17 (s.g.h.w.msg sub) with
  | error e =>
    rw [hq] at he
    dsimp only at he ⊢
    unfold showMessage
    rw [exec, bind_fail he]
  | ok r =>
    obtain ⟨v, ok, err⟩ := r
    rw [hq] at he
    obtain ⟨s1, sub1, e1, e2, e3, e4⟩ := he
    have hc := exec_checked (F := F) (rt := rt) (d := d) (meth := meth) (els := .test (.id t!"ok") (block (showSub t!"message=<" t!"> "))) e1
    change ex showMessage env s = _ at hc
    have hout1 := hout.of_outs e3
    cases err with
    | some e => cases ok <;> exact ⟨s1, hc, e2.quiet, hout1⟩
    | none =>
      dsimp only at hc
      have hid : ev ((t!"err", .g (.val .nil)) :: (t!"ok", .g (.val (.bool ok))) :: env) (.id t!"ok") s1 = .ok (.ok [.g (.val (.bool ok))], s1) :=
        eval_id (by rw [get, if_neg (by decide), get, if_pos rfl])
      have ht := exec_test (F := F) (rt := rt) (d := d) (meth := meth) (t := block (showSub t!"message=<" t!"> ")) hid
      cases ok with
      | false =>
        dsimp only
        refine ⟨s1, sub1, ?_, e2, e4, hout1⟩
        rw [hc, bind_ok ht, leave_cons2]
        rfl
      | true =>
        dsimp only at ht ⊢
        have hs := exec_showVar (F := F) (rt := rt) (d := d) hrec t!"message=<" t!"> " (hv.two (v1 := .g (.val (.bool true))) (v2 := .g (.val .nil))) e2
        rw [e4] at hs
        cases hr : rec v with
        | error e =>
          rw [hr] at hs
          dsimp only at hs ⊢
          rw [hc]
          refine bind_fail ?_
          rw [ht, if_pos rfl, bind_fail hs]
        | ok r =>
          obtain ⟨t, p⟩ := r
          rw [hr] at hs
          cases p with
          | some e =>
            obtain ⟨s2, f1, f2, f3⟩ := hs
            refine ⟨s2, ?_, e2.quiet.trans f2, by rw [List.append_assoc]; exact hout1.trans f3⟩
            rw [hc]
            refine bind_panic ?_
            rw [ht, if_pos rfl, bind_panic f1]
          | none =>
            obtain ⟨s2, f1, f2, f3⟩ := hs
            refine ⟨s2, sub1, ?_, e2.later f2, (f2.msg e2.wf).trans e4, by rw [List.append_assoc, List.append_assoc, ← List.append_assoc (asc _)]; exact hout1.trans f3⟩
            rw [hc, bind_ok (s' := s2) (a := .next ((t!"err", .g (.val .nil)) :: (t!"ok", .g (.val (.bool true))) :: env))]
            · rw [leave_cons2]; rfl
            · rw [ht, if_pos rfl, bind_ok f1, leave_self]; rfl

/-- One round of the loop. -/
theorem exec_showElem {rec : Msg → Res (List Byte × Option DecErr)} (hrec : Shown meth rec) {g0 : GSt} {m sub : HMsg} {s0 : XSt} {out : List Byte} {j : Nat}
    (hv : Vars env g0 kw) (hit : get t!"it" env = some (.g (.iter t!"TestMessageTestMessageIterator" j))) (hj : g0.next ≤ j) (hjn : j < s.g.next)
    (h : In g0 s.g m sub) (hb : ∀ b, s.g.its j = some b → s.g.h.w.WFs b) (hout : Wrote kw out s0 s) :
    match textStep rec ((s.g.its j).map s.g.h.w.slice, s.g.h.w.msg sub, out) with
    | .error e => ex showElem env s = .error (.fail e)
    | .ok (.inr (t, some e)) => ∃ s', ex showElem env s = .ok (.error (.g (.val (errVal (some e)))), s') ∧ Quiet g0 s'.g ∧ Wrote kw t s0 s'
    | .ok (.inr (t, none)) => ∃ s', ex showElem env s = .ok (.ok .brk, s') ∧ Quiet g0 s'.g ∧ Wrote kw t s0 s'
    | .ok (.inl (it', v', out')) => ∃ s' sub', ex showElem env s = .ok (.ok (.next env), s') ∧ In g0 s'.g m sub' ∧ s'.g.h.w.msg sub' = v' ∧
        j < s'.g.next ∧ (s'.g.its j).map s'.g.h.w.slice = it' ∧ (∀ b, s'.g.its j = some b → s'.g.h.w.WFs b) ∧ Wrote kw out' s0 s' := by
  have he := eval_next (F := F) (rt := rt) (d := d) (meth := meth) hv hit hj h hb
  unfold textStep
  simp only [bind, Except.bind, pure, Except.pure]
  cases hq : Msg.next testRep ((s.g.its j).map s.g.h.w.slice) 34 (s.g.h.w.msg sub) with
  | error e =>
    rw [hq] at he
    dsimp only at he ⊢
    unfold showElem
    refine exec_cons_fail ?_
    rw [exec, bind_fail he]
  | ok r =>
    obtain ⟨vi, v, ok, err⟩ := r
    rw [hq] at he
    obtain ⟨s1, sub1, e1, e2, e3, e4, e5, e6, e7⟩ := he
    have hc := exec_checked (F := F) (rt := rt) (d := d) (meth := meth) (els := .test (.not (.id t!"ok")) (block [.brk])) e1
    have hout1 := hout.of_outs e3
    unfold showElem
    cases err with
    | some e => exact ⟨s1, exec_cons_panic hc, e2.quiet, hout1⟩
    | none =>
      dsimp only at hc
      have hid : ev ((t!"err", .g (.val .nil)) :: (t!"ok", .g (.val (.bool ok))) :: env) (.id t!"ok") s1 = .ok (.ok [.g (.val (.bool ok))], s1) :=
        eval_id (by rw [get, if_neg (by decide), get, if_pos rfl])
      have hn : ev ((t!"err", .g (.val .nil)) :: (t!"ok", .g (.val (.bool ok))) :: env) (.not (.id t!"ok")) s1 = .ok (.ok [.g (.val (.bool (!ok)))], s1) := by
        rw [eval, bind_ok hid]; rfl
      have ht := exec_test (F := F) (rt := rt) (d := d) (meth := meth) (t := block [.brk]) hn
      cases ok with
      | false =>
        dsimp only
        rw [Bool.not_false, if_pos rfl]
        refine ⟨s1, exec_cons_brk ?_, e2.quiet, hout1⟩
        rw [hc, bind_ok (s' := s1) (a := .brk)]
        · rfl
        · rw [ht, Bool.not_false, if_pos rfl, bind_ok (s' := s1) (a := .brk)]
          · rfl
          · refine exec_cons_brk ?_
            rw [exec]; rfl
      | true =>
        have hfirst := hc
        rw [bind_ok ht, leave_cons2] at hfirst
        dsimp only
        rw [Bool.not_true, if_neg (by decide)]
        have hs := exec_showVar (F := F) (rt := rt) (d := d) hrec t!"messages=<" t!"> " hv e2
        rw [e4] at hs
        have hseq : ∀ r, ex (block (showSub t!"messages=<" t!"> ")) env s1 = r →
            ex (block ([.ite t!"ok" t!"err" (.method (.id t!"it") t!"Next" (args [.addr (.id t!"sub")])) (.notNil (.id t!"err")) panicErr
              (.test (.not (.id t!"ok")) (block [.brk]))] ++ showSub t!"messages=<" t!"> ")) env s = r := by
          intro r hr
          rw [List.cons_append, List.nil_append, exec_cons hfirst]
          exact hr
        cases hr : rec v with
        | error e => rw [hr] at hs; exact hseq _ hs
        | ok r =>
          obtain ⟨t, p⟩ := r
          rw [hr] at hs
          cases p with
          | some e =>
            obtain ⟨s2, f1, f2, f3⟩ := hs
            exact ⟨s2, hseq _ f1, e2.quiet.trans f2, by rw [List.append_assoc]; exact hout1.trans f3⟩
          | none =>
            obtain ⟨s2, f1, f2, f3⟩ := hs
            have hits : s2.g.its j = s1.g.its j := f2.iters j (by omega)
            refine ⟨s2, sub1, hseq _ f1, e2.later f2, (f2.msg e2.wf).trans e4, by have := f2.next; omega, ?_, ?_, ?_⟩
            · rw [hits, ← e6]
              cases s1.g.its j with
              | none => rfl
              | some b => exact congrArg some (f2.slice b)
            · intro b hb
              exact f2.wfs (e7 b (hits ▸ hb))
            · rw [List.append_assoc, List.append_assoc, ← List.append_assoc (asc _)]
              exact hout1.trans f3

/-- The loop. -/
theorem exec_loop {rec : Msg → Res (List Byte × Option DecErr)} (hrec : Shown meth rec) {g0 : GSt} {m sub : HMsg} {s0 : XSt} {out : List Byte} {j : Nat}
    (hv : Vars env g0 kw) (hit : get t!"it" env = some (.g (.iter t!"TestMessageTestMessageIterator" j))) (hj : g0.next ≤ j) (hjn : j < s.g.next)
    (h : In g0 s.g m sub) (hb : ∀ b, s.g.its j = some b → s.g.h.w.WFs b) (hout : Wrote kw out s0 s) :
    match iterate (textStep rec) ((s.g.its j).map s.g.h.w.slice, s.g.h.w.msg sub, out) with
    | .error e => forever (ex showElem) env s = .error (.fail e)
    | .ok (t, some e) => ∃ s', forever (ex showElem) env s = .ok (.error (.g (.val (errVal (some e)))), s') ∧ Quiet g0 s'.g ∧ Wrote kw t s0 s'
    | .ok (t, none) => ∃ s', forever (ex showElem) env s = .ok (.ok (.next env), s') ∧ Quiet g0 s'.g ∧ Wrote kw t s0 s' := by
  let R : Env × XSt → Option Slice × Msg × List Byte → Prop := fun st v => st.1 = env ∧ ∃ sub, In g0 st.2.g m sub ∧ st.2.g.h.w.msg sub = v.2.1 ∧ j < st.2.g.next ∧
    (st.2.g.its j).map st.2.g.h.w.slice = v.1 ∧ (∀ b, st.2.g.its j = some b → st.2.g.h.w.WFs b) ∧ Wrote kw v.2.2 s0 st.2
  let Q : Option (Except XVal Out × XSt) → List Byte × Option DecErr → Prop := fun r v => ∃ s', Quiet g0 s'.g ∧ Wrote kw v.1 s0 s' ∧
    r = some (match v.2 with | some e => .error (.g (.val (errVal (some e)))) | none => .ok (.next env), s')
  unfold forever iterateM
  have hsim := iterate_sim (R := R) (Q := Q) (step' := textStep rec) (step := fun st : Env × XSt => flatStep (match ex showElem st.1 st.2 with
    | .error e => .error e
    | .ok (.error v, s) => .ok (.inr (.error v, s))
    | .ok (.ok (.next env), s) => .ok (.inl (env.drop (env.length - st.1.length), s))
    | .ok (.ok .brk, s) => .ok (.inr (.ok (.next st.1), s))
    | .ok (.ok (.ret vs), s) => .ok (.inr (.ok (.ret vs), s)))) (s := (env, s)) (s' := ((s.g.its j).map s.g.h.w.slice, s.g.h.w.msg sub, out)) ?_
    ⟨rfl, sub, h, rfl, hjn, rfl, hb, hout⟩
  · revert hsim
    cases iterate (textStep rec) ((s.g.its j).map s.g.h.w.slice, s.g.h.w.msg sub, out) with
    | error e =>
      intro hsim
      dsimp only
      generalize iterate _ (env, s) = z at hsim ⊢
      cases z with
      | error e' => have : e' = e := hsim; rw [this]; rfl
      | ok a => exact hsim.elim
    | ok r =>
      obtain ⟨t, p⟩ := r
      intro hsim
      generalize iterate _ (env, s) = z at hsim ⊢
      cases z with
      | error e' => exact hsim.elim
      | ok a =>
        obtain ⟨s', h1, h2, rfl⟩ := hsim
        cases p with
        | some e => exact ⟨s', rfl, h1, h2⟩
        | none => exact ⟨s', rfl, h1, h2⟩
  · rintro ⟨env', s1⟩ ⟨vi, v, o⟩ ⟨rfl, sub1, i1, i2, i3, i4, i5, i6⟩
    dsimp only at i1 i2 i3 i4 i5 i6 ⊢
    subst i2 i4
    have hs := exec_showElem (F := F) (rt := rt) (d := d) hrec hv hit hj i3 i1 i5 i6
    cases hq : textStep rec ((s1.g.its j).map s1.g.h.w.slice, s1.g.h.w.msg sub1, o) with
    | error e =>
      rw [hq] at hs
      dsimp only at hs
      rw [hs]
      exact rfl
    | ok r =>
      rw [hq] at hs
      rcases r with ⟨it', v', o'⟩ | ⟨t, p⟩
      · obtain ⟨s2, sub2, f1, f2, f3, f4, f5, f6, f7⟩ := hs
        rw [f1]
        refine ⟨?_, sub2, f2, f3, f4, f5, f6, f7⟩
        dsimp only
        rw [Nat.sub_self]; rfl
      · cases p with
        | some e =>
          obtain ⟨s2, f1, f2, f3⟩ := hs
          rw [f1]
          exact ⟨s2, f2, f3, rfl⟩
        | none =>
          obtain ⟨s2, f1, f2, f3⟩ := hs
          rw [f1]
          exact ⟨s2, f2, f3, rfl⟩

end

end GoSrc.X
end Zeropb
