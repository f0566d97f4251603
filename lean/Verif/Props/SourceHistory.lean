import Verif.Props.SourceGen
import Verif.Props.Core
/-!
# C63: histories of calls of generated methods

A program calls the methods of a generated message type. Each call runs the generated source; what the getters then return
is what the simple record `Contents` of C03 holds.
-/

set_option linter.constructorNameAsVariable false

namespace Zeropb.GoSrc.G
open Zeropb.Gen Wire

/-- `name(args)` is a call of a method of struct `i`, of the message type `msg`; on the simple record it is `op`.
Bytes given to a setter are not memory that the message itself may write, and shorter than any slice with room for tag and length. -/
inductive Issues (ds : List Decl) (msg : Text) (S : Schema) (rt : Rt) (i : Nat) (s : GSt) : Text → List GVal → Zeropb.Op → Prop
  /-- `m.SetName(v)` -/
  | set {name f k} {x : Kind.Ty k} {v} : Decl.set msg name (Kind.goType k) (Kind.fn k) (f : Nat) ∈ ds → IsVal s.h.w k x v →
      v.Apart s.h.w (s.h.ms i).buf → lenOf k x + 10 < maxLen →
      Issues ds msg S rt i s (t!"Set" ++ name) [.ptr msg i, .val v] (.set rt f k x)
  /-- `m.SetName(x)`, `x` a message -/
  | setMessage {name typ f j} : Decl.setMessage msg name typ (f : Nat) ∈ ds → (Src.mem (s.h.ms j).buf).Apart s.h.w (s.h.ms i).buf →
      (s.h.ms j).buf.len + 10 < maxLen →
      Issues ds msg S rt i s (t!"Set" ++ name) [.ptr msg i, .struct typ j] (.set rt f .bytes (s.h.w.src (.mem (s.h.ms j).buf)))
  /-- `m.AppendToName(x)` -/
  | append {name typ f j} : Decl.appendTo msg name typ (f : Nat) ∈ ds → (Src.mem (s.h.ms j).buf).Apart s.h.w (s.h.ms i).buf →
      (s.h.ms j).buf.len + 10 < maxLen →
      Issues ds msg S rt i s (t!"AppendTo" ++ name) [.ptr msg i, .struct typ j] (.append rt f (s.h.w.src (.mem (s.h.ms j).buf)))
  /-- `m.Reset(b)` -/
  | reset {b} : s.h.w.WFs b → b.len = 0 → Issues ds msg S rt i s t!"Reset" [.ptr msg i, .val (.bytes (.mem b))] (.reset (s.h.w.slice b))
  /-- `m.Reset(nil)` -/
  | resetNil : Issues ds msg S rt i s t!"Reset" [.ptr msg i, .val .nil] (.reset .empty)
  /-- `m.Decode(b)`, of a valid message -/
  | decode {b rs} : s.h.w.WFs b → b.len < maxLen → IsMinTagMessage rs (s.h.w.slice b).data → WellTyped S rs →
      Issues ds msg S rt i s t!"Decode" [.ptr msg i, .val (.bytes (.mem b))] (.decode (s.h.w.slice b) rs)

/-- What the call returns: `Decode` a nil error, the others nothing. -/
def returned : Zeropb.Op → List GVal
  | .decode .. => [.val .nil]
  | _ => []

/-- The message types that message fields of the package refer to are declared in the package. -/
def Closed (ds : List Decl) : Prop :=
  ∀ msg name typ f, Decl.setMessage msg name typ f ∈ ds ∨ Decl.appendTo msg name typ f ∈ ds → Decl.encode typ ∈ ds ∧ ∃ n, Decl.struct typ n ∈ ds

/-- The call returns, with struct `i` holding `m`; or it panics like `q`. -/
def Follows (r : M (List GVal × GSt)) (s : GSt) (i : Nat) (q : Res Msg) (out : List GVal) : Prop :=
  match q with
  | .error e => r = .error (.fail e)
  | .ok m => ∃ s', r = .ok (out, s') ∧ s'.h.w.msg (s'.h.ms i) = m ∧ s'.h.w.WF (s'.h.ms i) ∧ s.next ≤ s'.next ∧
      (∀ j, j ≠ i → j < s.next → s'.h.ms j = s.h.ms j)

theorem follows_of_refines {rv : Res (Slice × Offsets)} {rh : Res (HMsg × World)} {s : GSt} {i : Nat} (hr : Refines rv rh s.h.w (s.h.ms i)) :
    Follows (lift rh >>= fun r => .ok (([] : List GVal), { s with h := s.h.upd i r })) s i (rv.map (fun r => ⟨r.1, r.2⟩)) [] := by
  unfold Refines at hr
  cases rv with
  | error e => simp only at hr; subst hr; rfl
  | ok r =>
    obtain ⟨b, o⟩ := r
    obtain ⟨m', w', h1, h2, h3, _⟩ := hr
    subst h1
    refine ⟨_, rfl, ?_, ?_, Nat.le_refl _, ?_⟩
    · simp only [upd_ms, upd_w]; exact h2
    · simp only [upd_ms, upd_w]; exact h3
    · intro j hj _; simp [Heap.upd, hj]

theorem follows_copy {rv : Res (Slice × Offsets)} {rh : Res (HMsg × World)} {s : GSt} {i : Nat} (m : HMsg) (hr : Refines rv rh s.h.w (s.h.ms i)) :
    Follows (lift rh >>= fun r => .ok (([] : List GVal), ⟨(s.h.put s.next m).upd i r, s.next + 1, s.its⟩)) s i (rv.map (fun r => ⟨r.1, r.2⟩)) [] := by
  unfold Refines at hr
  cases rv with
  | error e => simp only at hr; subst hr; rfl
  | ok r =>
    obtain ⟨b, o⟩ := r
    obtain ⟨m', w', h1, h2, h3, _⟩ := hr
    subst h1
    refine ⟨_, rfl, ?_, ?_, Nat.le_succ _, ?_⟩
    · simp only [upd_ms, upd_w]; exact h2
    · simp only [upd_ms, upd_w]; exact h3
    · intro j hj hn; simp [Heap.upd, Heap.put, hj, Nat.ne_of_lt hn]

theorem setCall_refines {rt : Rt} {f : Nat} {k : Kind} {x : k.Ty} {v : Val} {w : World} {m : HMsg} (hv : IsVal w k x v) (ha : v.Apart w m.buf) (hw : w.WF m) :
    Refines (Msg.setField rt (w.slice m.buf) (w.offs m) k f x) ((setCall rt k f x v).run w m) w m := by
  cases k <;> simp only [IsVal] at hv
  case string =>
    obtain ⟨src, rfl, rfl⟩ := hv
    exact setBytes_refines rt hw f (ha src (Or.inl rfl))
  case bytes =>
    rcases hv with ⟨rfl, rfl⟩ | ⟨src, rfl, rfl⟩
    · exact setBytes_refines rt hw f (x := .lit []) trivial
    · exact setBytes_refines rt hw f (ha src (Or.inr rfl))
  all_goals
    subst hv
    exact setField_refines rt hw _ f x

section
variable {p : Program} {ds mds : List Decl} {S : Schema} {msg : Text}

theorem rep_table {nums : List Int} (h : ∀ n : Int, n ∈ nums ↔ ∃ i : Nat, n = i ∧ S.rep i = true) :
    (fun n : Nat => decide ((n : Int) ∈ nums)) = S.rep := by
  funext n
  cases hr : S.rep n with
  | true => exact decide_eq_true ((h _).2 ⟨n, rfl, hr⟩)
  | false =>
    refine decide_eq_false ?_
    intro hn
    obtain ⟨j, hj, hr'⟩ := (h _).1 hn
    have : n = j := by omega
    subst this
    rw [hr] at hr'; cases hr'

theorem fn_inj {k k' : Kind} (h : Kind.fn k = Kind.fn k') : k = k' := by
  have : ∀ k k' : Kind, Kind.fn k = Kind.fn k' → k = k' := by intro k k'; cases k <;> cases k' <;> first | (intro; rfl) | (intro h; revert h; decide)
  exact this k k' h

/-- C63: each call of a generated method is a legal operation of the schema, and does what the operation does. -/
theorem C63_call (hp : Package p ds) (hc : Closed ds) (hi : Implements S msg mds) (hsub : ∀ x ∈ mds, x ∈ ds) (rt : Rt) (d : Nat) {i : Nat} {s : GSt}
    (hw : s.h.w.WF (s.h.ms i)) (ha : (s.h.w.msg (s.h.ms i)).off.a.length = S.n) (hn : i < s.next) {name : Text} {args : List GVal} {op : Zeropb.Op} (h : Issues mds msg S rt i s name args op) :
    op.Valid S ∧ Follows (run p rt d msg name args s) s i (op.run S (s.h.w.msg (s.h.ms i))) (returned op) := by
  cases h with
  | @set name f k x v hd hv ha hl =>
    obtain ⟨g, k', e1, e2, e3, _, _, e4⟩ := hi.get_only _ _ _ _ _ (Or.inr hd)
    have := fn_inj e4
    subst this
    have : f = g := by omega
    subst this
    have ho : ValOk s.h.w v := by
      intro src hs
      have h1 := ha src hs
      refine ⟨apart_wfsrc h1, ?_⟩
      rw [← src_length (apart_wfsrc h1)]
      cases k <;> simp only [IsVal] at hv
      case string =>
        obtain ⟨src', rfl, rfl⟩ := hv
        rcases hs with hs | hs
        · cases hs; exact hl
        · cases hs
      case bytes =>
        rcases hv with ⟨rfl, rfl⟩ | ⟨src', rfl, rfl⟩
        · rcases hs with hs | hs <;> cases hs
        · rcases hs with hs | hs
          · cases hs
          · cases hs; exact hl
      all_goals
        subst hv
        rcases hs with hs | hs <;> cases hs
    refine ⟨⟨e2, e3, ?_⟩, ?_⟩
    · have : lenOf k x + 10 < maxLen := hl
      revert this
      cases k <;> simp only [lenOf, Kind.size] <;> first | omega | (intro _; decide)
    · rw [C63_set hp rt d s (hsub _ hd) x v hv ho hw]
      show Follows _ s i (Msg.set rt _ k f x) []
      rw [set_eq_map]
      exact follows_of_refines (setCall_refines hv ha hw)
  | @setMessage name typ f j hd ha hl =>
    obtain ⟨g, e1, e2, e3, _⟩ := hi.message_only _ _ _ _ (Or.inr hd)
    have : f = g := by omega
    subst this
    obtain ⟨c1, n, c2⟩ := hc _ _ _ _ (Or.inl (hsub _ hd))
    have hwj : s.h.w.WFs (s.h.ms j).buf := ha.1
    refine ⟨⟨e2, e3, ?_⟩, ?_⟩
    · show (s.h.w.src (.mem (s.h.ms j).buf)).length < maxLen
      have : (s.h.w.src (.mem (s.h.ms j).buf)).length = (s.h.ms j).buf.len := src_length (s := .mem _) hwj
      omega
    · rw [C63_setMessage hp rt d s (hsub _ hd) c1 c2 hn hw hwj hl]
      show Follows _ s i (Msg.set rt _ .bytes f _) []
      rw [set_eq_map]
      exact follows_copy _ (setBytes_refines rt hw f ha)
  | @append name typ f j hd ha hl =>
    obtain ⟨g, e1, e2, e3, _⟩ := hi.repeated_only _ _ _ _ (Or.inr hd)
    have : f = g := by omega
    subst this
    obtain ⟨c1, n, c2⟩ := hc _ _ _ _ (Or.inr (hsub _ hd))
    have hwj : s.h.w.WFs (s.h.ms j).buf := ha.1
    refine ⟨⟨e2, e3, ?_⟩, ?_⟩
    · have : (s.h.w.src (.mem (s.h.ms j).buf)).length = (s.h.ms j).buf.len := src_length (s := .mem _) hwj
      omega
    · rw [C63_appendTo hp rt d s (hsub _ hd) c1 c2 hn hw hwj hl]
      show Follows _ s i (Msg.appendRaw rt _ f _) []
      rw [appendRaw_eq_map]
      exact follows_copy _ (appendBytes_refines rt hw f ha)
  | @reset b hb hl =>
    refine ⟨?_, ?_⟩
    · show (s.h.w.slice b).len = 0
      exact (World.slice_len hb).trans hl
    · rw [C63_reset hp rt d s (hsub _ hi.fixed.2.2) b hw]
      have := reset_refines hw hb
      show Follows _ s i (Msg.reset _ _) []
      cases e : (s.h.w.msg (s.h.ms i)).reset (s.h.w.slice b) with
      | error e' => rw [e] at this; simp only at this; rw [this]; rfl
      | ok v =>
        rw [e] at this
        obtain ⟨m', w', h1, h2, h3, _⟩ := this
        rw [h1]
        refine ⟨_, rfl, ?_, ?_, Nat.le_refl _, ?_⟩
        · simp only [upd_ms, upd_w]; exact h2
        · simp only [upd_ms, upd_w]; exact h3
        · intro j hj _; simp [Heap.upd, hj]
  | resetNil =>
    refine ⟨rfl, ?_⟩
    rw [C63_reset_nil hp rt d s (hsub _ hi.fixed.2.2) hw]
    have := reset_refines hw (buf := .nil) ⟨Nat.le_refl _, by simp [HSlice.nil]⟩
    show Follows _ s i (Msg.reset _ .empty) []
    have hnil : s.h.w.slice .nil = Slice.empty := by simp [World.slice, World.full, HSlice.nil, Slice.empty]
    rw [← hnil]
    cases e : (s.h.w.msg (s.h.ms i)).reset (s.h.w.slice .nil) with
    | error e' => rw [e] at this; simp only at this; rw [this]; rfl
    | ok v =>
      rw [e] at this
      obtain ⟨m', w', h1, h2, h3, _⟩ := this
      rw [h1]
      refine ⟨_, rfl, ?_, ?_, Nat.le_refl _, ?_⟩
      · simp only [upd_ms, upd_w]; exact h2
      · simp only [upd_ms, upd_w]; exact h3
      · intro j hj _; simp [Heap.upd, hj]
  | @decode b rs hb hl hm ht =>
    obtain ⟨nums, t1, t2⟩ := hi.table
    have hlen : (s.h.w.slice b).len = b.len := World.slice_len hb
    refine ⟨⟨hm, ht, by omega⟩, ?_⟩
    rw [C63_decode hp rt d s (hsub _ hi.fixed.2.1) (hsub _ ((t1 _ _).2 ⟨rfl, rfl⟩)) b hb hw, rep_table t2]
    obtain ⟨v, d1, d2, _⟩ := decode_holdsMin (m := s.h.w.msg (s.h.ms i)) ha (by omega) hm (fun r hr => (ht r hr).1)
    have hr := decode_refines S.rep hw hb
    have hq : Op.run S (.decode (s.h.w.slice b) rs) (s.h.w.msg (s.h.ms i)) = .ok v := by simp only [Op.run, d1]; rfl
    rw [hq]
    rw [d1] at hr
    obtain ⟨m', w', h1, h2, h3, _⟩ := hr
    rw [h1]
    refine ⟨_, rfl, ?_, ?_, Nat.le_refl _, ?_⟩
    · simp only [upd_ms, upd_w]; exact h2
    · simp only [upd_ms, upd_w]; exact h3
    · intro j hj _; simp [Heap.upd, hj]

/-- `s` and `s'` have the same message in struct `i`: what calls on other messages, with buffers of their own, lead to (`C31`). -/
def Keeps (i : Nat) (s s' : GSt) : Prop :=
  s'.h.ms i = s.h.ms i ∧ s'.h.w.msg (s'.h.ms i) = s.h.w.msg (s.h.ms i) ∧ s'.h.w.WF (s'.h.ms i) ∧ s.next ≤ s'.next

/-- A run of a Go program, as far as struct `i` is concerned: calls of its generated methods that returned, one per operation, and
anything else that keeps the message. -/
inductive Ran (p : Program) (mds : List Decl) (msg : Text) (S : Schema) (i : Nat) : GSt → List Zeropb.Op → GSt → Prop
  | done (s) : Ran p mds msg S i s [] s
  | call {s rt d name args op out s1 ops s2} : Issues mds msg S rt i s name args op → run p rt d msg name args s = .ok (out, s1) →
      Ran p mds msg S i s1 ops s2 → Ran p mds msg S i s (op :: ops) s2
  | other {s s1 ops s2} : Keeps i s s1 → Ran p mds msg S i s1 ops s2 → Ran p mds msg S i s ops s2

/-- C63: after any run, the message holds what the simple record holds, and all calls were legal. -/
theorem ran_tracks (hp : Package p ds) (hc : Closed ds) (hi : Implements S msg mds) (hsub : ∀ x ∈ mds, x ∈ ds) {i : Nat} {s s' : GSt}
    {ops : List Zeropb.Op} (h : Ran p mds msg S i s ops s') : ∀ {rs c}, s.h.w.WF (s.h.ms i) → i < s.next →
    Tracks S (s.h.w.msg (s.h.ms i)) rs c →
    s'.h.w.WF (s'.h.ms i) ∧ i < s'.next ∧ ∃ rs', Tracks S (s'.h.w.msg (s'.h.ms i)) rs' (applyAll ops c) := by
  induction h with
  | done s => intro rs c h1 h2 h3; exact ⟨h1, h2, rs, h3⟩
  | @call s rt d name args op out s1 ops s2 hiss hrun _ ih =>
    intro rs c h1 h2 h3
    obtain ⟨hv, hf⟩ := C63_call hp hc hi hsub rt d h1 h3.1.off_length h2 hiss
    rcases h3.step op hv with ⟨m', rs', e1, e2, _⟩ | ⟨e1, _⟩
    · rw [e1] at hf
      obtain ⟨s1', f1, f2, f3, f4, _⟩ := hf
      rw [hrun] at f1
      injection f1 with f1
      injection f1 with _ f1
      subst f1
      exact ih f3 (Nat.lt_of_lt_of_le h2 f4) (by rw [f2]; exact e2)
    · rw [e1] at hf
      rw [hrun] at hf
      cases hf
  | @other s s1 ops s2 hk _ ih =>
    intro rs c h1 h2 h3
    obtain ⟨k1, k2, k3, k4⟩ := hk
    exact ih k3 (Nat.lt_of_lt_of_le h2 k4) (by rw [k2]; exact h3)

theorem start_tracks {i : Nat} {s : GSt} (h0 : s.h.ms i = .zero S.n) : s.h.w.WF (s.h.ms i) ∧ Tracks S (s.h.w.msg (s.h.ms i)) [] .empty := by
  rw [h0]
  refine ⟨⟨⟨Nat.le_refl _, by simp [HMsg.zero, HSlice.nil]⟩, fun id h => by cases h⟩, ?_⟩
  have : s.h.w.msg (HMsg.zero S.n) = Msg.zero S.n := by
    simp [World.msg, World.slice, World.full, World.offs, HMsg.zero, HSlice.nil, Msg.zero, Slice.empty, Offsets.zero]
  rw [this]
  exact Tracks.zero S

/-- `C63_history`, for a message known to hold `c`. -/
theorem C63_history_at (hp : Package p ds) (hc : Closed ds) (hi : Implements S msg mds) (hsub : ∀ x ∈ mds, x ∈ ds) {i : Nat} {s' : GSt}
    {rs : List Record} {c : Contents} (a1 : s'.h.w.WF (s'.h.ms i)) (a2 : i < s'.next) (a3 : Tracks S (s'.h.w.msg (s'.h.ms i)) rs c) :
    (∀ name f k, Decl.get msg name (Kind.goType k) (Kind.fn k) (f : Nat) ∈ mds → ∀ rt d,
      ∃ x v, run p rt d msg name [.ptr msg i] s' = .ok ([.val v], s') ∧ IsVal s'.h.w k x v ∧ readVal k (c.sing f) = some x) ∧
    (∀ rt d name args op, Issues mds msg S rt i s' name args op → (s'.h.ms i).buf.len + op.cost < maxLen →
      ∃ s2, run p rt d msg name args s' = .ok (returned op, s2) ∧ (∀ j, j ≠ i → j < s'.next → s2.h.ms j = s'.h.ms j) ∧
        (s2.h.ms i).buf.len ≤ (s'.h.ms i).buf.len + op.cost) := by
  refine ⟨?_, ?_⟩
  · intro name f k hd rt d
    obtain ⟨g, k', e1, e2, e3, _, _, e4⟩ := hi.get_only _ _ _ _ _ (Or.inl hd)
    have := fn_inj e4
    subst this
    have : f = g := by omega
    subst this
    obtain ⟨x, r1, r2⟩ := ((a3.agrees f k e2).1 e3).1
    have hg := C63_get hp rt d (i := i) s' (hsub _ hd) a1.1
    rw [r2] at hg
    obtain ⟨v, g1, g2⟩ := hg
    exact ⟨x, v, g1, g2, r1⟩
  · intro rt d name args op hiss hl
    obtain ⟨hv, hf⟩ := C63_call hp hc hi hsub rt d a1 a3.1.off_length a2 hiss
    rcases a3.step op hv with ⟨m', rs', e1, e2, e3⟩ | ⟨_, e2⟩
    · rw [e1] at hf
      obtain ⟨s2, f1, f2, f3, _, f5⟩ := hf
      refine ⟨s2, f1, f5, ?_⟩
      have h1 : (s'.h.w.msg (s'.h.ms i)).encode.len = (s'.h.ms i).buf.len := World.slice_len a1.1
      have h2 : (s2.h.w.msg (s2.h.ms i)).encode.len = (s2.h.ms i).buf.len := World.slice_len f3.1
      rw [f2] at h2
      omega
    · have : (s'.h.w.msg (s'.h.ms i)).encode.len = (s'.h.ms i).buf.len := World.slice_len a1.1
      omega

/-- C63: after any sequence of calls of the generated methods of a struct that was zero at first, every generated getter of a
scalar field returns the value the simple record holds (the default if it holds none), and changes nothing; and the next call returns,
with a nil error if it is `Decode`, unless the message could get longer than any slice can be. -/
theorem C63_history (hp : Package p ds) (hc : Closed ds) (hi : Implements S msg mds) (hsub : ∀ x ∈ mds, x ∈ ds) {i : Nat} {s s' : GSt}
    {ops : List Zeropb.Op} (h0 : s.h.ms i = .zero S.n) (hn : i < s.next) (h : Ran p mds msg S i s ops s') :
    (∀ name f k, Decl.get msg name (Kind.goType k) (Kind.fn k) (f : Nat) ∈ mds → ∀ rt d,
      ∃ x v, run p rt d msg name [.ptr msg i] s' = .ok ([.val v], s') ∧ IsVal s'.h.w k x v ∧ readVal k ((applyAll ops .empty).sing f) = some x) ∧
    (∀ rt d name args op, Issues mds msg S rt i s' name args op → (s'.h.ms i).buf.len + op.cost < maxLen →
      ∃ s2, run p rt d msg name args s' = .ok (returned op, s2) ∧ (∀ j, j ≠ i → j < s'.next → s2.h.ms j = s'.h.ms j) ∧
        (s2.h.ms i).buf.len ≤ (s'.h.ms i).buf.len + op.cost) := by
  obtain ⟨z1, z2⟩ := start_tracks h0
  obtain ⟨a1, a2, rs, a3⟩ := ran_tracks hp hc hi hsub h z1 hn z2
  exact C63_history_at hp hc hi hsub a1 a2 a3

/-- `C63_presence`, for a message known to hold `c`; the bytes lie in the buffer of the message. -/
theorem C63_presence_at (hp : Package p ds) (hi : Implements S msg mds) (hsub : ∀ x ∈ mds, x ∈ ds) {i : Nat} {s' : GSt}
    {rs : List Record} {c : Contents} (a1 : s'.h.w.WF (s'.h.ms i)) (a3 : Tracks S (s'.h.w.msg (s'.h.ms i)) rs c)
    {name typ : Text} {f : Nat} {nums : List Int} (hd : Decl.getMessage msg name typ f ∈ mds) (hx : Decl.decode typ ∈ ds) (ht : Decl.repeatedTable typ nums ∈ ds)
    (rt : Rt) (d j : Nat) (hj : s'.h.w.WF (s'.h.ms j)) :
    (c.sing f = none ∧ run p rt d msg name [.ptr msg i, .ptr typ j] s' = .ok ([.val (.bool false), .val .nil], s')) ∨
    (∃ bs b, c.sing f = some (.bytes bs) ∧ (s'.h.ms i).buf.Tail b ∧ s'.h.w.WFs b ∧ (s'.h.w.slice b).data = bs ∧
      run p rt d msg name [.ptr msg i, .ptr typ j] s' =
      (run p rt d typ t!"Decode" [.ptr typ j, .val (.bytes (.mem b))] s' >>= fun r => .ok (.val (.bool true) :: r.1, r.2))) := by
  obtain ⟨g, e1, e2, e3, _⟩ := hi.message_only _ _ _ _ (Or.inl hd)
  have : f = g := by omega
  subst this
  obtain ⟨⟨x, r1, _⟩, hb⟩ := (a3.agrees f _ e2).1 e3
  have hb := hb rfl
  rw [C63_getMessage hp rt d s' (hsub _ hd) hx ht a1.1 hj]
  unfold HMsg.subMessage
  have hv : getBytes (s'.h.w.msg (s'.h.ms i)).buf (s'.h.w.msg (s'.h.ms i)).off f = _ := getBytes_view a1.1 f
  unfold bytesOf at hb
  rw [hv] at hb
  cases hg : (s'.h.ms i).getBytes s'.h.w f with
  | error e => rw [hg] at hb; cases hb
  | ok o =>
    rw [hg] at hb
    cases o with
    | none =>
      left
      refine ⟨?_, by simp only [bind, Except.bind, pure, Except.pure, lift, upd_self, errVal]⟩
      cases hs : c.sing f with
      | none => rfl
      | some y =>
        rw [hs] at hb r1
        cases y <;> simp_all [bind, Except.bind, pure, Except.pure, Except.map, readVal, decodeVal]
    | some b =>
      right
      cases hs : c.sing f with
      | none => rw [hs] at hb; simp [bind, Except.bind, pure, Except.pure, Except.map] at hb
      | some y =>
        rw [hs] at hb
        cases y with
        | bytes bs =>
          have hwb : s'.h.w.WFs b ∧ (s'.h.ms i).buf.Tail b := by
            obtain ⟨_, _, e⟩ := getBytes_owns hg
            exact ⟨HSlice.range_wf a1.1 e, HSlice.range_tail e⟩
          obtain ⟨hwb, htl⟩ := hwb
          refine ⟨bs, b, rfl, htl, hwb, ?_, ?_⟩
          · simpa [bind, Except.bind, pure, Except.pure, Except.map] using hb
          · rw [C63_decode hp rt d s' hx ht b hwb hj]
            simp only [bind, Except.bind, lift]
            cases (s'.h.ms j).decode (fun n => decide ((n : Int) ∈ nums)) s'.h.w b <;> rfl
        | _ => simp [bind, Except.bind, pure, Except.pure, Except.map] at hb

/-- C63: after any run, the getter of a message field reports absence if the record has no value for it; otherwise it calls `Decode`
of the struct it is given, on the bytes the record holds. -/
theorem C63_presence (hp : Package p ds) (hc : Closed ds) (hi : Implements S msg mds) (hsub : ∀ x ∈ mds, x ∈ ds) {i : Nat} {s s' : GSt}
    {ops : List Zeropb.Op} (h0 : s.h.ms i = .zero S.n) (hn : i < s.next) (h : Ran p mds msg S i s ops s')
    {name typ : Text} {f : Nat} {nums : List Int} (hd : Decl.getMessage msg name typ f ∈ mds) (hx : Decl.decode typ ∈ ds) (ht : Decl.repeatedTable typ nums ∈ ds)
    (rt : Rt) (d j : Nat) (hj : s'.h.w.WF (s'.h.ms j)) :
    ((applyAll ops .empty).sing f = none ∧ run p rt d msg name [.ptr msg i, .ptr typ j] s' = .ok ([.val (.bool false), .val .nil], s')) ∨
    (∃ bs b, (applyAll ops .empty).sing f = some (.bytes bs) ∧ (s'.h.ms i).buf.Tail b ∧ s'.h.w.WFs b ∧ (s'.h.w.slice b).data = bs ∧
      run p rt d msg name [.ptr msg i, .ptr typ j] s' =
      (run p rt d typ t!"Decode" [.ptr typ j, .val (.bytes (.mem b))] s' >>= fun r => .ok (.val (.bool true) :: r.1, r.2))) := by
  obtain ⟨z1, z2⟩ := start_tracks h0
  obtain ⟨a1, a2, rs, a3⟩ := ran_tracks hp hc hi hsub h z1 hn z2
  exact C63_presence_at hp hi hsub a1 a3 hd hx ht rt d j hj

/-- The bytes of slice `b` are the same in both heaps. -/
def Intact (b : HSlice) (w w' : World) : Prop := w'.WFs b ∧ w'.slice b = w.slice b

theorem Intact.tail {b t : HSlice} {w w' : World} (h : Intact b w w') (ht : b.Tail t) (hl : w.WFs t) : w'.WFs t ∧ w'.slice t = w.slice t := by
  obtain ⟨t1, t2, t3⟩ := ht
  obtain ⟨h1, h2⟩ := h
  have hf : w'.full b = w.full b := by
    rw [← List.take_append_drop b.len (w'.full b), ← List.take_append_drop b.len (w.full b)]
    have e1 := congrArg Slice.data h2
    have e2 := congrArg Slice.spare h2
    simp only [World.slice] at e1 e2
    rw [e1, e2]
  have key : ∀ w : World, w.full t = (w.full b).drop (t.off - b.off) := by
    intro w
    simp only [World.full, List.drop_take, List.drop_drop, t1]
    congr 1
    · omega
    · congr 1; omega
  refine ⟨⟨hl.1, ?_⟩, ?_⟩
  · have := h1.2; rw [t1]; omega
  · simp only [World.slice, key, hf]

/-- `its k`, for `k < n`, is an iterator in which `FindNextField` finds another element, and leaves `its (k + 1)`, as long as the bytes of `B` are those of `w0`. -/
def Finds (B : HSlice) (w0 : World) (f : Nat) (its : Nat → Option HSlice) (n : Nat) : Prop :=
  ∀ k, k < n → ∀ w, Intact B w0 w → (∀ c, its k = some c → w.WFs c) ∧ ∃ b, w.WFs b ∧ hFindNextField w (its k) f = .ok (its (k + 1), some b)

/-- `C63_iterate_at`, with what `FindNextField` does. -/
theorem iterate_finds (hp : Package p ds) (hi : Implements S msg mds) (hsub : ∀ x ∈ mds, x ∈ ds) {i : Nat} {s' : GSt}
    {rs : List Record} {c : Contents} (a1 : s'.h.w.WF (s'.h.ms i)) (a3 : Tracks S (s'.h.w.msg (s'.h.ms i)) rs c)
    {name it typ : Text} {f : Nat} {nums : List Int} (hg : Decl.getRepeated msg name it f ∈ mds) (hit : Decl.iterType it ∈ ds)
    (hd : Decl.iterNext it typ f ∈ ds) (hx : Decl.decode typ ∈ ds) (ht : Decl.repeatedTable typ nums ∈ ds) :
    ∃ its : Nat → Option HSlice,
      (∀ rt d, run p rt d msg name [.ptr msg i] s' = .ok ([.val (optBytes (its 0))], s')) ∧ Finds (s'.h.ms i).buf s'.h.w f its (c.elems f).length ∧
      ∀ (k v j : Nat) (t : GSt), Intact (s'.h.ms i).buf s'.h.w t.h.w → t.its v = its k → t.h.w.WF (t.h.ms j) → ∀ rt d,
        let t' : GSt := { t with its := fun u => if u = v then its (k + 1) else t.its u }
        (∀ hk : k < (c.elems f).length, ∃ b, (s'.h.ms i).buf.Tail b ∧ t.h.w.WFs b ∧ (t.h.w.slice b).data = (c.elems f)[k] ∧
          run p rt d it t!"Next" [.iter it v, .ptr typ j] t =
          (run p rt d typ t!"Decode" [.ptr typ j, .val (.bytes (.mem b))] t' >>= fun r => .ok (.val (.bool true) :: r.1, r.2))) ∧
        ((c.elems f).length ≤ k → run p rt d it t!"Next" [.iter it v, .ptr typ j] t = .ok ([.val (.bool false), .val .nil], t)) := by
  obtain ⟨g, e1, e2, e3, _⟩ := hi.repeated_only _ _ _ _ (Or.inl hg)
  have : f = g := by omega
  subst this
  obtain ⟨vits, v1, v2, v3⟩ := (a3.agrees f _ e2).2 e3
  generalize c.elems f = els at v2 v3
  have hm : getRepeatedNonPacked (s'.h.w.msg (s'.h.ms i)).buf (s'.h.w.msg (s'.h.ms i)).off f = _ := messages_view a1.1 f
  have v1 : getRepeatedNonPacked (s'.h.w.msg (s'.h.ms i)).buf (s'.h.w.msg (s'.h.ms i)).off f = _ := v1
  rw [hm] at v1
  -- the iterators, in memory
  let nxt : Option HSlice → Option HSlice := fun o => match hFindNextField s'.h.w o f with | .ok r => r.1 | .error _ => none
  cases hq : (s'.h.ms i).messages s'.h.w f with
  | error e => rw [hq] at v1; cases v1
  | ok q0 =>
  rw [hq] at v1
  have v1 : q0.map s'.h.w.slice = vits 0 := by simpa [Except.map] using v1
  let its : Nat → Option HSlice := fun k => Nat.rec q0 (fun _ o => nxt o) k
  have key : ∀ k, (its k).map s'.h.w.slice = vits k ∧ ∀ b, its k = some b → (s'.h.ms i).buf.Tail b ∧ s'.h.w.WFs b := by
    intro k
    induction k with
    | zero =>
      refine ⟨v1, ?_⟩
      intro b hb
      have hb : q0 = some b := hb
      subst hb
      exact messages_tail a1.1 hq
    | succ k ih =>
      obtain ⟨i1, i2⟩ := ih
      have hview := findNextField_view (w := s'.h.w) (it := its k) (fun b hb => (i2 b hb).2) f
      rw [i1] at hview
      show (nxt (its k)).map _ = _ ∧ ∀ b, nxt (its k) = some b → _
      rcases Nat.lt_or_ge k els.length with hk | hk
      · obtain ⟨rest, hnext⟩ := v2 k hk
        rw [hnext] at hview
        cases hh : hFindNextField s'.h.w (its k) f with
        | error e => rw [hh] at hview; cases hview
        | ok r =>
          obtain ⟨r1, r2⟩ := r
          rw [hh] at hview
          simp only [Except.map, Except.ok.injEq, Prod.mk.injEq] at hview
          have hnx : nxt (its k) = r1 := by simp only [nxt, hh]
          rw [hnx]
          refine ⟨hview.1.symm, ?_⟩
          intro b hb
          subst hb
          cases hik : its k with
          | none => rw [hik] at hh; simp [hFindNextField] at hh
          | some b' =>
            rw [hik] at hh
            obtain ⟨t1, t2⟩ := (hFindNextField_tail (i2 b' hik).2 hh).1 b rfl
            exact ⟨(i2 b' hik).1.trans t1, t2⟩
      · have hz := v3 k hk
        rw [hz] at i1
        have hik : its k = none := by cases h : its k with | none => rfl | some b => rw [h] at i1; cases i1
        have hnx : nxt (its k) = none := by rw [hik]; rfl
        rw [hnx, v3 (k + 1) (by omega)]
        exact ⟨rfl, fun b hb => by cases hb⟩
  refine ⟨its, ?_, ?_, ?_⟩
  · intro rt d
    rw [C63_getRepeated hp rt d s' (hsub _ hg) hit, hq]
    rfl
  · intro k hk w hin
    obtain ⟨k1, k2⟩ := key k
    have hsame : ∀ b, its k = some b → w.WFs b ∧ w.slice b = s'.h.w.slice b := fun b hb => hin.tail (k2 b hb).1 (k2 b hb).2
    have hfind : hFindNextField w (its k) f = hFindNextField s'.h.w (its k) f := by
      cases hik : its k with
      | none => rfl
      | some b =>
        have := (hsame b hik).2
        have hs : hFindStep w b f = hFindStep s'.h.w b f := by
          funext idx; unfold hFindStep; rw [this]
        unfold hFindNextField
        simp only [this, hs]
    refine ⟨fun c hc => (hsame c hc).1, ?_⟩
    rw [hfind]
    have hview := findNextField_view (w := s'.h.w) (it := its k) (fun b hb => (k2 b hb).2) f
    rw [k1] at hview
    obtain ⟨rest, hnext⟩ := v2 k hk
    rw [hnext] at hview
    cases hh : hFindNextField s'.h.w (its k) f with
    | error e => rw [hh] at hview; cases hview
    | ok r =>
      obtain ⟨r1, r2⟩ := r
      rw [hh] at hview
      simp only [Except.map, Except.ok.injEq, Prod.mk.injEq] at hview
      have hnx : its (k + 1) = r1 := by show nxt (its k) = r1; simp only [nxt, hh]
      cases r2 with
      | none => simp at hview
      | some b =>
        have hbw : (s'.h.ms i).buf.Tail b ∧ s'.h.w.WFs b := by
          cases hik : its k with
          | none => rw [hik] at hh; simp [hFindNextField] at hh
          | some b' =>
            rw [hik] at hh
            obtain ⟨t1, t2⟩ := (hFindNextField_tail (k2 b' hik).2 hh).2 b rfl
            exact ⟨(k2 b' hik).1.trans t1, t2⟩
        exact ⟨b, (hin.tail hbw.1 hbw.2).1, by rw [hnx]⟩
  · intro k v j t hin htk hj rt d
    dsimp only
    obtain ⟨k1, k2⟩ := key k
    have hsame : ∀ b, its k = some b → t.h.w.WFs b ∧ t.h.w.slice b = s'.h.w.slice b := fun b hb => hin.tail (k2 b hb).1 (k2 b hb).2
    have hwf : ∀ b, t.its v = some b → t.h.w.WFs b := fun b hb => (hsame b (htk ▸ hb)).1
    -- `FindNextField` only reads the message
    have hfind : hFindNextField t.h.w (its k) f = hFindNextField s'.h.w (its k) f := by
      cases hik : its k with
      | none => rfl
      | some b =>
        have := (hsame b hik).2
        have hs : hFindStep t.h.w b f = hFindStep s'.h.w b f := by
          funext idx; unfold hFindStep; rw [this]
        unfold hFindNextField
        simp only [this, hs]
    rw [C63_next hp rt d t hd hx ht hwf hj, htk]
    have hview := findNextField_view (w := s'.h.w) (it := its k) (fun b hb => (k2 b hb).2) f
    rw [k1] at hview
    refine ⟨?_, ?_⟩
    · intro hk
      obtain ⟨rest, hnext⟩ := v2 k hk
      rw [hnext] at hview
      cases hh : hFindNextField s'.h.w (its k) f with
      | error e => rw [hh] at hview; cases hview
      | ok r =>
        obtain ⟨r1, r2⟩ := r
        rw [hh] at hview
        simp only [Except.map, Except.ok.injEq, Prod.mk.injEq] at hview
        have hnx : its (k + 1) = r1 := by show nxt (its k) = r1; simp only [nxt, hh]
        cases r2 with
        | none => simp at hview
        | some b =>
          have hview := hview.2
          simp only [Option.map_some, Option.some.injEq] at hview
          have hbw : (s'.h.ms i).buf.Tail b ∧ s'.h.w.WFs b := by
            cases hik : its k with
            | none => rw [hik] at hh; simp [hFindNextField] at hh
            | some b' =>
              rw [hik] at hh
              obtain ⟨t1, t2⟩ := (hFindNextField_tail (k2 b' hik).2 hh).2 b rfl
              exact ⟨(k2 b' hik).1.trans t1, t2⟩
          obtain ⟨b1, b2⟩ := hin.tail hbw.1 hbw.2
          refine ⟨b, hbw.1, b1, by rw [b2, ← hview], ?_⟩
          rw [C63_decode hp rt d { t with its := fun u => if u = v then its (k + 1) else t.its u } hx ht b b1 hj]
          unfold hNext
          rw [hfind, hh, hnx]
          simp only [bind, Except.bind, lift]
          cases (t.h.ms j).decode (fun n => decide ((n : Int) ∈ nums)) t.h.w b <;> rfl
    · intro hk
      have hz := v3 k hk
      rw [hz] at k1
      have hik : its k = none := by cases h : its k with | none => rfl | some b => rw [h] at k1; cases k1
      rw [hik] at htk ⊢
      have hits : (fun u => if u = v then none else t.its u) = t.its := by
        funext u
        split
        next hu => subst hu; exact htk.symm
        · rfl
      simp only [hNext, hFindNextField, bind, Except.bind, pure, Except.pure, lift, upd_self, errVal]
      rw [hits]

/-- `C63_iterate`, for a message known to hold `c`; the bytes lie in the buffer of the message. -/
theorem C63_iterate_at (hp : Package p ds) (hi : Implements S msg mds) (hsub : ∀ x ∈ mds, x ∈ ds) {i : Nat} {s' : GSt}
    {rs : List Record} {c : Contents} (a1 : s'.h.w.WF (s'.h.ms i)) (a3 : Tracks S (s'.h.w.msg (s'.h.ms i)) rs c)
    {name it typ : Text} {f : Nat} {nums : List Int} (hg : Decl.getRepeated msg name it f ∈ mds) (hit : Decl.iterType it ∈ ds)
    (hd : Decl.iterNext it typ f ∈ ds) (hx : Decl.decode typ ∈ ds) (ht : Decl.repeatedTable typ nums ∈ ds) :
    ∃ its : Nat → Option HSlice,
      (∀ rt d, run p rt d msg name [.ptr msg i] s' = .ok ([.val (optBytes (its 0))], s')) ∧
      ∀ (k v j : Nat) (t : GSt), Intact (s'.h.ms i).buf s'.h.w t.h.w → t.its v = its k → t.h.w.WF (t.h.ms j) → ∀ rt d,
        let t' : GSt := { t with its := fun u => if u = v then its (k + 1) else t.its u }
        (∀ hk : k < (c.elems f).length, ∃ b, (s'.h.ms i).buf.Tail b ∧ t.h.w.WFs b ∧ (t.h.w.slice b).data = (c.elems f)[k] ∧
          run p rt d it t!"Next" [.iter it v, .ptr typ j] t =
          (run p rt d typ t!"Decode" [.ptr typ j, .val (.bytes (.mem b))] t' >>= fun r => .ok (.val (.bool true) :: r.1, r.2))) ∧
        ((c.elems f).length ≤ k → run p rt d it t!"Next" [.iter it v, .ptr typ j] t = .ok ([.val (.bool false), .val .nil], t)) := by
  obtain ⟨its, h1, _, h2⟩ := iterate_finds hp hi hsub a1 a3 hg hit hd hx ht
  exact ⟨its, h1, h2⟩

/-- C63: after any run, the getter of a repeated field returns an iterator that yields exactly the elements the record holds, in
order, then stops: each `Next(x)` reports true and calls `Decode` of `*x` on the bytes of the next element; after the last one it reports false.
Between the calls the program may do anything that leaves the bytes of the message and the iterator variable `v` as they are. -/
theorem C63_iterate (hp : Package p ds) (hc : Closed ds) (hi : Implements S msg mds) (hsub : ∀ x ∈ mds, x ∈ ds) {i : Nat} {s s' : GSt}
    {ops : List Zeropb.Op} (h0 : s.h.ms i = .zero S.n) (hn : i < s.next) (h : Ran p mds msg S i s ops s')
    {name it typ : Text} {f : Nat} {nums : List Int} (hg : Decl.getRepeated msg name it f ∈ mds) (hit : Decl.iterType it ∈ ds)
    (hd : Decl.iterNext it typ f ∈ ds) (hx : Decl.decode typ ∈ ds) (ht : Decl.repeatedTable typ nums ∈ ds) :
    ∃ its : Nat → Option HSlice,
      (∀ rt d, run p rt d msg name [.ptr msg i] s' = .ok ([.val (optBytes (its 0))], s')) ∧
      ∀ (k v j : Nat) (t : GSt), Intact (s'.h.ms i).buf s'.h.w t.h.w → t.its v = its k → t.h.w.WF (t.h.ms j) → ∀ rt d,
        let t' : GSt := { t with its := fun u => if u = v then its (k + 1) else t.its u }
        (∀ hk : k < ((applyAll ops .empty).elems f).length, ∃ b, (s'.h.ms i).buf.Tail b ∧ t.h.w.WFs b ∧ (t.h.w.slice b).data = ((applyAll ops .empty).elems f)[k] ∧
          run p rt d it t!"Next" [.iter it v, .ptr typ j] t =
          (run p rt d typ t!"Decode" [.ptr typ j, .val (.bytes (.mem b))] t' >>= fun r => .ok (.val (.bool true) :: r.1, r.2))) ∧
        (((applyAll ops .empty).elems f).length ≤ k → run p rt d it t!"Next" [.iter it v, .ptr typ j] t = .ok ([.val (.bool false), .val .nil], t)) := by
  obtain ⟨z1, z2⟩ := start_tracks h0
  obtain ⟨a1, a2, rs, a3⟩ := ran_tracks hp hc hi hsub h z1 hn z2
  exact C63_iterate_at hp hi hsub a1 a3 hg hit hd hx ht

end

/-! ## Hypotheses met -/

theorem testFile_names : GoNames asciiUnicode testFile where
  package := by decide +kernel
  messages := by
    have : ∀ m ∈ testFile.messageType.filterMap id, IsIdent m.getName := by decide +kernel
    exact fun m hm => this m (List.mem_filterMap.2 ⟨_, hm, rfl⟩)
  fields := by
    have : ∀ m ∈ testFile.messageType.filterMap id, ∀ fd ∈ m.field.filterMap id, IsIdent (toGoCase asciiUnicode (getName (some fd))) := by decide +kernel
    exact fun m hm fd hf _ => this m (List.mem_filterMap.2 ⟨_, hm, rfl⟩) fd (List.mem_filterMap.2 ⟨_, hf, rfl⟩)
  types := by
    have : ∀ m ∈ testFile.messageType.filterMap id, ∀ fd ∈ m.field.filterMap id, getType (some fd) = 11 →
        IsIdent (fieldToGoTypeMessage (getTypeName (some fd))) := by decide +kernel
    exact fun m hm fd hf => this m (List.mem_filterMap.2 ⟨_, hm, rfl⟩) fd (List.mem_filterMap.2 ⟨_, hf, rfl⟩)
  numbers := by
    have : ∀ m ∈ testFile.messageType.filterMap id, ∀ fd ∈ m.field.filterMap id,
        0 ≤ (getNumber (some fd)).toInt ∧ (getNumber (some fd)).toInt < 2 ^ 31 - 1 := by decide +kernel
    exact fun m hm fd hf => this m (List.mem_filterMap.2 ⟨_, hm, rfl⟩) fd (List.mem_filterMap.2 ⟨_, hf, rfl⟩)

theorem raftFile_names : GoNames asciiUnicode raftFile where
  package := by decide +kernel
  messages := by
    have : ∀ m ∈ raftFile.messageType.filterMap id, IsIdent m.getName := by decide +kernel
    exact fun m hm => this m (List.mem_filterMap.2 ⟨_, hm, rfl⟩)
  fields := by
    have : ∀ m ∈ raftFile.messageType.filterMap id, ∀ fd ∈ m.field.filterMap id, IsIdent (toGoCase asciiUnicode (getName (some fd))) := by decide +kernel
    exact fun m hm fd hf _ => this m (List.mem_filterMap.2 ⟨_, hm, rfl⟩) fd (List.mem_filterMap.2 ⟨_, hf, rfl⟩)
  types := by
    have : ∀ m ∈ raftFile.messageType.filterMap id, ∀ fd ∈ m.field.filterMap id, getType (some fd) = 11 →
        IsIdent (fieldToGoTypeMessage (getTypeName (some fd))) := by decide +kernel
    exact fun m hm fd hf => this m (List.mem_filterMap.2 ⟨_, hm, rfl⟩) fd (List.mem_filterMap.2 ⟨_, hf, rfl⟩)
  numbers := by
    have : ∀ m ∈ raftFile.messageType.filterMap id, ∀ fd ∈ m.field.filterMap id,
        0 ≤ (getNumber (some fd)).toInt ∧ (getNumber (some fd)).toInt < 2 ^ 31 - 1 := by decide +kernel
    exact fun m hm fd hf => this m (List.mem_filterMap.2 ⟨_, hm, rfl⟩) fd (List.mem_filterMap.2 ⟨_, hf, rfl⟩)

/-- The Go package of golden/test.proto. -/
def testPackage : Program := [testFile].flatMap (fun f => fileAst f.getPackage (fileDecls asciiUnicode f))

/-- The Go package of golden/raft.proto. -/
def raftPackage : Program := [raftFile].flatMap (fun f => fileAst f.getPackage (fileDecls asciiUnicode f))

theorem testPackage_ok : Package testPackage ([testFile].flatMap (fileDecls asciiUnicode)) :=
  C63_package asciiUnicode _ [testFile] (by intro f hf; rw [List.mem_singleton.1 hf]; exact ⟨rfl, testFile_names⟩) (by decide +kernel)

theorem raftPackage_ok : Package raftPackage ([raftFile].flatMap (fileDecls asciiUnicode)) :=
  C63_package asciiUnicode _ [raftFile] (by intro f hf; rw [List.mem_singleton.1 hf]; exact ⟨rfl, raftFile_names⟩) (by decide +kernel)

/-- `Closed` can be checked by running it. -/
theorem closed_of {ds : List Decl} (h : ∀ x ∈ ds, match x with
    | .setMessage _ _ typ _ | .appendTo _ _ typ _ => Decl.encode typ ∈ ds ∧ (ds.any fun | .struct t _ => t = typ | _ => false) = true
    | _ => True) : Closed ds := by
  have key : ∀ typ, (ds.any fun | .struct t _ => t = typ | _ => false) = true → ∃ n, Decl.struct typ n ∈ ds := by
    intro typ ha
    obtain ⟨y, hy, hy'⟩ := List.any_eq_true.1 ha
    cases y <;> simp at hy'
    subst hy'
    exact ⟨_, hy⟩
  intro msg name typ f hd
  rcases hd with hd | hd
  · have := h _ hd; exact ⟨this.1, key _ this.2⟩
  · have := h _ hd; exact ⟨this.1, key _ this.2⟩

theorem testPackage_closed : Closed ([testFile].flatMap (fileDecls asciiUnicode)) := by
  refine closed_of ?_
  intro x hx
  have : ∀ x ∈ [testFile].flatMap (fileDecls asciiUnicode), (match x with
    | .setMessage _ _ typ _ | .appendTo _ _ typ _ => decide (Decl.encode typ ∈ [testFile].flatMap (fileDecls asciiUnicode)) &&
      (([testFile].flatMap (fileDecls asciiUnicode)).any fun | .struct t _ => t = typ | _ => false)
    | _ => true) = true := by decide +kernel
  have := this x hx
  cases x <;> simp_all

theorem test_implements : Implements testSchema t!"TestMessage" (messageDecls asciiUnicode testDesc) := by
  obtain ⟨_, _, hv, hs⟩ := C51_golden
  rw [← hs]
  exact decls_implements asciiUnicode testDesc hv

theorem test_sub : ∀ x ∈ messageDecls asciiUnicode testDesc, x ∈ [testFile].flatMap (fileDecls asciiUnicode) := by
  intro x hx
  rw [List.flatMap_cons, List.flatMap_nil, List.append_nil]
  exact List.mem_flatMap.2 ⟨testDesc, List.mem_filterMap.2 ⟨some testDesc, by rw [C51_golden.2.1]; exact List.mem_singleton.2 rfl, rfl⟩, hx⟩

/-- A heap with two zero structs. -/
def zeroState : GSt := ⟨⟨⟨[], []⟩, fun _ => .zero 35⟩, 2, fun _ => none⟩

/-- `C63_history`: on the package generated for test.proto, `m.SetInt32(7)`, then `m.Int32()` returns 7 and `m.Bool()` returns false. -/
example (rt : Rt) : ∃ s1, run testPackage rt 0 t!"TestMessage" t!"SetInt32" [.ptr t!"TestMessage" 0, .val (.i32 7#32)] zeroState = .ok ([], s1) ∧
    run testPackage rt 0 t!"TestMessage" t!"Int32" [.ptr t!"TestMessage" 0] s1 = .ok ([.val (.i32 7#32)], s1) ∧
    run testPackage rt 0 t!"TestMessage" t!"Bool" [.ptr t!"TestMessage" 0] s1 = .ok ([.val (.bool false)], s1) := by
  have H := fun {s' ops} => C63_history (s' := s') (ops := ops) testPackage_ok testPackage_closed test_implements test_sub (i := 0) (s := zeroState) rfl (by decide)
  have hiss : Issues (messageDecls asciiUnicode testDesc) t!"TestMessage" testSchema rt 0 zeroState (t!"Set" ++ t!"Int32")
      [.ptr t!"TestMessage" 0, .val (.i32 7#32)] (.set rt 2 .int32 7#32) :=
    Issues.set (k := .int32) (by decide +kernel) rfl (fun s hs => by rcases hs with hs | hs <;> cases hs) (by decide)
  obtain ⟨s1, e1, _⟩ := (H (Ran.done zeroState)).2 rt 0 _ _ _ hiss (show 0 + (20 + 0) < maxLen by decide)
  have H1 := (H (Ran.call hiss e1 (Ran.done s1))).1
  obtain ⟨x, v, g1, g2, g3⟩ := H1 t!"Int32" 2 .int32 (by decide +kernel) rt 0
  obtain ⟨x', v', k1, k2, k3⟩ := H1 t!"Bool" 1 .bool (by decide +kernel) rt 0
  refine ⟨s1, e1, ?_, ?_⟩
  · rw [g1, g2]
    have : some (7#32 : Kind.int32.Ty) = some x := g3
    cases this; rfl
  · rw [k1, k2]
    have : some (false : Kind.bool.Ty) = some x' := k3
    cases this; rfl

/-- `C63_iterate` and `C63_presence`: after `m.AppendToMessages(x)` with an empty `x`, the iterator `m.Messages()` yields one element, empty,
and `m.Message(x)` reports absence. -/
example (rt : Rt) : ∃ s1, run testPackage rt 0 t!"TestMessage" t!"AppendToMessages" [.ptr t!"TestMessage" 0, .struct t!"TestMessage" 1] zeroState = .ok ([], s1) ∧
    run testPackage rt 0 t!"TestMessage" t!"Message" [.ptr t!"TestMessage" 0, .ptr t!"TestMessage" 1] s1 = .ok ([.val (.bool false), .val .nil], s1) ∧
    ∃ it it', run testPackage rt 0 t!"TestMessage" t!"Messages" [.ptr t!"TestMessage" 0] s1 = .ok ([.val (optBytes it)], s1) ∧
      ∃ b, (s1.h.w.slice b).data = [] ∧
        run testPackage rt 0 t!"TestMessageTestMessageIterator" t!"Next" [.iter t!"TestMessageTestMessageIterator" 0, .ptr t!"TestMessage" 1]
          { s1 with its := fun _ => it } =
        (run testPackage rt 0 t!"TestMessage" t!"Decode" [.ptr t!"TestMessage" 1, .val (.bytes (.mem b))] { s1 with its := fun u => if u = 0 then it' else it } >>=
          fun r => .ok (.val (.bool true) :: r.1, r.2)) ∧
        run testPackage rt 0 t!"TestMessageTestMessageIterator" t!"Next" [.iter t!"TestMessageTestMessageIterator" 0, .ptr t!"TestMessage" 1]
          { s1 with its := fun _ => it' } = .ok ([.val (.bool false), .val .nil], { s1 with its := fun _ => it' }) := by
  have hiss : Issues (messageDecls asciiUnicode testDesc) t!"TestMessage" testSchema rt 0 zeroState (t!"AppendTo" ++ t!"Messages")
      [.ptr t!"TestMessage" 0, .struct t!"TestMessage" 1] (.append rt 34 []) :=
    Issues.append (typ := t!"TestMessage") (j := 1) (f := 34) (by decide +kernel) ⟨⟨by decide, by decide⟩, fun p h1 h2 => by
      simp only [zeroState, HMsg.zero, HSlice.nil] at h1 h2; omega⟩ (by decide)
  obtain ⟨s1, e1, e2, _⟩ := (C63_history testPackage_ok testPackage_closed test_implements test_sub (i := 0) (s := zeroState) rfl (by decide) (Ran.done zeroState)).2
    rt 0 _ _ _ hiss (show 0 + (20 + 0) < maxLen by decide)
  have hran : Ran testPackage (messageDecls asciiUnicode testDesc) t!"TestMessage" testSchema 0 zeroState [.append rt 34 []] s1 := Ran.call hiss e1 (Ran.done s1)
  have hz : s1.h.ms 1 = .zero 35 := e2 1 (by decide) (by decide)
  have hw1 : s1.h.w.WF (s1.h.ms 1) := by
    rw [hz]
    exact ⟨⟨Nat.le_refl _, by simp [HMsg.zero, HSlice.nil]⟩, fun id h => by cases h⟩
  obtain ⟨z1, z2⟩ := start_tracks (S := testSchema) (i := 0) (s := zeroState) rfl
  have hw0 := (ran_tracks testPackage_ok testPackage_closed test_implements test_sub hran z1 (by decide) z2).1
  obtain ⟨nums, ht, _⟩ := test_implements.table
  have ht := test_sub _ ((ht _ _).2 ⟨rfl, rfl⟩)
  refine ⟨s1, e1, ?_, ?_⟩
  · rcases C63_presence testPackage_ok testPackage_closed test_implements test_sub (s := zeroState) rfl (by decide) hran
      (name := t!"Message") (typ := t!"TestMessage") (f := 17) (nums := nums) (by decide +kernel) (by decide +kernel) ht rt 0 1 hw1 with h | ⟨bs, b, h, _⟩
    · exact h.2
    · cases h
  · obtain ⟨its, i1, i2⟩ := C63_iterate testPackage_ok testPackage_closed test_implements test_sub (s := zeroState) rfl (by decide) hran
      (name := t!"Messages") (it := t!"TestMessageTestMessageIterator") (typ := t!"TestMessage") (f := 34) (nums := nums)
      (by decide +kernel) (by decide +kernel) (by decide +kernel) (by decide +kernel) ht
    refine ⟨its 0, its 1, i1 rt 0, ?_⟩
    obtain ⟨b, _, _, b2, b3⟩ := (i2 0 0 1 { s1 with its := fun _ => its 0 } ⟨hw0.1, rfl⟩ rfl hw1 rt 0).1 Nat.zero_lt_one
    exact ⟨b, b2, b3, (i2 1 0 1 { s1 with its := fun _ => its 1 } ⟨hw0.1, rfl⟩ rfl hw1 rt 0).2 (Nat.le_refl 1)⟩

end Zeropb.GoSrc.G
