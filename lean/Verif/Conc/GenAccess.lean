import Verif.Conc.GenSafe
import Verif.Conc.AccessDec
/-!
# The accesses of the methods of generated types, one after the other
-/

set_option linter.constructorNameAsVariable false

namespace Zeropb.GoSrc.Conc
open Zeropb.GoSrc.G
open Zeropb.Gen (Text)

/-- The program ends with this result and state, after these accesses. -/
def Does {α : Type} (p : Prog α) (s : GSt) (a : α) (s' : GSt) (es : List Event) : Prop := p.run s = .ok (a, s') ∧ p.trace s = es

section
variable {α β : Type} {s s' s1 s2 : GSt}

theorem Does.bind {p : Prog α} {f : α → Prog β} {a : α} {b : β} {es1 es2 : List Event} (h1 : Does p s a s1 es1) (h2 : Does (f a) s1 b s2 es2) :
    Does (p >>= f) s b s2 (es1 ++ es2) := trace_bind_of h1 h2

/-- Nothing is accessed after the first part. -/
theorem Does.then {p : Prog α} {f : α → Prog β} {a : α} {b : β} {es : List Event} (h1 : Does p s a s1 es) (h2 : f a = .done b) : Does (p >>= f) s b s1 es := by
  have := h1.bind (f := f) (b := b) (s2 := s1) (es2 := []) (by rw [h2]; exact ⟨rfl, rfl⟩)
  rwa [List.append_nil] at this

theorem does_done (a : α) (s : GSt) : Does (.done a) s a s [] := ⟨rfl, rfl⟩

theorem does_buf {i : Nat} {k : HSlice → Prog α} {a : α} {es : List Event} (h : Does (k (s.h.ms i).buf) s a s' es) : Does (.load (.buf i) k) s a s' (.reads (.buf i) :: es) :=
  ⟨h.1, congrArg (_ :: ·) h.2⟩

theorem does_iter {v : Nat} {k : Option HSlice → Prog α} {a : α} {es : List Event} (h : Does (k (s.its v)) s a s' es) : Does (.load (.iter v) k) s a s' (.reads (.iter v) :: es) :=
  ⟨h.1, congrArg (_ :: ·) h.2⟩

theorem does_store {w : Write} {k : Prog α} {a : α} {es : List Event} (h : Does k (w.apply s) a s' es) : Does (.store w k) s a s' (.writes w.loc :: es) :=
  ⟨h.1, congrArg (_ :: ·) h.2⟩

end

section
variable {p : Program} {rt : Rt} {d n m i : Nat} {msg : Text} {s s' : GSt}

/-- `Encode`. -/
theorem does_encode {call : Calls} (hm : method p msg t!"Encode" = some (srcEncode msg)) :
    Does (gcallMethod p call (n + 1) msg t!"Encode" [.ptr msg i]) s [.val (.bytes (.mem (s.h.ms i).buf))] s [.reads (.buf i)] := by
  rw [gcallMethod, hm]
  exact ⟨rfl, rfl⟩

/-- A getter of a scalar field. -/
theorem does_get {name goType fn : Text} {f : Nat} {q : Id} (hm : method p msg name = some (G.srcGet msg name goType fn f))
    (hg : pkgFunc (t!"Get" ++ fn) = some q) {x : Val} {es : List Event}
    (h : Does (goCall rt m (d + 1) q [.bytes (.mem (s.h.ms i).buf), .offs i, .const f]) s [x] s' es) :
    Does (gcallMethod p (goCall rt m (d + 1)) (n + 1) msg name [.ptr msg i]) s [.val x] s' (.reads (.buf i) :: es) := by
  rw [gcallMethod, hm]
  have he := geval_getter (p := p) (meth := gcallMethod p (goCall rt m (d + 1)) n) (env := [(t!"m", .ptr msg i)]) (t := msg) (conc_WrapOffsets rt m d i) rfl hg f
  simp only [ginvoke, G.srcGet, gbindAll, block, gexec, Prog.bind_done]
  rw [geval, he]
  refine Does.then (a := .ret [.val x]) ?_ rfl
  refine Does.then (a := .ret [.val x]) ?_ rfl
  refine Does.then (a := [GVal.val x]) ?_ rfl
  exact does_buf (h.then rfl)

/-- The getter of a repeated message field that is there. -/
theorem does_getRepeated {name it : Text} {f : Nat} (hm : method p msg name = some (srcGetRepeated msg name it f)) (hb : isBytesType p it = true) {o : Option HSlice} {es : List Event}
    (h : Does (goCall rt m (d + 1) .GetRepeatedNonPacked [.bytes (.mem (s.h.ms i).buf), .offs i, .const f]) s [optVal o] s' es) :
    Does (gcallMethod p (goCall rt m (d + 1)) (n + 1) msg name [.ptr msg i]) s [.val (optVal o)] s' (.reads (.buf i) :: es) := by
  rw [gcallMethod, hm]
  have he := geval_getter (p := p) (meth := gcallMethod p (goCall rt m (d + 1)) n) (env := [(t!"m", .ptr msg i)]) (t := msg) (conc_WrapOffsets rt m d i) rfl
    (f := t!"GetRepeatedNonPacked") (g := .GetRepeatedNonPacked) rfl f
  simp only [ginvoke, srcGetRepeated, gbindAll, block, gexec, Prog.bind_done]
  rw [geval, geval, he]
  refine Does.then (a := .ret [.val (optVal o)]) ?_ rfl
  refine Does.then (a := .ret [.val (optVal o)]) ?_ rfl
  refine Does.then (a := [GVal.val (optVal o)]) ?_ rfl
  refine Does.then (a := [GVal.val (optVal o)]) ?_ (by cases o <;> simp only [singleVal, lift, optVal, Prog.bind_done, hb, if_true])
  exact does_buf (h.then rfl)

/-- `Decode`. -/
theorem does_decode {rep : Nat → Bool} (hm : method p msg t!"Decode" = some (G.srcDecode msg))
    (hg : global p (t!"repeatedFields_" ++ msg) = some (.val (.reps rep))) {b : HSlice} {x : Val} {es : List Event}
    (h : Does (goCall rt m (d + 1) .Decode [.bytes (.mem b), .offs i, .reps rep]) ((Write.buf i b).apply s) [x] s' es) :
    Does (gcallMethod p (goCall rt m (d + 1)) (n + 1) msg t!"Decode" [.ptr msg i, .val (.bytes (.mem b))]) s [.val x] s' (.writes (.buf i) :: .reads (.buf i) :: es) := by
  rw [gcallMethod, hm]
  have hgl : get (t!"repeatedFields_" ++ msg) [(t!"m", GVal.ptr msg i), (t!"buf", .val (.bytes (.mem b)))] = none := by
    simp [G.get]
  have he := geval_decode (p := p) (call := goCall rt m (d + 1)) (meth := gcallMethod p (goCall rt m (d + 1)) n) (t := msg) (i := i)
    (conc_WrapOffsets rt m d i) rfl hgl hg
  have h3 : geval p (goCall rt m (d + 1)) (gcallMethod p (goCall rt m (d + 1)) n) [(t!"m", .ptr msg i), (t!"buf", .val (.bytes (.mem b)))] (.id t!"buf") =
    .done [.val (.bytes (.mem b))] := rfl
  simp only [ginvoke, G.srcDecode, gbindAll, gbindArg, block, gexec, Prog.bind_done]
  rw [h3]
  simp only [Prog.bind_done, single, lift, place_mbuf (t := msg) (i := i) (env := [(t!"m", .ptr msg i), (t!"buf", .val (.bytes (.mem b)))]) rfl]
  rw [show gstore (.buf i) (.val (.bytes (.mem b))) [(t!"m", GVal.ptr msg i), (t!"buf", .val (.bytes (.mem b)))] =
    .store (.buf i b) (.done [(t!"m", GVal.ptr msg i), (t!"buf", .val (.bytes (.mem b)))]) from rfl]
  have hrb : (((Write.buf i b).apply s).h.ms i).buf = b := by simp only [Write.apply, Heap.put, if_true]
  refine Does.then (a := .ret [.val x]) (does_store ?_) rfl
  show Does ((geval _ _ _ _ _ >>= _) >>= _) _ _ _ _
  rw [geval, he]
  refine Does.then (a := .ret [.val x]) ?_ rfl
  refine Does.then (a := [GVal.val x]) ?_ rfl
  refine does_buf ?_
  rw [hrb]
  exact h.then rfl

/-- The end of a getter of a message field: nothing is there. -/
theorem does_tail_nil {x : Text} {env : Env} {call : Calls} {meth : Methods} (hbuf : G.get t!"buf" env = some (.val .nil)) :
    Does (gexec p call meth (block [ifNil, retDecode x]) env) s (.ret [.val (.bool false), .val .nil]) s [] := by
  have hc : geval p call meth env (.eq (.id t!"buf") .nil) = .done [.val (.bool true)] := by
    simp only [geval, hbuf]; rfl
  rw [block, gexec, ifNil, gexec, hc]
  exact ⟨rfl, rfl⟩

/-- The end of a getter of a message field: it is decoded. -/
theorem does_tail {typ x : Text} {env : Env} {j : Nat} {rep : Nat → Bool}
    (hm : method p typ t!"Decode" = some (G.srcDecode typ)) (hg : global p (t!"repeatedFields_" ++ typ) = some (.val (.reps rep)))
    {b : HSlice} (hbuf : G.get t!"buf" env = some (.val (.bytes (.mem b)))) (hx : G.get x env = some (.ptr typ j)) {y : Val} {es : List Event}
    (h : Does (goCall rt m (d + 1) .Decode [.bytes (.mem b), .offs j, .reps rep]) ((Write.buf j b).apply s) [y] s' es) :
    Does (gexec p (goCall rt m (d + 1)) (gcallMethod p (goCall rt m (d + 1)) (n + 1)) (block [ifNil, retDecode x]) env) s (.ret [.val (.bool true), .val y]) s'
      (.writes (.buf j) :: .reads (.buf j) :: es) := by
  have hc : geval p (goCall rt m (d + 1)) (gcallMethod p (goCall rt m (d + 1)) (n + 1)) env (.eq (.id t!"buf") .nil) = .done [.val (.bool false)] := by
    simp only [geval, hbuf]; rfl
  rw [block, gexec, ifNil, gexec, hc]
  simp only [Prog.bind_done, singleVal, lift, block, retDecode, gexec]
  simp only [geval, hbuf, hx, Prog.bind_done, single, lift]
  refine Does.then (a := GOut.ret [.val (.bool true), .val y]) ?_ rfl
  refine Does.then (a := [GVal.val (.bool true), .val y]) ?_ rfl
  refine Does.then (a := [GVal.val y]) ?_ rfl
  exact does_decode hm hg h

/-- The getter of a message field, up to the decoding. -/
theorem does_getMessage {name typ : Text} {f j : Nat} (hm : method p msg name = some (G.srcGetMessage msg name typ f)) {v : Val} {es es' : List Event} {s1 : GSt} {out : List GVal} (ho : out.length = 2)
    (h : Does (goCall rt m (d + 1) .GetBytes [.bytes (.mem (s.h.ms i).buf), .offs i, .const f]) s [v] s1 es)
    (ht : Does (gexec p (goCall rt m (d + 1)) (gcallMethod p (goCall rt m (d + 1)) n) (block [ifNil, retDecode t!"x"]) [(t!"buf", .val v), (t!"m", .ptr msg i), (t!"x", .ptr typ j)])
      s1 (.ret out) s' es') :
    Does (gcallMethod p (goCall rt m (d + 1)) (n + 1) msg name [.ptr msg i, .ptr typ j]) s out s' (.reads (.buf i) :: (es ++ es')) := by
  rw [gcallMethod, hm]
  have he := geval_getter (p := p) (meth := gcallMethod p (goCall rt m (d + 1)) n) (env := [(t!"m", .ptr msg i), (t!"x", .ptr typ j)]) (t := msg) (conc_WrapOffsets rt m d i) rfl
    (f := t!"GetBytes") (g := .GetBytes) rfl f
  simp only [ginvoke, G.srcGetMessage, gbindAll, gbindArg, if_true, Prog.bind_done]
  rw [block, gexec, gexec, he]
  have e : Event.reads (.buf i) :: (es ++ es') = (.reads (.buf i) :: es) ++ es' := rfl
  rw [e]
  refine Does.then (a := GOut.ret out) ?_ (if_pos ho)
  refine Does.bind (a := GOut.next [(t!"buf", .val v), (t!"m", .ptr msg i), (t!"x", .ptr typ j)]) (s1 := s1) ?_ ht
  refine Does.then (a := [GVal.val v]) ?_ rfl
  exact does_buf (h.then rfl)

/-- `Next` of an iterator, up to the decoding. -/
theorem does_next {it typ : Text} {f v j : Nat} (hm : method p it t!"Next" = some (G.srcNext it typ f)) {ob : Option HSlice} (hb : s.its v = ob) {o : Option HSlice} {x : Val} {es es' : List Event}
    {s1 : GSt} {out : List GVal} (ho : out.length = 2)
    (h : Does (goCall rt m (d + 1) .FindNextField [optVal ob, .const f]) s [optVal o, x] s1 es)
    (ht : Does (gexec p (goCall rt m (d + 1)) (gcallMethod p (goCall rt m (d + 1)) n) (block [ifNil, retDecode t!"m"]) [(t!"buf", .val x), (t!"i", .iter it v), (t!"m", .ptr typ j)])
      ((Write.iter v o).apply s1) (.ret out) s' es') :
    Does (gcallMethod p (goCall rt m (d + 1)) (n + 1) it t!"Next" [.iter it v, .ptr typ j]) s out s' (.reads (.iter v) :: (es ++ .writes (.iter v) :: es')) := by
  rw [gcallMethod, hm]
  have hl : geval p (goCall rt m (d + 1)) (gcallMethod p (goCall rt m (d + 1)) n)
      [(t!"buf", .val .nil), (t!"i", .iter it v), (t!"m", .ptr typ j)] (.args (.paren (.star (.id t!"i"))) (.arg (.num f))) =
      .load (.iter v) fun (o : Option HSlice) => .done [.val (match o with | none => .nil | some b => .bytes (.mem b)), .val (.const f)] := by
    have h0 : (0 : Int) ≤ (f : Int) := Int.natCast_nonneg f
    simp only [geval, h0, if_true, Int.toNat_natCast,
      show place [(t!"buf", .val .nil), (t!"i", .iter it v), (t!"m", .ptr typ j)] (.star (.id t!"i")) = .ok (.iter v) from rfl]
    rfl
  simp only [ginvoke, G.srcNext, gbindAll, gbindArg, if_true, Prog.bind_done]
  rw [block, gexec, gexec, Prog.bind_done]
  dsimp only
  rw [block, gexec, gexec, geval, hl]
  simp only [show place [(t!"buf", .val .nil), (t!"i", .iter it v), (t!"m", .ptr typ j)] (.star (.id t!"i")) = .ok (.iter v) from rfl,
    show place [(t!"buf", .val .nil), (t!"i", .iter it v), (t!"m", .ptr typ j)] (.id t!"buf") = .ok (.var t!"buf") from rfl, lift, Prog.bind_done]
  have hx := gruntime_eq (call := goCall rt m (d + 1)) (f := t!"FindNextField") (g := .FindNextField) rfl [optVal ob, .const f]
  have e : Event.reads (.iter v) :: (es ++ .writes (.iter v) :: es') = (.reads (.iter v) :: es ++ [.writes (.iter v)]) ++ es' := by simp
  rw [e]
  refine Does.then (a := GOut.ret out) ?_ (if_pos ho)
  refine Does.bind (a := GOut.next [(t!"buf", .val x), (t!"i", .iter it v), (t!"m", .ptr typ j)]) (s1 := (Write.iter v o).apply s1) ?_ ht
  refine Does.bind (a := [GVal.val (optVal o), .val x]) (s1 := s1) ?_ ?_
  · refine does_iter ?_
    rw [hb]
    suffices hs : Does (gruntime (goCall rt m (d + 1)) t!"FindNextField" ([optVal ob, .const f].map GVal.val)) s [.val (optVal o), .val x] s1 es by
      cases ob <;> exact hs
    rw [hx]
    exact h.then rfl
  · cases o <;> exact ⟨rfl, rfl⟩

/-- `Reset`. -/
theorem does_reset (hm : method p msg t!"Reset" = some (G.srcReset msg)) {v : Val} {b : HSlice} (hv : (v = .nil ∧ b = ⟨0, 0, 0, 0⟩) ∨ v = .bytes (.mem b) ∧ b.len = 0) {es : List Event}
    (h : Does (goCall rt m (d + 1) .Clear [.offs i]) ((Write.buf i b).apply s) [] s' es) :
    Does (gcallMethod p (goCall rt m (d + 1)) (n + 1) msg t!"Reset" [.ptr msg i, .val v]) s [] s' (.writes (.buf i) :: es) := by
  have key : Does (Prog.store (.buf i b) (gexec p (goCall rt m (d + 1)) (gcallMethod p (goCall rt m (d + 1)) n) (block [.expr (.method wrap t!"Clear" .noArgs)]) [(t!"m", .ptr msg i), (t!"buf", .val v)])) s
      (.next [(t!"m", .ptr msg i), (t!"buf", .val v)]) s' (.writes (.buf i) :: es) := by
    have hwr := geval_wrap (p := p) (call := goCall rt m (d + 1)) (meth := gcallMethod p (goCall rt m (d + 1)) n) (env := [(t!"m", .ptr msg i), (t!"buf", .val v)]) (t := msg) (i := i) (conc_WrapOffsets rt m d i) rfl
    have hr := gruntime_eq (call := goCall rt m (d + 1)) (f := t!"Clear") (g := .Clear) rfl [.offs i]
    refine does_store ?_
    simp only [block, gexec, geval, hwr, Prog.bind_done, single, lift]
    rw [show ([.val (.offs i)] : List GVal) = [.offs i].map GVal.val from rfl, hr]
    exact Does.then (a := .next [(t!"m", .ptr msg i), (t!"buf", .val v)]) (Does.then (a := []) (Does.then h rfl) rfl) rfl
  have hcond : geval p (goCall rt m (d + 1)) (gcallMethod p (goCall rt m (d + 1)) n) [(t!"m", .ptr msg i), (t!"buf", .val v)]
      (.gt (.len (.id t!"buf")) (.num 0)) = .done [.val (.bool false)] := by
    rcases hv with ⟨rfl, rfl⟩ | ⟨rfl, hl⟩
    · simp only [geval]; rfl
    · have : geval p (goCall rt m (d + 1)) (gcallMethod p (goCall rt m (d + 1)) n) [(t!"m", .ptr msg i), (t!"buf", .val (.bytes (.mem b)))]
        (.gt (.len (.id t!"buf")) (.num 0)) = .done [.val (.bool (decide ((b.len : Int) > 0)))] := by
        simp only [geval]; rfl
      rw [this, hl]; rfl
  have h3 : geval p (goCall rt m (d + 1)) (gcallMethod p (goCall rt m (d + 1)) n) [(t!"m", .ptr msg i), (t!"buf", .val v)] (.id t!"buf") =
    .done [.val v] := rfl
  have h4 : ∀ env, gstore (.buf i) (.val v) env = .store (.buf i b) (.done env) := by
    rcases hv with ⟨rfl, rfl⟩ | ⟨rfl, hl⟩ <;> exact fun _ => rfl
  rw [gcallMethod, hm]
  simp only [ginvoke, G.srcReset, gbindAll, gbindArg, Prog.bind_done]
  rw [block, gexec, gexec, hcond]
  simp only [Prog.bind_done, singleVal, lift]
  rw [block, gexec, gexec, h3]
  simp only [Prog.bind_done, single, lift, place_mbuf (t := msg) (i := i) (env := [(t!"m", .ptr msg i), (t!"buf", .val v)]) rfl, h4]
  exact Does.then key rfl

end

end Zeropb.GoSrc.Conc
