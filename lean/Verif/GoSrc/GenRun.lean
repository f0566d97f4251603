import Verif.GoSrc.Step
import Verif.GoSrc.Getters
import Verif.GoSrc.SetFields
import Verif.GoSrc.Dec
import Verif.GoSrc.GenSem
/-!
# Running generated methods

Each method of a generated file, interpreted, is the call of the runtime (or the model operation) it stands for.
-/

set_option linter.constructorNameAsVariable false

namespace Zeropb.GoSrc

/-- `WrapOffsets(m.offsets.a[:], &m.offsets.m)`. -/
theorem go_WrapOffsets (rt : Rt) (d i : Nat) (h : Heap) : goCall rt (d + 1) .WrapOffsets [.arrOf i, .mapPtr i] h = .ok ([.offs i], h) := by
  rw [goCall, show funcOf .WrapOffsets = some srcWrapOffsets from rfl]
  gosimp [srcWrapOffsets]

namespace G
open Zeropb.Gen (Text)

section
variable {p : Program} {call : Calls} {meth : Methods} {env : Env} {t : Text} {i : Nat}

theorem eval_wrap (hw : ∀ h, call .WrapOffsets [.arrOf i, .mapPtr i] h = .ok ([.offs i], h)) (hm : get t!"m" env = some (.ptr t i)) (s : GSt) :
    eval p call meth env wrap s = .ok ([.val (.offs i)], s) := by
  have h1 : place env (.sel (.id t!"m") t!"offsets") = .ok (.offsets i) := by
    simp only [place, hm]; rfl
  have h2 : eval p call meth env (.args (.all (.sel (.sel (.id t!"m") t!"offsets") t!"a")) (.arg (.addr (.sel (.sel (.id t!"m") t!"offsets") t!"m")))) s =
      .ok ([.val (.arrOf i), .val (.mapPtr i)], s) := by
    simp only [eval, place, hm]; rfl
  unfold wrap
  rw [eval, h2]
  show (call .WrapOffsets [.arrOf i, .mapPtr i] s.h >>= fun r => .ok (r.1.map GVal.val, { s with h := r.2 })) = _
  rw [hw]
  rfl

theorem eval_mbuf (hm : get t!"m" env = some (.ptr t i)) (s : GSt) :
    eval p call meth env mbuf s = .ok ([.val (.bytes (.mem (s.h.ms i).buf))], s) := by
  unfold mbuf
  simp only [eval, place, hm]; rfl

theorem place_mbuf (hm : get t!"m" env = some (.ptr t i)) : place env mbuf = .ok (.buf i) := by
  unfold mbuf
  simp only [place, hm]; rfl

theorem eval_addr_mbuf (hm : get t!"m" env = some (.ptr t i)) (s : GSt) :
    eval p call meth env (.addr mbuf) s = .ok ([.val (.bufPtr i)], s) := by
  unfold mbuf
  simp only [eval, place, hm]; rfl

/-- A call of a function of package zeropb with known arguments. -/
theorem runtime_eq {f : Text} {g : Id} (hf : pkgFunc f = some g) (vs : List Val) (s : GSt) :
    runtime call f (vs.map GVal.val) s = (call g vs s.h >>= fun r => .ok (r.1.map GVal.val, { s with h := r.2 })) := by
  have hv : ∀ vs : List Val, vals (vs.map GVal.val) = .ok vs := by
    intro vs
    induction vs with
    | nil => rfl
    | cons v vs ih => simp only [List.map_cons, vals, ih]; rfl
  unfold runtime
  simp only [hf, hv]
  rfl

/-- A getter-like call: `zeropb.f(m.buf, WrapOffsets(…), num)`. -/
theorem eval_getter (hw : ∀ h, call .WrapOffsets [.arrOf i, .mapPtr i] h = .ok ([.offs i], h)) (hm : get t!"m" env = some (.ptr t i))
    {f : Text} {g : Id} (hf : pkgFunc f = some g) (n : Nat) (s : GSt) :
    eval p call meth env (.pkg f (.args mbuf (.args wrap (.arg (.num n))))) s =
    (call g [.bytes (.mem (s.h.ms i).buf), .offs i, .const n] s.h >>= fun r => .ok (r.1.map GVal.val, { s with h := r.2 })) := by
  have h0 : (0 : Int) ≤ (n : Int) := Int.natCast_nonneg n
  simp only [eval, eval_mbuf hm, eval_wrap hw hm, h0, if_true, Int.toNat_natCast]
  exact runtime_eq hf [.bytes (.mem (s.h.ms i).buf), .offs i, .const n] s

/-- A setter-like call: `zeropb.f(&m.buf, WrapOffsets(…), num, x)`. -/
theorem eval_setter (hw : ∀ h, call .WrapOffsets [.arrOf i, .mapPtr i] h = .ok ([.offs i], h)) (hm : get t!"m" env = some (.ptr t i))
    {f x : Text} {g : Id} (hf : pkgFunc f = some g) (n : Nat) {v : Val} (hx : get x env = some (.val v)) (s : GSt) :
    eval p call meth env (.pkg f (.args (.addr mbuf) (.args wrap (.args (.num n) (.arg (.id x)))))) s =
    (call g [.bufPtr i, .offs i, .const n, v] s.h >>= fun r => .ok (r.1.map GVal.val, { s with h := r.2 })) := by
  have h0 : (0 : Int) ≤ (n : Int) := Int.natCast_nonneg n
  rw [eval]
  simp only [eval, place_mbuf hm, eval_wrap hw hm, h0, if_true, Int.toNat_natCast, hx]
  exact runtime_eq hf [.bufPtr i, .offs i, .const n, v] s

end

/-! ## The methods -/

section
variable {p : Program} {rt : Rt} {d n i : Nat} {msg : Text}

theorem wrap_ok (rt : Rt) (d i : Nat) : ∀ h, goCall rt (d + 1) .WrapOffsets [.arrOf i, .mapPtr i] h = .ok ([.offs i], h) :=
  fun h => go_WrapOffsets rt d i h

/-- `Encode`. -/
theorem run_encode {call : Calls} (hm : method p msg t!"Encode" = some (srcEncode msg)) (s : GSt) :
    callMethod p call (n + 1) msg t!"Encode" [.ptr msg i] s = .ok ([.val (.bytes (.mem (s.h.ms i).buf))], s) := by
  rw [callMethod, hm]
  rfl

/-- A getter of a scalar field. -/
theorem run_get {name goType fn : Text} {f : Nat} {g : Id} (hm : method p msg name = some (srcGet msg name goType fn f))
    (hf : pkgFunc (t!"Get" ++ fn) = some g) (s : GSt) :
    callMethod p (goCall rt (d + 1)) (n + 1) msg name [.ptr msg i] s =
    (goCall rt (d + 1) g [.bytes (.mem (s.h.ms i).buf), .offs i, .const f] s.h >>= fun r =>
      if r.1.length = 1 then .ok (r.1.map GVal.val, { s with h := r.2 }) else .error .stuck) := by
  rw [callMethod, hm]
  have he := eval_getter (p := p) (meth := callMethod p (goCall rt (d + 1)) n) (env := [(t!"m", .ptr msg i)]) (t := msg) (wrap_ok rt d i) rfl hf f s
  simp only [invoke, srcGet, bindAll, block, exec, xbind_ok]
  rw [eval, he]
  cases goCall rt (d + 1) g [.bytes (.mem (s.h.ms i).buf), .offs i, .const f] s.h with
  | error e => rfl
  | ok r => simp only [xbind_ok, List.length_map, List.length_cons, List.length_nil]

/-- A setter of a scalar field. -/
theorem run_set {name goType fn : Text} {f : Nat} {g : Id} (hm : method p msg (t!"Set" ++ name) = some (srcSet msg name goType fn f))
    (hf : pkgFunc (t!"Set" ++ fn) = some g) (ht : slots p goType = none) (v : Val) (s : GSt) :
    callMethod p (goCall rt (d + 1)) (n + 1) msg (t!"Set" ++ name) [.ptr msg i, .val v] s =
    (goCall rt (d + 1) g [.bufPtr i, .offs i, .const f, v] s.h >>= fun r => .ok ([], { s with h := r.2 })) := by
  rw [callMethod, hm]
  have hb : bindArg p (scalarTy goType) (.val v) s = .ok (.val v, s) := by
    unfold scalarTy
    split
    · rfl
    · simp only [bindArg, ht]; rfl
  have he := eval_setter (p := p) (meth := callMethod p (goCall rt (d + 1)) n) (env := [(t!"m", .ptr msg i), (t!"x", .val v)]) (t := msg)
    (x := t!"x") (wrap_ok rt d i) rfl hf f rfl s
  simp only [invoke, srcSet, bindAll, hb, block, exec, xbind_ok]
  rw [he]
  cases goCall rt (d + 1) g [.bufPtr i, .offs i, .const f, v] s.h with
  | error e => rfl
  | ok r => rfl

/-- The getter of a repeated message field. -/
theorem run_getRepeated {name it : Text} {f : Nat} (hm : method p msg name = some (srcGetRepeated msg name it f))
    (ht : isBytesType p it = true) (s : GSt) :
    callMethod p (goCall rt (d + 2)) (n + 1) msg name [.ptr msg i] s =
    (lift ((s.h.ms i).messages s.h.w f) >>= fun r => .ok ([.val (optBytes r)], s)) := by
  rw [callMethod, hm]
  have he := eval_getter (p := p) (meth := callMethod p (goCall rt (d + 2)) n) (env := [(t!"m", .ptr msg i)]) (t := msg) (wrap_ok rt (d + 1) i) rfl
    (f := t!"GetRepeatedNonPacked") (g := .GetRepeatedNonPacked) rfl f s
  simp only [invoke, srcGetRepeated, bindAll, block, exec, xbind_ok]
  rw [eval, eval, he, show goCall rt (d + 1 + 1) .GetRepeatedNonPacked [.bytes (.mem (s.h.ms i).buf), .offs i, .const f] s.h =
    goCall rt (d + 2) .GetRepeatedNonPacked [.bytes (.mem (s.h.ms i).buf), .offs i, .int f] s.h from rfl, go_GetRepeatedNonPacked]
  cases (s.h.ms i).messages s.h.w f with
  | error e => rfl
  | ok r =>
    cases r with
    | none => simp only [lift, xbind_ok, List.map_cons, List.map_nil, singleVal, ht, if_true]; rfl
    | some b => simp only [lift, xbind_ok, List.map_cons, List.map_nil, singleVal, ht, if_true]; rfl

/-- `zeropb.Decode(m.buf, WrapOffsets(…), g)` -/
theorem eval_decode {call : Calls} {meth : Methods} {env : Env} {t g : Text} {rep : Nat → Bool}
    (hw : ∀ h, call .WrapOffsets [.arrOf i, .mapPtr i] h = .ok ([.offs i], h)) (hm : get t!"m" env = some (.ptr t i))
    (hn : get g env = none) (hg : global p g = some (.val (.reps rep))) (s : GSt) :
    eval p call meth env (.pkg t!"Decode" (.args mbuf (.args wrap (.arg (.id g))))) s =
    (call .Decode [.bytes (.mem (s.h.ms i).buf), .offs i, .reps rep] s.h >>= fun r => .ok (r.1.map GVal.val, { s with h := r.2 })) := by
  simp only [eval, eval_mbuf hm, eval_wrap hw hm, hn, hg]
  exact runtime_eq (f := t!"Decode") (g := .Decode) rfl [.bytes (.mem (s.h.ms i).buf), .offs i, .reps rep] s

theorem storeOffs_buf (w : World) (m : HMsg) (b : HSlice) (o : Offsets) :
    w.storeOffs { m with buf := b } o = ({ (w.storeOffs m o).1 with buf := b }, (w.storeOffs m o).2) := by
  cases m with
  | mk mb a mm =>
    cases o with
    | mk oa om => cases mm <;> cases om <;> rfl

/-- `Decode`. -/
theorem run_decode {nums : List Int} (hm : method p msg t!"Decode" = some (srcDecode msg))
    (hg : global p (t!"repeatedFields_" ++ msg) = some (.val (.reps (fun n => decide ((n : Int) ∈ nums))))) (b : HSlice) (s : GSt)
    (hb : s.h.w.WFs b) (hw : ∀ id, (s.h.ms i).m = some id → id < s.h.w.maps.length) :
    callMethod p (goCall rt (d + 2)) (n + 1) msg t!"Decode" [.ptr msg i, .val (.bytes (.mem b))] s =
    (lift ((s.h.ms i).decode (fun n => decide ((n : Int) ∈ nums)) s.h.w b) >>= fun r =>
      .ok ([.val (errVal r.2.2)], { s with h := s.h.upd i (r.1, r.2.1) })) := by
  rw [callMethod, hm]
  have hi : (s.h.put i { s.h.ms i with buf := b }).ms i = { s.h.ms i with buf := b } := by simp [Heap.put]
  have hgl : get (t!"repeatedFields_" ++ msg) [(t!"m", GVal.ptr msg i), (t!"buf", .val (.bytes (.mem b)))] = none := by
    simp [get]
  have hd := go_Decode rt d i b (fun n => decide ((n : Int) ∈ nums)) (s.h.put i { s.h.ms i with buf := b }) hb (by rw [hi]; exact hw)
  have he := eval_decode (p := p) (call := goCall rt (d + 2)) (meth := callMethod p (goCall rt (d + 2)) n) (t := msg) (i := i)
    (wrap_ok rt (d + 1) i) rfl hgl hg { s with h := s.h.put i { s.h.ms i with buf := b } }
  simp only [invoke, srcDecode, bindAll, bindArg, block, exec, xbind_ok]
  have h1 : eval p (goCall rt (d + 2)) (callMethod p (goCall rt (d + 2)) n) [(t!"m", .ptr msg i), (t!"buf", .val (.bytes (.mem b)))] (.id t!"buf") s =
    .ok ([.val (.bytes (.mem b))], s) := rfl
  rw [h1]
  simp only [xbind_ok, single, place_mbuf (t := msg) (i := i) (env := [(t!"m", .ptr msg i), (t!"buf", .val (.bytes (.mem b)))]) rfl, storeAt]
  rw [eval, he]
  simp only [hi] at hd ⊢
  rw [hd]
  simp only [HMsg.decode, put_eq, upd_upd, upd_w, storeOffs_buf,
    show s.h.w.offs { s.h.ms i with buf := b } = s.h.w.offs (s.h.ms i) from rfl]
  cases decode (s.h.w.slice b) (s.h.w.offs (s.h.ms i)) (fun n => decide ((n : Int) ∈ nums)) with
  | error e => rfl
  | ok r => rfl

/-- `Reset`. -/
theorem run_reset (hm : method p msg t!"Reset" = some (srcReset msg)) (b : HSlice) (s : GSt)
    (hw : ∀ id, (s.h.ms i).m = some id → id < s.h.w.maps.length) :
    callMethod p (goCall rt (d + 1)) (n + 1) msg t!"Reset" [.ptr msg i, .val (.bytes (.mem b))] s =
    (lift ((s.h.ms i).reset s.h.w b) >>= fun r => .ok ([], { s with h := s.h.upd i r })) := by
  rw [callMethod, hm]
  have hi : (s.h.put i { s.h.ms i with buf := b }).ms i = { s.h.ms i with buf := b } := by simp [Heap.put]
  have hc := go_Clear rt d i (s.h.put i { s.h.ms i with buf := b }) (by rw [hi]; exact hw)
  have hcond : eval p (goCall rt (d + 1)) (callMethod p (goCall rt (d + 1)) n) [(t!"m", .ptr msg i), (t!"buf", .val (.bytes (.mem b)))]
      (.gt (.len (.id t!"buf")) (.num 0)) s = .ok ([.val (.bool (decide ((b.len : Int) > 0)))], s) := by
    simp only [eval]; rfl
  have h1 : eval p (goCall rt (d + 1)) (callMethod p (goCall rt (d + 1)) n) [(t!"m", .ptr msg i), (t!"buf", .val (.bytes (.mem b)))] (.id t!"buf") s =
    .ok ([.val (.bytes (.mem b))], s) := rfl
  have hwr := eval_wrap (p := p) (call := goCall rt (d + 1)) (meth := callMethod p (goCall rt (d + 1)) n)
    (env := [(t!"m", .ptr msg i), (t!"buf", .val (.bytes (.mem b)))]) (t := msg) (i := i) (wrap_ok rt d i) rfl { s with h := s.h.put i { s.h.ms i with buf := b } }
  have hcl := runtime_eq (call := goCall rt (d + 1)) (f := t!"Clear") (g := .Clear) rfl [.offs i] { s with h := s.h.put i { s.h.ms i with buf := b } }
  simp only [invoke, srcReset, bindAll, bindArg, block, exec, xbind_ok]
  rw [hcond]
  unfold HMsg.reset
  by_cases hl : b.len > 0
  · have hl' : (b.len : Int) > 0 := by omega
    simp only [xbind_ok, singleVal, hl, hl', decide_true, if_true]
    rfl
  · have hl' : ¬ (b.len : Int) > 0 := by omega
    simp only [xbind_ok, singleVal, hl, hl', decide_false, if_false, h1, single,
      place_mbuf (t := msg) (i := i) (env := [(t!"m", .ptr msg i), (t!"buf", .val (.bytes (.mem b)))]) rfl, storeAt]
    rw [eval, hwr]
    simp only [xbind_ok, single, eval]
    rw [show ([.val (.offs i)] : List GVal) = [.offs i].map GVal.val from rfl, hcl, hc]
    simp only [xbind_ok, put_eq, upd_upd, upd_w, upd_ms, storeOffs_buf, lift]
    rfl

/-- `Reset(nil)`. -/
theorem run_reset_nil (hm : method p msg t!"Reset" = some (srcReset msg)) (s : GSt)
    (hw : ∀ id, (s.h.ms i).m = some id → id < s.h.w.maps.length) :
    callMethod p (goCall rt (d + 1)) (n + 1) msg t!"Reset" [.ptr msg i, .val .nil] s =
    (lift ((s.h.ms i).reset s.h.w .nil) >>= fun r => .ok ([], { s with h := s.h.upd i r })) := by
  rw [callMethod, hm]
  have hi : (s.h.put i { s.h.ms i with buf := ⟨0, 0, 0, 0⟩ }).ms i = { s.h.ms i with buf := ⟨0, 0, 0, 0⟩ } := by simp [Heap.put]
  have hc := go_Clear rt d i (s.h.put i { s.h.ms i with buf := ⟨0, 0, 0, 0⟩ }) (by rw [hi]; exact hw)
  have hcond : eval p (goCall rt (d + 1)) (callMethod p (goCall rt (d + 1)) n) [(t!"m", .ptr msg i), (t!"buf", .val .nil)]
      (.gt (.len (.id t!"buf")) (.num 0)) s = .ok ([.val (.bool false)], s) := by
    simp only [eval]; rfl
  have h1 : eval p (goCall rt (d + 1)) (callMethod p (goCall rt (d + 1)) n) [(t!"m", .ptr msg i), (t!"buf", .val .nil)] (.id t!"buf") s =
    .ok ([.val .nil], s) := rfl
  have hwr := eval_wrap (p := p) (call := goCall rt (d + 1)) (meth := callMethod p (goCall rt (d + 1)) n)
    (env := [(t!"m", .ptr msg i), (t!"buf", .val .nil)]) (t := msg) (i := i) (wrap_ok rt d i) rfl { s with h := s.h.put i { s.h.ms i with buf := ⟨0, 0, 0, 0⟩ } }
  have hcl := runtime_eq (call := goCall rt (d + 1)) (f := t!"Clear") (g := .Clear) rfl [.offs i] { s with h := s.h.put i { s.h.ms i with buf := ⟨0, 0, 0, 0⟩ } }
  simp only [invoke, srcReset, bindAll, bindArg, block, exec, xbind_ok]
  rw [hcond]
  unfold HMsg.reset
  simp only [xbind_ok, singleVal, h1, single,
      place_mbuf (t := msg) (i := i) (env := [(t!"m", .ptr msg i), (t!"buf", .val .nil)]) rfl, storeAt]
  rw [eval, hwr]
  simp only [xbind_ok, single, eval]
  rw [show ([.val (.offs i)] : List GVal) = [.offs i].map GVal.val from rfl, hcl, hc]
  simp only [xbind_ok, put_eq, upd_upd, upd_w, upd_ms, storeOffs_buf, lift]
  rfl

/-- `if buf == nil { return false, nil }; return true, x.Decode(buf)` -/
theorem exec_tail {typ x : Text} {nums : List Int} {env : Env} {j : Nat} (hm : method p typ t!"Decode" = some (srcDecode typ))
    (hg : global p (t!"repeatedFields_" ++ typ) = some (.val (.reps (fun n => decide ((n : Int) ∈ nums))))) (b : Option HSlice) (s : GSt)
    (hb : ∀ b', b = some b' → s.h.w.WFs b') (hw : ∀ id, (s.h.ms j).m = some id → id < s.h.w.maps.length)
    (hbuf : get t!"buf" env = some (.val (optBytes b))) (hx : get x env = some (.ptr typ j)) :
    exec p (goCall rt (d + 2)) (callMethod p (goCall rt (d + 2)) (n + 1)) (block [ifNil, retDecode x]) env s =
    match b with
    | none => .ok (.ret [.val (.bool false), .val .nil], s)
    | some b => (lift ((s.h.ms j).decode (fun n => decide ((n : Int) ∈ nums)) s.h.w b) >>= fun r =>
      .ok (.ret [.val (.bool true), .val (errVal r.2.2)], { s with h := s.h.upd j (r.1, r.2.1) })) := by
  cases b with
  | none =>
    simp only [block, ifNil, exec, eval, hbuf, optBytes]
    rfl
  | some b =>
    have hr := run_decode (rt := rt) (d := d) (n := n) (i := j) hm hg b s (hb b rfl) hw
    have he : eval p (goCall rt (d + 2)) (callMethod p (goCall rt (d + 2)) (n + 1)) env (.args .true_ (.arg (.method (.id x) t!"Decode" (.arg (.id t!"buf"))))) s =
        (lift ((s.h.ms j).decode (fun n => decide ((n : Int) ∈ nums)) s.h.w b) >>= fun r =>
          .ok ([.val (.bool true), .val (errVal r.2.2)], { s with h := s.h.upd j (r.1, r.2.1) })) := by
      simp only [eval, hbuf, hx, optBytes, xbind_ok, single]
      rw [hr]
      cases (s.h.ms j).decode (fun n => decide ((n : Int) ∈ nums)) s.h.w b <;> rfl
    have hc : eval p (goCall rt (d + 2)) (callMethod p (goCall rt (d + 2)) (n + 1)) env (.eq (.id t!"buf") .nil) s =
        .ok ([.val (.bool false)], s) := by
      simp only [eval, hbuf, optBytes]; rfl
    simp only [block, ifNil, retDecode, exec, hc, he, xbind_ok, singleVal]
    cases (s.h.ms j).decode (fun n => decide ((n : Int) ∈ nums)) s.h.w b <;> rfl

/-- The getter of a message field. -/
theorem run_getMessage {name typ : Text} {f j : Nat} {nums : List Int} (hm : method p msg name = some (srcGetMessage msg name typ f))
    (hd : method p typ t!"Decode" = some (srcDecode typ))
    (hg : global p (t!"repeatedFields_" ++ typ) = some (.val (.reps (fun n => decide ((n : Int) ∈ nums))))) (s : GSt)
    (hb : s.h.w.WFs (s.h.ms i).buf) (hw : ∀ id, (s.h.ms j).m = some id → id < s.h.w.maps.length) :
    callMethod p (goCall rt (d + 2)) (n + 2) msg name [.ptr msg i, .ptr typ j] s =
    (lift ((s.h.ms i).subMessage (fun n => decide ((n : Int) ∈ nums)) s.h.w f (s.h.ms j)) >>= fun r =>
      .ok ([.val (.bool r.2.2.1), .val (errVal r.2.2.2)], { s with h := s.h.upd j (r.1, r.2.1) })) := by
  rw [callMethod, hm]
  have he := eval_getter (p := p) (meth := callMethod p (goCall rt (d + 2)) (n + 1)) (env := [(t!"m", .ptr msg i), (t!"x", .ptr typ j)]) (t := msg)
    (wrap_ok rt (d + 1) i) rfl (f := t!"GetBytes") (g := .GetBytes) rfl f s
  rw [show goCall rt (d + 2) .GetBytes [.bytes (.mem (s.h.ms i).buf), .offs i, .const f] s.h =
    goCall rt (d + 2) .GetBytes [.bytes (.mem (s.h.ms i).buf), .offs i, .int f] s.h from rfl, go_GetBytes rt d i f s.h hb] at he
  simp only [invoke, srcGetMessage, bindAll, bindArg, if_true, xbind_ok, HMsg.subMessage]
  rw [block, exec, exec, he]
  cases hgb : (s.h.ms i).getBytes s.h.w f with
  | error e => rfl
  | ok r =>
    have hwf : ∀ b, r = some b → s.h.w.WFs b := fun b hr => by
      obtain ⟨_, _, hrg⟩ := getBytes_owns (hr ▸ hgb)
      exact HSlice.range_wf hb hrg
    have ht := exec_tail (rt := rt) (d := d) (n := n) (x := t!"x") (env := [(t!"buf", .val (optBytes r)), (t!"m", .ptr msg i), (t!"x", .ptr typ j)])
      (j := j) hd hg r s hwf hw rfl rfl
    cases r with
    | none =>
      simp only [lift, xbind_ok, List.map_cons, List.map_nil, single, optBytes] at ht ⊢
      rw [ht]
      simp only [bind, Except.bind, pure, Except.pure, List.length_cons, List.length_nil, if_true, errVal, upd_self]
    | some b =>
      simp only [lift_ok, xbind_ok, List.map_cons, List.map_nil, single, optBytes] at ht ⊢
      rw [ht]
      cases (s.h.ms j).decode (fun n => decide ((n : Int) ∈ nums)) s.h.w b <;> rfl

/-- `buf := x.Encode(); zeropb.f(&m.buf, WrapOffsets(…), num, buf)` -/
theorem run_setBuf {mname typ F : Text} {f j : Nat} {g : Id}
    (hm : method p msg mname = some ⟨(t!"m", msg), mname, [(t!"x", .name typ)], [],
      block [.define t!"buf" (.method (.id t!"x") t!"Encode" .noArgs),
        .expr (.pkg F (.args (.addr mbuf) (.args wrap (.args (.num f) (.arg (.id t!"buf"))))))]⟩)
    (he : method p typ t!"Encode" = some (srcEncode typ)) (hs : (slots p typ).isSome) (hF : pkgFunc F = some g) (s : GSt) :
    callMethod p (goCall rt (d + 1)) (n + 2) msg mname [.ptr msg i, .struct typ j] s =
    (goCall rt (d + 1) g [.bufPtr i, .offs i, .const f, .bytes (.mem (s.h.ms j).buf)] (s.h.put s.next (s.h.ms j)) >>= fun r =>
      .ok ([], ⟨r.2, s.next + 1, s.its⟩)) := by
  rw [callMethod, hm]
  have hb : bindArg p (.name typ) (.struct typ j) s = .ok (.struct typ s.next, ⟨s.h.put s.next (s.h.ms j), s.next + 1, s.its⟩) := by
    simp only [bindArg, hs, and_self, if_true]
  have hen := run_encode (p := p) (call := goCall rt (d + 1)) (n := n) (i := s.next) he ⟨s.h.put s.next (s.h.ms j), s.next + 1, s.its⟩
  have hx : ((s.h.put s.next (s.h.ms j)).ms s.next).buf = (s.h.ms j).buf := by simp [Heap.put]
  simp only [hx] at hen
  have hev : eval p (goCall rt (d + 1)) (callMethod p (goCall rt (d + 1)) (n + 1)) [(t!"m", .ptr msg i), (t!"x", .struct typ s.next)]
      (.method (.id t!"x") t!"Encode" .noArgs) ⟨s.h.put s.next (s.h.ms j), s.next + 1, s.its⟩ =
      .ok ([.val (.bytes (.mem (s.h.ms j).buf))], ⟨s.h.put s.next (s.h.ms j), s.next + 1, s.its⟩) := by
    simp only [eval]
    exact hen
  have hse := eval_setter (p := p) (meth := callMethod p (goCall rt (d + 1)) (n + 1))
    (env := [(t!"buf", .val (.bytes (.mem (s.h.ms j).buf))), (t!"m", .ptr msg i), (t!"x", .struct typ s.next)]) (t := msg)
    (x := t!"buf") (wrap_ok rt d i) rfl hF f rfl ⟨s.h.put s.next (s.h.ms j), s.next + 1, s.its⟩
  simp only [invoke, bindAll, hb, block, exec, xbind_ok]
  rw [hev]
  simp only [xbind_ok, single]
  rw [hse]
  cases goCall rt (d + 1) g [.bufPtr i, .offs i, .const f, .bytes (.mem (s.h.ms j).buf)] (s.h.put s.next (s.h.ms j)) with
  | error e => rfl
  | ok r => rfl

/-- The setter of a message field. -/
theorem run_setMessage {name typ : Text} {f j : Nat} (hm : method p msg (t!"Set" ++ name) = some (srcSetMessage msg name typ f))
    (he : method p typ t!"Encode" = some (srcEncode typ)) (hs : (slots p typ).isSome) (s : GSt) (hi : i ≠ s.next)
    (hb : s.h.w.WF (s.h.ms i)) (hj : s.h.w.WFs (s.h.ms j).buf) (hl : (s.h.ms j).buf.len + 10 < maxLen) :
    callMethod p (goCall rt (d + 3)) (n + 2) msg (t!"Set" ++ name) [.ptr msg i, .struct typ j] s =
    (lift ((s.h.ms i).setBytes rt s.h.w f (.mem (s.h.ms j).buf)) >>= fun r =>
      .ok ([], ⟨(s.h.put s.next (s.h.ms j)).upd i r, s.next + 1, s.its⟩)) := by
  have hmi : (s.h.put s.next (s.h.ms j)).ms i = s.h.ms i := by simp [Heap.put, hi]
  rw [run_setBuf (f := f) (F := t!"SetBytes") (g := .SetBytes) (n := n) (d := d + 2) hm he hs rfl s,
    show ∀ h, goCall rt (d + 2 + 1) .SetBytes [.bufPtr i, .offs i, .const f, .bytes (.mem (s.h.ms j).buf)] h =
      goCall rt (d + 3) .SetBytes [.bufPtr i, .offs i, .int f, .bytes (.mem (s.h.ms j).buf)] h from fun _ => rfl,
    go_SetBytes rt d i f (Arg.bytes (.mem (s.h.ms j).buf)) (s.h.put s.next (s.h.ms j)) hj hl (by rw [hmi]; exact hb), hmi]
  show (lift ((s.h.ms i).setBytes rt s.h.w f (.mem (s.h.ms j).buf)) >>= _) >>= _ = _
  cases (s.h.ms i).setBytes rt s.h.w f (.mem (s.h.ms j).buf) <;> rfl

/-- `AppendTo` of a repeated message field. -/
theorem run_appendTo {name typ : Text} {f j : Nat} (hm : method p msg (t!"AppendTo" ++ name) = some (srcAppendTo msg name typ f))
    (he : method p typ t!"Encode" = some (srcEncode typ)) (hs : (slots p typ).isSome) (s : GSt) (hi : i ≠ s.next)
    (hb : s.h.w.WF (s.h.ms i)) (hj : s.h.w.WFs (s.h.ms j).buf) (hl : (s.h.ms j).buf.len + 10 < maxLen) :
    callMethod p (goCall rt (d + 3)) (n + 2) msg (t!"AppendTo" ++ name) [.ptr msg i, .struct typ j] s =
    (lift ((s.h.ms i).appendBytes rt s.h.w f (.mem (s.h.ms j).buf)) >>= fun r =>
      .ok ([], ⟨(s.h.put s.next (s.h.ms j)).upd i r, s.next + 1, s.its⟩)) := by
  have hmi : (s.h.put s.next (s.h.ms j)).ms i = s.h.ms i := by simp [Heap.put, hi]
  rw [run_setBuf (f := f) (F := t!"AppendBytes") (g := .AppendBytes) (n := n) (d := d + 2) hm he hs rfl s,
    show ∀ h, goCall rt (d + 2 + 1) .AppendBytes [.bufPtr i, .offs i, .const f, .bytes (.mem (s.h.ms j).buf)] h =
      goCall rt (d + 3) .AppendBytes [.bufPtr i, .offs i, .int f, .bytes (.mem (s.h.ms j).buf)] h from fun _ => rfl,
    go_AppendBytes rt d i f (Arg.bytes (.mem (s.h.ms j).buf)) (s.h.put s.next (s.h.ms j)) hj hl (by rw [hmi]; exact hb), hmi]
  show (lift ((s.h.ms i).appendBytes rt s.h.w f (.mem (s.h.ms j).buf)) >>= _) >>= _ = _
  cases (s.h.ms i).appendBytes rt s.h.w f (.mem (s.h.ms j).buf) <;> rfl

/-- `Next` of an iterator. -/
theorem run_next {it typ : Text} {f i j : Nat} {nums : List Int} (hm : method p it t!"Next" = some (srcNext it typ f))
    (hd : method p typ t!"Decode" = some (srcDecode typ))
    (hg : global p (t!"repeatedFields_" ++ typ) = some (.val (.reps (fun n => decide ((n : Int) ∈ nums))))) (s : GSt)
    (hb : ∀ b, s.its i = some b → s.h.w.WFs b) (hw : ∀ id, (s.h.ms j).m = some id → id < s.h.w.maps.length) :
    callMethod p (goCall rt (d + 2)) (n + 2) it t!"Next" [.iter it i, .ptr typ j] s =
    (lift (hNext (fun n => decide ((n : Int) ∈ nums)) s.h.w (s.its i) f (s.h.ms j)) >>= fun r =>
      .ok ([.val (.bool r.2.2.2.1), .val (errVal r.2.2.2.2)],
        { s with h := s.h.upd j (r.2.1, r.2.2.1), its := fun k => if k = i then r.1 else s.its k })) := by
  rw [callMethod, hm]
  have hl : eval p (goCall rt (d + 2)) (callMethod p (goCall rt (d + 2)) (n + 1))
      [(t!"buf", .val .nil), (t!"i", .iter it i), (t!"m", .ptr typ j)] (.args (.paren (.star (.id t!"i"))) (.arg (.num f))) s =
      .ok ([.val (optBytes (s.its i)), .val (.const f)], s) := by
    have h0 : (0 : Int) ≤ (f : Int) := Int.natCast_nonneg f
    simp only [eval, h0, if_true, Int.toNat_natCast,
      show place [(t!"buf", .val .nil), (t!"i", .iter it i), (t!"m", .ptr typ j)] (.star (.id t!"i")) = .ok (.iter i) from rfl, xbind_ok, load]
    cases s.its i <;> rfl
  have he : eval p (goCall rt (d + 2)) (callMethod p (goCall rt (d + 2)) (n + 1))
      [(t!"buf", .val .nil), (t!"i", .iter it i), (t!"m", .ptr typ j)] (.pkg t!"FindNextField" (.args (.paren (.star (.id t!"i"))) (.arg (.num f)))) s =
      (lift (hFindNextField s.h.w (s.its i) f) >>= fun r => .ok ([.val (optBytes r.1), .val (optBytes r.2)], s)) := by
    rw [eval, hl]
    show runtime (goCall rt (d + 2)) t!"FindNextField" ([optBytes (s.its i), .const f].map GVal.val) s = _
    rw [runtime_eq (g := .FindNextField) rfl,
      show goCall rt (d + 2) .FindNextField [optBytes (s.its i), .const f] s.h = goCall rt (d + 2) .FindNextField [optBytes (s.its i), .int f] s.h from rfl,
      go_FindNextField rt d (s.its i) f s.h hb]
    cases hFindNextField s.h.w (s.its i) f <;> rfl
  simp only [invoke, srcNext, bindAll, bindArg, if_true, xbind_ok, hNext]
  rw [block, exec, exec, xbind_ok]
  dsimp only
  rw [block, exec, exec]
  rw [he]
  cases hf : hFindNextField s.h.w (s.its i) f with
  | error e => rfl
  | ok r =>
    obtain ⟨r1, r2⟩ := r
    have hwf : ∀ b, r2 = some b → s.h.w.WFs b := by
      rintro b rfl
      cases hi : s.its i with
      | none => rw [hi] at hf; simp [hFindNextField] at hf
      | some b' => rw [hi] at hf; exact ((hFindNextField_tail (hb b' hi) hf).2 b rfl).2
    have ht := exec_tail (rt := rt) (d := d) (n := n) (x := t!"m") (env := [(t!"buf", .val (optBytes r2)), (t!"i", .iter it i), (t!"m", .ptr typ j)])
      (j := j) hd hg r2 { s with its := fun k => if k = i then r1 else s.its k } hwf hw rfl rfl
    have hst : ∀ env : Env, storeAt (.iter i) (.val (optBytes r1)) env s = .ok (env, { s with its := fun k => if k = i then r1 else s.its k }) := by
      intro env; cases r1 <;> rfl
    simp only [lift_ok, xbind_ok, show place [(t!"buf", .val .nil), (t!"i", .iter it i), (t!"m", .ptr typ j)] (.star (.id t!"i")) = .ok (.iter i) from rfl,
      show place [(t!"buf", .val .nil), (t!"i", .iter it i), (t!"m", .ptr typ j)] (.id t!"buf") = .ok (.var t!"buf") from rfl, hst,
      show ∀ v s', storeAt (.var t!"buf") v [(t!"buf", .val .nil), (t!"i", .iter it i), (t!"m", .ptr typ j)] s' =
        .ok ([(t!"buf", v), (t!"i", .iter it i), (t!"m", .ptr typ j)], s') from fun _ _ => rfl]
    rw [ht]
    cases r2 with
    | none => simp only [bind, Except.bind, pure, Except.pure, List.length_cons, List.length_nil, if_true, errVal, upd_self, lift]
    | some b =>
      simp only [bind, Except.bind, lift]
      cases (s.h.ms j).decode (fun n => decide ((n : Int) ∈ nums)) s.h.w b <;> rfl

end

end G
end Zeropb.GoSrc
