import Verif.Conc.GenAccess
import Verif.Conc.GenSafe
/-!
# Where the methods of generated types panic
-/

set_option linter.constructorNameAsVariable false

namespace Zeropb.GoSrc.Conc
open Zeropb.GoSrc.G
open Zeropb.Gen (Text)

namespace Prog
variable {α β : Type}

/-- If what follows does not panic, what comes before does. -/
theorem halt_first {p : Prog α} {f : α → Prog β} {s s' : GSt} {e : Fail} (h : (p >>= f).halt s = some (.fail e, s')) (hf : ∀ a s, (f a).halt s ≠ some (.fail e, s')) :
    p.halt s = some (.fail e, s') := by
  replace h : (p.bind f).halt s = some (.fail e, s') := h
  induction p generalizing s with
  | done a => exact absurd h (hf a s)
  | stop e' => exact h
  | load l k ih => exact ih _ h
  | store w k ih => exact ih h
  | newArr bs k ih => exact ih _ h
  | newMap k ih => exact ih _ h
  | newStruct m k ih => exact ih _ h

theorem halt_ite {c : Prop} [Decidable c] {a : α} {s s' : GSt} {e : Fail} : (if c then (.done a : Prog α) else .stop .stuck).halt s ≠ some (.fail e, s') := by
  split <;> nofun

theorem lift_halt {α : Type} {x : Except Stop α} {s s' : GSt} {e : Fail} (h : (lift x).halt s = some (.fail e, s')) : x = .error (.fail e) := by
  cases x with
  | ok a => cases h
  | error y => injection h with h; injection h with h _; subst h; rfl

end Prog

section
variable {p : Program} {rt : Rt} {d n m i : Nat} {msg : Text} {s s' : GSt} {e : Fail}

/-- The end of a getter of a message field, when nothing is there, does not panic. -/
theorem halt_tail_nil {x : Text} {env : Env} {call : Calls} {meth : Methods} (hbuf : G.get t!"buf" env = some (.val .nil)) :
    (gexec p call meth (block [ifNil, retDecode x]) env).halt s ≠ some (.fail e, s') := by
  intro h
  have := Prog.halt_run h
  rw [(does_tail_nil (p := p) (x := x) (s := s) (call := call) (meth := meth) hbuf).1] at this
  cases this

/-- If the end of a getter of a message field panics, `Decode` does. -/
theorem halt_tail {typ x : Text} {env : Env} {j : Nat} {b : HSlice} (hbuf : G.get t!"buf" env = some (.val (.bytes (.mem b)))) (hx : G.get x env = some (.ptr typ j))
    {call : Calls} {meth : Methods} (h : (gexec p call meth (block [ifNil, retDecode x]) env).halt s = some (.fail e, s')) :
    (meth typ t!"Decode" [.ptr typ j, .val (.bytes (.mem b))]).halt s = some (.fail e, s') := by
  have hc : geval p call meth env (.eq (.id t!"buf") .nil) = .done [.val (.bool false)] := by
    simp only [geval, hbuf]; rfl
  rw [block, gexec, ifNil, gexec, hc] at h
  simp only [Prog.bind_done, singleVal, lift, block, retDecode, gexec] at h
  simp only [geval, hbuf, hx, Prog.bind_done, single, lift] at h
  have h := Prog.halt_first h (fun a s => by cases a <;> nofun)
  have h := Prog.halt_first h (fun a s => by nofun)
  exact Prog.halt_first h (fun a s => by nofun)

/-- If the getter of a message field panics, and there are bytes, `Decode` does. -/
theorem halt_getMessage {name typ : Text} {f j : Nat} (hm : method p msg name = some (G.srcGetMessage msg name typ f)) {v : Val}
    (h : (goCall rt m (d + 1) .GetBytes [.bytes (.mem (s.h.ms i).buf), .offs i, .const f]).run s = .ok ([v], s))
    (hh : (gcallMethod p (goCall rt m (d + 1)) (n + 1) msg name [.ptr msg i, .ptr typ j]).halt s = some (.fail e, s')) :
    (gexec p (goCall rt m (d + 1)) (gcallMethod p (goCall rt m (d + 1)) n) (block [ifNil, retDecode t!"x"]) [(t!"buf", .val v), (t!"m", .ptr msg i), (t!"x", .ptr typ j)]).halt s = some (.fail e, s') := by
  rw [gcallMethod, hm] at hh
  have he := geval_getter (p := p) (meth := gcallMethod p (goCall rt m (d + 1)) n) (env := [(t!"m", .ptr msg i), (t!"x", .ptr typ j)]) (t := msg) (conc_WrapOffsets rt m d i) rfl
    (f := t!"GetBytes") (g := .GetBytes) rfl f
  simp only [ginvoke, G.srcGetMessage, gbindAll, gbindArg, if_true, Prog.bind_done] at hh
  have hh := Prog.halt_first hh (fun a s => by
    cases a with
    | next => nofun
    | ret vs => exact Prog.halt_ite)
  rw [block, gexec, gexec, he] at hh
  rw [Prog.halt_bind_ok (a := .next [(t!"buf", .val v), (t!"m", .ptr msg i), (t!"x", .ptr typ j)]) (s' := s)] at hh
  · exact hh
  rw [Prog.run_bind]
  show Except.bind (Prog.run (Prog.bind (Prog.load _ _) _) s) _ = _
  simp only [Prog.bind, Prog.run]
  show Except.bind (Prog.run (_ >>= _) s) _ = _
  rw [show read (.buf i) s = (s.h.ms i).buf from rfl, Prog.run_bind, h]
  rfl

/-- If `Next` of an iterator panics, and there is another element, `Decode` does, after the iterator has been assigned. -/
theorem halt_next {it typ : Text} {f v j : Nat} (hm : method p it t!"Next" = some (G.srcNext it typ f)) {o : Option HSlice} {x : Val}
    (h : (goCall rt m (d + 1) .FindNextField [optVal (s.its v), .const f]).run s = .ok ([optVal o, x], s))
    (hh : (gcallMethod p (goCall rt m (d + 1)) (n + 1) it t!"Next" [.iter it v, .ptr typ j]).halt s = some (.fail e, s')) :
    (gexec p (goCall rt m (d + 1)) (gcallMethod p (goCall rt m (d + 1)) n) (block [ifNil, retDecode t!"m"]) [(t!"buf", .val x), (t!"i", .iter it v), (t!"m", .ptr typ j)]).halt
      ((Write.iter v o).apply s) = some (.fail e, s') := by
  rw [gcallMethod, hm] at hh
  have hl : geval p (goCall rt m (d + 1)) (gcallMethod p (goCall rt m (d + 1)) n)
      [(t!"buf", .val .nil), (t!"i", .iter it v), (t!"m", .ptr typ j)] (.args (.paren (.star (.id t!"i"))) (.arg (.num f))) =
      .load (.iter v) fun (o : Option HSlice) => .done [.val (match o with | none => .nil | some b => .bytes (.mem b)), .val (.const f)] := by
    have h0 : (0 : Int) ≤ (f : Int) := Int.natCast_nonneg f
    simp only [geval, h0, if_true, Int.toNat_natCast,
      show place [(t!"buf", .val .nil), (t!"i", .iter it v), (t!"m", .ptr typ j)] (.star (.id t!"i")) = .ok (.iter v) from rfl]
    rfl
  simp only [ginvoke, G.srcNext, gbindAll, gbindArg, if_true, Prog.bind_done] at hh
  have hh := Prog.halt_first hh (fun a s => by
    cases a with
    | next => nofun
    | ret vs => exact Prog.halt_ite)
  rw [block, gexec, gexec, Prog.bind_done] at hh
  dsimp only at hh
  rw [block, gexec, gexec, geval, hl] at hh
  simp only [show place [(t!"buf", .val .nil), (t!"i", .iter it v), (t!"m", .ptr typ j)] (.star (.id t!"i")) = .ok (.iter v) from rfl,
    show place [(t!"buf", .val .nil), (t!"i", .iter it v), (t!"m", .ptr typ j)] (.id t!"buf") = .ok (.var t!"buf") from rfl, lift, Prog.bind_done] at hh
  have hx := gruntime_eq (call := goCall rt m (d + 1)) (f := t!"FindNextField") (g := .FindNextField) rfl [optVal (s.its v), .const f]
  rw [Prog.halt_bind_ok (a := .next [(t!"buf", .val x), (t!"i", .iter it v), (t!"m", .ptr typ j)]) (s' := (Write.iter v o).apply s)] at hh
  · exact hh
  rw [Prog.run_bind]
  have h1 : (gruntime (goCall rt m (d + 1)) t!"FindNextField" ([optVal (s.its v), .const f].map GVal.val)).run s = .ok ([.val (optVal o), .val x], s) := by
    rw [hx, Prog.run_bind, h]; rfl
  have h2 : (Prog.load (.iter v) (fun (o : Option HSlice) => (.done [.val (match o with | none => .nil | some b => .bytes (.mem b)), .val (.const f)] : Prog (List GVal))) >>=
      fun vs => gruntime (goCall rt m (d + 1)) t!"FindNextField" vs).run s = .ok ([.val (optVal o), .val x], s) := by
    rw [← h1]
    show Prog.run (Prog.bind (Prog.load _ _) _) s = _
    simp only [Prog.bind, Prog.run]
    rw [show read (.iter v) s = s.its v from rfl]
    cases s.its v <;> rfl
  rw [h2]
  cases o <;> rfl

end

end Zeropb.GoSrc.Conc
