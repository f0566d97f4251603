import Verif.Conc.GenHalt
import Verif.Conc.GenSimFail
/-!
# Panics of the methods that read
-/

set_option linter.constructorNameAsVariable false

namespace Zeropb.GoSrc.Conc
open Zeropb.GoSrc.G
open Zeropb.Gen (Text)

/-- A program that panics has changed only what it may write. -/
theorem Prog.Safe.halt_keeps {α : Type} {R W : Loc → Prop} {Q : α → GSt → Prop} {p : Prog α} {s s' : GSt} {e : Stop} (h : p.Safe R W Q s) (hh : p.halt s = some (e, s')) : Keeps W s s' := by
  induction p generalizing s with
  | done a => cases hh
  | stop e' => injection hh with hh; injection hh with h1 h2; subst h2; exact .refl _
  | load l k ih => exact ih _ h.2 hh
  | store w k ih => exact (keeps_write s h.1).trans (ih h.2 hh)
  | newArr bs k ih => exact (keeps_newArr bs s).trans (ih _ h hh)
  | newMap k ih => exact (keeps_newMap s).trans (ih _ h hh)
  | newStruct m k ih => exact (keeps_newStruct m s).trans (ih _ h hh)

section
variable {p : Program} {rt : Rt} {d n m i : Nat} {msg : Text} {s s' : GSt} {e : Fail}

/-- If `GetBytes` panics, the getter of a message field does. -/
theorem halt_getMessage_bytes {name typ : Text} {f j : Nat} (hm : method p msg name = some (G.srcGetMessage msg name typ f))
    (h : (goCall rt m (d + 1) .GetBytes [.bytes (.mem (s.h.ms i).buf), .offs i, .const f]).halt s = some (.fail e, s')) :
    (gcallMethod p (goCall rt m (d + 1)) (n + 1) msg name [.ptr msg i, .ptr typ j]).halt s = some (.fail e, s') := by
  rw [gcallMethod, hm]
  have he := geval_getter (p := p) (meth := gcallMethod p (goCall rt m (d + 1)) n) (env := [(t!"m", .ptr msg i), (t!"x", .ptr typ j)]) (t := msg) (conc_WrapOffsets rt m d i) rfl
    (f := t!"GetBytes") (g := .GetBytes) rfl f
  simp only [ginvoke, G.srcGetMessage, gbindAll, gbindArg, if_true, Prog.bind_done]
  rw [block, gexec, gexec, he]
  refine Prog.halt_bind_stop (Prog.halt_bind_stop (Prog.halt_bind_stop ?_))
  show ((goCall rt m (d + 1) .GetBytes [.bytes (.mem (s.h.ms i).buf), .offs i, .const f]) >>= _).halt s = _
  exact Prog.halt_bind_stop h

/-- If `FindNextField` panics, `Next` does. -/
theorem halt_next_find {it typ : Text} {f v j : Nat} (hm : method p it t!"Next" = some (G.srcNext it typ f))
    (h : (goCall rt m (d + 1) .FindNextField [optVal (s.its v), .const f]).halt s = some (.fail e, s')) :
    (gcallMethod p (goCall rt m (d + 1)) (n + 1) it t!"Next" [.iter it v, .ptr typ j]).halt s = some (.fail e, s') := by
  rw [gcallMethod, hm]
  have hl : geval p (goCall rt m (d + 1)) (gcallMethod p (goCall rt m (d + 1)) n)
      [(t!"buf", .val .nil), (t!"i", .iter it v), (t!"m", .ptr typ j)] (.args (.paren (.star (.id t!"i"))) (.arg (.num f))) =
      .load (.iter v) fun (o : Option HSlice) => .done [.val (match o with | none => .nil | some b => .bytes (.mem b)), .val (.const f)] := by
    have h0 : (0 : Int) ≤ (f : Int) := Int.natCast_nonneg f
    simp only [geval, h0, if_true, Int.toNat_natCast,
      show place [(t!"buf", .val .nil), (t!"i", .iter it v), (t!"m", .ptr typ j)] (.star (.id t!"i")) = .ok (.iter v) from rfl]
    rfl
  simp only [ginvoke, G.srcNext, gbindAll, gbindArg, if_true, Prog.bind_done]
  refine Prog.halt_bind_stop ?_
  rw [block, gexec, gexec, Prog.bind_done]
  dsimp only
  rw [block, gexec, gexec, geval, hl]
  simp only [show place [(t!"buf", .val .nil), (t!"i", .iter it v), (t!"m", .ptr typ j)] (.star (.id t!"i")) = .ok (.iter v) from rfl,
    show place [(t!"buf", .val .nil), (t!"i", .iter it v), (t!"m", .ptr typ j)] (.id t!"buf") = .ok (.var t!"buf") from rfl, lift, Prog.bind_done]
  have hx := gruntime_eq (call := goCall rt m (d + 1)) (f := t!"FindNextField") (g := .FindNextField) rfl [optVal (s.its v), .const f]
  have h1 : (gruntime (goCall rt m (d + 1)) t!"FindNextField" ([optVal (s.its v), .const f].map GVal.val)).halt s = some (.fail e, s') := by
    rw [hx]; exact Prog.halt_bind_stop h
  refine Prog.halt_bind_stop (Prog.halt_bind_stop ?_)
  rw [← h1]
  show Prog.halt (Prog.bind (Prog.load _ _) _) s = _
  simp only [Prog.bind, Prog.halt]
  rw [show read (.iter v) s = s.its v from rfl]
  cases s.its v <;> rfl

end

end Zeropb.GoSrc.Conc
