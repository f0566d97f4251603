import Verif.Conc.GenSafe
import Verif.Conc.ReadHalt
/-!
# What has changed when a setter panics

The counterparts of `gsafe_set` and `gsafe_setBuf` for calls that panic.
-/

set_option linter.constructorNameAsVariable false

namespace Zeropb.GoSrc.Conc
open Zeropb.Gen Zeropb.GoSrc.G

section
variable {p : Program} {R W : Loc → Prop} {s : GSt} {i m d n lv : Nat} {rt : Rt} {msg : Text}

/-- A setter of a scalar field. -/
theorem gsafez_set (hf : Fresh R W s) (hh : Has R W 2 s i) {name goType fn : Text} {f : Nat} {q : Id} (hm : method p msg (t!"Set" ++ name) = some (G.srcSet msg name goType fn f))
    (hg : pkgFunc (t!"Set" ++ fn) = some q) (ht : slots p goType = none) {v : Val} (hv : Readable R v) :
    (gcallMethod p (goCall rt m (d + 1)) (n + 1) msg (t!"Set" ++ name) [.ptr msg i, .val v]).SafeZ (OnStop R W 2 i s) R W (fun _ s' => OnStop R W 2 i s s') s := by
  rw [gcallMethod, hm]
  have hb : gbindArg p (scalarTy goType) (.val v) = .done (.val v) := by
    unfold scalarTy
    split
    · rfl
    · simp only [gbindArg, ht]; rfl
  have he := geval_setter (p := p) (meth := gcallMethod p (goCall rt m (d + 1)) n) (env := [(t!"m", .ptr msg i), (t!"x", .val v)]) (t := msg)
    (x := t!"x") (conc_WrapOffsets rt m d i) rfl hg f rfl
  simp only [ginvoke, G.srcSet, gbindAll, hb, block, gexec, Prog.bind_done]
  rw [he]
  refine Prog.safez_bind (Prog.safez_bind (Prog.safez_bind (Prog.safez_bind ((safez_on (Nat.le_refl _) hf hh rfl ?_ m (d + 1)).imp fun rs s' hr => ?_))))
  · intro x hx
    simp only [List.mem_cons, List.not_mem_nil, or_false] at hx
    rcases hx with rfl | rfl | rfl | rfl
    · exact Or.inr (Or.inl rfl)
    · exact Or.inl rfl
    · exact Or.inr (Or.inr (Or.inl rfl))
    · exact Or.inr (Or.inr hv)
  · exact hr.1

/-- A program that returns does not panic. -/
theorem Prog.Safe.returns {R W : Loc → Prop} {α : Type} {Z : GSt → Prop} {Q : α → GSt → Prop} {p : Prog α} {s s' : GSt} {a : α} (h : p.Safe R W Q s) (hr : p.run s = .ok (a, s')) :
    p.SafeZ Z R W (fun b t => b = a ∧ t = s') s := by
  induction p generalizing s with
  | done b => simp only [Prog.run, Except.ok.injEq, Prod.mk.injEq] at hr; exact hr
  | stop e => cases hr
  | load l k ih => exact ⟨h.1, ih _ h.2 hr⟩
  | store w k ih => exact ⟨h.1, ih h.2 hr⟩
  | newArr bs k ih => exact ih _ h hr
  | newMap k ih => exact ih _ h hr
  | newStruct m k ih => exact ih _ h hr

/-- `buf := x.Encode(); zeropb.f(&m.buf, WrapOffsets(…), num, buf)` -/
theorem gsafez_setBuf (hf : Fresh R W s) (hlt : i < s.next) (hh : Has R W 2 s i) {mname typ F : Text} {f j lj : Nat} (hhj : Has R W lj s j) {q : Id}
    (hm : method p msg mname = some ⟨(t!"m", msg), mname, [(t!"x", .name typ)], [],
      block [.define t!"buf" (.method (.id t!"x") t!"Encode" .noArgs),
        .expr (.pkg F (.args (.addr mbuf) (.args wrap (.args (.num f) (.arg (.id t!"buf"))))))]⟩)
    (he : method p typ t!"Encode" = some (G.srcEncode typ)) (hs : (slots p typ).isSome) (hF : pkgFunc F = some q) :
    (gcallMethod p (goCall rt m (d + 1)) (n + 2) msg mname [.ptr msg i, .struct typ j]).SafeZ (OnStop R W 2 i ⟨s.h.put s.next (s.h.ms j), s.next + 1, s.its⟩) R W
      (fun _ s' => OnStop R W 2 i ⟨s.h.put s.next (s.h.ms j), s.next + 1, s.its⟩ s') s := by
  rw [gcallMethod, hm]
  have hb : gbindArg p (.name typ) (.struct typ j) = (copyStruct j >>= fun k => .done (.struct typ k)) := by
    simp only [gbindArg, hs, and_self, if_true]
  simp only [ginvoke, gbindAll, hb]
  refine Prog.safez_bind (Prog.safez_bind (Prog.safez_bind (((safe_copyStruct hhj).returns (to_copyStruct j s)).imp ?_)))
  rintro _ _ ⟨rfl, rfl⟩
  have hk : Keeps (On 0 i) s ⟨s.h.put s.next (s.h.ms j), s.next + 1, s.its⟩ := keeps_newStruct (s.h.ms j) s
  have hh' : Has R W 2 ⟨s.h.put s.next (s.h.ms j), s.next + 1, s.its⟩ i := hh.keeps hlt hk (Or.inr rfl)
  have hen : gcallMethod p (goCall rt m (d + 1)) (n + 1) typ t!"Encode" [.ptr typ s.next] =
      .load (.buf s.next) fun (b : HSlice) => .done [.val (.bytes (.mem b))] := by
    rw [gcallMethod, he]; rfl
  have hev : geval p (goCall rt m (d + 1)) (gcallMethod p (goCall rt m (d + 1)) (n + 1)) [(t!"m", .ptr msg i), (t!"x", .struct typ s.next)]
      (.method (.id t!"x") t!"Encode" .noArgs) = .load (.buf s.next) fun (b : HSlice) => .done [.val (.bytes (.mem b))] := by
    simp only [geval]
    exact hen
  have hse := fun b : HSlice => geval_setter (p := p) (meth := gcallMethod p (goCall rt m (d + 1)) (n + 1))
    (env := [(t!"buf", .val (.bytes (.mem b))), (t!"m", .ptr msg i), (t!"x", .struct typ s.next)]) (t := msg)
    (x := t!"buf") (conc_WrapOffsets rt m d i) rfl hF f rfl
  show Prog.SafeZ _ _ _ _ (gexec _ _ _ _ _ >>= _) _
  rw [block, gexec, gexec, hev]
  refine Prog.safez_bind (Prog.safez_bind (Prog.safez_bind ⟨(hf.new (.buf s.next) (by simp [Loc.Old, Base.of])).1, ?_⟩))
  have hx : read (.buf s.next) ⟨s.h.put s.next (s.h.ms j), s.next + 1, s.its⟩ = (s.h.ms j).buf := by simp only [read, Heap.put, if_true]; rfl
  rw [hx]
  simp only [Prog.SafeZ, single, lift, Prog.bind_done, block, gexec]
  rw [hse]
  refine Prog.safez_bind (Prog.safez_bind (Prog.safez_bind ((safez_on (Nat.le_refl _) (hf.keeps hk) hh' rfl ?_ m (d + 1)).imp fun rs s' hr => hr.1)))
  · intro x hx
    simp only [List.mem_cons, List.not_mem_nil, or_false] at hx
    rcases hx with rfl | rfl | rfl | rfl
    · exact Or.inr (Or.inl rfl)
    · exact Or.inl rfl
    · exact Or.inr (Or.inr (Or.inl rfl))
    · exact Or.inr (Or.inr (Or.inr ⟨_, Or.inl rfl, hhj.bytes⟩))

end

/-! ## Arrays keep their size -/

/-- Arrays that exist keep their size. -/
def Widens (s s' : GSt) : Prop := s.h.w.arrs.length ≤ s'.h.w.arrs.length ∧ ∀ a, a < s.h.w.arrs.length → (s'.h.w.arr a).length = (s.h.w.arr a).length

theorem Widens.refl (s : GSt) : Widens s s := ⟨Nat.le_refl _, fun _ _ => rfl⟩

theorem Widens.trans {s s' s'' : GSt} (h : Widens s s') (h' : Widens s' s'') : Widens s s'' :=
  ⟨Nat.le_trans h.1 h'.1, fun a ha => (h'.2 a (Nat.lt_of_lt_of_le ha h.1)).trans (h.2 a ha)⟩

theorem widens_write (w : Write) (s : GSt) : Widens s (w.apply s) := ⟨Nat.le_of_eq (w.sameSize s).arrs.symm, fun a _ => (w.sameSize s).arr a⟩

theorem widens_newArr (bs : List Byte) (s : GSt) : Widens s (newArr bs s) := by
  refine ⟨by simp [newArr, withW], fun a ha => ?_⟩
  simp only [newArr, withW, World.arr, List.getD_eq_getElem?_getD, List.getElem?_append_left ha]

theorem Prog.halt_widens {α : Type} {p : Prog α} {s s' : GSt} {e : Stop} (hh : p.halt s = some (e, s')) : Widens s s' := by
  induction p generalizing s with
  | done a => cases hh
  | stop e' => injection hh with hh; injection hh with h1 h2; subst h2; exact .refl _
  | load l k ih => exact ih _ hh
  | store w k ih => exact (widens_write w s).trans (ih hh)
  | newArr bs k ih => exact (widens_newArr bs s).trans (ih _ hh)
  | newMap k ih => exact (show Widens s (Conc.newMap s) from .refl s).trans (ih _ hh)
  | newStruct m k ih => exact (show Widens s (Conc.newStruct m s) from .refl s).trans (ih _ hh)

theorem Prog.run_widens {α : Type} {p : Prog α} {s s' : GSt} {a : α} (hr : p.run s = .ok (a, s')) : Widens s s' := by
  induction p generalizing s with
  | done b => simp only [Prog.run, Except.ok.injEq, Prod.mk.injEq] at hr; rw [hr.2]; exact .refl _
  | stop e => cases hr
  | load l k ih => exact ih _ hr
  | store w k ih => exact (widens_write w s).trans (ih hr)
  | newArr bs k ih => exact (widens_newArr bs s).trans (ih _ hr)
  | newMap k ih => exact (show Widens s (Conc.newMap s) from .refl s).trans (ih _ hr)
  | newStruct m k ih => exact (show Widens s (Conc.newStruct m s) from .refl s).trans (ih _ hr)

end Zeropb.GoSrc.Conc
