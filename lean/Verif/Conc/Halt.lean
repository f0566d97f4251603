import Verif.Conc.Prog
/-!
# Panics

A Go program may recover from a panic. What it finds then is the memory as it was when the panic happened: `Prog.halt`.
-/

set_option linter.constructorNameAsVariable false

namespace Zeropb.GoSrc.Conc
open Zeropb.GoSrc.G

namespace Prog
variable {α β : Type}

/-- The program runs alone and panics: the panic, and the memory at that moment. -/
def halt {α : Type} : Prog α → GSt → Option (Stop × GSt)
  | .done _, _ => none
  | .stop e, s => some (e, s)
  | .load l k, s => (k (read l s)).halt s
  | .store w k, s => k.halt (w.apply s)
  | .newArr bs k, s => (k s.h.w.arrs.length).halt (Conc.newArr bs s)
  | .newMap k, s => (k s.h.w.maps.length).halt (Conc.newMap s)
  | .newStruct m k, s => (k s.next).halt (Conc.newStruct m s)

/-- A program that panics does not return. -/
theorem halt_run {p : Prog α} {s s' : GSt} {e : Stop} (h : p.halt s = some (e, s')) : p.run s = .error e := by
  induction p generalizing s with
  | done a => cases h
  | stop e' => injection h with h; injection h with h1 h2; subst h1; rfl
  | load l k ih => exact ih _ h
  | store w k ih => exact ih h
  | newArr bs k ih => exact ih _ h
  | newMap k ih => exact ih _ h
  | newStruct m k ih => exact ih _ h

/-- A program that does not return panics. -/
theorem run_halt {p : Prog α} {s : GSt} {e : Stop} (h : p.run s = .error e) : ∃ s', p.halt s = some (e, s') := by
  induction p generalizing s with
  | done a => cases h
  | stop e' => injection h with h; subst h; exact ⟨s, rfl⟩
  | load l k ih => exact ih _ h
  | store w k ih => exact ih h
  | newArr bs k ih => exact ih _ h
  | newMap k ih => exact ih _ h
  | newStruct m k ih => exact ih _ h

theorem halt_bind_ok {p : Prog α} {f : α → Prog β} {s s' : GSt} {a : α} (h : p.run s = .ok (a, s')) : (p >>= f).halt s = (f a).halt s' := by
  show (p.bind f).halt s = _
  induction p generalizing s with
  | done b => simp only [Prog.run, Except.ok.injEq, Prod.mk.injEq] at h; obtain ⟨rfl, rfl⟩ := h; rfl
  | stop e => cases h
  | load l k ih => exact ih _ h
  | store w k ih => exact ih h
  | newArr bs k ih => exact ih _ h
  | newMap k ih => exact ih _ h
  | newStruct m k ih => exact ih _ h

/-- Nothing more happens after the panic. -/
theorem halt_bind_done {p : Prog α} {f : α → β} {s : GSt} : (p >>= fun a => .done (f a)).halt s = p.halt s := by
  show (p.bind fun a => .done (f a)).halt s = _
  induction p generalizing s with
  | done b => rfl
  | stop e => rfl
  | load l k ih => exact ih _
  | store w k ih => exact ih
  | newArr bs k ih => exact ih _
  | newMap k ih => exact ih _
  | newStruct m k ih => exact ih _

/-- `Safe`, and at the moment of a panic `Z` holds of the memory. -/
def SafeZ {α : Type} (Z : GSt → Prop) (R W : Loc → Prop) (Q : α → GSt → Prop) : Prog α → GSt → Prop
  | .done a, s => Q a s
  | .stop _, s => Z s
  | .load l k, s => R l ∧ SafeZ Z R W Q (k (read l s)) s
  | .store w k, s => W w.loc ∧ SafeZ Z R W Q k (w.apply s)
  | .newArr bs k, s => SafeZ Z R W Q (k s.h.w.arrs.length) (Conc.newArr bs s)
  | .newMap k, s => SafeZ Z R W Q (k s.h.w.maps.length) (Conc.newMap s)
  | .newStruct m k, s => SafeZ Z R W Q (k s.next) (Conc.newStruct m s)

variable {Z : GSt → Prop} {R W : Loc → Prop}

theorem SafeZ.safe {Q : α → GSt → Prop} {p : Prog α} {s : GSt} (h : p.SafeZ Z R W Q s) : p.Safe R W Q s := by
  induction p generalizing s with
  | done a => exact h
  | stop e => trivial
  | load l k ih => exact ⟨h.1, ih _ h.2⟩
  | store w k ih => exact ⟨h.1, ih h.2⟩
  | newArr bs k ih => exact ih _ h
  | newMap k ih => exact ih _ h
  | newStruct m k ih => exact ih _ h

theorem safez_bind {Q : β → GSt → Prop} {p : Prog α} {f : α → Prog β} {s : GSt}
    (h : p.SafeZ Z R W (fun a s => (f a).SafeZ Z R W Q s) s) : (p >>= f).SafeZ Z R W Q s := by
  show (p.bind f).SafeZ Z R W Q s
  induction p generalizing s with
  | done a => exact h
  | stop e => exact h
  | load l k ih => exact ⟨h.1, ih _ h.2⟩
  | store w k ih => exact ⟨h.1, ih h.2⟩
  | newArr bs k ih => exact ih _ h
  | newMap k ih => exact ih _ h
  | newStruct m k ih => exact ih _ h

theorem SafeZ.mono {Z' : GSt → Prop} {R' W' : Loc → Prop} {Q Q' : α → GSt → Prop} {p : Prog α} {s : GSt} (h : p.SafeZ Z R W Q s) (hZ : ∀ s, Z s → Z' s) (hR : ∀ l, R l → R' l)
    (hW : ∀ l, W l → W' l) (hQ : ∀ a s, Q a s → Q' a s) : p.SafeZ Z' R' W' Q' s := by
  induction p generalizing s with
  | done a => exact hQ _ _ h
  | stop e => exact hZ _ h
  | load l k ih => exact ⟨hR _ h.1, ih _ h.2⟩
  | store w k ih => exact ⟨hW _ h.1, ih h.2⟩
  | newArr bs k ih => exact ih _ h
  | newMap k ih => exact ih _ h
  | newStruct m k ih => exact ih _ h

theorem SafeZ.imp {Q Q' : α → GSt → Prop} {p : Prog α} {s : GSt} (h : p.SafeZ Z R W Q s) (hQ : ∀ a s, Q a s → Q' a s) : p.SafeZ Z R W Q' s :=
  h.mono (fun _ x => x) (fun _ x => x) (fun _ x => x) hQ

theorem SafeZ.halt {Q : α → GSt → Prop} {p : Prog α} {s s' : GSt} {e : Stop} (h : p.SafeZ Z R W Q s) (hh : p.halt s = some (e, s')) : Z s' := by
  induction p generalizing s with
  | done a => cases hh
  | stop e' => injection hh with hh; injection hh with h1 h2; subst h2; exact h
  | load l k ih => exact ih _ h.2 hh
  | store w k ih => exact ih h.2 hh
  | newArr bs k ih => exact ih _ h hh
  | newMap k ih => exact ih _ h hh
  | newStruct m k ih => exact ih _ h hh

/-- Maps stay. -/
theorem SafeZ.grow {Q : α → GSt → Prop} {p : Prog α} {s : GSt} (h : p.SafeZ Z R W Q s) : p.SafeZ Z R W (fun a s' => Q a s' ∧ s.h.w.maps.length ≤ s'.h.w.maps.length) s := by
  suffices H : ∀ n, n ≤ s.h.w.maps.length → p.SafeZ Z R W (fun a s' => Q a s' ∧ n ≤ s'.h.w.maps.length) s from H _ (Nat.le_refl _)
  induction p generalizing s with
  | done a => exact fun n hn => ⟨h, hn⟩
  | stop e => exact fun n hn => h
  | load l k ih => exact fun n hn => ⟨h.1, ih _ h.2 n hn⟩
  | store w k ih => exact fun n hn => ⟨h.1, ih h.2 n (by rw [(w.sameSize s).maps]; exact hn)⟩
  | newArr bs k ih => exact fun n hn => ih _ h n hn
  | newMap k ih => exact fun n hn => ih _ h n (by simp only [Conc.newMap, withW, List.length_append]; omega)
  | newStruct m k ih => exact fun n hn => ih _ h n hn

end Prog

end Zeropb.GoSrc.Conc
