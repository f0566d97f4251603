import Verif.Props.Join
import Verif.Props.Guarded
/-!
# C81: goroutines that recover from panics, and are waited for

C78, C79 and C80 together. A program that recovers from panics, and that has structs whose contents it does not know, starts goroutines that recover from panics, waits until all have
ended, and goes on with the structs that they had and made: those of known contents, and those of which the goroutine knew only the type.
-/

set_option linter.constructorNameAsVariable false

namespace Zeropb.GoSrc.Conc
open Zeropb.Gen Zeropb.GoSrc.G Wire
open Zeropb.GoSrc.E (ScalarField goName Compilable programOf Compilable.program Known Entry Cursor Inv Within Shows Points Ledger Loose Lives Acts Whole Crashes Shape wf_sized lives_whole sub_of)

/-! ## Specification -/

/-- Any number of steps of C78. -/
inductive Roaming (U : Unicode) (fs : List FileDesc) : GSt → Ledger → Loose → GSt → Ledger → Loose → Prop
  | refl {s k l} : Roaming U fs s k l s k l
  | step {s k l s' k' l' s'' k'' l''} : Roaming U fs s k l s' k' l' → Acts U fs s' k' l' s'' k'' l'' → Roaming U fs s k l s'' k'' l''

/-- The call returns `out`, or it panics; the memory is `s'` then. -/
def Outcome (p : Program) (rt : Rt) (d : Nat) (t name : Text) (args : List GVal) (o : Option (List GVal)) (s s' : GSt) : Prop :=
  match o with
  | some out => G.run p rt d t name args s = .ok (out, s')
  | none => Crashes p rt d t name args s s'

/-- The bound `m` for the rounds of a loop, in `Worker.prog`, is large enough: no loop is cut off. -/
def Worker.Enough {α : Type} (p : Program) (m : Nat) : Worker α → GSt → Prop
  | .done _, _ => True
  | .new n k, s => (k s.next).Enough p m ⟨s.h.put s.next (.zero n), s.next + 1, s.its⟩
  | .copy i k, s => (k s.next).Enough p m ⟨s.h.put s.next (s.h.ms i), s.next + 1, s.its⟩
  | .make bs k, s => (k ⟨s.h.w.arrs.length, 0, bs.length, bs.length⟩).Enough p m { s with h := { s.h with w := { s.h.w with arrs := s.h.w.arrs ++ [bs] } } }
  | .peek b k, s => (k (s.h.w.slice b).data).Enough p m s
  | .poke a q x k, s => k.Enough p m { s with h := { s.h with w := s.h.w.write a q [x] } }
  | .point v o k, s => k.Enough p m { s with its := fun u => if u = v then o else s.its u }
  | .look v k, s => (k (s.its v)).Enough p m s
  | .call rt d t name args k, s => ∀ o s', Outcome p rt d t name args o s s' → (grun p rt m d t name args).attempt.run s = .ok (o, s') ∧ (k o).Enough p m s'

/-- The type of struct `i`, which is now number `i'`, if goroutine `t` may give it back, and knows it. -/
noncomputable def typeBack (b : Base) (o : Owner) (t : Nat) (s : GSt) (kt : Ledger) (i : Nat) : Option Desc :=
  open Classical in if Yours b o t s i then kt.type i else none

/-- The types of the structs after `n` goroutines have ended: those of the structs that were not handed out, and those that the goroutines know. -/
noncomputable def rejoinType (s : GSt) (k : Ledger) (mine its : Nat → Option Nat) (n : Nat) (s' : Nat → GSt) (k' : Nat → Ledger) (i : Nat) : Option Desc :=
  let theirs := fun t => typeBack (Base.of s) (handOut k.known s mine its) t (s' t) (k' t)
  if i < s.next then
    match mine i with
    | none => k.type i
    | some t => if t < n then theirs t i else none
  else theirs (whose s.next n i) (number s.next n i)

/-- What the program knows after `n` goroutines have ended: about the contents of structs, as in C79; and the types of all others. -/
noncomputable def rejoinLedger (s : GSt) (k : Ledger) (mine its : Nat → Option Nat) (n : Nat) (s' : Nat → GSt) (k' : Nat → Ledger) : Ledger where
  known := rejoin s k.known mine its n s' fun t => (k' t).known
  spoiled := rejoinType s k mine its n s' k'

/-- The iterators of which it knows only the type: those that it did not hand out, and those that the goroutines had. -/
def rejoinLoose (l : Loose) (its : Nat → Option Nat) (n : Nat) (l' : Nat → Loose) : Loose := fun v =>
  match its v with
  | none => l v
  | some t => if t < n then l' t v else none

/-- A program that knows `k` and `l`, in memory `s`, starts goroutines `c`, as in `Forked`; they recover from panics, as in C80. Alone, goroutine `t` would go from there by steps of C78 to memory `s' t`. The
goroutines made the accesses `ts`, and all have ended. -/
structure Released (U : Unicode) (fs : List FileDesc) {α : Type} (s : GSt) (k : Ledger) (l : Loose) (mine its : Nat → Option Nat) (n : Nat) (c : Nat → Worker α) (s' : Nat → GSt) (k' : Nat → Ledger) (l' : Nat → Loose)
    (m : Nat → Nat) (ts : List Nat) (pool : Pool α) : Prop where
  pos : 0 < n
  /-- a struct and its views go to the same goroutine -/
  views : ∀ i e, k.known.structs i = some e → mine i = mine (e.root i)
  /-- the goroutines keep to the rules of C80 -/
  rules : ∀ t, (c t).Follows U fs (MayRead (Base.of s) (handOut k.known s mine its) t) (MayWrite (Base.of s) (handOut k.known s mine its) t) (rightsOf k.known s mine its t) s
  alone : ∀ t, ∃ a, (c t).Alone (programOf U fs) s a (s' t)
  /-- alone, they keep to the rules of C78 -/
  steps : ∀ t, Roaming U fs s k l (s' t) (k' t) (l' t)
  enough : ∀ t, (c t).Enough (programOf U fs) (m t) s
  moves : Moves (Base.of s) (start (fun t => (c t).prog (programOf U fs) (m t)) s) ts pool
  ended : ∀ t, ∃ a, (pool t).1 = .done a

/-- A run of a program that recovers from panics, starts goroutines that recover from panics, and waits for them, from a state in which it knows nothing. -/
inductive Tends (U : Unicode) (fs : List FileDesc) (s0 : GSt) : GSt → Ledger → Loose → Prop
  | start : Tends U fs s0 s0 .nothing (fun _ => none)
  | step {s k l s' k' l'} : Tends U fs s0 s k l → Acts U fs s k l s' k' l' → Tends U fs s0 s' k' l'
  | join {α : Type} {s k l mine its n s' k' l' m ts} {c : Nat → Worker α} {pool : Pool α} : Tends U fs s0 s k l → Released U fs s k l mine its n c s' k' l' m ts pool →
      Tends U fs s0 (join (Base.of s) n mine its pool) (rejoinLedger s k mine its n s' k') (rejoinLoose l its n l')

/-! ## Goroutines, with loops that are not cut off -/

section
variable {U : Unicode} {fs : List FileDesc} {pkg : Text} {R W : Loc → Prop} {α : Type}

theorem Outcome.det {p : Program} {rt : Rt} {d : Nat} {t name : Text} {args : List GVal} {o o' : Option (List GVal)} {s s1 s2 : GSt} (h : Outcome p rt d t name args o s s1)
    (h' : Outcome p rt d t name args o' s s2) : o = o' ∧ s1 = s2 := by
  cases o with
  | some out =>
    cases o' with
    | some out' =>
      have h1 : G.run p rt d t name args s = _ := h
      rw [show G.run p rt d t name args s = _ from h'] at h1
      injection h1 with h1; injection h1 with e1 e2
      subst e1; subst e2
      exact ⟨rfl, rfl⟩
    | none => exact absurd h ((E.C76_panics (show Crashes p rt d t name args s s2 from h').2).1 _)
  | none =>
    have hc : Crashes p rt d t name args s s1 := h
    cases o' with
    | some out' => exact absurd h' ((E.C76_panics hc.2).1 _)
    | none => exact ⟨rfl, (E.C76_panics (show Crashes p rt d t name args s s2 from h').2).2 _ hc.2⟩

/-- A call, in a function that recovers, access by access. -/
theorem Outcome.attempt {p : Program} {rt : Rt} {d : Nat} {t name : Text} {args : List GVal} {o : Option (List GVal)} {s s' : GSt} (h : Outcome p rt d t name args o s s') :
    Ev fun m => (grun p rt m d t name args).attempt.run s = .ok (o, s') := by
  cases o with
  | some out => exact Ev.mono (to_grun h) fun m hm => Prog.attempt_run hm
  | none =>
    obtain ⟨x, hx, he⟩ := halts_of_crashes (show Crashes p rt d t name args s s' from h)
    exact he.mono fun m hm => Prog.attempt_halt hx hm

/-- A goroutine that keeps to the rules makes no infinite loops. -/
theorem Worker.Follows.enough (c : Worker α) : ∀ {g : Rights} {s : GSt}, c.Follows U fs R W g s → Ev fun m => c.Enough (programOf U fs) m s := by
  induction c with
  | done a => exact fun _ => .of fun _ => trivial
  | new n k ih => exact fun hf => ih _ hf
  | copy i k ih => exact fun ⟨_, _, hf⟩ => ih _ hf
  | make bs k ih => exact fun hf => ih _ hf
  | peek b k ih => exact fun hf => ih _ hf.2
  | poke a q x k ih => exact fun hf => ih hf.2
  | point v o k ih => exact fun hf => ih hf.2.2
  | look v k ih => exact fun hf => ih _ hf.2
  | call rt d t name args k ih =>
    intro g s hf
    obtain ⟨g', o, s1, ho, hf⟩ : ∃ g' o s1, Outcome (programOf U fs) rt d t name args o s s1 ∧ (k o).Follows U fs R W g' s1 := by
      obtain ⟨g', _, hf⟩ := hf
      rcases hf with ⟨out, s1, hrun, hf⟩ | ⟨s1, hcr, _, hf⟩
      · exact ⟨g', some out, s1, hrun, hf⟩
      · exact ⟨g', none, s1, hcr, hf⟩
    refine (Ev.and ho.attempt (ih o hf)).mono fun m hm => ?_
    intro o' s' h'
    obtain ⟨e1, e2⟩ := ho.det h'
    subst e1; subst e2
    exact hm

/-- A goroutine that keeps to the rules ends when it runs alone, access by access, with the same result as method by method; and it uses only what it may. -/
theorem Worker.Follows.safe (hc : Compilable U fs pkg) {m : Nat} (c : Worker α) : ∀ {g : Rights} {s : GSt}, Holds R W g s → c.Follows U fs R W g s → c.Enough (programOf U fs) m s →
    ∃ a s', c.Alone (programOf U fs) s a s' ∧ (c.prog (programOf U fs) m).Safe R W (fun _ _ => True) s ∧ (c.prog (programOf U fs) m).run s = .ok (a, s') := by
  induction c with
  | done a => exact fun _ _ _ => ⟨a, _, .done, trivial, rfl⟩
  | new n k ih =>
    intro g s hh hf he
    obtain ⟨a, s', h1, h2⟩ := ih _ (hh.newStruct (m := .zero n) (Nat.le_refl _) (reaches_nil R) nofun nofun fun _ => reaches_nil W) hf he
    exact ⟨a, s', .new h1, h2⟩
  | copy i k ih =>
    intro g s hh hf he
    obtain ⟨lv, hi, hf⟩ := hf
    obtain ⟨hl, _, hs⟩ := hh.struct i lv hi
    obtain ⟨a, s', h1, h2, h3⟩ := ih _ (hh.newStruct hl hs.bytes hs.map hs.wmap hs.wbytes) hf he
    refine ⟨a, s', .copy h1, ?_, (to_copyStruct i s).bind h3⟩
    refine Prog.safe_bind ((safe_copyStruct hs).imp ?_)
    rintro _ _ ⟨rfl, rfl⟩
    exact h2
  | make bs k ih =>
    intro g s hh hf he
    obtain ⟨a, s', h1, h2⟩ := ih _ (hh.quiet (i := 0) (keeps_newArr bs s)) hf he
    exact ⟨a, s', .make h1, h2⟩
  | peek b k ih =>
    intro g s hh hf he
    obtain ⟨a, s', h1, h2, h3⟩ := ih _ hh hf.2 he
    refine ⟨a, s', .peek h1, ?_, To.bind (ends_readSlice b s) h3⟩
    refine Prog.safe_bind ((safe_readSlice (Z := fun _ => True) hf.1 s).safe.and_run.imp ?_)
    rintro bs _ ⟨rfl, hr⟩
    rw [ends_readSlice b _] at hr
    injection hr with hr; injection hr with hr _
    rw [← hr]
    exact h2
  | poke a q x k ih =>
    intro g s hh hf he
    obtain ⟨a, s', h1, h2, h3⟩ := ih (hh.cell _ _ _) hf.2 he
    exact ⟨a, s', .poke h1, ⟨hf.1, h2⟩, h3⟩
  | point v o k ih =>
    intro g s hh hf he
    obtain ⟨hv, ho, hf⟩ := hf
    obtain ⟨a, s', h1, h2, h3⟩ := ih (hh.point ho) hf he
    exact ⟨a, s', .point h1, ⟨(hh.iter v hv).2.1, h2⟩, h3⟩
  | look v k ih =>
    intro g s hh hf he
    obtain ⟨a, s', h1, h2, h3⟩ := ih _ hh hf.2 he
    exact ⟨a, s', .look h1, ⟨(hh.iter v hf.1).1, h2⟩, h3⟩
  | call rt d t name args k ih =>
    intro g s hh hf he
    obtain ⟨g', hmay, hf⟩ := hf
    have hsafe := fun m => hmay.safe hc hh rt m d
    have next : ∀ o s1, Outcome (programOf U fs) rt d t name args o s s1 → Holds R W g' s1 → (k o).Follows U fs R W g' s1 →
        ∃ a s', (k o).Alone (programOf U fs) s1 a s' ∧ ((Worker.call rt d t name args k).prog (programOf U fs) m).Safe R W (fun _ _ => True) s ∧
          ((Worker.call rt d t name args k).prog (programOf U fs) m).run s = .ok (a, s') := by
      intro o s1 ho hh1 hf1
      obtain ⟨e1, e2⟩ := he o s1 ho
      obtain ⟨a, s', h1, h2, h3⟩ := ih o hh1 hf1 e2
      refine ⟨a, s', h1, ?_, To.bind e1 h3⟩
      refine Prog.safe_bind ((Prog.SafeZ.attempt ((hsafe m).safez_true)).and_run.imp ?_)
      rintro o' s2 ⟨_, hr⟩
      rw [e1] at hr
      injection hr with hr; injection hr with hr1 hr2
      rw [← hr1, ← hr2]
      exact h2
    rcases hf with ⟨out, s1, hrun, hf⟩ | ⟨s1, hcr, hle, hf⟩
    · obtain ⟨n0, hn0⟩ := to_grun hrun
      obtain ⟨a, s', h1, h2⟩ := next (some out) s1 hrun ((hsafe n0).run (hn0 n0 (Nat.le_refl _))).1 hf
      exact ⟨a, s', .returns hrun h1, h2⟩
    · obtain ⟨x, hx, n0, hn0⟩ := halts_of_crashes hcr
      obtain ⟨Q, hz⟩ := hmay.holds hc hh hle rt n0 d
      obtain ⟨a, s', h1, h2⟩ := next none s1 hcr (hz.halt (hn0 n0 (Nat.le_refl _))) hf
      exact ⟨a, s', .panics hcr h1, h2⟩

end

/-! ## What holds after the goroutines have ended -/

section
variable {U : Unicode} {fs : List FileDesc} {pkg : Text} {α : Type} {s0 s : GSt} {k : Ledger} {l : Loose} {mine its : Nat → Option Nat} {s' : Nat → GSt} {k' : Nat → Ledger} {l' : Nat → Loose} {pool : Pool α} {n : Nat}
  {c : Nat → Worker α} {m : Nat → Nat} {ts : List Nat}

theorem Roaming.whole (hc : Compilable U fs pkg) {s s' : GSt} {k k' : Ledger} {l l' : Loose} (h : Roaming U fs s k l s' k' l') (hi : Whole U fs s k l) : Whole U fs s' k' l' := by
  induction h with
  | refl => exact hi
  | step _ h ih => exact ih.act hc h

theorem Whole.released (hc : Compilable U fs pkg) (hw : Whole U fs s k l) (h : Released U fs s k l mine its n c s' k' l' m ts pool) :
    Ended (Base.of s) (handOut k.known s mine its) s s' pool ∧ Raceless (Base.of s) pool ∧ ∀ t a, (pool t).1 = .done a → (c t).Alone (programOf U fs) s a (s' t) := by
  have hall := fun t => (h.rules t).safe hc (c t) (holds_rightsOf hw.sound.known h.views t) (h.enough t)
  have hall : ∀ t, ∃ a, (c t).Alone (programOf U fs) s a (s' t) ∧ ((c t).prog (programOf U fs) (m t)).Safe (MayRead (Base.of s) (handOut k.known s mine its) t) (MayWrite (Base.of s) (handOut k.known s mine its) t)
      (fun _ _ => True) s ∧ ((c t).prog (programOf U fs) (m t)).run s = .ok (a, s' t) := by
    intro t
    obtain ⟨a, x, h1, h2, h3⟩ := hall t
    obtain ⟨a', h4⟩ := h.alone t
    obtain ⟨_, rfl⟩ := C80_alone h1 h4
    exact ⟨a, h1, h2, h3⟩
  have hsafe := fun t => (hall t).choose_spec.2.1
  have hsep := separate (Base.of s) (handOut k.known s mine its)
  have key : ∀ t a, (pool t).1 = .done a → (c t).Alone (programOf U fs) s a (s' t) ∧ Agree (MayRead (Base.of s) (handOut k.known s mine its) t) (s' t) (pool t).2 := by
    intro t a ha
    obtain ⟨s1, r1, _, r3, _⟩ := interleave hsep hsafe h.moves t
    obtain ⟨a', h1, _, h3⟩ := hall t
    have r5 : (pool t).1.run s1 = .ok (a', s' t) := by rw [← r1.run]; exact h3
    rw [ha] at r5
    injection r5 with r5; injection r5 with e1 e2
    subst e1; subst e2
    exact ⟨h1, r3⟩
  refine ⟨⟨oneMemory h.moves, fun t => ?_, fun t => ?_⟩, raceless hsep (fun t l => Or.inl) hsafe h.moves, fun t a ha => (key t a ha).1⟩
  · obtain ⟨a, ha⟩ := h.ended t
    exact (key t a ha).2
  · obtain ⟨a, _, h2, h3⟩ := hall t
    exact h2.kept h3

/-- Where the types come from. -/
theorem rejoinType_from (hpos : 0 < n) {i : Nat} {d : Desc} (h : rejoinType s k mine its n s' k' i = some d) :
    (i < s.next ∧ mine i = none ∧ k.type i = some d) ∨
    ∃ t j, t < n ∧ i = place s.next n t j ∧ Yours (Base.of s) (handOut k.known s mine its) t (s' t) j ∧ (k' t).type j = some d := by
  have hback : ∀ t j, typeBack (Base.of s) (handOut k.known s mine its) t (s' t) (k' t) j = some d → Yours (Base.of s) (handOut k.known s mine its) t (s' t) j ∧ (k' t).type j = some d := by
    intro t j hb
    unfold typeBack at hb
    split at hb
    · next h1 => exact ⟨h1, hb⟩
    · cases hb
  simp only [rejoinType] at h
  split at h
  · next hi =>
    cases hm : mine i with
    | none => rw [hm] at h; exact Or.inl ⟨hi, rfl, h⟩
    | some t =>
      rw [hm] at h
      simp only at h
      split at h
      · next ht => exact Or.inr ⟨t, i, ht, (place_old hi).symm, hback t i h⟩
      · cases h
  · next hi =>
    refine Or.inr ⟨whose s.next n i, number s.next n i, ?_, (place_number (Nat.not_lt.mp hi)).symm, hback _ _ h⟩
    simp only [whose, if_neg hi]
    exact Nat.mod_lt _ hpos

/-- The types that come from goroutines. -/
theorem rejoinType_back {t j : Nat} (ht : t < n) (h : Yours (Base.of s) (handOut k.known s mine its) t (s' t) j) : rejoinType s k mine its n s' k' (place s.next n t j) = (k' t).type j := by
  have hback : typeBack (Base.of s) (handOut k.known s mine its) t (s' t) (k' t) j = (k' t).type j := by unfold typeBack; rw [if_pos h]
  rcases Nat.lt_or_ge j s.next with hj | hj
  · rw [place_old hj]
    simp only [rejoinType, if_pos hj, h.given hj, if_pos ht]
    exact hback
  · have : ¬ place s.next n t j < s.next := by rw [place_lt_iff]; omega
    simp only [rejoinType, if_neg this]
    rw [whose_place hj ht, number_place ht]
    exact hback

theorem rejoinType_shared {i : Nat} (hi : i < s.next) (hn : mine i = none) : rejoinType s k mine its n s' k' i = k.type i := by
  simp only [rejoinType, if_pos hi, hn]

/-- Structs of known contents have the type that they have. -/
theorem rejoinLedger_type (hpos : 0 < n) (i : Nat) : (rejoinLedger s k mine its n s' k').type i = rejoinType s k mine its n s' k' i := by
  unfold Ledger.type
  cases h : (rejoinLedger s k mine its n s' k').known.structs i with
  | none => rfl
  | some e =>
    rcases rejoin_from hpos h with ⟨hi, hn, h1⟩ | ⟨t, j, e0, ht, rfl, hb, rfl⟩
    · rw [rejoinType_shared hi hn]
      exact (E.type_known h1).symm
    · rw [rejoinType_back ht hb.2.1]
      exact (E.type_known hb.1).symm

theorem rejoin_loose_of {v t : Nat} (h : its v = some t) : (rejoin s k.known mine its n s' fun t => (k' t).known).iters v = none := by
  simp only [rejoin, h]
  rfl

/-- The invariant holds after the goroutines have ended. -/
theorem join_whole (hw : Whole U fs s k l) (hm : ∀ i e, k.known.structs i = some e → mine i = mine (e.root i)) (hpos : 0 < n)
    (he : Ended (Base.of s) (handOut k.known s mine its) s s' pool) (hk : ∀ t, Whole U fs (s' t) (k' t) (l' t)) :
    Whole U fs (join (Base.of s) n mine its pool) (rejoinLedger s k mine its n s' k') (rejoinLoose l its n l') := by
  have hsized := join_sized (n := n) he hpos
  have ms1 : ∀ t j, t < n → Yours (Base.of s) (handOut k.known s mine its) t (s' t) j →
      (join (Base.of s) n mine its pool).h.ms (place s.next n t j) = placeStruct (Base.of s) n t ((s' t).h.ms j) := by
    intro t j ht hy
    rw [← hy.ms he]
    exact join_ms he ht hy.given
  -- the map of a struct that was not handed out
  have map0 : ∀ i d, k.type i = some d → mine i = none → ∀ id, (s.h.ms i).m = some id → id < s.h.w.maps.length ∧ handOut k.known s mine its (.map id) = none := by
    intro i d hi hn id ho
    refine ⟨(hw.sound.shape.one i d hi).2.2.1.2 id ho, ?_⟩
    cases hh : handOut k.known s mine its (.map id) with
    | none => rfl
    | some u =>
      have hex : ∃ x e, k.known.structs x = some e ∧ (s.h.ms x).m = some id := by
        apply Classical.byContradiction
        intro hex
        simp only [handOut, dif_neg hex] at hh
        cases hh
      obtain ⟨x, e, h1, h2⟩ := hex
      have hx : x = i := by
        apply Classical.byContradiction
        intro hne
        exact hw.sound.shape.maps x i _ _ hne (E.type_known h1) hi id h2 ho
      subst hx
      rw [handOut_map hw.sound.known h1 h2, hn] at hh
      cases hh
  -- a struct is well-formed for the goroutine
  have wf1 : ∀ t m, (s' t).h.w.WF m → (pool t).2.h.w.WF m := by
    rintro t m ⟨⟨h1, h2⟩, h3⟩
    have hz := (he.agree t).size
    exact ⟨⟨h1, by rw [hz.arr]; exact h2⟩, fun id hid => by rw [hz.maps]; exact h3 id hid⟩
  refine ⟨⟨join_inv hw.sound.known hm hpos he fun t => (hk t).sound.known, ⟨fun i d hi => ?_, fun i j di dj hne hi hj => ?_⟩⟩, fun v d fd hv => ?_⟩
  · rw [rejoinLedger_type hpos] at hi
    rcases rejoinType_from hpos hi with ⟨hlt, hn, hi⟩ | ⟨t, j, ht, rfl, hy, hj⟩
    · obtain ⟨o1, o2, o3, o4⟩ := hw.sound.shape.one i d hi
      rw [join_shared_ms he hlt hn]
      exact ⟨o1, Nat.lt_of_lt_of_le o2 (le_room (n := n)), ⟨wf_sized hsized o3.1, fun id hid => Nat.lt_of_lt_of_le (o3.2 id hid) hsized.2.2⟩, o4⟩
    · obtain ⟨o1, o2, o3, o4⟩ := (hk t).sound.shape.one j d hj
      have hwf := (join_msg (n := n) (mine := mine) (its := its) he ht ((s' t).h.ms j)).2 (wf1 t _ o3)
      rw [ms1 t j ht hy]
      exact ⟨o1, place_lt_room (f := fun t => (pool t).2.next) ht (by rw [(he.agree t).size.next]; exact o2), hwf, o4⟩
  · rw [rejoinLedger_type hpos] at hi hj
    intro id ho ho'
    rcases rejoinType_from hpos hi with ⟨hlt, hn, hi⟩ | ⟨t, x, ht, rfl, hy, hx⟩
    · rw [join_shared_ms he hlt hn] at ho
      rcases rejoinType_from hpos hj with ⟨hlt', hn', hj⟩ | ⟨t', x', ht', rfl, hy', hx'⟩
      · rw [join_shared_ms he hlt' hn'] at ho'
        exact hw.sound.shape.maps i j di dj hne hi hj id ho ho'
      · rw [ms1 t' x' ht' hy'] at ho'
        obtain ⟨ha, hc⟩ := map0 i di hi hn id ho
        simp only [placeStruct, Option.map_eq_some_iff] at ho'
        obtain ⟨id0, h2, rfl⟩ := ho'
        have ha' : id0 < s.h.w.maps.length := place_lt_iff.1 ha
        simp only [Base.of, place_old ha'] at hc
        exact not_mayWrite (show Loc.Old (Base.of s) (.map _) from ha') hc t' (hy'.map id0 h2)
    · rw [ms1 t x ht hy] at ho
      simp only [placeStruct, Option.map_eq_some_iff] at ho
      obtain ⟨id0, h2, rfl⟩ := ho
      rcases rejoinType_from hpos hj with ⟨hlt', hn', hj⟩ | ⟨t', x', ht', rfl, hy', hx'⟩
      · rw [join_shared_ms he hlt' hn'] at ho'
        obtain ⟨ha, hc⟩ := map0 j dj hj hn' _ ho'
        have ha' : id0 < s.h.w.maps.length := place_lt_iff.1 ha
        simp only [Base.of, place_old ha'] at hc
        exact not_mayWrite (show Loc.Old (Base.of s) (.map _) from ha') hc t (hy.map id0 h2)
      · rw [ms1 t' x' ht' hy'] at ho'
        simp only [placeStruct, Option.map_eq_some_iff] at ho'
        obtain ⟨id1, h3, h4⟩ := ho'
        by_cases htt : t = t'
        · subst htt
          have e1 := place_inj ht h4
          rw [e1] at h3
          exact (hk t).sound.shape.maps x x' di dj (fun h => hne (by rw [h])) hx hx' id0 h2 h3
        · obtain ⟨h7, h8⟩ := place_two ht ht' htt (Eq.symm h4)
          subst h8
          exact (separate (Base.of s) (handOut k.known s mine its) t t' _ htt (show Loc.Old (Base.of s) (.map _) from h7) (hy.map _ h2)).2 (hy'.map _ h3)
  · unfold rejoinLoose at hv
    cases hv' : its v with
    | none =>
      rw [hv'] at hv
      obtain ⟨a1, a2, a3, a4⟩ := hw.loose v d fd hv
      refine ⟨a1, a2, ?_, fun b hb => wf_sized hsized (a4 b ?_)⟩
      · simp only [rejoinLedger, rejoin, hv', if_true, a3]
        rfl
      · have h1 : (join (Base.of s) n mine its pool).its v = (pool 0).2.its v := by simp only [join, hv']
        have h2 : (pool 0).2.its v = s.its v := he.shared rfl (l := .iter v) trivial hv'
        rw [← h2, ← h1]
        exact hb
    | some t =>
      rw [hv'] at hv
      simp only at hv
      split at hv
      · next ht =>
        obtain ⟨a1, a2, _, a4⟩ := (hk t).loose v d fd hv
        refine ⟨a1, a2, rejoin_loose_of hv', fun b hb => ?_⟩
        have h1 : (join (Base.of s) n mine its pool).its v = ((pool 0).2.its v).map (placeSlice (Base.of s) n t) := by simp only [join, hv']
        have h2 : (pool t).2.its v = (s' t).its v := (he.agree t).same (.iter v) (Or.inl (Or.inr hv'))
        have h3 := (he.one 0 t).its v
        rw [h1, ← h3, h2, Option.map_eq_some_iff] at hb
        obtain ⟨b0, hb0, rfl⟩ := hb
        obtain ⟨w1, w2⟩ := a4 b0 hb0
        refine ⟨w1, ?_⟩
        show b0.off + b0.cap ≤ ((join (Base.of s) n mine its pool).h.w.arr (place (Base.of s).arrs n t b0.arr)).length
        rw [join_arr he ht, (he.agree t).size.arr]
        exact w2
      · cases hv

theorem tends_whole (hc : Compilable U fs pkg) (h : Tends U fs s0 s k l) : Whole U fs s k l := by
  induction h with
  | start => exact lives_whole hc (s0 := s0) .start
  | step _ hs ih => exact ih.act hc hs
  | join _ hf ih => exact join_whole ih hf.views hf.pos (Whole.released hc ih hf).1 fun t => (hf.steps t).whole hc ih

end

/-! ## C81 -/

section
variable {U : Unicode} {fs : List FileDesc} {pkg : Text} {α : Type} {s0 s : GSt} {k : Ledger} {l : Loose} {mine its : Nat → Option Nat} {s' : Nat → GSt} {k' : Nat → Ledger} {l' : Nat → Loose} {pool : Pool α} {n : Nat}
  {c : Nat → Worker α} {m : Nat → Nat} {ts : List Nat}

/-- C81: a program makes calls, of which some panic, starts goroutines that do the same, and waits for them, as often as it likes. At every moment between, every struct of which it knows the contents, of its
own or from a goroutine, is seen as the record of the calls made on it, and its iterators are about to yield what they have not yielded. -/
theorem C81_programs (hc : Compilable U fs pkg) (h : Tends U fs s0 s k l) :
    (∀ i e, k.known.structs i = some e → Shows U (programOf U fs) e.type i s e.contents) ∧ (∀ v q, k.known.iters v = some q → Points (programOf U fs) s v q) :=
  ⟨fun _ _ hi => (tends_whole hc h).sound.known.shows hc hi, fun _ _ hv => Inv.points (tends_whole hc h).sound.known hv⟩

/-- C81: when such a program starts goroutines that keep to the rules, they do not race, and each one gets the results that it gets alone. -/
theorem C81_fork (hc : Compilable U fs pkg) (h : Tends U fs s0 s k l) (hm : ∀ i e, k.known.structs i = some e → mine i = mine (e.root i)) (c : Nat → Worker α)
    (hf : ∀ t, (c t).Follows U fs (MayRead (Base.of s) (handOut k.known s mine its) t) (MayWrite (Base.of s) (handOut k.known s mine its) t) (rightsOf k.known s mine its t) s) :
    ∃ a, RecoversAsAlone (programOf U fs) (handOut k.known s mine its) c s a :=
  C80_races hc _ c _ (fun t => holds_rightsOf (tends_whole hc h).sound.known hm t) hf

/-- C81: what the program gets from the goroutines it waited for: the results that they have alone; every struct of a goroutine, seen as the goroutine knows it; every struct of a goroutine
of which it knows only the type, with that type; and every struct that the program did not hand out, as it was. -/
theorem C81_join (hc : Compilable U fs pkg) (h : Tends U fs s0 s k l) (hf : Released U fs s k l mine its n c s' k' l' m ts pool) :
    (∀ t, ∃ a, (pool t).1 = .done a ∧ (c t).Alone (programOf U fs) s a (s' t)) ∧
    (∀ t i e, t < n → Back (Base.of s) (handOut k.known s mine its) mine k.known t (s' t) (k' t).known i e →
      Shows U (programOf U fs) e.type (place s.next n t i) (join (Base.of s) n mine its pool) e.contents) ∧
    (∀ t i, t < n → Yours (Base.of s) (handOut k.known s mine its) t (s' t) i → (rejoinLedger s k mine its n s' k').type (place s.next n t i) = (k' t).type i) ∧
    (∀ i e, k.known.structs i = some e → mine i = none → Shows U (programOf U fs) e.type i (join (Base.of s) n mine its pool) e.contents) ∧
    (∀ i d, k.type i = some d → mine i = none → (rejoinLedger s k mine its n s' k').type i = some d) := by
  have hw := tends_whole hc h
  have h2 := C81_programs hc (h.join hf)
  refine ⟨fun t => ?_, fun t i e ht hb => ?_, fun t i ht hy => ?_, fun i e hi hn => ?_, fun i d hi hn => ?_⟩
  · obtain ⟨a, ha⟩ := hf.ended t
    exact ⟨a, ha, (Whole.released hc hw hf).2.2 t a ha⟩
  · have := h2.1 _ _ (rejoin_back (s' := s') (k' := fun t => (k' t).known) ht hb)
    exact this
  · rw [rejoinLedger_type hf.pos, rejoinType_back ht hy]
  · exact h2.1 i e (by
      show (rejoin _ _ _ _ _ _ _).structs i = _
      rw [rejoin_shared (hw.sound.known.struct i e hi).2.1 hn]; exact hi)
  · rw [rejoinLedger_type hf.pos, rejoinType_shared (hw.sound.shape.one i d hi).2.1 hn, hi]

/-- C81: a struct that a goroutine may decode into in the end comes back to the program, with the type that the goroutine knows. -/
theorem C81_back {t i lv : Nat} {g : Rights} {x : GSt} (hh : Holds (MayRead (Base.of s) (handOut k.known s mine its) t) (MayWrite (Base.of s) (handOut k.known s mine its) t) g x)
    (hi : g.level i = some lv) (hlv : 1 ≤ lv) : Yours (Base.of s) (handOut k.known s mine its) t x i := by
  obtain ⟨_, _, h⟩ := hh.struct i lv hi
  refine ⟨?_, fun id hid => h.wmap id hlv hid⟩
  rintro l (rfl | ⟨q, rfl⟩ | rfl)
  · exact h.wbuf hlv
  · exact h.wslot q hlv
  · exact h.wref hlv

/-- C81: whatever has happened to a struct, in the program or in a goroutine, `x.Reset(nil)` returns, and then it is empty, of known contents, and refers to no bytes. -/
theorem C81_reset (hc : Compilable U fs pkg) (h : Tends U fs s0 s k l) {j : Nat} {d : Desc} (hj : k.type j = some d) (rt : Rt) (dd : Nat) :
    ∃ x, G.run (programOf U fs) rt dd d.getName t!"Reset" [.ptr d.getName j, .val .nil] s = .ok ([], x) ∧
      Tends U fs s0 x (k.gets j ⟨d, none, .empty⟩) l ∧ Shows U (programOf U fs) d j x .empty ∧ (x.h.ms j).buf.len = 0 := by
  have hw := tends_whole hc h
  obtain ⟨⟨f, hf, hm⟩, _, o3, _⟩ := hw.sound.shape.one j d hj
  have hdi := decls_implements U d (hc.valid f hf d hm)
  have hr := C63_reset_nil hc.program rt dd s (sub_of (U := U) hf hm _ hdi.fixed.2.2) o3
  have he : (s.h.ms j).reset s.h.w .nil = .ok (E.cleared s.h.w (s.h.ms j)) := rfl
  rw [he] at hr
  have hg : Tends U fs s0 _ (k.gets j ⟨d, none, .empty⟩) l := h.step (.moves (.goes (.does (.fill (op := .reset .empty) hj .resetNil (fun h => h) (fun b' hb' => by simp at hb') hr)) fun v x hx => ⟨rfl, by
      obtain ⟨_, _, a3, _⟩ := hw.loose v x.1 x.2 hx
      show (k.known.iters v).filter _ = none
      rw [a3]; rfl⟩))
  refine ⟨_, hr, hg, (C81_programs hc hg).1 j ⟨d, none, .empty⟩ (by simp [Ledger.gets, Known.put]), ?_⟩
  simp only [Heap.upd, if_true]
  rw [(E.cleared_spec o3).2.2.2.1]
  rfl

/-- C81: the goroutines end: if only `n` of them do something, then however they have been interleaved so far, there is a way to go on to the end of all. -/
theorem C81_ends (hc : Compilable U fs pkg) (h : Tends U fs s0 s k l) (hm : ∀ i e, k.known.structs i = some e → mine i = mine (e.root i)) (c : Nat → Worker α)
    (hf : ∀ t, (c t).Follows U fs (MayRead (Base.of s) (handOut k.known s mine its) t) (MayWrite (Base.of s) (handOut k.known s mine its) t) (rightsOf k.known s mine its t) s)
    (hn : ∀ t, n ≤ t → ∃ a, c t = .done a) :
    ∃ m0 : Nat → Nat, ∀ m : Nat → Nat, (∀ t, m0 t ≤ m t) → (∀ t, (c t).Enough (programOf U fs) (m t) s) ∧
      ∀ ts pool, Moves (Base.of s) (start (fun t => (c t).prog (programOf U fs) (m t)) s) ts pool →
        ∃ ts' pool', Moves (Base.of s) (start (fun t => (c t).prog (programOf U fs) (m t)) s) (ts' ++ ts) pool' ∧ ∀ t, ∃ a, (pool' t).1 = .done a := by
  have hen := fun t => (hf t).enough (c t)
  obtain ⟨m0, hm0⟩ := Classical.axiomOfChoice hen
  refine ⟨m0, fun m hmm => ⟨fun t => hm0 t (m t) (hmm t), ?_⟩⟩
  have hall := fun t => (hf t).safe hc (c t) (holds_rightsOf (tends_whole hc h).sound.known hm t) (hm0 t (m t) (hmm t))
  have hsafe := fun t => (hall t).choose_spec.choose_spec.2.1
  have hsep := separate (Base.of s) (handOut k.known s mine its)
  suffices ∀ N ts pool, Moves (Base.of s) (start (fun t => (c t).prog (programOf U fs) (m t)) s) ts pool →
      total (fun t => ((c t).prog (programOf U fs) (m t)).size s - ts.count t) n ≤ N →
      ∃ ts' pool', Moves (Base.of s) (start (fun t => (c t).prog (programOf U fs) (m t)) s) (ts' ++ ts) pool' ∧ ∀ t, ∃ a, (pool' t).1 = .done a from
    fun ts pool hmv => this _ ts pool hmv (Nat.le_refl _)
  intro N
  induction N with
  | zero => ?_
  | succ N ih => ?_
  all_goals
    intro ts pool hmv hN
    by_cases hd : ∀ t, ∃ a, (pool t).1 = .done a
    · exact ⟨[], pool, hmv, hd⟩
    · obtain ⟨t, hd⟩ := Classical.not_forall.1 hd
      obtain ⟨s1, r1, _, _, r4⟩ := interleave hsep hsafe hmv t
      obtain ⟨a, x, _, _, h3⟩ := hall t
      have r5 : (pool t).1.run s1 = .ok (a, x) := by rw [← r1.run]; exact h3
      have hsz : 0 < (pool t).1.size s1 := by
        rcases Nat.eq_zero_or_pos ((pool t).1.size s1) with h0 | h0
        · exact absurd ⟨a, (done_of_size h0 r5).1⟩ hd
        · exact h0
      have ht : t < n := by
        rcases Nat.lt_or_ge t n with ht | ht
        · exact ht
        · obtain ⟨a', ha'⟩ := hn t ht
          rw [ha'] at r4
          simp only [Worker.prog, Prog.size] at r4
          omega
      obtain ⟨pool1, hmove⟩ := move_of_size (b := Base.of s) hsz
      have hlt : total (fun u => ((c u).prog (programOf U fs) (m u)).size s - (t :: ts).count u) n < total (fun u => ((c u).prog (programOf U fs) (m u)).size s - ts.count u) n := by
        refine total_lt (fun u => ?_) ht ?_
        · have : ts.count u ≤ (t :: ts).count u := List.count_le_count_cons
          omega
        · rw [List.count_cons_self]
          omega
      first
      | omega
      | obtain ⟨ts', pool', q1, q2⟩ := ih (t :: ts) pool1 (.step hmv hmove) (by omega)
        exact ⟨ts' ++ [t], pool', by rw [List.append_assoc]; exact q1, q2⟩

/-- The programs of C78 are among these. -/
theorem lives_tends (h : Lives U fs s0 s k l) : Tends U fs s0 s k l := by
  induction h with
  | start => exact .start
  | step _ hs ih => exact ih.step hs

end

/-! ## The hypotheses are met -/

open Zeropb.GoSrc.E (testFile_compilable testFile_has testField received2)

/-- On golden/test.proto: after `var x TestMessage`, goroutine 0 calls `x.Decode` with a message with a field 100, which panics, and recovers. The program waits for it, then calls `x.Reset(nil)` and `x.SetInt32(7)`. Then
`x` has 7. -/
example (rt : Rt) : ∃ s k l fi c1, Tends asciiUnicode [testFile] received2 s k l ∧ ScalarField testDesc fi .int32 ∧
    k.known.structs 0 = some ⟨testDesc, none, c1⟩ ∧ c1 = (Zeropb.Op.set rt (E.num fi) .int32 7#32).apply .empty := by
  have hc := testFile_compilable
  obtain ⟨hf, hm⟩ := testFile_has
  have hv := hc.valid _ hf _ hm
  have v08 : IsVarint 8 [0x08#8] := ⟨[], 0x08#8, rfl, by simp, by decide, by decide, by decide, by decide⟩
  have v01 : IsVarint 1 [0x01#8] := ⟨[], 0x01#8, rfl, by simp, by decide, by decide, by decide, by decide⟩
  have v800 : IsVarint 800 [0xA0#8, 0x06#8] := ⟨[0xA0#8], 0x06#8, rfl, by decide, by decide, by decide, by decide, by decide⟩
  have h1 : IsMessage [⟨1, .varint 1#64⟩, ⟨100, .varint 1#64⟩] [0x08#8, 0x01#8, 0xA0#8, 0x06#8, 0x01#8] :=
    .cons (bs := [0x08#8, 0x01#8]) (rest := [0xA0#8, 0x06#8, 0x01#8]) ⟨[0x08#8], [0x01#8], rfl, v08, v01⟩
      (.cons (bs := [0xA0#8, 0x06#8, 0x01#8]) (rest := []) ⟨[0xA0#8, 0x06#8], [0x01#8], rfl, v800, v01⟩ .nil)
  have n1 : slotsOf testDesc ≤ 100 := by decide +kernel
  have w1 : received2.h.w.WFs ⟨0, 0, 5, 5⟩ := ⟨by decide, by decide⟩
  obtain ⟨fi, i1, i2, i3, i4⟩ := testField (P := fun fd => (getLabel (some fd) = 1 ∨ getLabel (some fd) = 2) ∧ protoKind (getType (some fd)) = some .int32 ∧ E.num fd = 2) (by decide +kernel)
  have hfi : ScalarField testDesc fi .int32 := ⟨i1, i2, i3⟩
  have cs : ∀ i s (x : BitVec 32), E.Calls asciiUnicode testDesc rt i s (t!"Set" ++ goName asciiUnicode fi) [.ptr testDesc.getName i, .val (.i32 x)] (.set rt (E.num fi) .int32 x) :=
    fun i _ x => .set hfi rfl (by intro _ h; rcases h with h | h <;> cases h) (by show 0 + 10 < maxLen; decide)
  obtain ⟨s, k, r1, hs, hk, hn, hw⟩ : ∃ s k, Tends asciiUnicode [testFile] received2 s k (fun _ => none) ∧ s.h.ms 0 = .zero (slotsOf testDesc) ∧
      (∀ i, k.known.structs i = if i = 0 then some ⟨testDesc, none, .empty⟩ else none) ∧ s.next = 1 ∧ s.h.w = received2.h.w :=
    ⟨_, _, Tends.start.step (.moves (.goes (.does (.new hf hm)) nofun)), rfl, fun i => by cases i <;> rfl, rfl, rfl⟩
  have q1 := (C80_verdict hv (b := s.h.w.slice ⟨0, 0, 5, 5⟩)).2.2 _ (by rw [hw]; exact h1) (by rw [hw]; decide) ⟨⟨100, .varint 1#64⟩, by simp, n1⟩
  have hd := decode_verdict hc hf hm rt 0 (s := s) (i := 0) (by omega) hs (b := ⟨0, 0, 5, 5⟩) (by rw [hw]; exact w1) q1.1
  rw [q1.2] at hd
  obtain ⟨s1, hcr⟩ : ∃ s1, Crashes (programOf asciiUnicode [testFile]) rt 0 testDesc.getName t!"Decode" [.ptr testDesc.getName 0, .val (.bytes (.mem ⟨0, 0, 5, 5⟩))] s s1 := by
    rcases hd with ⟨out, _, h, _⟩ | ⟨s1, _, h2, h3, h4⟩
    · cases h
    · exact ⟨s1, h4⟩
  have ht : k.type 0 = some testDesc := E.type_known (e := ⟨testDesc, none, .empty⟩) (by rw [hk]; rfl)
  let mine : Nat → Option Nat := fun i => if i = 0 then some 0 else none
  let its : Nat → Option Nat := fun _ => none
  let c : Nat → Worker Bool := fun t => match t with
    | 0 => .call rt 0 testDesc.getName t!"Decode" [.ptr testDesc.getName 0, .val (.bytes (.mem ⟨0, 0, 5, 5⟩))] fun o => .done o.isSome
    | _ + 1 => .done true
  let s' : Nat → GSt := fun t => match t with
    | 0 => s1
    | _ + 1 => s
  let k' : Nat → Ledger := fun t => match t with
    | 0 => k.spoil 0 testDesc
    | _ + 1 => k
  have hviews : ∀ i e, k.known.structs i = some e → mine i = mine (e.root i) := fun i e hi => by
    rw [hk] at hi
    split at hi
    · injection hi with hi; subst hi; rfl
    · cases hi
  have hlv : (rightsOf k.known s mine its 0).level 0 = some 2 := by simp [rightsOf, hk, mine]
  have may : May asciiUnicode [testFile] (MayRead (Base.of s) (handOut k.known s mine its) 0) (MayWrite (Base.of s) (handOut k.known s mine its) 0) (rightsOf k.known s mine its 0) testDesc.getName
      t!"Decode" [.ptr testDesc.getName 0, .val (.bytes (.mem ⟨0, 0, 5, 5⟩))] ((rightsOf k.known s mine its 0).set 0 1) := by
    refine .decode hf hm hlv (by decide) (fun q _ hq => .inr ?_) (Nat.le_refl _) (by decide) (fun h => absurd h (by decide))
    have : ¬ ∃ i e, k.known.structs i = some e ∧ e.view = none ∧ (s.h.ms i).buf.owns 0 q := by
      rintro ⟨i, e, h1, _, h3⟩
      rw [hk] at h1
      split at h1
      · next hi => subst hi; rw [hs] at h3; exact E.owns_nil h3
      · cases h1
    simp only [handOut, dif_neg this]
  have hle : ((rightsOf k.known s mine its 0).set 0 1).NoMore (rightsOf k.known s mine its 0) := by
    intro i lv hi
    by_cases h : i = 0
    · subst h
      simp only [Rights.set, if_true, Option.some.injEq] at hi
      exact ⟨2, hlv, by omega⟩
    · simp only [Rights.set, if_neg h] at hi
      exact ⟨lv, hi, Nat.le_refl _⟩
  have hrules : ∀ t, (c t).Follows asciiUnicode [testFile] (MayRead (Base.of s) (handOut k.known s mine its) t) (MayWrite (Base.of s) (handOut k.known s mine its) t) (rightsOf k.known s mine its t) s := by
    intro t
    match t with
    | 0 => exact ⟨_, may, .inr ⟨s1, hcr, hle, trivial⟩⟩
    | t + 1 => trivial
  obtain ⟨m, hm0⟩ := C81_ends (n := 1) hc r1 hviews c hrules (by
    intro t ht
    match t with
    | t + 1 => exact ⟨_, rfl⟩)
  obtain ⟨hen, hgo⟩ := hm0 m fun _ => Nat.le_refl _
  obtain ⟨ts, pool, hmv, hend⟩ := hgo _ _ .refl
  have hrel : Released asciiUnicode [testFile] s k (fun _ => none) mine its 1 c s' k' (fun _ _ => none) m _ pool := {
    pos := by decide
    views := hviews
    rules := hrules
    alone := fun t => match t with
      | 0 => ⟨false, .panics hcr .done⟩
      | _ + 1 => ⟨true, .done⟩
    steps := fun t => match t with
      | 0 => .step .refl (.moves (.goes (.decode ht (by rw [hw]; exact w1) hcr.2) nofun))
      | _ + 1 => .refl
    enough := hen
    moves := hmv
    ended := hend }
  have hy : Yours (Base.of s) (handOut k.known s mine its) 0 (s' 0) 0 :=
    C81_back (lv := 1) (C80_call hc (holds_rightsOf (tends_whole hc r1).sound.known hviews 0) may hle hcr) (by simp [Rights.set]) (by decide)
  have r2 := r1.join hrel
  have ht2 := (C81_join hc r1 hrel).2.2.1 0 0 (by decide) hy
  rw [place_old (by rw [hn]; decide), show (k' 0).type 0 = some testDesc by show (k.spoil 0 testDesc).type 0 = _; rw [E.type_spoil, if_pos rfl]] at ht2
  obtain ⟨s2, _, r3, hsh, hlen⟩ := C81_reset hc r2 ht2 rt 0
  obtain ⟨s3, q3, _⟩ := hsh.calls rt 0 _ _ _ (cs 0 _ 7#32) (by
    rw [hlen]
    show 0 + (20 + Kind.size .int32 7#32) < maxLen
    decide)
  have r4 := r3.step (.moves (.goes (.does (.set (c := .empty) (by simp [Ledger.gets, Known.put]) (cs 0 _ 7#32) trivial q3)) fun v x h => by
    simp only [rejoinLoose] at h
    cases h))
  exact ⟨_, _, _, fi, _, r4, hfi, by simp [Ledger.gets, Known.put], rfl⟩

end Zeropb.GoSrc.Conc
