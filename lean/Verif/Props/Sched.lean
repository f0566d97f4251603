import Verif.Props.Mem
import Verif.Props.Alias
import Verif.Props.Index
set_option linter.unusedSimpArgs false
set_option linter.unusedVariables false
/-!
# Goroutines (C61)

Calls are atomic here: a schedule is a list of calls. What other goroutines can see between the
memory accesses of a call is covered by `C61_torn` and `C61_readers`.
-/

namespace Zeropb
open Wire

/-- The messages whose contents the call uses besides its target. -/
def SysOp.sources : SysOp → List Nat
  | .setMsg _ _ _ j | .appendMsg _ _ _ j => [j]
  | _ => []

/-- Goroutine `e.1` makes the call `e.2`, following the rule: it changes only messages it owns, and
reads only those and shared ones (without owner). -/
def Follows (owner : Nat → Option Nat) (e : Nat × SysOp) : Prop :=
  e.2.Distinct ∧ owner e.2.target = some e.1 ∧ ∀ j ∈ e.2.sources, owner j = some e.1 ∨ owner j = none

/-- The calls of goroutine `g`. -/
def alone (g : Nat) (sched : List (Nat × SysOp)) : List SysOp := (sched.filter (fun e => e.1 = g)).map Prod.snd

/-! ## Proof -/

/-- The messages goroutine `g` may look at are the same. -/
def SameFor (owner : Nat → Option Nat) (g : Nat) (vs us : List Msg) : Prop :=
  ∀ i, owner i = some g ∨ owner i = none → vs[i]? = us[i]?

theorem SysOp.toOp_congr {op : SysOp} {vs us : List Msg} (ht : vs[op.target]? = us[op.target]?)
    (hs : ∀ j ∈ op.sources, vs[j]? = us[j]?) : op.toOp vs = op.toOp us := by
  cases op <;> simp only [SysOp.toOp, SysOp.target, SysOp.sources, List.mem_singleton, forall_eq] at * <;>
    first | rfl | rw [ht] | rw [hs]

theorem SysOp.toOp_target {op : SysOp} {vs : List Msg} {i o} (e : op.toOp vs = some (i, o)) : i = op.target := by
  cases op <;> simp only [SysOp.toOp, Option.some.injEq, Prod.mk.injEq, Option.map_eq_some_iff] at e <;>
    first
    | exact e.1.symm
    | (obtain ⟨v, _, e, _⟩ := e; exact e.symm)

theorem SameFor.own {S : Nat → Schema} {owner g vs us} (h : SameFor owner g vs us) {op : SysOp} (hf : Follows owner (g, op)) :
    match op.runV S vs with
    | .error e => op.runV S us = .error e
    | .ok vs' => ∃ us', op.runV S us = .ok us' ∧ SameFor owner g vs' us' := by
  obtain ⟨_, f1, f2⟩ := hf
  have ht : vs[op.target]? = us[op.target]? := h _ (Or.inl f1)
  have hop := SysOp.toOp_congr ht (fun j hj => h j (f2 j hj))
  unfold SysOp.runV
  rw [← hop]
  cases e : op.toOp vs with
  | none => exact ⟨us, rfl, h⟩
  | some p =>
    obtain ⟨i, o⟩ := p
    have hi := SysOp.toOp_target e
    subst hi
    simp only
    rw [← ht]
    cases hv : vs[op.target]? with
    | none => exact ⟨us, rfl, h⟩
    | some v =>
      simp only
      cases hr : o.run (S op.target) v with
      | error e => rfl
      | ok v' =>
        refine ⟨_, rfl, ?_⟩
        intro j hj
        rw [List.getElem?_set, List.getElem?_set]
        by_cases e2 : op.target = j
        · subst e2
          have h1 : op.target < vs.length := by rw [List.getElem?_eq_some_iff] at hv; exact hv.1
          have h2 : op.target < us.length := by
            rw [hv] at ht
            have := ht.symm
            rw [List.getElem?_eq_some_iff] at this; exact this.1
          rw [if_pos rfl, if_pos rfl, if_pos h1, if_pos h2]
        · rw [if_neg e2, if_neg e2]; exact h j hj

theorem SameFor.other {S : Nat → Schema} {owner g vs us} (h : SameFor owner g vs us) {g' op} (hne : g' ≠ g)
    (hf : Follows owner (g', op)) {vs'} (hr : SysOp.runV S op vs = .ok vs') : SameFor owner g vs' us := by
  intro i hi
  rw [C31_values S hr, h i hi]
  rintro rfl
  rw [hf.2.1] at hi
  rcases hi with hi | hi
  · simp only [Option.some.injEq] at hi; exact hne hi
  · simp at hi

theorem runAllV_sched (S : Nat → Schema) {owner : Nat → Option Nat} (sched : List (Nat × SysOp)) (hf : ∀ e ∈ sched, Follows owner e) :
    ∀ {vs : List Msg} {us : Nat → List Msg}, (∀ g, SameFor owner g vs (us g)) →
    match runAllV S (sched.map Prod.snd) vs with
    | .error e => ∃ g, runAllV S (alone g sched) (us g) = .error e
    | .ok vs' => ∀ g, ∃ us', runAllV S (alone g sched) (us g) = .ok us' ∧ SameFor owner g vs' us' := by
  induction sched with
  | nil => intro vs us h g; exact ⟨us g, rfl, h g⟩
  | cons e sched ih =>
    intro vs us h
    obtain ⟨g0, op⟩ := e
    have hf0 := hf _ (List.mem_cons_self)
    have hown := (h g0).own (S := S) hf0
    have ha : ∀ g, alone g ((g0, op) :: sched) = if g0 = g then op :: alone g sched else alone g sched := by
      intro g; unfold alone
      by_cases e : g0 = g <;> simp [e]
    simp only [List.map_cons, runAllV]
    cases hv : op.runV S vs with
    | error e =>
      rw [hv] at hown
      refine ⟨g0, ?_⟩
      rw [ha, if_pos rfl]
      simp only [runAllV]
      simp only at hown
      rw [hown]; rfl
    | ok vs1 =>
      rw [hv] at hown
      obtain ⟨us1, o1, o2⟩ := hown
      have := ih (fun e he => hf e (List.mem_cons_of_mem _ he)) (vs := vs1) (us := fun g => if g0 = g then us1 else us g) (by
        intro g
        by_cases e : g0 = g
        · subst e; simp only [if_pos]; exact o2
        · simp only [if_neg e]; exact (h g).other e hf0 hv)
      simp only [bind, Except.bind]
      have step : ∀ g, runAllV S (alone g ((g0, op) :: sched)) (us g) = runAllV S (alone g sched) (if g0 = g then us1 else us g) := by
        intro g
        rw [ha]
        by_cases e : g0 = g
        · subst e
          simp only [if_pos, runAllV, o1, bind, Except.bind]
        · simp only [if_neg e]
      cases hrest : runAllV S (sched.map Prod.snd) vs1 with
      | error e =>
        rw [hrest] at this
        obtain ⟨g, hg⟩ := this
        exact ⟨g, by rw [step]; exact hg⟩
      | ok vs' =>
        rw [hrest] at this
        intro g
        obtain ⟨us', hg⟩ := this g
        exact ⟨us', by rw [step]; exact hg.1, hg.2⟩

/-- C61: any number of goroutines, each changing only its own messages and reading only those and
shared ones. In every schedule, every goroutine sees what it would see running alone: if it returns
from all calls alone, it does so in the schedule, and its messages (and the shared ones) are the same. -/
theorem C61_schedule (S : Nat → Schema) {owner : Nat → Option Nat} {sched : List (Nat × SysOp)} (hf : ∀ e ∈ sched, Follows owner e)
    {s : Sys} (h : s.Separate) :
    ((∃ s', s.runAll S (sched.map Prod.snd) = .ok s') ↔ ∀ g, ∃ sg, s.runAll S (alone g sched) = .ok sg) ∧
    ∀ s', s.runAll S (sched.map Prod.snd) = .ok s' → ∀ g sg, s.runAll S (alone g sched) = .ok sg →
      ∀ i, owner i = some g ∨ owner i = none → s'.values[i]? = sg.values[i]? ∧ (owner i = none → s'.values[i]? = s.values[i]?) := by
  have hd : ∀ op ∈ sched.map Prod.snd, op.Distinct := by
    intro op ho
    obtain ⟨e, he, rfl⟩ := List.mem_map.1 ho
    exact (hf e he).1
  have hda : ∀ g, ∀ op ∈ alone g sched, op.Distinct := by
    intro g op ho
    obtain ⟨e, he, rfl⟩ := List.mem_map.1 ho
    exact (hf e (List.mem_filter.1 he).1).1
  have hall := C31_no_interference S _ hd h
  have hv := runAllV_sched S sched hf (vs := s.values) (us := fun _ => s.values) (fun g i _ => rfl)
  have one : ∀ g vs, runAllV S (alone g sched) s.values = .ok vs → ∃ sg, s.runAll S (alone g sched) = .ok sg ∧ sg.values = vs := by
    intro g vs hg
    have := C31_no_interference S _ (hda g) h
    rw [hg] at this
    obtain ⟨sg, e1, e2, _⟩ := this
    exact ⟨sg, e1, e2⟩
  cases hr : runAllV S (sched.map Prod.snd) s.values with
  | error e =>
    rw [hr] at hall hv
    simp only at hall
    constructor
    · constructor
      · rintro ⟨s', hs⟩; rw [hall] at hs; simp at hs
      · intro hg
        obtain ⟨g, he⟩ := hv
        obtain ⟨sg, hsg⟩ := hg g
        have := C31_no_interference S _ (hda g) h
        rw [he] at this
        simp only at this
        rw [this] at hsg; simp at hsg
    · intro s' hs; rw [hall] at hs; simp at hs
  | ok vs =>
    rw [hr] at hall hv
    obtain ⟨s1, e1, e2, _⟩ := hall
    refine ⟨⟨fun _ g => ?_, fun _ => ⟨s1, e1⟩⟩, ?_⟩
    · obtain ⟨us, h1, _⟩ := hv g
      obtain ⟨sg, h2, _⟩ := one g us h1
      exact ⟨sg, h2⟩
    · intro s' hs g sg hsg i hi
      rw [e1] at hs
      simp only [Except.ok.injEq] at hs
      subst hs
      obtain ⟨us, h1, h2⟩ := hv g
      obtain ⟨sg', h3, h4⟩ := one g us h1
      rw [h3] at hsg
      simp only [Except.ok.injEq] at hsg
      subst hsg
      refine ⟨by rw [e2, h4]; exact h2 i hi, ?_⟩
      intro hnone
      have key : ∀ (ops : List (Nat × SysOp)), (∀ e ∈ ops, Follows owner e) → ∀ vs vs', runAllV S (ops.map Prod.snd) vs = .ok vs' →
          vs'[i]? = vs[i]? := by
        intro ops
        induction ops with
        | nil => intro _ vs vs' h; simp only [List.map_nil, runAllV, Except.ok.injEq] at h; rw [h]
        | cons e ops ih =>
          intro hf vs vs' h
          simp only [List.map_cons, runAllV] at h
          cases h1 : e.2.runV S vs with
          | error _ => rw [h1] at h; simp [bind, Except.bind] at h
          | ok vs1 =>
            rw [h1] at h
            rw [ih (fun e he => hf e (List.mem_cons_of_mem _ he)) vs1 vs' h, C31_values S h1]
            rintro rfl
            rw [(hf e List.mem_cons_self).2.1] at hnone
            simp at hnone
      rw [e2]
      exact key sched hf _ _ hr

/-- C61: at every moment between two calls of a schedule, the struct of a shared message, every byte
within the capacity of its buffer and its overflow map are what they were at the start. So a
goroutine reading it finds the same wherever in the schedule each single access falls, even when
other goroutines run in the middle of one of its calls. -/
theorem C61_torn (S : Nat → Schema) {owner : Nat → Option Nat} {sched : List (Nat × SysOp)} (hf : ∀ e ∈ sched, Follows owner e)
    {s : Sys} (h : s.Separate) {i : Nat} {m : HMsg} (hm : s.ms[i]? = some m) (hi : owner i = none) {n : Nat} {sn : Sys}
    (hn : s.runAll S ((sched.take n).map Prod.snd) = .ok sn) :
    sn.ms[i]? = some m ∧ (∀ a p, m.buf.owns a p → sn.w.cell a p = s.w.cell a p) ∧
    ∀ id, m.m = some id → sn.w.maps.getD id [] = s.w.maps.getD id [] := by
  have hf' : ∀ e ∈ sched.take n, Follows owner e := fun e he => hf e (List.mem_of_mem_take he)
  have hne : ∀ op ∈ (sched.take n).map Prod.snd, op.target ≠ i := by
    intro op ho
    obtain ⟨e, he, rfl⟩ := List.mem_map.1 ho
    rintro rfl
    rw [(hf' e he).2.1] at hi; simp at hi
  have hd : ∀ op ∈ (sched.take n).map Prod.snd, op.Distinct := by
    intro op ho
    obtain ⟨e, he, rfl⟩ := List.mem_map.1 ho
    exact (hf' e he).1
  have hwf := h.wf m (List.mem_of_getElem? hm)
  obtain ⟨f1, f2, f3⟩ := C31_footprint S hd h hn
  refine ⟨?_, ?_, ?_⟩
  · generalize (sched.take n).map Prod.snd = ops at hn hne hd
    clear f1 f2 f3 hwf
    induction ops generalizing s with
    | nil => simp only [Sys.runAll, Except.ok.injEq] at hn; subst hn; exact hm
    | cons op ops ih =>
      simp only [Sys.runAll] at hn
      cases h1 : op.run S s with
      | error e => rw [h1] at hn; simp [bind, Except.bind] at hn
      | ok s1 =>
        rw [h1] at hn
        have t := C31_writes S (hd op (by simp)) h h1
        have hsep : s1.Separate := by
          have := h.run (S := S) (hd op (by simp))
          cases hv : op.runV S s.values with
          | error e => rw [hv] at this; simp only at this; rw [this] at h1; simp at h1
          | ok vs =>
            rw [hv] at this
            obtain ⟨s2, e1, _, e3, _⟩ := this
            rw [e1] at h1
            simp only [Except.ok.injEq] at h1
            subst h1; exact e3
        refine ih hsep ?_ hn (fun op ho => hne op (by simp [ho])) (fun op ho => hd op (by simp [ho]))
        rw [t.others i (Ne.symm (hne op (by simp)))]; exact hm
  · intro a p ho
    refine f1 a p (hwf.1.cell_lt ho) ?_
    intro op hop mo hmo hown
    exact h.bufs i op.target m mo (Ne.symm (hne op hop)) hm hmo a p ho hown
  · intro id hid
    refine f2 id (hwf.2 id hid) ?_
    intro op hop mo hmo hmap
    exact h.maps i op.target m mo (Ne.symm (hne op hop)) hm hmo id hid hmap

/-! ## Readers of the same memory -/

/-- Goroutine `g` decodes the slice `b` into its struct `xs[g]`: `Decode(b)`, or what a message
accessor or an iterator does with the slice it found. The slices may overlap. -/
noncomputable def readers : List (Nat × (Nat → Bool) × HSlice) → World → List HMsg → Res (World × List HMsg)
  | [], w, xs => .ok (w, xs)
  | (g, rep, b) :: acts, w, xs => match xs[g]? with
    | none => readers acts w xs
    | some x => do
      let r ← x.decode rep w b
      readers acts r.2.1 (xs.set g r.1)

/-- The decodings of one goroutine, on its own struct and the bytes the slices have in heap `w`. -/
noncomputable def decodes (w : World) (g : Nat) : List (Nat × (Nat → Bool) × HSlice) → Msg → Res Msg
  | [], v => .ok v
  | (g', rep, b) :: acts, v => if g' = g then do
      let r ← v.decode rep (w.slice b)
      decodes w g acts r.1
    else decodes w g acts v

theorem decodes_arrs {w w' : World} (h : w'.arrs = w.arrs) (g acts v) : decodes w' g acts v = decodes w g acts v := by
  induction acts generalizing v with
  | nil => rfl
  | cons a acts ih =>
    obtain ⟨g', rep, b⟩ := a
    unfold decodes
    rw [World.slice_arrs h]
    split
    · cases v.decode rep (w.slice b) with
      | error e => rfl
      | ok r => simp only [bind, Except.bind]; exact ih _
    · exact ih _

theorem readers_spec {acts : List (Nat × (Nat → Bool) × HSlice)} {w : World} {xs : List HMsg} (hw : ∀ x ∈ xs, w.WF x)
    (hmaps : ∀ (i j : Nat) (xi xj : HMsg), i ≠ j → xs[i]? = some xi → xs[j]? = some xj → ∀ id, xi.m = some id → xj.m ≠ some id)
    (hb : ∀ a ∈ acts, w.WFs a.2.2) :
    (∃ w' xs', readers acts w xs = .ok (w', xs') ∧ w'.arrs = w.arrs ∧
      (∀ (g : Nat) (x : HMsg), xs[g]? = some x → ∃ x', xs'[g]? = some x' ∧ decodes w g acts (w.msg x) = .ok (w'.msg x')) ∧
      ∀ m, w.WF m → (∀ x ∈ xs, ∀ id, x.m = some id → m.m ≠ some id) → w'.msg m = w.msg m) ∨
    ∃ (e : Fail) (g : Nat) (x : HMsg), readers acts w xs = .error e ∧ xs[g]? = some x ∧ decodes w g acts (w.msg x) = .error e := by
  induction acts generalizing w xs with
  | nil => exact Or.inl ⟨w, xs, rfl, rfl, fun g x hx => ⟨x, hx, rfl⟩, fun _ _ _ => rfl⟩
  | cons a acts ih =>
    obtain ⟨g0, rep, b⟩ := a
    unfold readers
    cases hx0 : xs[g0]? with
    | none =>
      simp only
      have skip : ∀ g x, xs[g]? = some x → decodes w g ((g0, rep, b) :: acts) (w.msg x) = decodes w g acts (w.msg x) := by
        intro g x hx
        have : g0 ≠ g := by rintro rfl; rw [hx0] at hx; simp at hx
        rw [decodes, if_neg this]
      rcases ih hw hmaps (fun a ha => hb a (by simp [ha])) with ⟨w', xs', h0, h1, h2, h3⟩ | ⟨e, g, x, h1, h2, h3⟩
      · refine Or.inl ⟨w', xs', h0, h1, ?_, h3⟩
        intro g x hx
        rw [skip g x hx]; exact h2 g x hx
      · exact Or.inr ⟨e, g, x, h1, h2, by rw [skip g x h2]; exact h3⟩
    | some x0 =>
      simp only
      have hwx := hw x0 (List.mem_of_getElem? hx0)
      have hwb : w.WFs b := hb _ List.mem_cons_self
      have hdec := decode_refines rep hwx hwb
      cases hv : (w.msg x0).decode rep (w.slice b) with
      | error e =>
        rw [hv] at hdec
        simp only at hdec
        refine Or.inr ⟨e, g0, x0, by rw [hdec]; rfl, hx0, ?_⟩
        rw [decodes, if_pos rfl, hv]; rfl
      | ok p =>
        obtain ⟨v, err⟩ := p
        rw [hv] at hdec
        obtain ⟨x1, w1, d1, d2, d3, d4, d5, d6⟩ := hdec
        simp only [d1, bind, Except.bind]
        have hlt : g0 < xs.length := by rw [List.getElem?_eq_some_iff] at hx0; exact hx0.1
        have look : ∀ j, (xs.set g0 x1)[j]? = if g0 = j then some x1 else xs[j]? := by
          intro j
          rw [List.getElem?_set]
          by_cases e : g0 = j
          · subst e; rw [if_pos rfl, if_pos rfl, if_pos hlt]
          · rw [if_neg e, if_neg e]
        have wfo : ∀ x, w.WF x → w1.WF x := fun x hx =>
          ⟨by have := hx.1; unfold World.WFs World.arr at *; rw [d5]; exact this, fun id e => Nat.lt_of_lt_of_le (hx.2 id e) d6.mgrow⟩
        have own : x1.m = x0.m ∨ ∃ id, x1.m = some id ∧ w.maps.length ≤ id := d6.mown
        have fresh : ∀ m, w.WF m → (∀ id, x0.m = some id → m.m ≠ some id) → ∀ id, x1.m = some id → m.m ≠ some id := by
          intro m hm h0 id h1
          rcases own with e | ⟨id', e, e'⟩
          · exact h0 id (e ▸ h1)
          · rw [e] at h1
            simp only [Option.some.injEq] at h1
            subst h1
            intro h2
            have := hm.2 _ h2
            omega
        have same : ∀ m, w.WF m → (∀ id, x0.m = some id → m.m ≠ some id) → w1.msg m = w.msg m :=
          fun m hm hne => msg_eq_of_frame d6 d5 hm hne
        have hsep : ∀ j xj, g0 ≠ j → xs[j]? = some xj → ∀ id, x0.m = some id → xj.m ≠ some id :=
          fun j xj hj hxj => hmaps g0 j x0 xj hj hx0 hxj
        have mine : decodes w g0 ((g0, rep, b) :: acts) (w.msg x0) = decodes w1 g0 acts (w1.msg x1) := by
          rw [decodes, if_pos rfl, hv]
          simp only [bind, Except.bind]
          rw [← d2, decodes_arrs d5]
        have others : ∀ g x, g0 ≠ g → xs[g]? = some x →
            decodes w g ((g0, rep, b) :: acts) (w.msg x) = decodes w1 g acts (w1.msg x) := by
          intro g x e hx
          rw [decodes, if_neg e, decodes_arrs d5, same x (hw x (List.mem_of_getElem? hx)) (hsep g x e hx)]
        rcases ih (w := w1) (xs := xs.set g0 x1) (by
            intro x hx
            rcases List.mem_or_eq_of_mem_set hx with hx | rfl
            · exact wfo x (hw x hx)
            · exact d3) (by
            intro i j xi xj hij hi hj
            rw [look] at hi hj
            by_cases e1 : g0 = i
            · rw [if_pos e1] at hi
              simp only [Option.some.injEq] at hi
              subst hi
              rw [if_neg (by omega)] at hj
              exact fresh xj (hw xj (List.mem_of_getElem? hj)) (hsep j xj (by omega) hj)
            · rw [if_neg e1] at hi
              by_cases e2 : g0 = j
              · rw [if_pos e2] at hj
                simp only [Option.some.injEq] at hj
                subst hj
                intro id h4 h5
                exact fresh xi (hw xi (List.mem_of_getElem? hi)) (hsep i xi e1 hi) id h5 h4
              · rw [if_neg e2] at hj
                exact hmaps i j xi xj hij hi hj) (by
            intro a ha
            have := hb a (by simp [ha])
            unfold World.WFs World.arr at *; rw [d5]; exact this) with ⟨w', xs', h0, h1, h2, h3⟩ | ⟨e, g, x, h1, h2, h3⟩
        · refine Or.inl ⟨w', xs', h0, h1.trans d5, ?_, ?_⟩
          · intro g x hx
            by_cases e : g0 = g
            · subst e
              rw [hx0] at hx
              simp only [Option.some.injEq] at hx
              subst hx
              rw [mine]
              exact h2 g0 x1 (by rw [look, if_pos rfl])
            · rw [others g x e hx]
              exact h2 g x (by rw [look, if_neg e]; exact hx)
          · intro m hm hne
            have hne0 := hne x0 (List.mem_of_getElem? hx0)
            rw [h3 m (wfo m hm) ?_, same m hm hne0]
            intro x hx
            rcases List.mem_or_eq_of_mem_set hx with hx | rfl
            · exact hne x hx
            · exact fresh m hm hne0
        · right
          rw [look] at h2
          by_cases e2 : g0 = g
          · subst e2
            rw [if_pos rfl] at h2
            simp only [Option.some.injEq] at h2
            subst h2
            exact ⟨e, g0, x0, h1, hx0, by rw [mine]; exact h3⟩
          · rw [if_neg e2] at h2
            exact ⟨e, g, x, h1, h2, by rw [others g x e2 h2]; exact h3⟩

/-- C61: any number of goroutines may decode any slices of the same memory at once, each into a struct
of its own (without a shared overflow map). If no goroutine panics alone, none does in any schedule. Then
no byte of memory changes; every goroutine gets what it would get alone; and every other message reads
as before. -/
theorem C61_readers {acts : List (Nat × (Nat → Bool) × HSlice)} {w : World} {xs : List HMsg} (hw : ∀ x ∈ xs, w.WF x)
    (hmaps : ∀ (i j : Nat) (xi xj : HMsg), i ≠ j → xs[i]? = some xi → xs[j]? = some xj → ∀ id, xi.m = some id → xj.m ≠ some id)
    (hb : ∀ a ∈ acts, w.WFs a.2.2) (hr : ∀ (g : Nat) (x : HMsg), xs[g]? = some x → ∃ v, decodes w g acts (w.msg x) = .ok v) :
    ∃ w' xs', readers acts w xs = .ok (w', xs') ∧ w'.arrs = w.arrs ∧
      (∀ (g : Nat) (x : HMsg), xs[g]? = some x → ∃ x', xs'[g]? = some x' ∧ decodes w g acts (w.msg x) = .ok (w'.msg x')) ∧
      ∀ m, w.WF m → (∀ x ∈ xs, ∀ id, x.m = some id → m.m ≠ some id) → w'.msg m = w.msg m := by
  rcases readers_spec hw hmaps hb with h | ⟨e, g, x, _, h2, h3⟩
  · exact h
  · obtain ⟨v, hv⟩ := hr g x h2
    rw [h3] at hv; simp at hv

/-- A schedule of two goroutines with a message each (0 and 1) that both embed the shared message 2. -/
def demoSched : List (Nat × SysOp) := [(7, .set 0 Rt.exact 2 .int32 5#32), (8, .setMsg 1 Rt.exact 17 2), (7, .setMsg 0 Rt.exact 17 2),
  (8, .set 1 Rt.exact 2 .int32 6#32), (7, .set 0 Rt.exact 2 .int32 300#32)]

/-- Message 0 belongs to goroutine 7, message 1 to goroutine 8. -/
def demoOwner : Nat → Option Nat := fun i => if i = 0 then some 7 else if i = 1 then some 8 else none

/-- Hypotheses of `C61_schedule` and `C61_torn` met: the rule is followed, the initial messages are
separate, and the whole schedule runs, with the bytes one expects. -/
example : (∀ e ∈ demoSched, Follows demoOwner e) ∧ (Sys.start [35, 35, 35]).Separate ∧
    ∃ s, (Sys.start [35, 35, 35]).runAll (fun _ => testSchema) (demoSched.map Prod.snd) = .ok s ∧
      s.values.map (fun v => v.encode.data) = [[0x8a#8, 0x01#8, 0x00#8, 0x10#8, 0xac#8, 0x02#8], [0x8a#8, 0x01#8, 0x00#8, 0x10#8, 0x06#8], []] := by
  refine ⟨?_, Sys.start_separate _, _, rfl, by decide +kernel⟩
  intro e he
  simp only [demoSched, List.mem_cons, List.not_mem_nil, or_false] at he
  rcases he with rfl | rfl | rfl | rfl | rfl <;> simp [Follows, SysOp.Distinct, SysOp.target, SysOp.sources, demoOwner]

/-- Hypotheses of `C61_readers` met: two goroutines decode overlapping slices of one array. -/
example : let w : World := ⟨[[0x8a#8, 0x01#8, 0x02#8, 0x10#8, 0x05#8]], []⟩
    let acts : List (Nat × (Nat → Bool) × HSlice) := [(0, testRep, ⟨0, 0, 5, 5⟩), (1, testRep, ⟨0, 3, 2, 2⟩), (0, testRep, ⟨0, 3, 2, 2⟩)]
    (∀ x ∈ [HMsg.zero 35, HMsg.zero 35], w.WF x) ∧ (∀ a ∈ acts, w.WFs a.2.2) ∧
    ∀ (g : Nat) (x : HMsg), [HMsg.zero 35, HMsg.zero 35][g]? = some x → ∃ v, decodes w g acts (w.msg x) = .ok v := by
  refine ⟨?_, ?_, ?_⟩
  · intro x hx
    simp only [List.mem_cons, List.not_mem_nil, or_false, or_self] at hx
    subst hx
    exact ⟨⟨by decide, by decide⟩, by intro id h; simp [HMsg.zero] at h⟩
  · intro a ha
    simp only [List.mem_cons, List.not_mem_nil, or_false] at ha
    rcases ha with rfl | rfl | rfl <;> exact ⟨by decide, by decide⟩
  · intro g x hx
    have v1 : ∀ b : Byte, b.toNat < 128 → IsVarint b.toNat [b] := fun b h =>
      ⟨[], b, rfl, by simp, h, by simp, by simp only [varintValue]; omega, by omega⟩
    have inner : IsMessage [⟨2, .varint 5#64⟩] [0x10#8, 0x05#8] :=
      .cons (bs := [0x10#8, 0x05#8]) (rest := []) ⟨[0x10#8], [0x05#8], rfl, v1 0x10#8 (by decide), v1 0x05#8 (by decide)⟩ .nil
    have outer : IsMessage [⟨17, .bytes [0x10#8, 0x05#8]⟩] [0x8a#8, 0x01#8, 0x02#8, 0x10#8, 0x05#8] :=
      .cons (bs := [0x8a#8, 0x01#8, 0x02#8, 0x10#8, 0x05#8]) (rest := []) ⟨[0x8a#8, 0x01#8], _, rfl,
        ⟨[0x8a#8], 0x01#8, rfl, by decide, by decide, by decide, by decide, by decide⟩, ⟨[0x02#8], v1 0x02#8 (by decide), rfl⟩⟩ .nil
    have dec : ∀ (m : Msg) (buf : Slice) (rs : List Record), m.off.a.length = 35 → buf.len < maxLen → IsMessage rs buf.data →
        (∀ r ∈ rs, r.num < 35) → ∃ m' e, m.decode testRep buf = .ok (m', e) ∧ m'.off.a.length = 35 := by
      intro m buf rs h1 h2 h3 h4
      obtain ⟨m', e1, _, ⟨cs, e3, _⟩, _⟩ := decode_holds (S := testSchema) (m := m) h1 h2 h3 h4
      exact ⟨m', none, e1, e3.alen⟩
    obtain ⟨m0, e0, d0, a0⟩ := dec (Msg.zero 35) ⟨[0x8a#8, 0x01#8, 0x02#8, 0x10#8, 0x05#8], []⟩ _ rfl (by decide) outer (by decide)
    obtain ⟨m1, e1, d1, _⟩ := dec m0 ⟨[0x10#8, 0x05#8], []⟩ _ a0 (by decide) inner (by decide)
    obtain ⟨m2, e2, d2, _⟩ := dec (Msg.zero 35) ⟨[0x10#8, 0x05#8], []⟩ _ rfl (by decide) inner (by decide)
    have hz : ∀ w : World, w.msg (HMsg.zero 35) = Msg.zero 35 := fun w => rfl
    have s5 : World.slice ⟨[[0x8a#8, 0x01#8, 0x02#8, 0x10#8, 0x05#8]], []⟩ ⟨0, 0, 5, 5⟩ = ⟨[0x8a#8, 0x01#8, 0x02#8, 0x10#8, 0x05#8], []⟩ := rfl
    have s2 : World.slice ⟨[[0x8a#8, 0x01#8, 0x02#8, 0x10#8, 0x05#8]], []⟩ ⟨0, 3, 2, 2⟩ = ⟨[0x10#8, 0x05#8], []⟩ := rfl
    match g, hx with
    | 0, hx =>
      simp only [List.getElem?_cons_zero, Option.some.injEq] at hx
      subst hx
      refine ⟨m1, ?_⟩
      simp only [decodes, hz, s5, s2, d0, d1, bind, Except.bind, if_true, Nat.one_ne_zero, if_false]
    | 1, hx =>
      simp only [List.getElem?_cons_succ, List.getElem?_cons_zero, Option.some.injEq] at hx
      subst hx
      refine ⟨m2, ?_⟩
      simp only [decodes, hz, s5, s2, d2, bind, Except.bind, if_true, Nat.zero_ne_one, if_false]
    | n + 2, hx => simp at hx

/-! ## C18 in shared memory -/

/-- C18: in every interleaving of calls on any number of messages, the array of each message and the map in memory that
it refers to stay consistent. -/
theorem C18_memory (S : Nat → Schema) (n : Nat) (ops : List SysOp) (hv : ∀ op ∈ ops, op.Valid S) {s : Sys}
    (hr : (Sys.start ((List.range n).map fun i => (S i).n)).runAll S ops = .ok s) {i : Nat} {m : HMsg}
    (hi : s.ms[i]? = some m) : Consistent (s.w.offs m) :=
  C18_consistent.1 (C31_reach S n ops hv hr hi)

/-- Hypotheses met: the interleaving shown at C31 is one of these. -/
example : ∃ s, (Sys.start [35, 35]).runAll (fun _ => testSchema)
    [.set 0 Rt.exact 2 .int32 7#32, .setMsg 1 Rt.exact 17 0, .set 0 Rt.exact 2 .int32 300#32] = .ok s ∧
    (s.ms.map (fun m => (s.w.offs m).a.take 3)) = [[0#16, 0#16, 1#16], [0#16, 0#16, 0#16]] :=
  ⟨_, rfl, by decide +kernel⟩

end Zeropb
