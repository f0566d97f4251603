import Verif.Spec.Std
import Verif.Proof.Unique
set_option linter.unusedSimpArgs false
set_option linter.unusedVariables false
/-!
# Facts about the ordinary implementation: its result, field by field
-/

namespace Zeropb
open Wire

namespace Obj

theorem ext {o o' : Obj} (h1 : ∀ f k, o.val f k = o'.val f k) (h2 : ∀ f, o.child f = o'.child f)
    (h3 : ∀ f, o.elems f = o'.elems f) : o = o' := by
  cases o with | mk v c e =>
  cases o' with | mk v' c' e' =>
  have e1 : v = v' := by funext f k; exact h1 f k
  have e2 : c = c' := by funext f; exact h2 f
  have e3 : e = e' := by funext f; exact h3 f
  subst e1; subst e2; subst e3; rfl

@[simp] theorem val_empty (f k) : empty.val f k = k.dflt := rfl
@[simp] theorem child_empty (f) : empty.child f = none := rfl
@[simp] theorem elems_empty (f) : empty.elems f = [] := rfl
@[simp] theorem child_setVal (o : Obj) (f k x g) : (o.setVal f k x).child g = o.child g := rfl
@[simp] theorem elems_setVal (o : Obj) (f k x g) : (o.setVal f k x).elems g = o.elems g := rfl
@[simp] theorem val_setChild (o : Obj) (f c g k) : (o.setChild f c).val g k = o.val g k := rfl
@[simp] theorem elems_setChild (o : Obj) (f c g) : (o.setChild f c).elems g = o.elems g := rfl
@[simp] theorem val_addElem (o : Obj) (f c g k) : (o.addElem f c).val g k = o.val g k := rfl
@[simp] theorem child_addElem (o : Obj) (f c g) : (o.addElem f c).child g = o.child g := rfl
@[simp] theorem val_setVal_self (o : Obj) (f k x) : (o.setVal f k x).val f k = x := by
  simp [setVal, val]
theorem val_setVal_ne (o : Obj) (f k x g k') (h : g ≠ f ∨ k' ≠ k) : (o.setVal f k x).val g k' = o.val g k' := by
  simp only [setVal, val]
  split
  · next hk =>
    subst hk
    rcases h with h | h
    · rw [if_neg h]
    · exact absurd rfl h
  · rfl
theorem child_setChild (o : Obj) (f c g) : (o.setChild f c).child g = if g = f then some c else o.child g := rfl
theorem elems_addElem (o : Obj) (f c g) : (o.addElem f c).elems g = if g = f then o.elems g ++ [c] else o.elems g := rfl

end Obj

/-- Reading the values of a message field, merging. -/
inductive Merges (Ty : Types) (τ' : Ty.T) : List Val → Option Obj → Option Obj → Prop where
  | nil {o} : Merges Ty τ' [] o o
  | cons {b vs o rs c o'} : IsMessage rs b → Unmarshals Ty τ' rs (o.getD .empty) c → Merges Ty τ' vs (some c) o' →
      Merges Ty τ' (.bytes b :: vs) o o'

/-- Reading the values of a repeated message field. -/
inductive Adds (Ty : Types) (τ' : Ty.T) : List Val → List Obj → List Obj → Prop where
  | nil {es} : Adds Ty τ' [] es es
  | cons {b vs es rs c es'} : IsMessage rs b → Unmarshals Ty τ' rs .empty c → Adds Ty τ' vs (es ++ [c]) es' →
      Adds Ty τ' (.bytes b :: vs) es es'

/-- The result of `Unmarshals`, field by field. -/
structure ByField (Ty : Types) (τ : Ty.T) (rs : List Record) (o o' : Obj) : Prop where
  typed : ∀ r ∈ rs, ∀ k, (Ty.schema τ).kind r.num = some k → ∃ x, decodeVal k r.val = some x
  val : ∀ f k, (Ty.schema τ).kind f = some k → Ty.sub τ f = none →
    (lastVal f rs = none → o'.val f k = o.val f k) ∧ (∀ v x, lastVal f rs = some v → decodeVal k v = some x → o'.val f k = x)
  val_other : ∀ f k, (Ty.schema τ).kind f ≠ some k ∨ Ty.sub τ f ≠ none → o'.val f k = o.val f k
  child : ∀ f τ', Ty.sub τ f = some τ' → (Ty.schema τ).rep f = false → Merges Ty τ' (allVals f rs) (o.child f) (o'.child f)
  child_other : ∀ f, Ty.sub τ f = none ∨ (Ty.schema τ).rep f = true → o'.child f = o.child f
  elems : ∀ f τ', Ty.sub τ f = some τ' → (Ty.schema τ).rep f = true → Adds Ty τ' (allVals f rs) (o.elems f) (o'.elems f)
  elems_other : ∀ f, Ty.sub τ f = none ∨ (Ty.schema τ).rep f = false → o'.elems f = o.elems f

theorem allVals_cons (f : Nat) (r : Record) (rs : List Record) :
    allVals f (r :: rs) = if r.num = f then r.val :: allVals f rs else allVals f rs := by
  unfold allVals
  by_cases h : r.num = f <;> simp [List.filter_cons, h]

theorem lastVal_cons (f : Nat) (r : Record) (rs : List Record) :
    lastVal f (r :: rs) = (lastVal f rs).or (if r.num = f then some r.val else none) := by
  unfold lastVal
  by_cases h : r.num = f
  · simp only [List.filter_cons, h, decide_true, if_true]
    rw [List.getLast?_cons]
    cases (List.filter (fun r => decide (r.num = f)) rs).getLast? <;> simp
  · simp only [List.filter_cons, h, decide_false, Bool.false_eq_true, if_false, Option.or_none]

theorem Unmarshals.byField {Ty : Types} {τ : Ty.T} {rs o o'} (h : Unmarshals Ty τ rs o o') : ByField Ty τ rs o o' := by
  induction h with
  | nil =>
    refine ⟨by simp, ?_, fun _ _ _ => rfl, fun _ _ _ _ => .nil, fun _ _ => rfl, fun _ _ _ _ => .nil, fun _ _ => rfl⟩
    intro f k _ _
    exact ⟨fun _ => rfl, fun v x h => by simp [lastVal] at h⟩
  | @scalar τ f v rs o o' k x hk hs hd _ ih =>
    refine ⟨?_, ?_, ?_, ?_, ?_, ?_, ?_⟩
    · intro r hr k' hk'
      rcases List.mem_cons.1 hr with rfl | hr
      · rw [hk] at hk'; cases hk'; exact ⟨x, hd⟩
      · exact ih.typed r hr k' hk'
    · intro g k' hk' hs'
      obtain ⟨i1, i2⟩ := ih.val g k' hk' hs'
      rw [lastVal_cons]
      by_cases hg : f = g
      · subst hg
        rw [hk] at hk'; cases hk'
        cases hl : lastVal f rs with
        | none =>
          simp only [if_true, Option.none_or]
          refine ⟨by simp, ?_⟩
          intro v' x' hv hx
          cases hv
          rw [hd] at hx; cases hx
          rw [i1 hl]; simp
        | some w =>
          simp only [Option.some_or]
          refine ⟨by simp, ?_⟩
          intro v' x' hv hx
          cases hv
          exact i2 _ x' hl hx
      · simp only [if_neg hg, Option.or_none]
        refine ⟨?_, i2⟩
        intro hl
        rw [i1 hl, Obj.val_setVal_ne _ _ _ _ _ _ (Or.inl (Ne.symm hg))]
    · intro g k' hc
      rw [ih.val_other g k' hc]
      apply Obj.val_setVal_ne
      by_cases hg : g = f
      · right
        rintro rfl
        subst hg
        rcases hc with hc | hc
        · exact hc hk
        · exact hc hs
      · exact Or.inl hg
    · intro g τ' hs' hr
      have hg : f ≠ g := by rintro rfl; rw [hs] at hs'; cases hs'
      rw [allVals_cons, if_neg hg]
      exact ih.child g τ' hs' hr
    · exact ih.child_other
    · intro g τ' hs' hr
      have hg : f ≠ g := by rintro rfl; rw [hs] at hs'; cases hs'
      rw [allVals_cons, if_neg hg]
      exact ih.elems g τ' hs' hr
    · exact ih.elems_other
  | @child τ f b rs o o' τ' rs' c hs hr hm hc _ _ ih =>
    have hk := Ty.sub_bytes τ f τ' hs
    refine ⟨?_, ?_, ?_, ?_, ?_, ?_, ?_⟩
    · intro r hr k' hk'
      rcases List.mem_cons.1 hr with rfl | hr
      · rw [hk] at hk'; cases hk'; exact ⟨b, rfl⟩
      · exact ih.typed r hr k' hk'
    · intro g k' hk' hs'
      have hg : f ≠ g := by rintro rfl; rw [hs] at hs'; cases hs'
      rw [lastVal_cons, if_neg hg, Option.or_none]
      exact ih.val g k' hk' hs'
    · intro g k' hc; rw [ih.val_other g k' hc]; rfl
    · intro g τ2 hs' hr'
      have := ih.child g τ2 hs' hr'
      rw [allVals_cons]
      rw [Obj.child_setChild] at this
      by_cases hg : f = g
      · subst hg
        rw [hs] at hs'; cases hs'
        rw [if_pos rfl] at this ⊢
        exact .cons hm hc this
      · rw [if_neg (Ne.symm hg)] at this
        rw [if_neg hg]; exact this
    · intro g hg
      rw [ih.child_other g hg, Obj.child_setChild, if_neg]
      rintro rfl
      rcases hg with hg | hg
      · rw [hs] at hg; cases hg
      · rw [hr] at hg; cases hg
    · intro g τ2 hs' hr'
      have hg : f ≠ g := by rintro rfl; rw [hr] at hr'; cases hr'
      rw [allVals_cons, if_neg hg]
      exact ih.elems g τ2 hs' hr'
    · exact ih.elems_other
  | @elem τ f b rs o o' τ' rs' c hs hr hm hc _ _ ih =>
    have hk := Ty.sub_bytes τ f τ' hs
    refine ⟨?_, ?_, ?_, ?_, ?_, ?_, ?_⟩
    · intro r hr k' hk'
      rcases List.mem_cons.1 hr with rfl | hr
      · rw [hk] at hk'; cases hk'; exact ⟨b, rfl⟩
      · exact ih.typed r hr k' hk'
    · intro g k' hk' hs'
      have hg : f ≠ g := by rintro rfl; rw [hs] at hs'; cases hs'
      rw [lastVal_cons, if_neg hg, Option.or_none]
      exact ih.val g k' hk' hs'
    · intro g k' hc; rw [ih.val_other g k' hc]; rfl
    · intro g τ2 hs' hr'
      have hg : f ≠ g := by rintro rfl; rw [hr] at hr'; cases hr'
      rw [allVals_cons, if_neg hg]
      exact ih.child g τ2 hs' hr'
    · exact ih.child_other
    · intro g τ2 hs' hr'
      have := ih.elems g τ2 hs' hr'
      rw [allVals_cons]
      rw [Obj.elems_addElem] at this
      by_cases hg : f = g
      · subst hg
        rw [hs] at hs'; cases hs'
        rw [if_pos rfl] at this ⊢
        exact .cons hm hc this
      · rw [if_neg (Ne.symm hg)] at this
        rw [if_neg hg]; exact this
    · intro g hg
      rw [ih.elems_other g hg, Obj.elems_addElem, if_neg]
      rintro rfl
      rcases hg with hg | hg
      · rw [hs] at hg; cases hg
      · rw [hr] at hg; cases hg
  | @skip τ f v rs o o' hk _ ih =>
    refine ⟨?_, ?_, ih.val_other, ?_, ih.child_other, ?_, ih.elems_other⟩
    · intro r hr k' hk'
      rcases List.mem_cons.1 hr with rfl | hr
      · rw [hk] at hk'; cases hk'
      · exact ih.typed r hr k' hk'
    · intro g k' hk' hs'
      have hg : f ≠ g := by rintro rfl; rw [hk] at hk'; cases hk'
      rw [lastVal_cons, if_neg hg, Option.or_none]
      exact ih.val g k' hk' hs'
    · intro g τ2 hs' hr'
      have hg : f ≠ g := by rintro rfl; rw [Ty.sub_bytes τ f τ2 hs'] at hk; cases hk
      rw [allVals_cons, if_neg hg]
      exact ih.child g τ2 hs' hr'
    · intro g τ2 hs' hr'
      have hg : f ≠ g := by rintro rfl; rw [Ty.sub_bytes τ f τ2 hs'] at hk; cases hk
      rw [allVals_cons, if_neg hg]
      exact ih.elems g τ2 hs' hr'

theorem bytes_of_decodeVal {v : Val} {x : List Byte} (h : decodeVal .bytes v = some x) : v = .bytes x := by
  cases v <;> simp [decodeVal] at h
  subst h; rfl

theorem ByField.unmarshals {Ty : Types} {τ : Ty.T} {rs} : ∀ {o o'}, ByField Ty τ rs o o' → Unmarshals Ty τ rs o o' := by
  induction rs with
  | nil =>
    intro o o' h
    have : o = o' := by
      apply Obj.ext
      · intro f k
        by_cases hc : (Ty.schema τ).kind f = some k ∧ Ty.sub τ f = none
        · exact ((h.val f k hc.1 hc.2).1 rfl).symm
        · refine (h.val_other f k ?_).symm
          by_cases h1 : (Ty.schema τ).kind f = some k
          · exact Or.inr fun h2 => hc ⟨h1, h2⟩
          · exact Or.inl h1
      · intro f
        cases hs : Ty.sub τ f with
        | none => exact (h.child_other f (Or.inl hs)).symm
        | some τ' =>
          cases hr : (Ty.schema τ).rep f with
          | true => exact (h.child_other f (Or.inr hr)).symm
          | false =>
            have := h.child f τ' hs hr
            simp only [allVals, List.filter_nil, List.map_nil] at this
            generalize o.child f = a at this
            generalize o'.child f = b at this
            cases this; rfl
      · intro f
        cases hs : Ty.sub τ f with
        | none => exact (h.elems_other f (Or.inl hs)).symm
        | some τ' =>
          cases hr : (Ty.schema τ).rep f with
          | false => exact (h.elems_other f (Or.inr hr)).symm
          | true =>
            have := h.elems f τ' hs hr
            simp only [allVals, List.filter_nil, List.map_nil] at this
            generalize o.elems f = a at this
            generalize o'.elems f = b at this
            cases this; rfl
    subst this; exact .nil
  | cons r rs ih =>
    intro o o' h
    obtain ⟨f, v⟩ := r
    have ht : ∀ r ∈ rs, ∀ k, (Ty.schema τ).kind r.num = some k → ∃ x, decodeVal k r.val = some x :=
      fun r hr => h.typed r (List.mem_cons_of_mem _ hr)
    cases hk : (Ty.schema τ).kind f with
    | none =>
      refine .skip hk (ih ⟨ht, ?_, h.val_other, ?_, h.child_other, ?_, h.elems_other⟩)
      · intro g k hk' hs
        have hg : f ≠ g := by rintro rfl; rw [hk] at hk'; cases hk'
        have := h.val g k hk' hs
        rw [lastVal_cons, if_neg hg, Option.or_none] at this
        exact this
      · intro g τ' hs hr
        have hg : f ≠ g := by rintro rfl; rw [Ty.sub_bytes τ f τ' hs] at hk; cases hk
        have := h.child g τ' hs hr
        rw [allVals_cons, if_neg hg] at this; exact this
      · intro g τ' hs hr
        have hg : f ≠ g := by rintro rfl; rw [Ty.sub_bytes τ f τ' hs] at hk; cases hk
        have := h.elems g τ' hs hr
        rw [allVals_cons, if_neg hg] at this; exact this
    | some k =>
      obtain ⟨x, hx⟩ := h.typed ⟨f, v⟩ (by simp) k hk
      cases hs : Ty.sub τ f with
      | none =>
        refine .scalar hk hs hx (ih ⟨ht, ?_, ?_, ?_, h.child_other, ?_, h.elems_other⟩)
        · intro g k' hk' hs'
          obtain ⟨h1, h2⟩ := h.val g k' hk' hs'
          rw [lastVal_cons] at h1 h2
          by_cases hg : f = g
          · subst hg
            rw [hk] at hk'; cases hk'
            cases hl : lastVal f rs with
            | none =>
              rw [hl] at h2
              refine ⟨fun _ => ?_, by simp⟩
              rw [h2 v x (by simp) hx]; simp
            | some w =>
              rw [hl] at h2
              refine ⟨by simp, ?_⟩
              intro v' x' hv hx'
              cases hv
              exact h2 _ x' (by simp) hx'
          · simp only [if_neg hg, Option.or_none] at h1 h2
            refine ⟨fun hl => ?_, h2⟩
            rw [h1 hl, Obj.val_setVal_ne _ _ _ _ _ _ (Or.inl (Ne.symm hg))]
        · intro g k' hc
          rw [h.val_other g k' hc]
          symm
          apply Obj.val_setVal_ne
          by_cases hg : g = f
          · right
            rintro rfl
            subst hg
            rcases hc with hc | hc
            · exact hc hk
            · exact hc hs
          · exact Or.inl hg
        · intro g τ' hs' hr
          have hg : f ≠ g := by rintro rfl; rw [hs] at hs'; cases hs'
          have := h.child g τ' hs' hr
          rw [allVals_cons, if_neg hg] at this; exact this
        · intro g τ' hs' hr
          have hg : f ≠ g := by rintro rfl; rw [hs] at hs'; cases hs'
          have := h.elems g τ' hs' hr
          rw [allVals_cons, if_neg hg] at this; exact this
      | some τ' =>
        have hkb := Ty.sub_bytes τ f τ' hs
        rw [hk] at hkb; cases hkb
        have hv := bytes_of_decodeVal hx
        simp only at hv
        subst hv
        have hval : ∀ g k, (Ty.schema τ).kind g = some k → Ty.sub τ g = none →
            (lastVal g rs = none → o'.val g k = o.val g k) ∧ (∀ v x, lastVal g rs = some v → decodeVal k v = some x → o'.val g k = x) := by
          intro g k hk' hs'
          have hg : f ≠ g := by rintro rfl; rw [hs] at hs'; cases hs'
          have := h.val g k hk' hs'
          rw [lastVal_cons, if_neg hg, Option.or_none] at this
          exact this
        cases hr : (Ty.schema τ).rep f with
        | false =>
          have hc := h.child f τ' hs hr
          rw [allVals_cons, if_pos rfl] at hc
          generalize hd : o'.child f = d at hc
          cases hc with
          | @cons b vs o1 rs' c o2 hm hu hrest =>
          refine .child hs hr hm hu (ih ⟨ht, hval, h.val_other, ?_, ?_, ?_, h.elems_other⟩)
          · intro g τ2 hs' hr'
            rw [Obj.child_setChild]
            by_cases hg : g = f
            · subst hg
              rw [hs] at hs'; cases hs'
              rw [if_pos rfl, hd]; exact hrest
            · rw [if_neg hg]
              have := h.child g τ2 hs' hr'
              rw [allVals_cons, if_neg (Ne.symm hg)] at this; exact this
          · intro g hg
            rw [h.child_other g hg, Obj.child_setChild, if_neg]
            rintro rfl
            rcases hg with hg | hg
            · rw [hs] at hg; cases hg
            · rw [hr] at hg; cases hg
          · intro g τ2 hs' hr'
            have hg : f ≠ g := by rintro rfl; rw [hr] at hr'; cases hr'
            have := h.elems g τ2 hs' hr'
            rw [allVals_cons, if_neg hg] at this; exact this
        | true =>
          have hc := h.elems f τ' hs hr
          rw [allVals_cons, if_pos rfl] at hc
          generalize hd : o'.elems f = d at hc
          cases hc with
          | @cons b vs o1 rs' c o2 hm hu hrest =>
          refine .elem hs hr hm hu (ih ⟨ht, hval, h.val_other, ?_, h.child_other, ?_, ?_⟩)
          · intro g τ2 hs' hr'
            have hg : f ≠ g := by rintro rfl; rw [hr] at hr'; cases hr'
            have := h.child g τ2 hs' hr'
            rw [allVals_cons, if_neg hg] at this; exact this
          · intro g τ2 hs' hr'
            rw [Obj.elems_addElem]
            by_cases hg : g = f
            · subst hg
              rw [hs] at hs'; cases hs'
              rw [if_pos rfl, hd]; exact hrest
            · rw [if_neg hg]
              have := h.elems g τ2 hs' hr'
              rw [allVals_cons, if_neg (Ne.symm hg)] at this; exact this
          · intro g hg
            rw [h.elems_other g hg, Obj.elems_addElem, if_neg]
            rintro rfl
            rcases hg with hg | hg
            · rw [hs] at hg; cases hg
            · rw [hr] at hg; cases hg

theorem unmarshals_iff {Ty : Types} {τ : Ty.T} {rs o o'} : Unmarshals Ty τ rs o o' ↔ ByField Ty τ rs o o' :=
  ⟨Unmarshals.byField, ByField.unmarshals⟩

/-- The ordinary implementation is deterministic. -/
theorem Unmarshals.det {Ty : Types} {τ : Ty.T} {rs o o'} (h : Unmarshals Ty τ rs o o') : ∀ {o''}, Unmarshals Ty τ rs o o'' → o' = o'' := by
  induction h with
  | nil => intro o'' h; cases h; rfl
  | scalar hk hs hd _ ih =>
    intro o'' h
    cases h with
    | scalar hk' hs' hd' h' => rw [hk] at hk'; cases hk'; rw [hd] at hd'; cases hd'; exact ih h'
    | child hs' => rw [hs] at hs'; cases hs'
    | elem hs' => rw [hs] at hs'; cases hs'
    | skip hk' => rw [hk] at hk'; cases hk'
  | @child τ f b rs o o' τ' rs' c hs hr hm _ _ ih1 ih2 =>
    intro o'' h
    cases h with
    | scalar hk' hs' hd' h' => rw [hs] at hs'; cases hs'
    | child hs' hr' hm' h1 h2 =>
      rw [hs] at hs'; cases hs'
      have := isMessage_unique hm hm'
      subst this
      have := ih1 h1
      subst this
      exact ih2 h2
    | elem hs' hr' => rw [hr] at hr'; cases hr'
    | skip hk' => rw [Ty.sub_bytes _ _ _ hs] at hk'; cases hk'
  | @elem τ f b rs o o' τ' rs' c hs hr hm _ _ ih1 ih2 =>
    intro o'' h
    cases h with
    | scalar hk' hs' hd' h' => rw [hs] at hs'; cases hs'
    | child hs' hr' => rw [hr] at hr'; cases hr'
    | elem hs' hr' hm' h1 h2 =>
      rw [hs] at hs'; cases hs'
      have := isMessage_unique hm hm'
      subst this
      have := ih1 h1
      subst this
      exact ih2 h2
    | skip hk' => rw [Ty.sub_bytes _ _ _ hs] at hk'; cases hk'
  | skip hk _ ih =>
    intro o'' h
    cases h with
    | scalar hk' => rw [hk] at hk'; cases hk'
    | child hs' => rw [Ty.sub_bytes _ _ _ hs'] at hk; cases hk
    | elem hs' => rw [Ty.sub_bytes _ _ _ hs'] at hk; cases hk
    | skip hk' h' => exact ih h'

theorem StdReads.det {Ty : Types} {τ : Ty.T} {b o o'} (h : StdReads Ty τ b o) (h' : StdReads Ty τ b o') : o = o' := by
  obtain ⟨rs, h1, h2⟩ := h
  obtain ⟨rs', h3, h4⟩ := h'
  have := isMessage_unique h1 h3
  subst this
  exact h2.det h4

end Zeropb
