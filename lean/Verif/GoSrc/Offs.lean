import Verif.GoSrc.Step
import Verif.Mem.Heap
/-!
# The interpreted source of offsets.go computes the model
-/

set_option linter.constructorNameAsVariable false
set_option linter.unusedSimpArgs false

namespace Zeropb.GoSrc

attribute [local congr] bind_head rangeArr_congr rangeMap_congr loopWhile_congr

/-- Replace struct `i` and the arrays and maps. -/
def Heap.upd (h : Heap) (i : Nat) (r : HMsg × World) : Heap := ⟨r.2, fun j => if j = i then r.1 else h.ms j⟩

theorem put_eq (h : Heap) (i : Nat) (m : HMsg) : h.put i m = h.upd i (m, h.w) := rfl
theorem upd_upd (h : Heap) (i : Nat) (r r' : HMsg × World) : (h.upd i r).upd i r' = h.upd i r' := by
  unfold Heap.upd
  congr 1
  funext j
  by_cases e : j = i <;> simp [e]
theorem upd_w (h : Heap) (i : Nat) (r : HMsg × World) : (h.upd i r).w = r.2 := rfl
theorem upd_ms (h : Heap) (i : Nat) (r : HMsg × World) : (h.upd i r).ms i = r.1 := by simp [Heap.upd]
theorem upd_self (h : Heap) (i : Nat) : h.upd i (h.ms i, h.w) = h := by
  cases h
  unfold Heap.upd
  congr 1
  funext j
  by_cases e : j = i <;> simp [e]
theorem mk_upd (h : Heap) (i : Nat) (r : HMsg × World) (w : World) : (⟨w, (h.upd i r).ms⟩ : Heap) = h.upd i (r.1, w) := rfl
theorem upd_mk (h : Heap) (i : Nat) (r : HMsg × World) (w : World) : (⟨w, h.ms⟩ : Heap).upd i r = h.upd i r := rfl
theorem mk_ms (h : Heap) (i : Nat) (w : World) : (⟨w, h.ms⟩ : Heap) = h.upd i (h.ms i, w) := by
  unfold Heap.upd
  congr 1
  funext j
  by_cases e : j = i <;> simp [e]

theorem funcOf_Get : funcOf .Get = some srcGet := rfl
theorem funcOf_Set : funcOf .Set = some srcSet := rfl
theorem funcOf_Clear : funcOf .Clear = some srcClear := rfl

/-- offsets.go:47-54. -/
theorem go_Get (rt : Rt) (d i f : Nat) (h : Heap) : goCall rt (d + 1) .Get [.offs i, .int f] h =
    (lift ((h.w.offs (h.ms i)).get f) >>= fun r => .ok ([.u64 r.1, .bool r.2], h)) := by
  rw [goCall, funcOf_Get]
  simp only [Offsets.get, Offsets.slot, World.offs]
  cases e : (h.ms i).a[f]? with
  | none =>
    gosimp [srcGet, e]
    rfl
  | some x =>
    by_cases hx : x = 65535#16
    · gosimp [srcGet, e, hx]
      cases hm : (h.ms i).m with
      | none => rfl
      | some id => rfl
    · have h2 : (x ≠ offsetInMap) := hx
      gosimp [srcGet, e, hx]
      simp only [bind, Except.bind, if_pos h2]
      rfl

theorem getD_set_self {α : Type} (l : List α) (id : Nat) (d : α) : l.set id (l.getD id d) = l := by
  by_cases e : id < l.length
  · rw [List.getD_eq_getElem?_getD, List.getElem?_eq_getElem e, Option.getD_some, List.set_getElem_self]
  · exact List.set_eq_of_length_le (by omega)

theorem getD_set {α : Type} (l : List α) (id : Nat) (x d : α) (h : id < l.length) : (l.set id x).getD id d = x := by
  rw [List.getD_eq_getElem?_getD, List.getElem?_set_self h, Option.getD_some]

/-- offsets.go:57-74. -/
theorem go_Set (rt : Rt) (d i f : Nat) (x : U64) (h : Heap) (hw : ∀ id, (h.ms i).m = some id → id < h.w.maps.length) :
    goCall rt (d + 1) .Set [.offs i, .int f, .u64 x] h =
    (lift ((h.w.offs (h.ms i)).set f x) >>= fun o => .ok ([], h.upd i (h.w.storeOffs (h.ms i) o))) := by
  rw [goCall, funcOf_Set]
  simp only [Offsets.set, Offsets.slot, World.offs]
  have c : (offsetMaxInArray.setWidth 64 : U64) = BitVec.setWidth 64 (65535#16 - 1#16) := rfl
  rw [c]
  by_cases hx : x ≤ BitVec.setWidth 64 (65535#16 - 1#16)
  · rw [if_pos hx]
    cases e : (h.ms i).a[f]? with
    | none =>
      gosimp [srcSet, e, hx]
      rfl
    | some y =>
      have hl := (List.getElem?_eq_some_iff.1 e).1
      have hl' : (f : Int) < ((h.ms i).a.length : Int) := by omega
      by_cases hy : y = 65535#16
      · cases hm : (h.ms i).m with
        | none =>
          gosimp [srcSet, e, hx, hy, hm, hl', put_eq]
          simp only [bind, Except.bind, lift, pure, Except.pure, World.storeOffs, hm, Option.map_none, ite_self, put_eq]
        | some id =>
          have hid := hw id hm
          gosimp [srcSet, e, hx, hy, hm, hl', put_eq]
          simp only [bind, Except.bind, lift, pure, Except.pure, World.storeOffs, hm, Option.map_some, offsetInMap, if_true, upd_mk]
      · have hy' : y ≠ offsetInMap := hy
        gosimp [srcSet, e, hx, hy, hl', put_eq]
        cases hm : (h.ms i).m with
        | none =>
          simp only [bind, Except.bind, lift, pure, Except.pure, World.storeOffs, hm, Option.map_none, ite_self]
        | some id =>
          simp only [bind, Except.bind, lift, pure, Except.pure, World.storeOffs, hm, Option.map_some, if_neg hy', getD_set_self]
  · rw [if_neg hx]
    cases e : (h.ms i).a[f]? with
    | none =>
      have hl := List.getElem?_eq_none_iff.1 e
      have hl' : ¬ (f : Int) < ((h.ms i).a.length : Int) := by omega
      gosimp [srcSet, e, hx, hl']
      rfl
    | some y =>
      have hl := (List.getElem?_eq_some_iff.1 e).1
      have hl' : (f : Int) < ((h.ms i).a.length : Int) := by omega
      cases hm : (h.ms i).m with
      | none =>
        gosimp [srcSet, e, hx, hm, hl', put_eq, upd_ms, upd_w, upd_upd]
        simp only [bind, Except.bind, lift, pure, Except.pure, World.storeOffs, hm, upd_mk, mk_upd, upd_upd]
        have e1 : (h.w.maps ++ [[]]).getD h.w.maps.length [] = ([] : GoMap) := by simp
        have e2 (y : GoMap) : (h.w.maps ++ [[]]).set h.w.maps.length y = h.w.maps ++ [y] := by simp
        rw [e1, e2]
        rfl
      | some id =>
        have hid := hw id hm
        gosimp [srcSet, e, hx, hm, hl', put_eq, upd_ms, upd_w, upd_upd]
        simp only [bind, Except.bind, lift, pure, Except.pure, World.storeOffs, hm, upd_mk, mk_upd, upd_upd]
        rfl

/-! ## Loops -/

/-- A `range` loop whose body always goes on is a fold. -/
theorem forEach_fold {σ : Type} {body : Nat → St → M (Out × St)} (P : σ → Prop) (q : σ → St) (g : σ → Nat → σ) :
    ∀ (ks : List Nat) (x : σ), P x → (∀ k ∈ ks, ∀ x, P x → body k (q x) = .ok (.next, q (g x k)) ∧ P (g x k)) →
      forEach body ks (q x) = .ok (.next, q (ks.foldl g x)) ∧ P (ks.foldl g x)
  | [], x, hx, _ => ⟨rfl, hx⟩
  | k :: ks, x, hx, hb => by
    have h1 := hb k (List.mem_cons_self ..) x hx
    have ih := forEach_fold P q g ks (g x k) h1.2 (fun k' hk => hb k' (List.mem_cons_of_mem _ hk))
    simp only [forEach, h1.1, bind_ok, List.foldl_cons]
    exact ih

/-- Updating every element of a list in order. -/
theorem foldl_set_map {α : Type} (f : α → α) (d : α) (a : List α) : ∀ n ≤ a.length,
    (List.range n).foldl (fun a k => a.set k (f (a.getD k d))) a = (a.take n).map f ++ a.drop n
  | 0, _ => by simp
  | n + 1, hn => by
    have ih := foldl_set_map f d a n (by omega)
    rw [List.range_succ, List.foldl_append, ih]
    simp only [List.foldl_cons, List.foldl_nil]
    have hl : ((a.take n).map f).length = n := by simp; omega
    have e1 : ((a.take n).map f ++ a.drop n).getD n d = a.getD n d := by
      rw [List.getD_eq_getElem?_getD, List.getElem?_append_right (by omega), hl, Nat.sub_self, List.getElem?_drop,
        List.getD_eq_getElem?_getD, Nat.add_zero]
    have hn' : n < a.length := by omega
    rw [e1, List.set_append_right _ _ (by omega), hl, Nat.sub_self, List.drop_eq_getElem_cons hn', List.set_cons_zero,
      List.getD_eq_getElem?_getD, List.getElem?_eq_getElem hn', Option.getD_some, List.take_add_one, List.getElem?_eq_getElem hn',
      List.map_append, List.append_assoc]
    rfl

theorem foldl_del : ∀ (ks : List Nat) (m : GoMap), ks.foldl GoMap.del m = m.filter (fun e => decide (e.1 ∉ ks))
  | [], m => by rw [List.foldl_nil, List.filter_eq_self.2]; simp
  | k :: ks, m => by
    rw [List.foldl_cons, foldl_del ks, GoMap.del, List.filter_filter]
    apply List.filter_congr
    intro x _
    simp only [List.mem_cons, not_or]
    rw [Bool.eq_iff_iff]; simp [and_comm]

theorem foldl_del_keys (rt : Rt) (m : GoMap) : (rt.perm m.keys).foldl GoMap.del m = [] := by
  rw [foldl_del, List.filter_eq_nil_iff]
  intro e he
  have : e.1 ∈ rt.perm m.keys := (rt.perm_ok _).mem_iff.2 (List.mem_map_of_mem he)
  simp [this]

theorem del_of_find_none : ∀ (m : GoMap) (k : Nat), m.find k = none → m.del k = m
  | [], _, _ => rfl
  | (k', v) :: m, k, h => by
    simp only [GoMap.find] at h
    by_cases e : k' = k
    · simp [e] at h
    · rw [if_neg e] at h
      have ih := del_of_find_none m k h
      simp only [GoMap.del] at ih ⊢
      rw [List.filter_cons_of_pos (by simpa using e), ih]

theorem foldl_const {α : Type} (x : α) (a : List α) : (List.range a.length).foldl (fun a k => a.set k x) a = a.map (fun _ => x) := by
  have := foldl_set_map (fun _ => x) x a a.length (Nat.le_refl _)
  rw [List.take_length, List.drop_length, List.append_nil] at this
  exact this

/-- Struct `i` with another array. -/
def Heap.setA (h : Heap) (i : Nat) (a : List U16) : Heap := h.upd i ({ h.ms i with a := a }, h.w)

/-- Map `id` replaced. -/
def Heap.setM (h : Heap) (id : Nat) (mp : GoMap) : Heap := { h with w := { h.w with maps := h.w.maps.set id mp } }

theorem setA_self (h : Heap) (i : Nat) : h.setA i (h.ms i).a = h := upd_self h i
theorem setM_self (h : Heap) (id : Nat) : h.setM id (h.w.maps.getD id []) = h := by
  unfold Heap.setM
  rw [getD_set_self]
theorem setM_setM (h : Heap) (id : Nat) (a b : GoMap) : (h.setM id a).setM id b = h.setM id b := by
  simp only [Heap.setM, List.set_set]

theorem clear_loop1 (rt : Rt) (call : Calls) (i : Nat) (h : Heap) :
    rangeArr (exec rt call srcClear_loop1) .i none i ⟨h, [(.o, .offs i)]⟩ =
    .ok (.next, ⟨h.setA i ((h.ms i).a.map (fun _ => offsetUnset)), [(.o, .offs i)]⟩) := by
  have key := forEach_fold (σ := List U16) (P := fun a => a.length = (h.ms i).a.length)
    (q := fun a => ⟨h.setA i a, [(.o, .offs i)]⟩) (g := fun a k => a.set k offsetUnset)
    (body := fun n s => match (s.h.ms i).a[n]? with
      | some x => inScope (fun s => exec rt call srcClear_loop1 { s with env := bindSnd none (.u16 x) ((.i, .int n) :: s.env) }) s
      | none => .error .stuck) (List.range (h.ms i).a.length) (h.ms i).a rfl ?_
  · rw [foldl_const, setA_self] at key
    exact key.1
  · intro k hk a ha
    have hk := List.mem_range.1 hk
    refine ⟨?_, by simp [ha]⟩
    have e1 : (((h.setA i a).ms i).a) = a := by simp [Heap.setA, upd_ms]
    have e2 : a[k]? = some a[k] := List.getElem?_eq_getElem (by omega)
    have hl : (k : Int) < (a.length : Int) := by omega
    simp only [e1, e2, bindSnd]
    gosimp [srcClear_loop1, e1, hl, put_eq]
    simp only [Heap.setA, upd_ms, upd_upd, upd_w]
    rfl

theorem clear_loop2 (rt : Rt) (call : Calls) (i id : Nat) (h : Heap) (hm : (h.ms i).m = some id) (hid : id < h.w.maps.length) :
    rangeMap rt (exec rt call srcClear_loop2) .f none id ⟨h, [(.o, .offs i)]⟩ =
    .ok (.next, ⟨h.setM id [], [(.o, .offs i)]⟩) := by
  have key := forEach_fold (σ := GoMap) (P := fun _ => True)
    (q := fun m => ⟨h.setM id m, [(.o, .offs i)]⟩) (g := fun m k => m.del k)
    (body := fun n s => match (s.h.w.maps.getD id []).find n with
      | some x => inScope (fun s => exec rt call srcClear_loop2 { s with env := bindSnd none (.u64 x) ((.f, .int n) :: s.env) }) s
      | none => .ok (.next, s)) (rt.perm (h.w.maps.getD id []).keys) (h.w.maps.getD id []) trivial ?_
  · rw [foldl_del_keys, setM_self] at key
    exact key.1
  · intro k hk m _
    refine ⟨?_, trivial⟩
    have e1 : (h.setM id m).w.maps.getD id [] = m := by simp only [Heap.setM, getD_set _ _ _ _ hid]
    have e2 : ((h.setM id m).ms i).m = some id := hm
    simp only [e1, bindSnd]
    cases hf : m.find k with
    | none => rw [del_of_find_none m k hf]
    | some x =>
      gosimp [srcClear_loop2, e1, e2]
      simp only [Heap.setM, List.set_set]

/-- offsets.go:77-86. -/
theorem go_Clear (rt : Rt) (d i : Nat) (h : Heap) (hw : ∀ id, (h.ms i).m = some id → id < h.w.maps.length) :
    goCall rt (d + 1) .Clear [.offs i] h =
    .ok ([], h.upd i (h.w.storeOffs (h.ms i) (h.w.offs (h.ms i)).clear)) := by
  rw [goCall, funcOf_Clear]
  cases hm : (h.ms i).m with
  | none =>
    have e1 : ((h.setA i ((h.ms i).a.map (fun _ => offsetUnset))).ms i).m = none := by simp [Heap.setA, upd_ms, hm]
    gosimp [srcClear, clear_loop1, e1]
    simp only [World.storeOffs, World.offs, Offsets.clear, hm, Heap.setA]
    rfl
  | some id =>
    have hid := hw id hm
    have e1 : ((h.setA i ((h.ms i).a.map (fun _ => offsetUnset))).ms i).m = some id := by simp [Heap.setA, upd_ms, hm]
    gosimp [srcClear, clear_loop1, e1, clear_loop2 rt (goCall rt d) i id _ e1 hid]
    simp only [World.storeOffs, World.offs, Offsets.clear, hm]
    simp only [Heap.setM, Heap.setA, mk_upd, upd_w, Option.map_some, hm]

end Zeropb.GoSrc
