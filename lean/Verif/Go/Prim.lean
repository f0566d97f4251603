/-!
# Go primitives used by zeropb

Bytes, machine integers, slices by value, failures and loops.
This file models the Go language (64-bit platform), not a file of the repository.
-/

namespace Zeropb

/-- Go `byte`. -/
abbrev Byte := BitVec 8
/-- Go `uint64` (also the bit pattern of `int64` and `float64`). -/
abbrev U64 := BitVec 64
/-- Go `uint32` (also the bit pattern of `int32` and `float32`). -/
abbrev U32 := BitVec 32
/-- Go `uint16`. -/
abbrev U16 := BitVec 16

/-- Abnormal outcomes of a Go call: the run-time panics that the modelled code can raise, and
nontermination. -/
inductive Fail where
  /-- index out of range: `o.a[fieldID]` (offsets.go:48,59,62,66) or a scratch array -/
  | indexOutOfRange
  /-- slice bounds out of range: `buf[i:]`, `buf[i:j]` -/
  | sliceBounds
  /-- `panic(errors.Errorf("unsupported type"))` (zeropb.go:509) and `panic(typ)` (zeropb.go:347) -/
  | unsupportedType
  /-- `append` asked for a slice longer than an `int` can express -/
  | lenOutOfRange
  /-- `panic("buf must be empty")` in the generated `Reset` (generate.go:95) -/
  | bufNotEmpty
  /-- the call never returns -/
  | diverge
deriving DecidableEq, Repr

/-- Outcome of a Go call. -/
abbrev Res := Except Fail

/-- Conversion of a mathematical integer to Go `int` (two's complement wrap-around). -/
def wrapInt (x : Int) : Int := (x + 9223372036854775808) % 18446744073709551616 - 9223372036854775808

/-- Go `int(x)` for `x : uint64`. -/
def u64ToInt (x : U64) : Int := wrapInt (x.toNat : Int)

/-- Go `uint64(x)` for `x : int`. -/
def intToU64 (x : Int) : U64 := BitVec.ofInt 64 x

/-- Go `int` addition. -/
def addInt (x y : Int) : Int := wrapInt (x + y)

/-- The largest slice length, exclusive: 2^63. -/
def maxLen : Nat := 9223372036854775808

/-- A Go `[]byte`, by value: its contents and the bytes of its backing array between its length
and its capacity. Nil-ness is not represented here: where the code distinguishes nil from empty
(the results of `GetBytes`, `GetRepeatedNonPacked`, `FindNextField`) the model uses
`Option Slice`. -/
structure Slice where
  data  : List Byte
  spare : List Byte
deriving DecidableEq, Repr

namespace Slice

/-- `len(s)`. -/
def len (s : Slice) : Nat := s.data.length

/-- `cap(s)`. -/
def cap (s : Slice) : Nat := s.data.length + s.spare.length

/-- The nil slice (or any slice of capacity 0). -/
def empty : Slice := ⟨[], []⟩

/-- `s[i:]`: panics unless `0 ≤ i ≤ len(s)`. -/
def dropFrom (s : Slice) (i : Int) : Res Slice :=
  if 0 ≤ i ∧ i ≤ s.data.length then .ok ⟨s.data.drop i.toNat, s.spare⟩ else .error .sliceBounds

/-- `s[i:j]`: panics unless `0 ≤ i ≤ j ≤ cap(s)`. Note that Go's bound is the capacity. -/
def range (s : Slice) (i j : Int) : Res Slice :=
  if 0 ≤ i ∧ i ≤ j ∧ j ≤ s.data.length + s.spare.length then
    .ok ⟨((s.data ++ s.spare).drop i.toNat).take (j.toNat - i.toNat), (s.data ++ s.spare).drop j.toNat⟩
  else .error .sliceBounds

end Slice

/-- What `copy(dst[pos:], src)` leaves in `dst`, for `pos ≤ len(dst)`: `min` of the two lengths
bytes are overwritten. (`copy` behaves like memmove, so `src` is the value before the call even
if it overlaps `dst`.) -/
def overwriteAt (dst : List Byte) (pos : Nat) (src : List Byte) : List Byte :=
  let n := min src.length (dst.length - pos)
  dst.take pos ++ src.take n ++ dst.drop (pos + n)

/-- Go maps with `int` keys and `uint64` values: an association list (keys unique in every map
built by the operations below). -/
abbrev GoMap := List (Nat × U64)

namespace GoMap

/-- `v, ok := m[k]` -/
def find (m : GoMap) (k : Nat) : Option U64 :=
  match m with
  | [] => none
  | (k', v) :: rest => if k' = k then some v else find rest k

/-- `delete(m, k)` -/
def del (m : GoMap) (k : Nat) : GoMap := m.filter (fun e => e.1 ≠ k)

/-- `m[k] = v` -/
def put (m : GoMap) (k : Nat) (v : U64) : GoMap := (k, v) :: m.del k

/-- The keys of the map, in some order. -/
def keys (m : GoMap) : List Nat := m.map (·.1)

end GoMap

/-- The choices the Go runtime is free to make. `grow old need` is the unused part (contents
between len and cap) of the array that `append` allocates when the capacity `old` does not
suffice for `need` bytes; `perm` is the order in which `range` visits the keys of a map. -/
structure Rt where
  grow : Nat → Nat → List Byte
  perm : List Nat → List Nat
  perm_ok : ∀ l, (perm l).Perm l

/-- One possible runtime: exact growth, map order as stored. -/
def Rt.exact : Rt := ⟨fun _ _ => [], id, fun _ => List.Perm.refl _⟩

/-- `append(s, xs...)`: in place if the capacity suffices, otherwise in a new array. -/
def goAppend (rt : Rt) (s : Slice) (xs : List Byte) : Res Slice :=
  if s.data.length + xs.length < maxLen then
    if xs.length ≤ s.spare.length then .ok ⟨s.data ++ xs, s.spare.drop xs.length⟩
    else .ok ⟨s.data ++ xs, rt.grow s.cap (s.data.length + xs.length)⟩
  else .error .lenOutOfRange

/-! ## Loops -/

/-- `run step n s`: the result of a loop with body `step` if it finishes within `n` iterations.
The body returns `Sum.inl s'` to go round again and `Sum.inr a` to leave the loop. -/
def run {σ α : Type} (step : σ → Res (σ ⊕ α)) : Nat → σ → Option (Res α)
  | 0, _ => none
  | n + 1, s =>
    match step s with
    | .error e => some (.error e)
    | .ok (.inr a) => some (.ok a)
    | .ok (.inl s') => run step n s'

open Classical in
/-- The outcome of a Go `for` loop: the result after enough iterations, or divergence. -/
noncomputable def iterate {σ α : Type} (step : σ → Res (σ ⊕ α)) (s : σ) : Res α :=
  if h : ∃ r, ∃ n, run step n s = some r then Classical.choose h else .error .diverge

theorem run_mono {σ α : Type} (step : σ → Res (σ ⊕ α)) (n k : Nat) (s : σ) (r : Res α)
    (h : run step n s = some r) : run step (n + k) s = some r := by
  induction n generalizing s with
  | zero => simp [run] at h
  | succ n ih =>
    rw [Nat.add_right_comm]
    simp only [run] at h ⊢
    cases hs : step s with
    | error e => simp_all
    | ok v => cases v with
      | inl s' => simp only [hs] at h ⊢; exact ih s' h
      | inr a => simp_all

/-- Running for enough iterations computes `iterate`. -/
theorem iterate_of_run {σ α : Type} {step : σ → Res (σ ⊕ α)} {n : Nat} {s : σ} {r : Res α}
    (h : run step n s = some r) : iterate step s = r := by
  have hex : ∃ r, ∃ n, run step n s = some r := ⟨r, n, h⟩
  unfold iterate
  rw [dif_pos hex]
  obtain ⟨m, hm⟩ := Classical.choose_spec hex
  have h1 := run_mono step n m s r h
  have h2 := run_mono step m n s _ hm
  rw [Nat.add_comm] at h2
  rw [h1] at h2
  exact (Option.some.inj h2).symm

/-- The loop equation. -/
theorem iterate_eq {σ α : Type} (step : σ → Res (σ ⊕ α)) (s : σ) :
    iterate step s = match step s with
      | .error e => .error e
      | .ok (.inr a) => .ok a
      | .ok (.inl s') => iterate step s' := by
  cases hs : step s with
  | error e => exact iterate_of_run (n := 1) (by simp [run, hs])
  | ok v =>
    cases v with
    | inr a => exact iterate_of_run (n := 1) (by simp [run, hs])
    | inl s' =>
      simp only
      by_cases hex : ∃ r, ∃ n, run step n s' = some r
      · obtain ⟨r, n, hr⟩ := hex
        rw [iterate_of_run hr]
        exact iterate_of_run (n := n + 1) (by simp [run, hs, hr])
      · have hex2 : ¬ ∃ r, ∃ n, run step n s = some r := by
          rintro ⟨r, n, hr⟩
          cases n with
          | zero => simp [run] at hr
          | succ n => simp only [run, hs] at hr; exact hex ⟨r, n, hr⟩
        unfold iterate
        rw [dif_neg hex, dif_neg hex2]

/-- A loop that never leaves a set of states closed under its body diverges. -/
theorem iterate_diverge {σ α : Type} {step : σ → Res (σ ⊕ α)} (S : σ → Prop)
    (hS : ∀ s, S s → ∃ s', step s = .ok (.inl s') ∧ S s') {s : σ} (h : S s) :
    iterate step s = .error .diverge := by
  have : ¬ ∃ r, ∃ n, run step n s = some r := by
    rintro ⟨r, n, hr⟩
    induction n generalizing s with
    | zero => simp [run] at hr
    | succ n ih =>
      obtain ⟨s', h1, h2⟩ := hS s h
      simp only [run, h1] at hr
      exact ih h2 hr
  unfold iterate
  rw [dif_neg this]

/-- Conversely a diverging loop returns for no number of iterations. -/
theorem run_of_iterate_diverge {σ α : Type} {step : σ → Res (σ ⊕ α)}
    (hstep : ∀ s, step s ≠ .error .diverge) {s : σ}
    (h : iterate step s = .error .diverge) (n : Nat) : run step n s = none := by
  cases hr : run step n s with
  | none => rfl
  | some r =>
    exfalso
    rw [iterate_of_run hr] at h
    subst h
    induction n generalizing s with
    | zero => simp [run] at hr
    | succ n ih =>
      simp only [run] at hr
      cases hs : step s with
      | error e => simp [hs] at hr; subst hr; exact hstep s hs
      | ok v => cases v with
        | inl s' => simp only [hs] at hr; exact ih hr
        | inr a => simp [hs] at hr

end Zeropb
