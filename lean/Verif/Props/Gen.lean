import Verif.Proof.Gen
/-!
# The code generator: C43, C45, C46, C47
-/

namespace Zeropb
open Gen

/-! ## C46: StringTree -/

/-- What `Write` passes to the writer for one argument: its text. -/
def Gen.Arg.Renders (indent : Text) : Arg → Text → Prop
  | .indent n, t => 0 ≤ n ∧ t = (List.replicate n.toNat indent).flatten
  | .bytes b, t => t = b
  | .string s, t => t = s
  | .stringer s, t => t = s
  | .int32 n, t => t = itoa n.toInt
  | .other, _ => False

/-- A writer `W` that is passed the texts `ts`, one after the other, from state `w`: it ends in `w'`, and the
errors it returns are `errs`. -/
inductive Gen.Writes {σ ε : Type} (W : Writer σ ε) : σ → List Text → List (Option ε) → σ → Prop where
  | nil {w : σ} : Writes W w [] [] w
  | cons {w w' : σ} {t : Text} {ts : List Text} {errs : List (Option ε)} :
      Writes W (W.write w t).1 ts errs w' → Writes W w (t :: ts) ((W.write w t).2 :: errs) w'

/-- A sequence of calls of `Write`. -/
def Gen.StringTree.writes {σ ε : Type} (W : Writer σ ε) (st : StringTree σ ε) : List (List Arg) → Except GenPanic (StringTree σ ε)
  | [] => .ok st
  | c :: cs => do
    let st ← st.write W c
    st.writes W cs

private theorem write_err {σ ε : Type} {W : Writer σ ε} {st : StringTree σ ε} (h : st.err.isSome = true) (as : List Arg) :
    st.write W as = .ok st := by
  cases as with
  | nil => simp only [StringTree.write]
  | cons a as => simp only [StringTree.write, h, if_true]

private theorem writes_err {σ ε : Type} {W : Writer σ ε} {st : StringTree σ ε} (h : st.err.isSome = true) (cs : List (List Arg)) :
    st.writes W cs = .ok st := by
  induction cs with
  | nil => simp only [StringTree.writes]
  | cons a as ih => simp only [StringTree.writes, write_err h, ok_bind, ih]

private theorem put_indent {σ ε : Type} (W : Writer σ ε) (st : StringTree σ ε) (x : Text) : (st.put W x).indent = st.indent := rfl

private theorem write_cons {σ ε : Type} {W : Writer σ ε} {st : StringTree σ ε} (h : st.err = none) {a : Arg} {t : Text}
    (hr : a.Renders st.indent t) (as : List Arg) : st.write W (a :: as) = (st.put W t).write W as := by
  cases a with
  | indent n =>
    have : ¬ n < 0 := by have := hr.1; omega
    simp only [StringTree.write, h, Option.isSome, Bool.false_eq_true, if_false, repeatText, this, ok_bind, hr.2]
  | bytes b => cases hr; simp only [StringTree.write, h, Option.isSome, Bool.false_eq_true, if_false]
  | string b => cases hr; simp only [StringTree.write, h, Option.isSome, Bool.false_eq_true, if_false]
  | stringer b => cases hr; simp only [StringTree.write, h, Option.isSome, Bool.false_eq_true, if_false]
  | int32 b => cases hr; simp only [StringTree.write, h, Option.isSome, Bool.false_eq_true, if_false]
  | other => cases hr

/-- The list of all arguments decides what the writer sees, not their grouping into calls. -/
private theorem writes_flatten {σ ε : Type} {W : Writer σ ε} (cs : List (List Arg)) (st : StringTree σ ε) :
    st.writes W cs = st.write W cs.flatten := by
  have app : ∀ (as bs : List Arg) (st : StringTree σ ε), st.write W (as ++ bs) = (do let st ← st.write W as; st.write W bs) := by
    intro as bs
    induction as with
    | nil => intro st; simp only [List.nil_append, StringTree.write, ok_bind]
    | cons a as ih =>
      intro st
      by_cases h : st.err.isSome = true
      · simp only [write_err h, ok_bind]
      · simp only [List.cons_append, StringTree.write, h, if_false, Bool.false_eq_true]
        cases a with
        | indent n =>
          simp only
          cases repeatText st.indent n with
          | error e => rfl
          | ok t => simp only [ok_bind, ih]
        | other => rfl
        | _ => simp only [ih]
  induction cs generalizing st with
  | nil => simp only [StringTree.writes, List.flatten_nil, StringTree.write]
  | cons c cs ih =>
    simp only [StringTree.writes, List.flatten_cons, app]
    refine congrArg _ ?_
    funext st'
    exact ih st'

/-- C46: for any sequence of `Write` calls with printable arguments, the writer receives the texts of the
arguments in order, one call each, up to and including the first that it fails on, and none after it.
`Error` then returns that error; it returns nil if and only if everything was passed on without error. -/
theorem C46_sticky {σ ε : Type} (W : Writer σ ε) (w0 : σ) (indent : Text) (calls : List (List Arg)) (ts : List Text)
    (hlen : ts.length = calls.flatten.length)
    (hr : ∀ i (h : i < ts.length), (calls.flatten[i]'(hlen ▸ h)).Renders indent ts[i]) :
    ∃ st, (newStringTree w0 indent).writes W calls = .ok st ∧
      ∃ n errs, n ≤ ts.length ∧ Writes W w0 (ts.take n) errs st.w ∧
        (∀ i, i + 1 < n → errs[i]? = some none) ∧
        (st.error = none → n = ts.length) ∧
        (∀ e, st.error = some e ↔ 0 < n ∧ errs[n - 1]? = some (some e)) := by
  rw [writes_flatten]
  generalize calls.flatten = as at hlen hr
  have key : ∀ (as : List Arg) (ts : List Text) (st : StringTree σ ε), st.indent = indent → st.err = none →
      ∀ hlen : ts.length = as.length, (∀ i (h : i < ts.length), (as[i]'(hlen ▸ h)).Renders indent ts[i]) →
      ∃ st', st.write W as = .ok st' ∧ ∃ n errs, n ≤ ts.length ∧ Writes W st.w (ts.take n) errs st'.w ∧
        (∀ i, i + 1 < n → errs[i]? = some none) ∧
        (st'.error = none → n = ts.length) ∧
        (∀ e, st'.error = some e ↔ 0 < n ∧ errs[n - 1]? = some (some e)) := by
    intro as
    induction as with
    | nil =>
      intro ts st _ he hlen _
      have : ts = [] := List.length_eq_zero_iff.1 hlen
      subst this
      refine ⟨st, by simp only [StringTree.write], 0, [], Nat.le_refl _, .nil, ?_, fun _ => rfl, ?_⟩
      · intro i hi; omega
      · intro e; rw [StringTree.error, he]; simp
    | cons a as ih =>
      intro ts st hi he hlen hr
      cases ts with
      | nil => cases hlen
      | cons t ts =>
        have hlen' : ts.length = as.length := by simpa using hlen
        have ha : a.Renders st.indent t := by rw [hi]; exact hr 0 (by simp)
        have hr' : ∀ i (h : i < ts.length), (as[i]'(hlen' ▸ h)).Renders indent ts[i] := by
          intro i h
          have := hr (i + 1) (by simp; omega)
          simpa using this
        rw [write_cons he ha]
        cases hw : (W.write st.w t).2 with
        | some e0 =>
          have herr : (st.put W t).err = some e0 := by simp only [StringTree.put]; exact hw
          refine ⟨st.put W t, write_err (by rw [herr]; rfl) as, 1, [some e0], by simp, ?_, ?_, ?_, ?_⟩
          · have := Writes.cons (W := W) (w := st.w) (t := t) (ts := []) (errs := []) Writes.nil
            rw [hw] at this
            simpa [StringTree.put] using this
          · intro i h; omega
          · intro h; rw [StringTree.error, herr] at h; cases h
          · intro e; rw [StringTree.error, herr]; simp
        | none =>
          have herr : (st.put W t).err = none := by simp only [StringTree.put]; exact hw
          obtain ⟨st', h1, n, errs, h2, h3, h4, h5, h6⟩ := ih ts (st.put W t) (by rw [put_indent, hi]) herr hlen' hr'
          refine ⟨st', h1, n + 1, none :: errs, by simp; exact h2, ?_, ?_, ?_, ?_⟩
          · have := Writes.cons (W := W) (w := st.w) (t := t) h3
            rw [hw] at this
            simpa using this
          · intro i h
            cases i with
            | zero => rfl
            | succ i => simpa using h4 i (by omega)
          · intro h; simp [h5 h]
          · intro e
            rw [h6]
            cases n with
            | zero => simp
            | succ n => simp
  exact key as ts (newStringTree w0 indent) rfl rfl hlen hr

/-- C46: without failures the output is the concatenation of the texts of all arguments. -/
theorem C46_concat (indent : Text) (calls : List (List Arg)) (ts : List Text) (hlen : ts.length = calls.flatten.length)
    (hr : ∀ i (h : i < ts.length), (calls.flatten[i]'(hlen ▸ h)).Renders indent ts[i]) :
    (newStringTree [] indent).writes builder calls = .ok ⟨ts.flatten, indent, none⟩ := by
  rw [writes_flatten]
  generalize calls.flatten = as at hlen hr
  have key : ∀ (as : List Arg) (ts : List Text) (w : Text) (hlen : ts.length = as.length),
      (∀ i (h : i < ts.length), (as[i]'(hlen ▸ h)).Renders indent ts[i]) →
      (⟨w, indent, none⟩ : ST).write builder as = .ok ⟨w ++ ts.flatten, indent, none⟩ := by
    intro as
    induction as with
    | nil =>
      intro ts w hlen _
      have : ts = [] := List.length_eq_zero_iff.1 hlen
      subst this
      simp only [StringTree.write, List.flatten_nil, List.append_nil]
    | cons a as ih =>
      intro ts w hlen hr
      cases ts with
      | nil => cases hlen
      | cons t ts =>
        have hlen' : ts.length = as.length := by simpa using hlen
        rw [write_cons rfl (hr 0 (by simp))]
        refine (ih ts (w ++ t) hlen' ?_).trans ?_
        · intro i h
          have := hr (i + 1) (by simp; omega)
          simpa using this
        · simp only [List.flatten_cons, List.append_assoc]
  exact key as ts [] hlen hr

/-- C46: an argument of any other type, or a negative indentation, panics, unless an earlier write failed. -/
theorem C46_panics {σ ε : Type} (W : Writer σ ε) (st : StringTree σ ε) (h : st.error = none) (as : List Arg) :
    st.write W (.other :: as) = .error .unknownArg ∧
    ∀ n : Int, n < 0 → st.write W (.indent n :: as) = .error .negativeRepeat := by
  have h' : st.err = none := h
  refine ⟨?_, fun n hn => ?_⟩
  · simp only [StringTree.write, h', Option.isSome, Bool.false_eq_true, if_false]
  · simp only [StringTree.write, h', Option.isSome, Bool.false_eq_true, if_false, repeatText, hn, if_true]
    rfl

/-- The hypotheses of C46_sticky are satisfiable: a writer that accepts two texts and fails on the third. -/
example : ∃ st, (newStringTree ([] : List Text) t!"  ").writes
      ⟨fun w t => if w.length < 2 then (w ++ [t], none) else (w, some "full")⟩
      [[.indent 1, .int32 7#32], [.string t!"a", .string t!"b"], [.string t!"c"]] = .ok st ∧
    st.w = [t!"  ", t!"7"] ∧ st.error = some "full" := by
  refine ⟨_, rfl, ?_, ?_⟩ <;> decide +kernel

/-! ## Decimal numbers -/

/-- The numbers in the generated text are what they should be: reading the digits back gives the number. -/
theorem C46_numbers (n : Int) :
    (0 ≤ n → itoa n ≠ [] ∧ (∀ c ∈ itoa n, c.isDigit) ∧ (Nat.ofDigitChars 10 (itoa n) 0 : Int) = n) ∧
    (n < 0 → ∃ ds, itoa n = '-' :: ds ∧ ds ≠ [] ∧ (∀ c ∈ ds, c.isDigit) ∧ -(Nat.ofDigitChars 10 ds 0 : Int) = n) := by
  have hne : ∀ k : Nat, natDigits k ≠ [] := by
    intro k h
    have := Nat.length_toDigits_pos (b := 10) (n := k)
    rw [natDigits] at h
    rw [h] at this
    cases this
  have hd : ∀ k : Nat, ∀ c ∈ natDigits k, c.isDigit := fun k c hc => Nat.isDigit_of_mem_toDigits (by decide) (by decide) hc
  have hv : ∀ k : Nat, Nat.ofDigitChars 10 (natDigits k) 0 = k := by
    intro k
    simp [natDigits]
  constructor
  · intro h
    have h0 : ¬ n < 0 := by omega
    simp only [itoa, h0, if_false]
    exact ⟨hne _, hd _, by rw [hv]; omega⟩
  · intro h
    simp only [itoa, h, if_true]
    exact ⟨_, rfl, hne _, hd _, by rw [hv]; omega⟩

/-- Different numbers have different texts. -/
theorem itoa_inj {a b : Int} (h : itoa a = itoa b) : a = b := by
  have ha := C46_numbers a
  have hb := C46_numbers b
  rcases Int.lt_or_le a 0 with h1 | h1
  · obtain ⟨da, e1, n1, d1, v1⟩ := ha.2 h1
    rcases Int.lt_or_le b 0 with h2 | h2
    · obtain ⟨db, e2, _, _, v2⟩ := hb.2 h2
      rw [e1, e2] at h
      injection h with _ h
      rw [← v1, ← v2, h]
    · obtain ⟨_, d2, _⟩ := hb.1 h2
      rw [← h, e1] at d2
      have := d2 '-' (List.mem_cons_self ..)
      exact absurd this (by decide)
  · obtain ⟨_, d1, v1⟩ := ha.1 h1
    rcases Int.lt_or_le b 0 with h2 | h2
    · obtain ⟨db, e2, _, _, v2⟩ := hb.2 h2
      rw [h, e2] at d1
      have := d1 '-' (List.mem_cons_self ..)
      exact absurd this (by decide)
    · obtain ⟨_, _, v2⟩ := hb.1 h2
      rw [← v1, ← v2, h]

/-! ## C47: Go names -/

/-- A word as `toGoCase` writes it: its first character in title case, the others unchanged. -/
def capitalize (U : Unicode) : Text → Text
  | [] => []
  | c :: cs => U.toTitle c :: cs

/-- A letter or a digit. -/
def Gen.Unicode.isWord (U : Unicode) (c : Char) : Bool := U.isLetter c || U.isDigit c

/-- `s` consists of the words `ws`, each preceded by separators (possibly none in front of the first), and
ends in separators `tail`. -/
def SplitsInto (U : Unicode) (s : Text) (ws : List (Text × Text)) (tail : Text) : Prop :=
  s = ws.flatMap (fun p => p.1 ++ p.2) ++ tail ∧
  (∀ p ∈ ws, (∀ c ∈ p.1, U.isWord c = false) ∧ p.2 ≠ [] ∧ ∀ c ∈ p.2, U.isWord c = true) ∧
  (∀ p ∈ ws.tail, p.1 ≠ []) ∧ (∀ c ∈ tail, U.isWord c = false)

private def goStep (U : Unicode) : Bool → Char → Bool × Option Char := fun (titleNext : Bool) r =>
    if !U.isLetter r && !U.isDigit r then (true, none)
    else if titleNext then (false, some (U.toTitle r))
    else (titleNext, some r)

private theorem toGoCase_def (U : Unicode) (s : Text) : toGoCase U s = mapText (goStep U) true s := rfl

private theorem goStep_sep {U : Unicode} {c : Char} (h : U.isWord c = false) (b : Bool) : goStep U b c = (true, none) := by
  simp only [Unicode.isWord, Bool.or_eq_false_iff] at h
  simp only [goStep, h.1, h.2, Bool.not_false, Bool.and_self, if_true]

private theorem goStep_word {U : Unicode} {c : Char} (h : U.isWord c = true) :
    goStep U true c = (false, some (U.toTitle c)) ∧ goStep U false c = (false, some c) := by
  have : (!U.isLetter c && !U.isDigit c) = false := by
    simp only [Unicode.isWord, Bool.or_eq_true] at h
    rcases h with h | h <;> simp [h]
  simp only [goStep, this, Bool.false_eq_true, if_false, if_true, and_self]

private theorem map_seps {U : Unicode} (p : Text) (hp : ∀ c ∈ p, U.isWord c = false) (rest : Text) (b : Bool) :
    mapText (goStep U) b (p ++ rest) = mapText (goStep U) (b || !p.isEmpty) rest := by
  induction p generalizing b with
  | nil => simp
  | cons c p ih =>
    simp only [List.cons_append, mapText, goStep_sep (hp c (List.mem_cons_self ..))]
    rw [ih (fun d hd => hp d (List.mem_cons_of_mem _ hd))]
    simp

private theorem map_word_tail {U : Unicode} (w : Text) (hw : ∀ c ∈ w, U.isWord c = true) (rest : Text) :
    mapText (goStep U) false (w ++ rest) = w ++ mapText (goStep U) false rest := by
  induction w with
  | nil => rfl
  | cons c w ih =>
    simp only [List.cons_append, mapText, (goStep_word (hw c (List.mem_cons_self ..))).2]
    rw [ih (fun d hd => hw d (List.mem_cons_of_mem _ hd))]

private theorem map_word {U : Unicode} (w : Text) (hne : w ≠ []) (hw : ∀ c ∈ w, U.isWord c = true) (rest : Text) :
    mapText (goStep U) true (w ++ rest) = capitalize U w ++ mapText (goStep U) false rest := by
  cases w with
  | nil => exact absurd rfl hne
  | cons c w =>
    simp only [List.cons_append, mapText, (goStep_word (hw c (List.mem_cons_self ..))).1, capitalize]
    rw [map_word_tail w (fun d hd => hw d (List.mem_cons_of_mem _ hd))]

/-- C47: the Go name of a field is the concatenation of the words of its name, each with its first
character in title case. -/
theorem C47_toGoCase {U : Unicode} {s : Text} {ws : List (Text × Text)} {tail : Text} (h : SplitsInto U s ws tail) :
    toGoCase U s = ws.flatMap (fun p => capitalize U p.2) := by
  obtain ⟨rfl, h1, h2, h3⟩ := h
  rw [toGoCase_def]
  have htail : ∀ b, mapText (goStep U) b tail = [] := by
    intro b
    have := map_seps tail h3 [] b
    rw [List.append_nil] at this
    rw [this]; rfl
  have key : ∀ (ws : List (Text × Text)) (b : Bool),
      (∀ p ∈ ws, (∀ c ∈ p.1, U.isWord c = false) ∧ p.2 ≠ [] ∧ ∀ c ∈ p.2, U.isWord c = true) →
      (∀ p ∈ ws.head?, b = false → p.1 ≠ []) → (∀ p ∈ ws.tail, p.1 ≠ []) →
      mapText (goStep U) b (ws.flatMap (fun p => p.1 ++ p.2) ++ tail) = ws.flatMap (fun p => capitalize U p.2) := by
    intro ws
    induction ws with
    | nil => intro b _ _ _; simpa using htail b
    | cons p ws ih =>
      intro b h1 hb h2
      obtain ⟨hs, hne, hw⟩ := h1 p (List.mem_cons_self ..)
      have hb' : (b || !p.1.isEmpty) = true := by
        cases hbv : b with
        | true => rfl
        | false =>
          have := hb p (by simp) hbv
          cases hp : p.1 with
          | nil => exact absurd hp this
          | cons _ _ => rfl
      simp only [List.flatMap_cons, List.append_assoc]
      rw [map_seps p.1 hs, hb', map_word p.2 hne hw, ih false (fun q hq => h1 q (List.mem_cons_of_mem _ hq))]
      · intro q hq _
        apply h2 q
        cases ws with
        | nil => cases hq
        | cons r ws => simp at hq; simp [hq]
      · intro q hq
        apply h2 q
        cases ws with
        | nil => cases hq
        | cons r ws => simp at hq ⊢; exact Or.inr hq
  exact key ws true h1 (by intro p _ hb; cases hb) h2

/-- C47: every string splits into words, so the previous theorem determines `toGoCase`. -/
theorem C47_splits (U : Unicode) (s : Text) : ∃ ws tail, SplitsInto U s ws tail := by
  -- `s` starts with a word or not
  have key : ∀ s : Text, (∃ ws tail, SplitsInto U s ws tail) := by
    intro s
    induction s with
    | nil => exact ⟨[], [], rfl, by simp, by simp, by simp⟩
    | cons c s ih =>
      obtain ⟨ws, tail, rfl, h1, h2, h3⟩ := ih
      cases hc : U.isWord c with
      | false =>
        cases ws with
        | nil =>
          exact ⟨[], c :: tail, by simp, by simp, by simp, by
            intro d hd; rcases List.mem_cons.1 hd with rfl | hd
            · exact hc
            · exact h3 d hd⟩
        | cons p ws =>
          refine ⟨(c :: p.1, p.2) :: ws, tail, by simp, ?_, h2, h3⟩
          intro q hq
          rcases List.mem_cons.1 hq with rfl | hq
          · obtain ⟨a, b⟩ := h1 p (List.mem_cons_self ..)
            refine ⟨?_, b⟩
            intro d hd
            rcases List.mem_cons.1 hd with rfl | hd
            · exact hc
            · exact a d hd
          · exact h1 q (List.mem_cons_of_mem _ hq)
      | true =>
        cases ws with
        | nil =>
          refine ⟨[([], [c])], tail, by simp, ?_, by simp, h3⟩
          intro q hq
          rw [List.mem_singleton] at hq
          subst hq
          exact ⟨by simp, by simp, by simpa using hc⟩
        | cons p ws =>
          obtain ⟨a, b1, b2⟩ := h1 p (List.mem_cons_self ..)
          by_cases hp : p.1 = []
          · refine ⟨([], c :: p.2) :: ws, tail, by simp [hp], ?_, h2, h3⟩
            intro q hq
            rcases List.mem_cons.1 hq with rfl | hq
            · refine ⟨by simp, by simp, ?_⟩
              intro d hd
              rcases List.mem_cons.1 hd with rfl | hd
              · exact hc
              · exact b2 d hd
            · exact h1 q (List.mem_cons_of_mem _ hq)
          · refine ⟨([], [c]) :: p :: ws, tail, by simp, ?_, ?_, h3⟩
            · intro q hq
              rcases List.mem_cons.1 hq with rfl | hq
              · exact ⟨by simp, by simp, by simpa using hc⟩
              · exact h1 q hq
            · intro q hq
              rcases List.mem_cons.1 hq with rfl | hq
              · exact hp
              · exact h2 q hq
  exact key s

/-- C47: if title-casing keeps letters letters (as Unicode does), the Go name has only letters and digits. -/
theorem C47_only_word (U : Unicode) (hU : ∀ c, U.isWord c = true → U.isWord (U.toTitle c) = true) (s : Text) :
    ∀ c ∈ toGoCase U s, U.isWord c = true := by
  obtain ⟨ws, tail, h⟩ := C47_splits U s
  rw [C47_toGoCase h]
  intro c hc
  obtain ⟨p, hp, hc⟩ := List.mem_flatMap.1 hc
  obtain ⟨_, _, hw⟩ := h.2.1 p hp
  cases h2 : p.2 with
  | nil => rw [h2] at hc; cases hc
  | cons d w =>
    rw [h2, capitalize] at hc
    rcases List.mem_cons.1 hc with rfl | hc
    · exact hU d (hw d (by rw [h2]; exact List.mem_cons_self ..))
    · exact hw c (by rw [h2]; exact List.mem_cons_of_mem _ hc)

private theorem lastIndex_no (c : Char) (s : Text) (h : c ∉ s) (i best : Int) : lastIndex.go c s i best = best := by
  induction s generalizing i with
  | nil => rfl
  | cons d s ih =>
    have hd : d ≠ c := fun e => h (by rw [e]; exact List.mem_cons_self ..)
    simp only [lastIndex.go, hd, if_false]
    exact ih (fun hc => h (List.mem_cons_of_mem _ hc)) _

private theorem lastIndex_append (c : Char) (p t : Text) (ht : c ∉ t) (i best : Int) :
    lastIndex.go c (p ++ c :: t) i best = i + p.length := by
  induction p generalizing i best with
  | nil => simp [lastIndex.go, lastIndex_no c t ht]
  | cons d p ih =>
    simp only [List.cons_append, lastIndex.go, ih, List.length_cons]
    omega

/-- C47: the Go type of a message field is the part of the qualified type name behind the last dot. -/
theorem C47_typeName (t : Text) (h : '.' ∉ t) :
    fieldToGoTypeMessage t = t ∧ ∀ p : Text, fieldToGoTypeMessage (p ++ '.' :: t) = t := by
  refine ⟨?_, fun p => ?_⟩
  · have : lastIndex '.' t = -1 := lastIndex_no '.' t h 0 (-1)
    simp [fieldToGoTypeMessage, this]
  · have h1 : lastIndex '.' (p ++ '.' :: t) = p.length := by
      rw [lastIndex, lastIndex_append '.' p t h]; omega
    have h2 : (p.length : Int) ≠ -1 := by omega
    have h3 : ((p.length : Int) + 1).toNat = p.length + 1 := by omega
    simp only [fieldToGoTypeMessage, h1, h2, ne_eq, not_false_eq_true, if_true, h3]
    simp [List.drop_append]

/-- C47 is not vacuous: a name with separators, and a qualified type name. -/
example : toGoCase ⟨Char.isAlpha, Char.isDigit, Char.toUpper⟩ t!"conf_state__2x.yZ" = t!"ConfState2xYZ" ∧
    fieldToGoTypeMessage t!".raftpb.ConfState" = t!"ConfState" := by decide +kernel

/-! ## C43: the files of the response -/

private theorem scan_skip (old new p rest : Text) : replaceScan old new p.length (p ++ rest) = replaceScan old new 0 rest := by
  induction p with
  | nil => rfl
  | cons c p ih => simp only [List.length_cons, List.cons_append, replaceScan]; exact ih

private theorem scan_old (t new rest : Text) (c : Char) :
    replaceScan (c :: t) new 0 ((c :: t) ++ rest) = new ++ replaceScan (c :: t) new 0 rest := by
  have h : (c :: t).isPrefixOf (c :: (t ++ rest)) = true := by
    rw [List.isPrefixOf_iff_prefix]; exact ⟨rest, by simp⟩
  simp only [List.cons_append, replaceScan, h, if_true, List.length_cons, Nat.add_sub_cancel, scan_skip]

/-- A piece without an occurrence is copied, if the searched text begins with a character that occurs in it
nowhere else. -/
private theorem scan_piece {c : Char} {t : Text} (hc : c ∉ t) (new p rest : Text) (hp : ¬ (c :: t) <:+: p)
    (hrest : rest = [] ∨ ∃ r, rest = (c :: t) ++ r) :
    replaceScan (c :: t) new 0 (p ++ rest) = p ++ replaceScan (c :: t) new 0 rest := by
  induction p with
  | nil => rfl
  | cons d p ih =>
    rw [List.infix_cons_iff] at hp
    have hnot : (c :: t).isPrefixOf (d :: (p ++ rest)) = false := by
      cases hb : (c :: t).isPrefixOf (d :: (p ++ rest)) with
      | false => rfl
      | true =>
        exfalso
        rw [List.isPrefixOf_iff_prefix] at hb
        have hb' : (c :: t) <+: (d :: p) ++ rest := hb
        rcases Nat.lt_or_ge (d :: p).length (c :: t).length with hl | hl
        · -- the occurrence reaches into `rest`
          have h1 : (d :: p) <+: (c :: t) :=
            List.prefix_of_prefix_length_le (List.prefix_append _ _) hb' (Nat.le_of_lt hl)
          obtain ⟨u, hu⟩ := h1
          rw [← hu] at hb'
          have h2 : u <+: rest := (List.prefix_append_right_inj _).1 hb'
          have hune : u ≠ [] := by
            intro h; rw [h, List.append_nil] at hu; rw [hu] at hl; exact Nat.lt_irrefl _ hl
          rcases hrest with rfl | ⟨r, rfl⟩
          · exact hune (List.prefix_nil.1 h2)
          · cases u with
            | nil => exact hune rfl
            | cons e u =>
              have he : e = c := by
                obtain ⟨v, hv⟩ := h2
                simp only [List.cons_append] at hv
                injection hv
              subst he
              rw [List.cons_append] at hu
              injection hu with _ hu
              apply hc
              rw [← hu]
              simp
        · have h1 : (c :: t) <+: (d :: p) := List.prefix_of_prefix_length_le hb' (List.prefix_append _ _) hl
          exact hp (Or.inl h1)
    simp only [List.cons_append, replaceScan, hnot, Bool.false_eq_true, if_false]
    rw [ih (fun h => hp (Or.inr h))]

/-- C43: the name of an output file is that of the input file with each occurrence of ".proto" replaced by
".zeropb.go". -/
theorem C43_name (ps : List Text) (h : ∀ p ∈ ps, ¬ t!".proto" <:+: p) :
    replaceAll t!".proto" t!".zeropb.go" (List.intercalate t!".proto" ps) = List.intercalate t!".zeropb.go" ps := by
  have key : ∀ ps : List Text, (∀ p ∈ ps, ¬ t!".proto" <:+: p) →
      replaceScan t!".proto" t!".zeropb.go" 0 (List.intercalate t!".proto" ps) = List.intercalate t!".zeropb.go" ps := by
    intro ps
    induction ps with
    | nil => intro _; rfl
    | cons p ps ih =>
      intro h
      have hp := h p (List.mem_cons_self ..)
      have hps := fun q hq => h q (List.mem_cons_of_mem p hq)
      cases ps with
      | nil =>
        have := scan_piece (c := '.') (t := t!"proto") (by decide) t!".zeropb.go" p [] hp (Or.inl rfl)
        simp only [List.append_nil] at this
        simpa using this.trans (by simp [replaceScan])
      | cons q ps =>
        rw [List.intercalate_cons_cons, List.intercalate_cons_cons, List.append_assoc, List.append_assoc,
          scan_piece (c := '.') (t := t!"proto") (by decide) t!".zeropb.go" p _ hp (Or.inr ⟨_, rfl⟩), scan_old, ih hps]
  exact key ps h

/-- C43: every name consists of such pieces. -/
theorem C43_name_pieces (s : Text) : ∃ ps : List Text, (∀ p ∈ ps, ¬ t!".proto" <:+: p) ∧ List.intercalate t!".proto" ps = s := by
  have first : ∀ s : Text, (¬ t!".proto" <:+: s) ∨ ∃ a b, s = a ++ (t!".proto" ++ b) ∧ ¬ t!".proto" <:+: a := by
    intro s
    induction s with
    | nil => exact Or.inl (by decide)
    | cons c s ih =>
      by_cases h : t!".proto" <+: c :: s
      · obtain ⟨b, hb⟩ := h
        exact Or.inr ⟨[], b, hb.symm, by decide⟩
      · rcases ih with h1 | ⟨a, b, rfl, ha⟩
        · refine Or.inl fun hi => ?_
          rcases List.infix_cons_iff.1 hi with hi | hi
          · exact h hi
          · exact h1 hi
        · refine Or.inr ⟨c :: a, b, rfl, fun hi => ?_⟩
          rcases List.infix_cons_iff.1 hi with hi | hi
          · exact h (hi.trans (by rw [← List.cons_append]; exact List.prefix_append _ _))
          · exact ha hi
  have key : ∀ n (s : Text), s.length ≤ n → ∃ ps : List Text, ps ≠ [] ∧ (∀ p ∈ ps, ¬ t!".proto" <:+: p) ∧ List.intercalate t!".proto" ps = s := by
    intro n
    induction n with
    | zero =>
      intro s hs
      have : s = [] := List.length_eq_zero_iff.1 (by omega)
      subst this
      exact ⟨[[]], by simp, by intro p hp; rw [List.mem_singleton.1 hp]; decide, by simp⟩
    | succ n ih =>
      intro s hs
      rcases first s with h | ⟨a, b, rfl, ha⟩
      · exact ⟨[s], by simp, by intro p hp; rw [List.mem_singleton.1 hp]; exact h, by simp⟩
      · obtain ⟨ps, hne, h1, h2⟩ := ih b (by
          simp only [List.length_append, List.length_cons] at hs
          omega)
        refine ⟨a :: ps, by simp, ?_, ?_⟩
        · intro p hp
          rcases List.mem_cons.1 hp with rfl | hp
          · exact ha
          · exact h1 p hp
        · rw [List.intercalate_cons_of_ne_nil hne, h2]
          simp
  obtain ⟨ps, _, h⟩ := key s.length s (Nat.le_refl _)
  exact ⟨ps, h⟩

/-- C43: in particular `foo.proto` becomes `foo.zeropb.go`, and a name without ".proto" is kept (so such an
output file would overwrite its input). -/
theorem C43_simple_name (foo : Text) (h : ¬ t!".proto" <:+: foo) :
    replaceAll t!".proto" t!".zeropb.go" (foo ++ t!".proto") = foo ++ t!".zeropb.go" ∧
    replaceAll t!".proto" t!".zeropb.go" foo = foo := by
  refine ⟨?_, ?_⟩
  · have := C43_name [foo, []] (by
      intro p hp
      rcases List.mem_cons.1 hp with rfl | hp
      · exact h
      · rw [List.mem_singleton.1 hp]; decide)
    simpa [List.intercalate_cons_cons] using this
  · have := C43_name [foo] (by intro p hp; rw [List.mem_singleton.1 hp]; exact h)
    simpa using this

private theorem generateFiles_eq (U : Unicode) (names : List Text) (fs : List (Option FileDesc)) (acc : List OutFile) :
    (∀ out, generateFiles U names acc fs = .ok out →
      ∃ more, out = acc ++ more ∧
        ((fs.filterMap id).filter (fun f => f.getName ∈ names)).map (generateFile U) = more.map .ok) ∧
    ((∀ f ∈ (fs.filterMap id).filter (fun f => f.getName ∈ names), ¬ BadFile f) → ∃ out, generateFiles U names acc fs = .ok out) ∧
    ((∃ f ∈ (fs.filterMap id).filter (fun f => f.getName ∈ names), BadFile f) →
      ∃ t, generateFiles U names acc fs = .error (.unsupportedType t)) := by
  induction fs generalizing acc with
  | nil =>
    refine ⟨?_, ?_, ?_⟩
    · intro out h
      simp only [generateFiles, Except.ok.injEq] at h
      exact ⟨[], by simp [h], rfl⟩
    · intro _; exact ⟨acc, rfl⟩
    · rintro ⟨f, hf, _⟩; simp at hf
  | cons f fs ih =>
    cases f with
    | none => simpa [generateFiles] using ih acc
    | some f =>
      by_cases hn : f.getName ∈ names
      · have hfil : ((some f :: fs).filterMap id).filter (fun f => f.getName ∈ names) =
            f :: (fs.filterMap id).filter (fun f => f.getName ∈ names) := by
          simp [hn]
        rw [hfil]
        by_cases hb : BadFile f
        · obtain ⟨t, ht⟩ := generateFile_panic U f hb
          refine ⟨?_, ?_, ?_⟩
          · intro out h
            simp only [generateFiles, hn, if_true, ht] at h
            cases h
          · intro h; exact absurd hb (h f (List.mem_cons_self ..))
          · intro _
            refine ⟨t, ?_⟩
            simp only [generateFiles, hn, if_true, ht]
            rfl
        · have hg := generateFile_eq U f hb
          generalize (⟨replaceAll t!".proto" t!".zeropb.go" f.getName, fileText f.getPackage (fileDecls U f)⟩ : OutFile) = o at hg
          obtain ⟨i1, i2, i3⟩ := ih (acc ++ [o])
          simp only [generateFiles, hn, if_true, hg, ok_bind]
          refine ⟨?_, ?_, ?_⟩
          · intro out h
            obtain ⟨more, h1, h2⟩ := i1 out h
            refine ⟨o :: more, by rw [h1]; simp, ?_⟩
            simp only [List.map_cons, hg, h2]
          · intro h
            exact i2 (fun g hg => h g (List.mem_cons_of_mem _ hg))
          · rintro ⟨g, hg1, hg2⟩
            rcases List.mem_cons.1 hg1 with rfl | hg1
            · exact absurd hg2 hb
            · exact i3 ⟨g, hg1, hg2⟩
      · have hfil : ((some f :: fs).filterMap id).filter (fun f => f.getName ∈ names) =
            (fs.filterMap id).filter (fun f => f.getName ∈ names) := by
          simp [hn]
        rw [hfil]
        simp only [generateFiles, hn, if_false]
        exact ih acc

/-- C43: the response has exactly one file for each requested input file, in the order of the input; it has
the name described above, and the text consists of the header for the package and the declarations of the
messages. -/
theorem C43_files (U : Unicode) (req : Request) (out : List OutFile) (h : generate U req = .ok out) :
    out = req.requested.map (fun f =>
      ⟨replaceAll t!".proto" t!".zeropb.go" f.getName, fileText f.getPackage (fileDecls U f)⟩) := by
  obtain ⟨more, h1, h2⟩ := (generateFiles_eq U req.fileToGenerate req.protoFile []).1 out h
  have hgood : ∀ f ∈ req.requested, ¬ BadFile f := by
    intro f hf hb
    obtain ⟨t, ht⟩ := (generateFiles_eq U req.fileToGenerate req.protoFile []).2.2 ⟨f, hf, hb⟩
    rw [generate] at h
    rw [h] at ht
    cases ht
  rw [List.nil_append] at h1
  subst h1
  have h3 : req.requested.map (generateFile U) = req.requested.map (fun f => Except.ok
      (⟨replaceAll t!".proto" t!".zeropb.go" f.getName, fileText f.getPackage (fileDecls U f)⟩ : OutFile)) := by
    apply List.map_congr_left
    intro f hf
    exact generateFile_eq U f (hgood f hf)
  have h4 : out.map (Except.ok (ε := GenPanic)) = (req.requested.map (fun f =>
      (⟨replaceAll t!".proto" t!".zeropb.go" f.getName, fileText f.getPackage (fileDecls U f)⟩ : OutFile))).map Except.ok := by
    rw [List.map_map]
    exact h2.symm.trans h3
  exact List.map_inj_right (fun a b hab => by injection hab) |>.1 h4

/-! ## C45: panics -/

/-- C45: `Generate` panics exactly if a requested file has a top-level message with an optional or required
field whose type is none of the known scalar types (1-9, 12-18 in descriptor.proto) nor message (11). The
panic value is such a type. -/
theorem C45_panics (U : Unicode) (req : Request) :
    ((∃ p, generate U req = .error p) ↔
      ∃ f ∈ req.requested, ∃ m, some m ∈ f.messageType ∧ ∃ fd, some fd ∈ m.field ∧
        (getLabel (some fd) = 1 ∨ getLabel (some fd) = 2) ∧
        (getType (some fd) < 1 ∨ getType (some fd) = 10 ∨ 18 < getType (some fd))) ∧
    (∀ p, generate U req = .error p → ∃ t, p = .unsupportedType t) := by
  have hun : ∀ fd : Field, Unsupported (some fd) ↔ (getLabel (some fd) = 1 ∨ getLabel (some fd) = 2) ∧
        (getType (some fd) < 1 ∨ getType (some fd) = 10 ∨ 18 < getType (some fd)) := by
    intro fd
    generalize ht : getType (some fd) = t
    have hk : (t ≠ 11 ∧ protoKind t = none) ↔ (t < 1 ∨ t = 10 ∨ 18 < t) := by
      constructor
      · rintro ⟨h1, h2⟩
        by_cases hlo : t < 1
        · exact Or.inl hlo
        by_cases hhi : 18 < t
        · exact Or.inr (Or.inr hhi)
        have : t = 1 ∨ t = 2 ∨ t = 3 ∨ t = 4 ∨ t = 5 ∨ t = 6 ∨ t = 7 ∨ t = 8 ∨ t = 9 ∨ t = 10 ∨ t = 11 ∨ t = 12 ∨ t = 13 ∨
            t = 14 ∨ t = 15 ∨ t = 16 ∨ t = 17 ∨ t = 18 := by omega
        rcases this with h | h | h | h | h | h | h | h | h | h | h | h | h | h | h | h | h | h <;>
          first | exact Or.inr (Or.inl h) | exact absurd h h1 | (rw [h] at h2; cases h2)
      · intro h
        refine ⟨by omega, ?_⟩
        unfold protoKind
        split <;> first | omega | rfl
    unfold Unsupported
    rw [ht]
    constructor
    · rintro ⟨_, h1, h2⟩; exact ⟨h1, hk.1 h2⟩
    · rintro ⟨h1, h2⟩; exact ⟨by simp, h1, hk.2 h2⟩
  have hbad : (∃ f ∈ req.requested, BadFile f) ↔ ∃ f ∈ req.requested, ∃ m, some m ∈ f.messageType ∧ ∃ fd, some fd ∈ m.field ∧
        (getLabel (some fd) = 1 ∨ getLabel (some fd) = 2) ∧
        (getType (some fd) < 1 ∨ getType (some fd) = 10 ∨ 18 < getType (some fd)) := by
    constructor
    · rintro ⟨f, hf, m, hm, fd, hfd, hu⟩
      cases fd with
      | none => exact absurd rfl hu.1
      | some fd => exact ⟨f, hf, m, hm, fd, hfd, (hun fd).1 hu⟩
    · rintro ⟨f, hf, m, hm, fd, hfd, hu⟩
      exact ⟨f, hf, m, hm, some fd, hfd, (hun fd).2 hu⟩
  rw [← hbad]
  obtain ⟨_, h2, h3⟩ := generateFiles_eq U req.fileToGenerate req.protoFile []
  refine ⟨⟨?_, ?_⟩, ?_⟩
  · rintro ⟨p, hp⟩
    apply Classical.byContradiction
    intro hno
    obtain ⟨out, ho⟩ := h2 (fun f hf hb => hno ⟨f, hf, hb⟩)
    rw [generate, ho] at hp
    cases hp
  · intro h
    obtain ⟨t, ht⟩ := h3 h
    exact ⟨_, ht⟩
  · intro p hp
    by_cases h : ∃ f ∈ req.requested, BadFile f
    · obtain ⟨t, ht⟩ := h3 h
      rw [generate, ht] at hp
      injection hp with hp
      exact ⟨t, hp.symm⟩
    · obtain ⟨out, ho⟩ := h2 (fun f hf hb => h ⟨f, hf, hb⟩)
      rw [generate, ho] at hp
      cases hp

/-- C45 is not vacuous: a group field panics when it is optional, and is silently skipped when it is repeated. -/
example : let file (label : Int) : FileDesc := ⟨some t!"a.proto", some t!"p", [some ⟨some t!"M", [some
        { name := some t!"g", number := some 1#32, label := some label, type := some 10 }]⟩]⟩
    (∃ p, generate ⟨Char.isAlpha, Char.isDigit, Char.toUpper⟩ ⟨[t!"a.proto"], [some (file 1)]⟩ = .error p) ∧
    (∃ out, generate ⟨Char.isAlpha, Char.isDigit, Char.toUpper⟩ ⟨[t!"a.proto"], [some (file 3)]⟩ = .ok out) := by
  refine ⟨⟨.unsupportedType 10, ?_⟩, ?_⟩
  · rfl
  · exact ⟨_, rfl⟩

end Zeropb
