import Verif.Props.Decode
set_option linter.unusedSimpArgs false
set_option linter.unusedVariables false
/-!
# The cost of iterating a repeated field (C55)
-/

namespace Zeropb
open Wire

/-! ## Specification -/

/-- A call of `FindNextField` on `buf` evaluates the condition of its loop (zeropb.go:480) exactly `n` times. The start
of the loop, behind the current element, is that of `findNextField`. -/
def FindRounds (buf : Slice) (f n : Nat) : Prop :=
  let start := addInt (uvarint buf.data).2 (u64ToInt (uvarint buf.data).1)
  (∃ r, run (findStep buf f) n start = some r) ∧ ∀ k < n, run (findStep buf f) k start = none

/-- Calling `FindNextField` again and again, from iterator `it` on, until the iterator is at its end yields the elements
`els`, and takes `n` rounds of the loop in total. -/
inductive Drained (f : Nat) : Option Slice → List (List Byte) → Nat → Prop where
  | done : Drained f none [] 0
  | next {buf : Slice} {it : Option Slice} {x rest : List Byte} {els : List (List Byte)} {r n : Nat} :
      findNextField (some buf) f = .ok (it, some ⟨x, rest⟩) → FindRounds buf f r → Drained f it els n →
      Drained f (some buf) (x :: els) (r + n)

/-! ## Proof -/

theorem run_none_of_le {σ α : Type} (step : σ → Res (σ ⊕ α)) {n k : Nat} {s : σ} (h : run step n s = none) (hk : k ≤ n) :
    run step k s = none := by
  cases hr : run step k s with
  | none => rfl
  | some r =>
    have := run_mono step k (n - k) s r hr
    rw [Nat.add_sub_cancel' hk, h] at this
    cases this

theorem dropWhile_none {f : Nat} {cs : List Chunk} (h : ∀ c ∈ cs, c.num ≠ f) : cs.dropWhile (fun c => c.num ≠ f) = [] := by
  induction cs with
  | nil => rfl
  | cons c cs ih =>
    rw [List.dropWhile_cons_of_pos (by simpa using h c (by simp))]
    exact ih (fun d hd => h d (by simp [hd]))

/-- The rounds of the scan over records `cs`. -/
def scanRounds (f : Nat) (cs : List Chunk) : Nat :=
  match splitFirst f cs with
  | none => cs.length + 1
  | some (_, post) => cs.length - post.length

theorem splitFirst_length {f : Nat} {cs : List Chunk} {c : Chunk} {post : List Chunk} (h : splitFirst f cs = some (c, post)) :
    post.length < cs.length := by
  induction cs with
  | nil => simp [splitFirst] at h
  | cons d cs ih =>
    simp only [splitFirst] at h
    split at h
    · simp only [Option.some.injEq, Prod.mk.injEq] at h; rw [← h.2]; simp
    · have := ih h; simp; omega

theorem find_rounds {buf : Slice} (hlen : buf.data.length < maxLen) {f : Nat} (cs : List Chunk) :
    ∀ (P : List Byte), buf.data = P ++ flat cs → (∀ c ∈ cs, c.WF) →
      (∃ r, run (findStep buf f) (scanRounds f cs) (P.length : Int) = some r) ∧
      run (findStep buf f) (scanRounds f cs - 1) (P.length : Int) = none := by
  induction cs with
  | nil =>
    intro P hd _
    have : ¬ ((P.length : Int) < (buf.data.length : Int)) := by rw [hd]; simp
    refine ⟨⟨.ok none, ?_⟩, rfl⟩
    simp [scanRounds, splitFirst, run, findStep, this, pure, Except.pure]
  | cons c cs ih =>
    intro P hd hwf
    have hcw := hwf c (by simp)
    have htp := hcw.tag_pos
    have hpp := hcw.pay_pos
    have hl : buf.data.length = P.length + c.tag.length + c.pay.length + (flat cs).length := by
      rw [hd]; simp [Chunk.bytes]; omega
    obtain ⟨t, ht, hf, hty⟩ := hcw.uvarint_tag (flat cs)
    have d1 : buf.dropFrom (P.length : Int) = .ok ⟨c.bytes ++ flat cs, buf.spare⟩ := by
      obtain ⟨d, s⟩ := buf
      simp only [flat_cons] at hd; subst hd; exact dropFrom_append _ _ _
    have d2 : buf.dropFrom ((P.length + c.tag.length : Nat) : Int) = .ok ⟨c.pay ++ flat cs, buf.spare⟩ := by
      obtain ⟨d, s⟩ := buf
      simp only [flat_cons] at hd; subst hd
      rw [← List.length_append, Chunk.bytes, List.append_assoc, ← List.append_assoc]; exact dropFrom_append _ _ _
    have hfd := fieldDataSize_payload (rest := flat cs) hcw.pay (by omega)
    have n1 : ¬ ¬ ((P.length : Int) < (buf.data.length : Int)) := by omega
    have n2 : P.length + c.tag.length < maxLen := by omega
    have n3 : P.length + c.tag.length + c.pay.length < maxLen := by omega
    have hstep : findStep buf f (P.length : Int) =
        if c.num = f then .ok (.inr (some ⟨c.pay ++ flat cs, buf.spare⟩))
        else .ok (.inl ((P.length + c.tag.length + c.pay.length : Nat) : Int)) := by
      simp only [findStep]
      rw [if_neg n1, d1]
      simp only [bind, Except.bind, ht, addInt_nat n2, hf, hty, d2, hfd]
      by_cases hcf : c.num = f
      · simp only [if_pos hcf, pure, Except.pure]
      · simp only [if_neg hcf, pure, Except.pure, addInt_nat n3]
    by_cases hcf : c.num = f
    · rw [if_pos hcf] at hstep
      have e : scanRounds f (c :: cs) = 1 := by simp [scanRounds, splitFirst, hcf]
      rw [e]
      refine ⟨⟨.ok (some ⟨c.pay ++ flat cs, buf.spare⟩), ?_⟩, rfl⟩
      simp only [run, hstep]
    · rw [if_neg hcf] at hstep
      have e : scanRounds f (c :: cs) = scanRounds f cs + 1 := by
        simp only [scanRounds, splitFirst, if_neg hcf]
        cases hs : splitFirst f cs with
        | none => simp
        | some r =>
          obtain ⟨d, post⟩ := r
          have := splitFirst_length hs
          simp only [List.length_cons]; omega
      have hpos : 0 < scanRounds f cs := by
        unfold scanRounds
        cases hs : splitFirst f cs with
        | none => simp
        | some r =>
          obtain ⟨d, post⟩ := r
          have := splitFirst_length hs
          simp only; omega
      have := ih (P ++ c.bytes) (by rw [hd]; simp) (fun d hd => hwf d (by simp [hd]))
      rw [List.length_append, c.bytes_length, ← Nat.add_assoc] at this
      obtain ⟨⟨r, h1⟩, h2⟩ := this
      rw [e]
      refine ⟨⟨r, ?_⟩, ?_⟩
      · simp only [run, hstep]; exact h1
      · rw [show scanRounds f cs + 1 - 1 = (scanRounds f cs - 1) + 1 by omega]
        simp only [run, hstep]; exact h2

theorem findRounds_spec {f : Nat} {sp : List Byte} {c : Chunk} {post : List Chunk} {bs : List Byte}
    (hp : IsPayload (.bytes bs) c.pay) (hwf : ∀ d ∈ post, d.WF) (hlen : (c.pay ++ flat post).length < maxLen) :
    FindRounds ⟨c.pay ++ flat post, sp⟩ f (scanRounds f post) := by
  obtain ⟨lb, h1, h2⟩ := hp
  have hl2 : c.pay.length + (flat post).length < maxLen := by simpa using hlen
  have hl3 : lb.length + bs.length < maxLen := by rw [h2] at hl2; simp at hl2; omega
  have hloop := find_rounds (buf := ⟨c.pay ++ flat post, sp⟩) hlen (f := f) post c.pay rfl hwf
  have hcl : c.pay.length = lb.length + bs.length := by rw [h2]; simp
  rw [hcl] at hloop
  have hu : uvarint (c.pay ++ flat post) = (BitVec.ofNat 64 bs.length, (lb.length : Int)) := by
    rw [h2, List.append_assoc, uvarint_of_isVarint h1]
  have hbl : bs.length < maxLen := by omega
  unfold FindRounds
  simp only [hu, u64ToInt_nat hbl, addInt_nat hl3]
  exact ⟨hloop.1, fun k hk => run_none_of_le _ hloop.2 (by omega)⟩

theorem drained_spec {f : Nat} (sp : List Byte) (els : List (List Byte)) :
    ∀ (cs : List Chunk), (∀ c ∈ cs, c.WF) → (flat cs).length < maxLen →
      (cs.filter (fun c => c.num = f)).map Chunk.val = els.map Val.bytes →
      Drained f (itAt f sp cs) els (cs.dropWhile (fun c => c.num ≠ f)).length := by
  induction els with
  | nil =>
    intro cs hwf _ hel
    have hn : ∀ c ∈ cs, c.num ≠ f := by
      intro c hc he
      have : cs.filter (fun c => c.num = f) = [] := by simpa using hel
      rw [List.filter_eq_nil_iff] at this
      exact this c hc (by simpa using he)
    rw [itAt, splitFirst_none hn, dropWhile_none hn]
    exact .done
  | cons b els ih =>
    intro cs hwf hlen hel
    have ha : ∃ c ∈ cs, c.num = f := by
      cases hfl : cs.filter (fun c => c.num = f) with
      | nil => rw [hfl] at hel; simp at hel
      | cons c l =>
        have : c ∈ cs.filter (fun c => c.num = f) := by rw [hfl]; simp
        rw [List.mem_filter] at this
        exact ⟨c, this.1, by simpa using this.2⟩
    obtain ⟨pre, c, post, hcs, hc, hpre⟩ := exists_first ha
    have hpf : pre.filter (fun c => c.num = f) = [] := by
      rw [List.filter_eq_nil_iff]; intro d hd; simpa using hpre d hd
    rw [hcs, List.filter_append, hpf, List.nil_append, List.filter_cons, if_pos (by simpa using hc)] at hel
    simp only [List.map_cons, List.cons.injEq] at hel
    have hl : (flat cs).length = (flat pre).length + c.tag.length + c.pay.length + (flat post).length := by
      rw [hcs]; simp [Chunk.bytes]; omega
    have hcw := hwf c (by rw [hcs]; simp)
    have hpw : ∀ d ∈ post, d.WF := fun d hd => hwf d (by rw [hcs]; simp [hd])
    have hp : IsPayload (.bytes b) c.pay := by rw [← hel.1]; exact hcw.pay
    have hll : (c.pay ++ flat post).length < maxLen := by rw [List.length_append]; omega
    have hfn := findNextField_spec (f := f) (sp := sp) hp hpw hll
    have hro := findRounds_spec (f := f) (sp := sp) hp hpw hll
    have hrest := ih post hpw (by omega) hel.2
    have hcount : (cs.dropWhile (fun c => c.num ≠ f)).length =
        scanRounds f post + (post.dropWhile (fun c => c.num ≠ f)).length := by
      rw [hcs, List.dropWhile_append_of_pos (by simpa using hpre), List.dropWhile_cons_of_neg (by simpa using hc)]
      unfold scanRounds
      by_cases hb : ∃ c ∈ post, c.num = f
      · obtain ⟨pre', c', post', hcs', hc', hpre'⟩ := exists_first hb
        rw [hcs', splitFirst_some hc' hpre', List.dropWhile_append_of_pos (by simpa using hpre'),
          List.dropWhile_cons_of_neg (by simpa using hc')]
        simp only [List.length_cons, List.length_append]; omega
      · have hn : ∀ c ∈ post, c.num ≠ f := fun c hc he => hb ⟨c, hc, he⟩
        rw [splitFirst_none hn, dropWhile_none hn]
        simp
    rw [hcount, itAt, hcs, splitFirst_some hc hpre]
    exact .next hfn hro hrest

/-! ## C55 -/

/-- C55: going through all elements of a repeated field looks at every record from the first element on exactly once:
the loops of all calls together go round as often as there are such records (one round per record behind the first
element, and one to see the end of the message). -/
theorem C55_exact {S : Schema} {m : Msg} (h : Readable S m) {rs : List Record} (hm : IsMessage rs m.encode.data)
    {f : Nat} (hk : S.kind f = some .bytes) (hr : S.rep f = true) :
    ∃ it els, m.messages f = .ok it ∧ allVals f rs = els.map Val.bytes ∧
      Drained f it els (rs.dropWhile (fun r => r.num ≠ f)).length := by
  obtain ⟨h1, h2⟩ := h.records hm
  obtain ⟨els, he⟩ := h2.elems hk
  obtain ⟨cs, h3, h4⟩ := h1
  refine ⟨itAt f m.buf.spare cs, els, ?_, he, ?_⟩
  · rw [Msg.messages, h3.messages (S.kind_lt f (by rw [hk]; simp)) hr]
  · have := drained_spec (f := f) m.buf.spare els cs h3.wf (by rw [← h3.data]; exact h3.len)
      (by rw [← allVals_records, h4]; exact he)
    have e : (rs.dropWhile (fun r => r.num ≠ f)).length = (cs.dropWhile (fun c => c.num ≠ f)).length := by
      rw [← h4]
      clear this h3 h4 he
      induction cs with
      | nil => rfl
      | cons c cs ih =>
        simp only [records, List.map_cons, List.dropWhile_cons]
        by_cases hc : c.num = f
        · simp [Chunk.record, hc]
        · have : (Chunk.record c).num = c.num := rfl
          simp only [this, ne_eq, hc, not_false_eq_true, decide_true, if_true]
          exact ih
    rw [e]; exact this

/-- A drained iterator determines the number of rounds. -/
theorem Drained.unique {f : Nat} {it : Option Slice} {els els' : List (List Byte)} {n n' : Nat} (h : Drained f it els n)
    (h' : Drained f it els' n') : els = els' ∧ n = n' := by
  induction h generalizing els' n' with
  | done => cases h'; exact ⟨rfl, rfl⟩
  | @next buf it x rest els r n h1 h2 _ ih =>
    cases h' with
    | @next _ it' x' rest' els' r' n' g1 g2 g3 =>
      rw [h1] at g1
      simp only [Except.ok.injEq, Prod.mk.injEq, Option.some.injEq, Slice.mk.injEq] at g1
      obtain ⟨rfl, rfl, rfl⟩ := g1
      obtain ⟨rfl, rfl⟩ := ih g3
      have : r = r' := by
        obtain ⟨⟨a, ha⟩, hb⟩ := h2
        obtain ⟨⟨a', ha'⟩, hb'⟩ := g2
        rcases Nat.lt_trichotomy r r' with hl | hl | hl
        · rw [hb' r hl] at ha; cases ha
        · exact hl
        · rw [hb r' hl] at ha'; cases ha'
      rw [this]; exact ⟨rfl, rfl⟩

/-- C55, the README's claim: decoding a message and then going through a repeated field costs at most about twice as much
as decoding. `Decode` goes round its loop once per record and once more (C39); all the iteration at most once per record. -/
theorem C55_twice {S : Schema} {m0 : Msg} (h0 : m0.off.a.length = S.n) {buf : Slice} {rs : List Record}
    (hlen : buf.len < maxLen) (hm : IsMessage rs buf.data) (hw : WellTyped S rs) {f : Nat} (hk : S.kind f = some .bytes)
    (hr : S.rep f = true) :
    ∃ m it els n d, m0.decode S.rep buf = .ok (m, none) ∧ m.messages f = .ok it ∧ allVals f rs = els.map Val.bytes ∧
      Drained f it els n ∧ (∃ r, run (decodeStep buf S.rep) d (0, m0.off.clear) = some r) ∧
      (∀ k < d, run (decodeStep buf S.rep) k (0, m0.off.clear) = none) ∧ d = rs.length + 1 ∧ n + d ≤ 2 * d - 1 := by
  obtain ⟨⟨o, c1, c2⟩, c3⟩ := C39_linear h0 hlen hm (fun r hr => (hw r hr).1)
  obtain ⟨it, els, e1, e2, e3⟩ := C55_exact (.decode h0 hlen hm hw c2) (rs := rs) hm hk hr
  refine ⟨_, it, els, _, _, c2, e1, e2, e3, ⟨_, c1⟩, fun k hk => run_none_of_le _ c3 (by omega), rfl, ?_⟩
  have := (List.dropWhile_suffix (fun r : Record => r.num ≠ f) (l := rs)).length_le
  omega

/-- `demo`: field 14, then the only element of field 34, then field 2; going through field 34 takes two rounds. -/
example : Readable testSchema demo ∧ IsMessage [⟨14, .bytes [0x68#8, 0x69#8]⟩, ⟨34, .bytes []⟩, ⟨2, .varint 7#64⟩] demo.encode.data ∧
    testSchema.kind 34 = some .bytes ∧ testSchema.rep 34 = true ∧
    (([⟨14, .bytes [0x68#8, 0x69#8]⟩, ⟨34, .bytes []⟩, ⟨2, .varint 7#64⟩] : List Record).dropWhile (fun r => r.num ≠ 34)).length = 2 :=
  ⟨.reach demo_reach, IsMinTagMessage_isMessage demo_records, rfl, rfl, rfl⟩

end Zeropb
