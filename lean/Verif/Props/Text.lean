import Verif.Props.Tree
import Verif.Props.Decode
import Verif.Model.Text
set_option linter.unusedSimpArgs false
set_option linter.unusedVariables false
/-!
# The debug text of a message (C56)
-/

namespace Zeropb
open Wire Gen

/-! ## Specification -/

/-- test.proto:13-28: the singular fields that are not messages, in the order of their numbers. -/
def protoNames : List (Nat × Text) :=
  [(1, t!"bool"), (2, t!"int32"), (3, t!"int64"), (4, t!"uint32"), (5, t!"uint64"), (6, t!"sint32"), (7, t!"sint64"),
   (8, t!"fixed32"), (9, t!"fixed64"), (10, t!"sfixed32"), (11, t!"sfixed64"), (12, t!"double"), (13, t!"float"),
   (14, t!"string"), (15, t!"byte_array"), (16, t!"enum")]

/-- The text of a field: nothing if it does not occur, else its name and its value. -/
def shownField (F : Fmt) (rs : List Record) (p : Nat × Text) : List Byte :=
  match testSchema.kind p.1, lastVal p.1 rs with
  | some k, some v =>
    match decodeVal k v with
    | some x => asc p.2 ++ asc t!"=" ++ F.val k x ++ asc t!" "
    | none => []
  | _, _ => []

/-- Two lists related element by element. -/
inductive Each {α β : Type} (R : α → β → Prop) : List α → List β → Prop where
  | nil : Each R [] []
  | cons {a b as bs} : R a b → Each R as bs → Each R (a :: as) (b :: bs)

/-- `txt` is the text of the message encoded in `bs`, whose messages are nested less than `n` deep: the fields that occur, in
the order of their numbers, then the message in field 17, then those in field 34. -/
def Shows (F : Fmt) : Nat → List Byte → List Byte → Prop
  | 0, _, _ => False
  | n + 1, bs, txt => ∃ (rs : List Record) (sub : List Byte) (els : List (List Byte)), IsMessage rs bs ∧ WellTyped testSchema rs ∧
      txt = (protoNames.map (shownField F rs)).flatten ++ sub ++ els.flatten ∧
      (lastVal 17 rs = none → sub = []) ∧
      (∀ b, lastVal 17 rs = some (.bytes b) → ∃ t, Shows F n b t ∧ sub = asc t!"message=<" ++ t ++ asc t!"> ") ∧
      Each (fun v e => ∃ b t, v = .bytes b ∧ Shows F n b t ∧ e = asc t!"messages=<" ++ t ++ asc t!"> ") (allVals 34 rs) els

/-! ## Proof -/

theorem Holds.present {S m rs} (h : Holds S m rs) {f : Nat} (hf : f < S.n) :
    ∃ o, m.off.get f = .ok (o, (lastVal f rs).isSome) := by
  obtain ⟨cs, h1, rfl⟩ := h
  rw [lastVal_records]
  by_cases ha : ∃ c ∈ cs, c.num = f
  · cases hr : S.rep f with
    | false =>
      obtain ⟨pre, c, post, hcs, hc, hp⟩ := exists_last ha
      rw [hcs, lastChunk_eq hc hp]
      exact ⟨_, (h1.located_last hcs hr hc hp).get⟩
    | true =>
      obtain ⟨pre, c, post, hcs, hc, hp⟩ := exists_first ha
      obtain ⟨_, _, _, hcs', hc', hp'⟩ := exists_last ha
      have hg := (h1.located_first hcs hr hc hp).get
      rw [hcs', lastChunk_eq hc' hp']
      exact ⟨_, hg⟩
  · have ha' : ∀ c ∈ cs, c.num ≠ f := fun c hc he => ha ⟨c, hc, he⟩
    rw [lastChunk_none ha']
    exact ⟨_, h1.get_none hf ha'⟩

theorem writeFields_spec (F : Fmt) {m : Msg} {rs : List Record} (h : Holds testSchema m rs) (hw : WellTyped testSchema rs)
    (fs : List (Nat × Text × Kind)) (hfs : ∀ p ∈ fs, testSchema.kind p.1 = some p.2.2 ∧ testSchema.rep p.1 = false) :
    ∀ out, writeFields F m fs out = .ok (out ++ (fs.map (fun p => shownField F rs (p.1, p.2.1))).flatten) := by
  induction fs with
  | nil => intro out; simp [writeFields]
  | cons p fs ih =>
    intro out
    obtain ⟨f, name, k⟩ := p
    obtain ⟨hk, hr⟩ := hfs _ List.mem_cons_self
    simp only at hk hr
    obtain ⟨o, ho⟩ := h.present (testSchema.kind_lt f (by rw [hk]; simp))
    have ih := ih (fun p hp => hfs p (by simp [hp]))
    simp only [writeFields, ho, bind, Except.bind, List.map_cons, List.flatten_cons]
    have hsh : shownField F rs (f, name) = match lastVal f rs with
        | some v => (match decodeVal k v with | some x => asc name ++ asc t!"=" ++ F.val k x ++ asc t!" " | none => [])
        | none => [] := by
      simp only [shownField, hk]
      cases lastVal f rs <;> rfl
    rw [hsh]
    cases hl : lastVal f rs with
    | none => simp only [Option.isSome_none, Bool.false_eq_true, if_false, List.nil_append]; exact ih out
    | some v =>
      obtain ⟨x, hx⟩ := hw.read (f := f) hk
      rw [hl] at hx
      have hg : m.get k f = .ok x := h.get hk hr (by rw [hl]; exact hx)
      simp only [readVal] at hx
      simp only [Option.isSome_some, if_true, hg, hx]
      rw [ih]; simp

theorem textLoop (F : Fmt) (n : Nat) (ih : ∀ m txt, Readable testSchema m → Shows F n m.encode.data txt → writeText F n m = .ok (txt, none))
    {its : Nat → Option Slice} {els : List (List Byte)}
    (hlen : ∀ b ∈ els, b.length < maxLen)
    (hits : ∀ i (hi : i < els.length), ∃ rest, ∀ repX x, Msg.next repX (its i) 34 x =
        (x.decode repX ⟨els[i], rest⟩).map (fun r => (its (i + 1), r.1, true, r.2)))
    (hend : ∀ i, els.length ≤ i → ∀ repX x, Msg.next repX (its i) 34 x = .ok (its (i + 1), x, false, none))
    {ts : List (List Byte)} (he : Each (fun v e => ∃ b t, v = Val.bytes b ∧ Shows F n b t ∧ e = asc t!"messages=<" ++ t ++ asc t!"> ")
      (els.map Val.bytes) ts) :
    ∀ (k i : Nat), i + k = els.length → ∀ (sub : Msg) (out : List Byte), sub.off.a.length = 35 →
      iterate (textStep (writeText F n)) (its i, sub, out) = .ok (out ++ (ts.drop i).flatten, none) := by
  have hpos : ∀ {vs : List Val} {ts : List (List Byte)} {R : Val → List Byte → Prop}, Each R vs ts → vs.length = ts.length ∧
      ∀ i (h1 : i < vs.length) (h2 : i < ts.length), R vs[i] ts[i] := by
    intro vs ts R h
    induction h with
    | nil => exact ⟨rfl, fun i h => by simp at h⟩
    | cons h1 _ ih =>
      refine ⟨by simp [ih.1], ?_⟩
      intro i a b
      cases i with
      | zero => exact h1
      | succ i => exact ih.2 i (by simpa using a) (by simpa using b)
  obtain ⟨hl, hat⟩ := hpos he
  rw [List.length_map] at hl
  intro k
  induction k with
  | zero =>
    intro i hi sub out hsub
    rw [iterate_eq]
    have hn := hend i (by omega) testRep sub
    simp only [textStep, hn, bind, Except.bind, pure, Except.pure, Bool.not_false, if_true]
    rw [List.drop_eq_nil_of_le (by omega)]; simp
  | succ k ihk =>
    intro i hi sub out hsub
    have hi' : i < els.length := by omega
    obtain ⟨b, t, hb, hs, ht⟩ := hat i (by simpa using hi') (by omega)
    simp only [List.getElem_map, Val.bytes.injEq] at hb
    obtain ⟨rest, hn⟩ := hits i hi'
    have hbl := hlen els[i] (List.getElem_mem hi')
    have hdec : ∃ sub', sub.decode testRep ⟨els[i], rest⟩ = .ok (sub', none) ∧ sub'.buf = ⟨els[i], rest⟩ ∧ Readable testSchema sub' := by
      cases n with
      | zero => exact hs.elim
      | succ n =>
        obtain ⟨rs', _, _, r1, r2, _⟩ := hs
        rw [← hb] at r1
        obtain ⟨sub', d1, d2, _⟩ := decode_holds (S := testSchema) (m := sub) hsub (buf := ⟨els[i], rest⟩) hbl r1 (fun r hr => (r2 r hr).1)
        exact ⟨sub', d1, d2, .decode (m0 := sub) hsub (buf := ⟨els[i], rest⟩) hbl r1 r2 d1⟩
    obtain ⟨sub', d1, d2, d3⟩ := hdec
    have hw := ih sub' t d3 (by rw [Msg.encode, d2, hb]; exact hs)
    have hsub' : sub'.off.a.length = 35 := d3.off_length
    rw [iterate_eq]
    have hstep : textStep (writeText F n) (its i, sub, out) =
        .ok (.inl (its (i + 1), sub', out ++ asc t!"messages=<" ++ t ++ asc t!"> ")) := by
      simp only [textStep, hn, d1, Except.map, bind, Except.bind, hw, Bool.not_true, Bool.false_eq_true, if_false, pure, Except.pure]
    rw [hstep]
    simp only
    rw [ihk (i + 1) (by omega) sub' _ hsub']
    rw [List.drop_eq_getElem_cons (by omega : i < ts.length), ht]
    simp

theorem shows_text (F : Fmt) (n : Nat) : ∀ (m : Msg) (txt : List Byte), Readable testSchema m → Shows F n m.encode.data txt →
    writeText F n m = .ok (txt, none) := by
  induction n with
  | zero => intro m txt _ h; exact h.elim
  | succ n ih =>
    intro m txt hm hs
    obtain ⟨rs, sub, ts, r1, r2, rfl, hnone, hsome, hels⟩ := hs
    obtain ⟨h1, h2⟩ := hm.records r1
    have hblen : ∀ r ∈ rs, ∀ b, r.val = .bytes b → b.length < maxLen := by
      intro r hr b hb
      obtain ⟨cs, c1, c2⟩ := h1
      rw [← c2] at hr
      simp only [records, List.mem_map] at hr
      obtain ⟨c, hc, rfl⟩ := hr
      have hwf := (c1.wf c hc).pay
      simp only [Chunk.record] at hb
      rw [hb] at hwf
      obtain ⟨lb, _, hp⟩ := hwf
      have hcl := c1.len
      rw [c1.data] at hcl
      obtain ⟨A, B, hAB⟩ := List.append_of_mem hc
      rw [hAB] at hcl
      simp only [flat_append, flat_cons, Chunk.bytes, hp, List.length_append] at hcl
      omega
    have hwf := writeFields_spec F h1 h2 textFields (by decide) []
    have hflat : (textFields.map (fun p => shownField F rs (p.1, p.2.1))) = protoNames.map (shownField F rs) := rfl
    rw [hflat, List.nil_append] at hwf
    obtain ⟨els, e1, its, i1, i2, i3⟩ := C09_iterate hm r1 (f := 34) rfl rfl
    have hel : ∀ b ∈ els, b.length < maxLen := by
      intro b hb
      have : Val.bytes b ∈ allVals 34 rs := by rw [e1]; exact List.mem_map_of_mem hb
      simp only [allVals, List.mem_map, List.mem_filter] at this
      obtain ⟨r, ⟨hr, _⟩, hv⟩ := this
      exact hblen r hr b hv
    rw [e1] at hels
    have hloop := textLoop F n ih hel i2 i3 hels els.length 0 (by omega)
    simp only [writeText, hwf, bind, Except.bind]
    rcases C11_presence hm r1 (f := 17) rfl rfl with ⟨hab, hsub⟩ | ⟨b, hb, rest, hsub⟩
    · have hl : lastVal 17 rs = none := by
        cases hl : lastVal 17 rs with
        | none => rfl
        | some v => exact absurd rfl (hab _ (lastVal_mem (f := 17) hl))
      rw [hnone hl, List.append_nil]
      simp only [hsub, Bool.false_eq_true, if_false, i1]
      rw [hloop _ _ rfl]; simp
    · obtain ⟨t, ht, rfl⟩ := hsome b hb
      have hbl := hblen _ (lastVal_mem hb) b rfl
      have hdec : ∃ sub', (Msg.zero 35).decode testRep ⟨b, rest⟩ = .ok (sub', none) ∧ sub'.buf = ⟨b, rest⟩ ∧ Readable testSchema sub' := by
        cases n with
        | zero => exact ht.elim
        | succ n =>
          obtain ⟨rs', _, _, q1, q2, _⟩ := ht
          obtain ⟨sub', d1, d2, _⟩ := decode_holds (S := testSchema) (m := Msg.zero 35) rfl (buf := ⟨b, rest⟩) hbl q1 (fun r hr => (q2 r hr).1)
          exact ⟨sub', d1, d2, .decode (m0 := Msg.zero 35) rfl (buf := ⟨b, rest⟩) hbl q1 q2 d1⟩
      obtain ⟨sub', d1, d2, d3⟩ := hdec
      have hw := ih sub' t d3 (by rw [Msg.encode, d2]; exact ht)
      simp only [hsub, d1, Except.map, if_true, hw, i1]
      rw [hloop _ _ d3.off_length]; simp

/-! ## C56 -/

/-- C56: `Text` of a message that is valid at every level, nested less than `n` deep, returns the text of the specification
and needs at most `n` nested calls. -/
theorem C56_text (F : Fmt) {n : Nat} {m : Msg} {txt : List Byte} (hm : Readable testSchema m) (hs : Shows F n m.encode.data txt) :
    ∀ k, writeText F (n + k) m = .ok (txt, none) := by
  intro k
  refine shows_text F (n + k) m txt hm ?_
  have mono : ∀ n bs txt, Shows F n bs txt → Shows F (n + 1) bs txt := by
    intro n
    induction n with
    | zero => intro _ _ h; exact h.elim
    | succ n ih =>
      intro bs txt h
      obtain ⟨rs, sub, ts, r1, r2, r3, r4, r5, r6⟩ := h
      refine ⟨rs, sub, ts, r1, r2, r3, r4, ?_, ?_⟩
      · intro b hb
        obtain ⟨t, h1, h2⟩ := r5 b hb
        exact ⟨t, ih _ _ h1, h2⟩
      · clear r3
        revert r6
        generalize allVals 34 rs = vs
        intro r6
        induction r6 with
        | nil => exact .nil
        | cons h _ ihe =>
          obtain ⟨b, t, h1, h2, h3⟩ := h
          exact .cons ⟨b, t, h1, ih _ _ h2, h3⟩ ihe
  induction k with
  | zero => exact hs
  | succ k ihk => exact mono _ _ _ ihk

/-- C56: if the message in field 17 cannot be decoded, `Text` panics with the decoder's error. -/
theorem C56_panic (F : Fmt) {m : Msg} {rs : List Record} {b : List Byte} {e : DecErr} (hm : Readable testSchema m)
    (hr : IsMessage rs m.encode.data) (hb : lastVal 17 rs = some (.bytes b))
    (he : ∀ rest, ∃ x, (Msg.zero 35).decode testRep ⟨b, rest⟩ = .ok (x, some e)) (n : Nat) :
    writeText F (n + 1) m = .ok ((protoNames.map (shownField F rs)).flatten, some e) := by
  obtain ⟨h1, h2⟩ := hm.records hr
  have hwf := writeFields_spec F h1 h2 textFields (by decide) []
  have hflat : (textFields.map (fun p => shownField F rs (p.1, p.2.1))) = protoNames.map (shownField F rs) := rfl
  rw [hflat, List.nil_append] at hwf
  simp only [writeText, hwf, bind, Except.bind]
  rcases C11_presence hm hr (f := 17) rfl rfl with ⟨hab, _⟩ | ⟨b', hb', rest, hsub⟩
  · exact absurd rfl (hab _ (lastVal_mem (f := 17) hb))
  · rw [hb'] at hb
    simp only [Option.some.injEq, Val.bytes.injEq] at hb
    subst hb
    obtain ⟨x, hx⟩ := he rest
    simp only [hsub, hx, Except.map, pure, Except.pure]

/-! ## Errors -/

/-- Decoding `b` into a message of the type of test.proto fails with `e`. -/
def Undecodable (b : List Byte) (e : DecErr) : Prop :=
  ∀ (m0 : Msg) (rest : List Byte), m0.off.a.length = 35 → ∃ x, m0.decode testRep ⟨b, rest⟩ = .ok (x, some e)

/-- The text of the message encoded in `bs`, nested less than `n` deep, cannot be completed: `txt` is what comes before the first
embedded message that cannot be decoded, with the brackets around it that are open, and `e` is the error of that message. -/
def Stops (F : Fmt) : Nat → List Byte → List Byte → DecErr → Prop
  | 0, _, _, _ => False
  | n + 1, bs, txt, e => ∃ (rs : List Record), IsMessage rs bs ∧ WellTyped testSchema rs ∧
      ((∃ b, lastVal 17 rs = some (.bytes b) ∧ Undecodable b e ∧ txt = (protoNames.map (shownField F rs)).flatten) ∨
       (∃ b t, lastVal 17 rs = some (.bytes b) ∧ Stops F n b t e ∧
         txt = (protoNames.map (shownField F rs)).flatten ++ asc t!"message=<" ++ t) ∨
       (∃ (sub : List Byte) (pre post : List Val) (els : List (List Byte)) (b last : List Byte),
         (lastVal 17 rs = none → sub = []) ∧
         (∀ b, lastVal 17 rs = some (.bytes b) → ∃ t, Shows F n b t ∧ sub = asc t!"message=<" ++ t ++ asc t!"> ") ∧
         allVals 34 rs = pre ++ .bytes b :: post ∧
         Each (fun v e => ∃ b t, v = .bytes b ∧ Shows F n b t ∧ e = asc t!"messages=<" ++ t ++ asc t!"> ") pre els ∧
         ((Undecodable b e ∧ last = []) ∨ (∃ t, Stops F n b t e ∧ last = asc t!"messages=<" ++ t)) ∧
         txt = (protoNames.map (shownField F rs)).flatten ++ sub ++ els.flatten ++ last))

theorem Each.pos {vs : List Val} {ts : List (List Byte)} {R : Val → List Byte → Prop} (h : Each R vs ts) : vs.length = ts.length ∧
    ∀ i (h1 : i < vs.length) (h2 : i < ts.length), R vs[i] ts[i] := by
  induction h with
  | nil => exact ⟨rfl, fun i h => by simp at h⟩
  | cons h1 _ ih =>
    refine ⟨by simp [ih.1], ?_⟩
    intro i a b
    cases i with
    | zero => exact h1
    | succ i => exact ih.2 i (by simpa using a) (by simpa using b)

/-- A message with a text, or whose text stops further down, can be decoded. -/
theorem decodes_typed {b : List Byte} {rs : List Record} (hr : IsMessage rs b) (hw : WellTyped testSchema rs) (hb : b.length < maxLen)
    {sub : Msg} (hsub : sub.off.a.length = 35) (rest : List Byte) :
    ∃ sub', sub.decode testRep ⟨b, rest⟩ = .ok (sub', none) ∧ sub'.buf = ⟨b, rest⟩ ∧ Readable testSchema sub' := by
  obtain ⟨sub', d1, d2, _⟩ := decode_holds (S := testSchema) (m := sub) hsub (buf := ⟨b, rest⟩) hb hr (fun r hr => (hw r hr).1)
  exact ⟨sub', d1, d2, .decode (m0 := sub) hsub (buf := ⟨b, rest⟩) hb hr hw d1⟩

theorem textLoop_stops (F : Fmt) (n : Nat) {e : DecErr}
    (ih : ∀ m txt, Readable testSchema m → Stops F n m.encode.data txt e → writeText F n m = .ok (txt, some e))
    {its : Nat → Option Slice} {els : List (List Byte)} (hlen : ∀ b ∈ els, b.length < maxLen)
    (hits : ∀ i (hi : i < els.length), ∃ rest, ∀ repX x, Msg.next repX (its i) 34 x =
        (x.decode repX ⟨els[i], rest⟩).map (fun r => (its (i + 1), r.1, true, r.2)))
    {k : Nat} {ts : List (List Byte)} {last : List Byte} (hk : k < els.length)
    (he : Each (fun v e => ∃ b t, v = Val.bytes b ∧ Shows F n b t ∧ e = asc t!"messages=<" ++ t ++ asc t!"> ")
      ((els.take k).map Val.bytes) ts)
    (hl : (Undecodable els[k] e ∧ last = []) ∨ (∃ t, Stops F n els[k] t e ∧ last = asc t!"messages=<" ++ t)) :
    ∀ (j i : Nat), i + j = k → ∀ (sub : Msg) (out : List Byte), sub.off.a.length = 35 →
      iterate (textStep (writeText F n)) (its i, sub, out) = .ok (out ++ (ts.drop i).flatten ++ last, some e) := by
  obtain ⟨hlt, hat⟩ := he.pos
  have hkt : k = ts.length := by rw [← hlt]; simp; omega
  intro j
  induction j with
  | zero =>
    intro i hi sub out hsub
    have hik : i = k := by omega
    subst hik
    obtain ⟨rest, hn⟩ := hits i hk
    rw [iterate_eq, List.drop_eq_nil_of_le (by omega)]
    rcases hl with ⟨hu, rfl⟩ | ⟨t, hs, rfl⟩
    · obtain ⟨x, hx⟩ := hu sub rest hsub
      simp only [textStep, hn, hx, Except.map, bind, Except.bind, pure, Except.pure, List.flatten_nil, List.append_nil]
    · cases n with
      | zero => exact hs.elim
      | succ n =>
        have hs' := hs
        obtain ⟨rs', r1, r2, _⟩ := hs'
        obtain ⟨sub', d1, d2, d3⟩ := decodes_typed r1 r2 (hlen _ (List.getElem_mem hk)) hsub rest
        have hw := ih sub' t d3 (by rw [Msg.encode, d2]; exact hs)
        simp only [textStep, hn, d1, Except.map, bind, Except.bind, hw, Bool.not_true, Bool.false_eq_true, if_false, pure, Except.pure,
          List.flatten_nil, List.append_nil, List.append_assoc]
  | succ j ihj =>
    intro i hi sub out hsub
    have hi' : i < els.length := by omega
    obtain ⟨b, t, hb, hs, ht⟩ := hat i (by simp; omega) (by omega)
    simp only [List.getElem_map, List.getElem_take, Val.bytes.injEq] at hb
    obtain ⟨rest, hn⟩ := hits i hi'
    have hdec : ∃ sub', sub.decode testRep ⟨els[i], rest⟩ = .ok (sub', none) ∧ sub'.buf = ⟨els[i], rest⟩ ∧ Readable testSchema sub' := by
      cases n with
      | zero => exact hs.elim
      | succ n =>
        obtain ⟨rs', _, _, r1, r2, _⟩ := hs
        rw [← hb] at r1
        exact decodes_typed r1 r2 (hlen _ (List.getElem_mem hi')) hsub rest
    obtain ⟨sub', d1, d2, d3⟩ := hdec
    have hw := shows_text F n sub' t d3 (by rw [Msg.encode, d2, hb]; exact hs)
    have hstep : textStep (writeText F n) (its i, sub, out) =
        .ok (.inl (its (i + 1), sub', out ++ asc t!"messages=<" ++ t ++ asc t!"> ")) := by
      simp only [textStep, hn, d1, Except.map, bind, Except.bind, hw, Bool.not_true, Bool.false_eq_true, if_false, pure, Except.pure]
    rw [iterate_eq, hstep]
    simp only
    rw [ihj (i + 1) (by omega) sub' _ d3.off_length]
    rw [List.drop_eq_getElem_cons (by omega : i < ts.length), ht]
    simp

/-- C56: if a message embedded in a message, at any depth, cannot be decoded, `Text` panics with the decoder's error, having written the
text up to that message. -/
theorem C56_error (F : Fmt) (n : Nat) : ∀ {m : Msg} {txt : List Byte} {e : DecErr}, Readable testSchema m →
    Stops F n m.encode.data txt e → writeText F n m = .ok (txt, some e) := by
  induction n with
  | zero => intro m txt e _ h; exact h.elim
  | succ n ih =>
    intro m txt e hm hs
    obtain ⟨rs, r1, r2, hs⟩ := hs
    obtain ⟨h1, h2⟩ := hm.records r1
    have hblen : ∀ r ∈ rs, ∀ b, r.val = .bytes b → b.length < maxLen := by
      intro r hr b hb
      obtain ⟨cs, c1, c2⟩ := h1
      rw [← c2] at hr
      simp only [records, List.mem_map] at hr
      obtain ⟨c, hc, rfl⟩ := hr
      have hwf := (c1.wf c hc).pay
      simp only [Chunk.record] at hb
      rw [hb] at hwf
      obtain ⟨lb, _, hp⟩ := hwf
      have hcl := c1.len
      rw [c1.data] at hcl
      obtain ⟨A, B, hAB⟩ := List.append_of_mem hc
      rw [hAB] at hcl
      simp only [flat_append, flat_cons, Chunk.bytes, hp, List.length_append] at hcl
      omega
    have hwf := writeFields_spec F h1 h2 textFields (by decide) []
    have hflat : (textFields.map (fun p => shownField F rs (p.1, p.2.1))) = protoNames.map (shownField F rs) := rfl
    rw [hflat, List.nil_append] at hwf
    simp only [writeText, hwf, bind, Except.bind]
    have habs : ∀ {b}, lastVal 17 rs = some (.bytes b) → ∃ rest, m.subMessage testRep 17 (Msg.zero 35) =
        ((Msg.zero 35).decode testRep ⟨b, rest⟩).map (fun r => (r.1, true, r.2)) := by
      intro b hb
      rcases C11_presence hm r1 (f := 17) rfl rfl with ⟨hab, _⟩ | ⟨b', hb', rest, hsub⟩
      · exact absurd rfl (hab _ (lastVal_mem (f := 17) hb))
      · rw [hb'] at hb
        simp only [Option.some.injEq, Val.bytes.injEq] at hb
        subst hb
        exact ⟨rest, hsub _ _⟩
    rcases hs with ⟨b, hb, hu, rfl⟩ | ⟨b, t, hb, hst, rfl⟩ | ⟨sub, pre, post, ts, b, last, hnone, hsome, hall, hpre, hlast, rfl⟩
    · obtain ⟨rest, hsub⟩ := habs hb
      obtain ⟨x, hx⟩ := hu (Msg.zero 35) rest rfl
      simp only [hsub, hx, Except.map, pure, Except.pure]
    · obtain ⟨rest, hsub⟩ := habs hb
      cases n with
      | zero => exact hst.elim
      | succ n =>
        have hst' := hst
        obtain ⟨rs', q1, q2, _⟩ := hst'
        obtain ⟨sub', d1, d2, d3⟩ := decodes_typed q1 q2 (hblen _ (lastVal_mem hb) b rfl) (sub := Msg.zero 35) rfl rest
        have hw := ih d3 (by rw [Msg.encode, d2]; exact hst)
        simp only [hsub, d1, Except.map, if_true, hw, pure, Except.pure]
    · obtain ⟨els, e1, its, i1, i2, i3⟩ := C09_iterate hm r1 (f := 34) rfl rfl
      have hel : ∀ b ∈ els, b.length < maxLen := by
        intro b hb
        have : Val.bytes b ∈ allVals 34 rs := by rw [e1]; exact List.mem_map_of_mem hb
        simp only [allVals, List.mem_map, List.mem_filter] at this
        obtain ⟨r, ⟨hr, _⟩, hv⟩ := this
        exact hblen r hr b hv
      have hsplit : els.map Val.bytes = pre ++ .bytes b :: post := by rw [← e1]; exact hall
      have hk : pre.length < els.length := by
        have := congrArg List.length hsplit
        simp at this; omega
      have hek : els[pre.length] = b := by
        have : (els.map Val.bytes)[pre.length]'(by simpa using hk) = .bytes b := by simp [hsplit]
        simpa using this
      have htk : (els.take pre.length).map Val.bytes = pre := by
        rw [List.map_take, hsplit]; simp
      have hloop := textLoop_stops F n (fun m txt hr hs => ih hr hs) hel i2 hk (by rw [htk]; exact hpre) (by rw [hek]; exact hlast) pre.length 0 (by omega)
      rcases C11_presence hm r1 (f := 17) rfl rfl with ⟨hab, hsub⟩ | ⟨b, hb, rest, hsub⟩
      · have hl : lastVal 17 rs = none := by
          cases hl : lastVal 17 rs with
          | none => rfl
          | some v => exact absurd rfl (hab _ (lastVal_mem (f := 17) hl))
        rw [hnone hl, List.append_nil]
        simp only [hsub, Bool.false_eq_true, if_false, i1]
        rw [hloop _ _ rfl]; simp
      · obtain ⟨t, ht, rfl⟩ := hsome b hb
        have hdec : ∃ sub', (Msg.zero 35).decode testRep ⟨b, rest⟩ = .ok (sub', none) ∧ sub'.buf = ⟨b, rest⟩ ∧ Readable testSchema sub' := by
          cases n with
          | zero => exact ht.elim
          | succ n =>
            obtain ⟨rs', _, _, q1, q2, _⟩ := ht
            exact decodes_typed q1 q2 (hblen _ (lastVal_mem hb) b rfl) rfl rest
        obtain ⟨sub', d1, d2, d3⟩ := hdec
        have hw := shows_text F n sub' t d3 (by rw [Msg.encode, d2]; exact ht)
        simp only [hsub, d1, Except.map, if_true, hw, i1]
        rw [hloop _ _ d3.off_length]; simp

/-- How deep messages are nested in a tree. -/
def Tree.nest : Tree → Nat
  | .nil => 0
  | .set t _ _ _ _ => t.nest
  | .sub t _ _ c => max t.nest (c.nest + 1)
  | .elem t _ _ c => max t.nest (c.nest + 1)

theorem Tree.child_nest {t c : Tree} {f : Nat} (h : t.child f = some c) : c.nest < t.nest := by
  induction t with
  | nil => simp [Tree.child] at h
  | set t rt g k x ih => exact ih h
  | elem t rt g c' ih => have := ih h; simp only [Tree.nest]; omega
  | sub t rt g c' ih =>
    simp only [Tree.child] at h
    split at h
    · simp only [Option.some.injEq] at h; subst h; simp only [Tree.nest]; omega
    · have := ih h; simp only [Tree.nest]; omega

theorem Tree.elems_nest {t c : Tree} {f : Nat} (h : c ∈ t.elems f) : c.nest < t.nest := by
  induction t with
  | nil => simp [Tree.elems] at h
  | set t rt g k x ih => exact ih h
  | sub t rt g c' ih => have := ih h; simp only [Tree.nest]; omega
  | elem t rt g c' ih =>
    simp only [Tree.elems] at h
    split at h
    · simp only [List.mem_append, List.mem_singleton] at h
      rcases h with h | rfl
      · have := ih h; simp only [Tree.nest]; omega
      · simp only [Tree.nest]; omega
    · have := ih h; simp only [Tree.nest]; omega

theorem Tree.shows (F : Fmt) (n : Nat) : ∀ t : Tree, t.nest < n → t.Valid testTypes () → t.cost < maxLen →
    ∃ txt, Shows F n (t.enc testTypes ()) txt := by
  induction n with
  | zero => intro t h; omega
  | succ n ih =>
    intro t hn hv hc
    obtain ⟨m, rs, b1, b2, b3, b4, b5, b6, b7⟩ := t.built testTypes () hv hc
    have henc : t.enc testTypes () = m.encode.data := by unfold Tree.enc; rw [b1]
    obtain ⟨_, h2⟩ := b2.records b3
    have hsub : ∃ sub : List Byte, (lastVal 17 rs = none → sub = []) ∧
        (∀ b, lastVal 17 rs = some (.bytes b) → ∃ t, Shows F n b t ∧ sub = asc t!"message=<" ++ t ++ asc t!"> ") := by
      have hl := b6 17 () rfl rfl
      rw [hl]
      cases hcc : t.child 17 with
      | none => exact ⟨[], fun _ => rfl, fun b hb => by simp at hb⟩
      | some c =>
        obtain ⟨cv, ccost⟩ := t.child_sub testTypes hv hcc (τ' := ()) rfl
        obtain ⟨txt, ht⟩ := ih c (by have := Tree.child_nest hcc; omega) cv (by omega)
        refine ⟨asc t!"message=<" ++ txt ++ asc t!"> ", fun h => by simp at h, ?_⟩
        intro b hb
        simp only [Option.map_some, Option.some.injEq, Val.bytes.injEq] at hb
        subst hb
        exact ⟨txt, ht, rfl⟩
    have hels : ∃ els, Each (fun v e => ∃ b t, v = Val.bytes b ∧ Shows F n b t ∧ e = asc t!"messages=<" ++ t ++ asc t!"> ")
        (allVals 34 rs) els := by
      rw [b7 34 () rfl rfl]
      have hall : ∀ c ∈ t.elems 34, ∃ txt, Shows F n (c.enc testTypes ()) txt := by
        intro c hcm
        obtain ⟨cv, ccost⟩ := t.elems_sub testTypes hv hcm (τ' := ()) rfl
        exact ih c (by have := Tree.elems_nest hcm; omega) cv (by omega)
      revert hall
      generalize t.elems 34 = cs
      intro hall
      induction cs with
      | nil => exact ⟨[], .nil⟩
      | cons c cs ihc =>
        obtain ⟨txt, ht⟩ := hall c (by simp)
        obtain ⟨els, he⟩ := ihc (fun d hd => hall d (by simp [hd]))
        exact ⟨_ :: els, .cons ⟨_, txt, rfl, ht, rfl⟩ he⟩
    obtain ⟨sub, s1, s2⟩ := hsub
    obtain ⟨els, e1⟩ := hels
    rw [henc]
    exact ⟨_, rs, sub, els, b3, h2, rfl, s1, s2, e1⟩

/-- C56: every message built bottom-up through the API has a text, `Text` returns it, also after encoding and decoding, and
the calls nest at most one level deeper than the messages. -/
theorem C56_tree (F : Fmt) (t : Tree) (hv : t.Valid testTypes ()) (hc : t.cost < maxLen) :
    ∃ m txt, t.build testTypes () = .ok m ∧ Shows F (t.nest + 1) m.encode.data txt ∧
      ∀ n, t.nest < n → writeText F n m = .ok (txt, none) ∧
        ∀ (m0 m' : Msg) (buf : Slice), m0.off.a.length = 35 → buf.data = m.encode.data →
          m0.decode testRep buf = .ok (m', none) → writeText F n m' = .ok (txt, none) := by
  obtain ⟨m, rs, b1, b2, b3, _⟩ := t.built testTypes () hv hc
  obtain ⟨txt, hs⟩ := t.shows F (t.nest + 1) (by omega) hv hc
  have henc : t.enc testTypes () = m.encode.data := by unfold Tree.enc; rw [b1]
  rw [henc] at hs
  refine ⟨m, txt, b1, hs, ?_⟩
  intro n hn
  have hk : n = t.nest + 1 + (n - t.nest - 1) := by omega
  rw [hk]
  refine ⟨C56_text F (.reach b2) hs _, ?_⟩
  intro m0 m' buf h0 hb hd
  obtain ⟨m1, d1, d2, _, d3⟩ := C05_encode_decode b2 h0 hb
  have : m0.decode testSchema.rep buf = .ok (m', none) := hd
  have d1' : m0.decode testSchema.rep buf = .ok (m1, none) := d1
  rw [this] at d1'
  simp only [Except.ok.injEq, Prod.mk.injEq, and_true] at d1'
  subst d1'
  exact C56_text F (.reach d3) (by rw [d2, hb]; exact hs) _

/-- `Text` of a message without embedded messages. -/
theorem text_flat (F : Fmt) {m : Msg} {out : List Byte} (h1 : writeFields F m textFields [] = .ok out)
    (h2 : getBytes m.buf m.off 17 = .ok none) (h3 : m.messages 34 = .ok none) : writeText F 1 m = .ok (out, none) := by
  have hs : m.subMessage testRep 17 (Msg.zero 35) = .ok (Msg.zero 35, false, none) := by
    simp only [Msg.subMessage, h2, bind, Except.bind, pure, Except.pure]
  simp only [writeText, h1, hs, h3, bind, Except.bind, Bool.false_eq_true, if_false]
  rw [iterate_eq]
  rfl

/-- A message with `string` set to `a enum=1`. -/
def oneField : Msg :=
  ⟨⟨[0x72#8, 0x08#8, 0x61#8, 0x20#8, 0x65#8, 0x6e#8, 0x75#8, 0x6d#8, 0x3d#8, 0x31#8], []⟩, ⟨(List.replicate 35 0#16).set 14 1#16, none⟩⟩

/-- A message with `string` set to `a` and `enum` to 1. -/
def twoFields : Msg :=
  ⟨⟨[0x72#8, 0x01#8, 0x61#8, 0x80#8, 0x01#8, 0x01#8], []⟩, ⟨((List.replicate 35 0#16).set 14 1#16).set 16 5#16, none⟩⟩

/-- The text does not determine the message: a string may contain what looks like another field. -/
theorem C56_false_injective (F : Fmt) : ∃ (m m' : Msg) (txt : List Byte), Reach testSchema m ∧ Reach testSchema m' ∧
    writeText F 1 m = .ok (txt, none) ∧ writeText F 1 m' = .ok (txt, none) ∧ m.get .string 14 ≠ m'.get .string 14 ∧
    m.get .uint32 16 ≠ m'.get .uint32 16 := by
  have r : Reach testSchema oneField :=
    Reach.set (rt := Rt.exact) (k := .string) (f := 14) (x := asc t!"a enum=1") .zero rfl rfl (by decide) rfl
  have r1 : Reach testSchema ⟨⟨[0x72#8, 0x01#8, 0x61#8], []⟩, ⟨(List.replicate 35 0#16).set 14 1#16, none⟩⟩ :=
    Reach.set (rt := Rt.exact) (k := .string) (f := 14) (x := asc t!"a") .zero rfl rfl (by decide) rfl
  have r2 : Reach testSchema twoFields :=
    Reach.set (rt := Rt.exact) (k := .uint32) (f := 16) (x := 1#32) r1 rfl rfl (by decide) rfl
  exact ⟨oneField, twoFields, asc t!"string=a enum=1 ", r, r2, text_flat F rfl rfl rfl, text_flat F rfl rfl rfl, by decide, by decide⟩

/-- The text of `demo`: a string, an integer, and one empty element. -/
example (F : Fmt) : Readable testSchema demo ∧
    Shows F 2 demo.encode.data (asc t!"int32=7 string=hi messages=<> ") := by
  refine ⟨.reach demo_reach, _, [], [asc t!"messages=<> "], IsMinTagMessage_isMessage demo_records, demo_reach.records
    (IsMinTagMessage_isMessage demo_records) |>.2, rfl, fun _ => rfl, fun b hb => ?_, .cons ⟨[], [], rfl, ?_, rfl⟩ .nil⟩
  · simp [lastVal] at hb
  · exact ⟨[], [], [], .nil, by intro r hr; simp at hr, rfl, fun _ => rfl, fun b hb => by simp [lastVal] at hb, .nil⟩

/-- The hypotheses of `C56_tree` hold of a tree three levels deep. -/
example : let t0 : Tree := Tree.nil.set Rt.exact 14 .string [0x68#8]
    let t1 : Tree := (Tree.nil.elem Rt.exact 34 t0).set Rt.exact 2 .int32 5#32
    let t : Tree := (Tree.nil.sub Rt.exact 17 t1).elem Rt.exact 34 Tree.nil
    t.Valid testTypes () ∧ t.cost < maxLen ∧ t.nest = 2 := by
  refine ⟨?_, by decide, rfl⟩
  simp [Tree.Valid, testTypes, testSchema, testKind, testRep]

/-- A message whose field 17 is the single byte 0x08, a tag without a value. -/
def badChild : Msg := ⟨⟨[0x8a#8, 0x01#8, 0x01#8, 0x08#8], []⟩, ⟨(List.replicate 35 0#16).set 17 2#16, none⟩⟩

/-- The hypotheses of `C56_panic` hold of it. -/
example : Reach testSchema badChild ∧ IsMessage [⟨17, .bytes [0x08#8]⟩] badChild.encode.data ∧
    ∀ rest, ∃ x, (Msg.zero 35).decode testRep ⟨[0x08#8], rest⟩ = .ok (x, some .unexpectedEOF) := by
  refine ⟨Reach.set (rt := Rt.exact) (k := .bytes) (f := 17) (x := [0x08#8]) .zero rfl rfl (by decide) rfl, ?_, ?_⟩
  · have e : badChild.encode.data = ([0x8a#8, 0x01#8] ++ ([0x01#8] ++ [0x08#8])) ++ [] := rfl
    rw [e]
    refine .cons ⟨[0x8a#8, 0x01#8], [0x01#8] ++ [0x08#8], rfl, ?_, [0x01#8], ?_, rfl⟩ .nil
    · exact ⟨[0x8a#8], 0x01#8, rfl, by decide, by decide, by decide, by decide, by decide⟩
    · exact ⟨[], 0x01#8, rfl, by decide, by decide, by decide, by decide, by decide⟩
  · intro rest
    refine ⟨⟨⟨[0x08#8], rest⟩, (Offsets.zero 35).clear⟩, ?_⟩
    unfold Msg.decode decode
    rw [iterate_eq]
    rfl

theorem undecodable_tag : Undecodable [0x08#8] .unexpectedEOF := by
  intro m0 rest _
  refine ⟨⟨⟨[0x08#8], rest⟩, m0.off.clear⟩, ?_⟩
  unfold Msg.decode decode
  rw [iterate_eq]
  rfl

/-- The hypotheses of `C56_error` hold of a message with two elements, the first one empty, the second a tag without a value. -/
example (F : Fmt) : ∃ m, Readable testSchema m ∧ m.encode.data = [0x92#8, 0x02#8, 0x00#8, 0x92#8, 0x02#8, 0x01#8, 0x08#8] ∧
    Stops F 2 m.encode.data (asc t!"messages=<> ") .unexpectedEOF := by
  have tag : IsVarint 274 [0x92#8, 0x02#8] := ⟨[0x92#8], 0x02#8, rfl, by decide, by decide, by decide, by decide, by decide⟩
  have hr : IsMessage [⟨34, .bytes []⟩, ⟨34, .bytes [0x08#8]⟩] (([0x92#8, 0x02#8] ++ ([0x00#8] ++ [])) ++ (([0x92#8, 0x02#8] ++ ([0x01#8] ++ [0x08#8])) ++ [])) := by
    refine .cons ⟨_, _, rfl, tag, [0x00#8], ?_, rfl⟩ (.cons ⟨_, _, rfl, tag, [0x01#8], ?_, rfl⟩ .nil)
    · exact ⟨[], 0x00#8, rfl, by decide, by decide, by decide, by decide, by decide⟩
    · exact ⟨[], 0x01#8, rfl, by decide, by decide, by decide, by decide, by decide⟩
  have hw : WellTyped testSchema [⟨34, .bytes []⟩, ⟨34, .bytes [0x08#8]⟩] := by
    intro r hr
    simp only [List.mem_cons, List.not_mem_nil, or_false] at hr
    rcases hr with rfl | rfl <;> exact ⟨by decide, by intro k hk; cases hk; exact ⟨_, rfl⟩⟩
  obtain ⟨m, _, h2, h3⟩ := decodes_typed hr hw (by decide) (sub := Msg.zero 35) rfl []
  refine ⟨m, h3, by rw [Msg.encode, h2]; rfl, ?_⟩
  rw [Msg.encode, h2]
  refine ⟨_, hr, hw, Or.inr (Or.inr ⟨[], [.bytes []], [], [asc t!"messages=<> "], [0x08#8], [], fun _ => rfl, fun b hb => ?_, rfl, .cons ⟨[], [], rfl, ?_, rfl⟩ .nil,
    Or.inl ⟨undecodable_tag, rfl⟩, rfl⟩)⟩
  · simp [lastVal] at hb
  · exact ⟨[], [], [], .nil, by intro r hr; simp at hr, rfl, fun _ => rfl, fun b hb => by simp [lastVal] at hb, .nil⟩

end Zeropb
