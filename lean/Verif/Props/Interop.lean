import Verif.Props.Tree
import Verif.Props.Readme
import Verif.Proof.Std
set_option linter.unusedSimpArgs false
set_option linter.unusedVariables false
/-!
# zeropb against an ordinary protobuf implementation (C60)

What rand_test.go tests on random messages (`TestRandDecode`, `TestRandEncode`,
`TestRandMutations`), for all messages and histories. The ordinary implementation is specified in
`Spec/Std.lean`.
-/

namespace Zeropb
open Wire

/-- Reading the message `m` with getters, message accessors and iterators, recursively down to depth
`n`, finds the struct `o` (rand_test.go `zeroToGogoViaCopy`). The structs given to the accessors to
decode into are arbitrary. -/
def ReadsObj (Ty : Types) : Nat → Ty.T → Msg → Obj → Prop
  | 0, _, _, _ => True
  | n + 1, τ, m, o =>
    (∀ f k, (Ty.schema τ).kind f = some k → Ty.sub τ f = none → m.get k f = .ok (o.val f k)) ∧
    (∀ f τ', Ty.sub τ f = some τ' → (Ty.schema τ).rep f = false →
      ∀ x : Msg, x.off.a.length = (Ty.schema τ').n →
        (o.child f = none → m.subMessage (Ty.schema τ').rep f x = .ok (x, false, none)) ∧
        (∀ c, o.child f = some c →
          ∃ x', m.subMessage (Ty.schema τ').rep f x = .ok (x', true, none) ∧ ReadsObj Ty n τ' x' c)) ∧
    (∀ f τ', Ty.sub τ f = some τ' → (Ty.schema τ).rep f = true →
      ∃ its : Nat → Option Slice, m.messages f = .ok (its 0) ∧
        ∀ x : Msg, x.off.a.length = (Ty.schema τ').n → ∀ i,
          (∀ c, (o.elems f)[i]? = some c → ∃ x', Msg.next (Ty.schema τ').rep (its i) f x =
            .ok (its (i + 1), x', true, none) ∧ ReadsObj Ty n τ' x' c) ∧
          ((o.elems f)[i]? = none → Msg.next (Ty.schema τ').rep (its i) f x = .ok (its (i + 1), x, false, none)))

/-- A zeropb message and an ordinary struct of the same type, filled by the same calls (rand_test.go
`gogoToZeroViaCopy`, `mutate`): both start empty, or zeropb decodes what the ordinary implementation
reads; then each setter is matched by an assignment. Embedded messages are built the same way. -/
inductive Lockstep (Ty : Types) : Ty.T → Msg → Obj → Prop where
  | zero {τ} : Lockstep Ty τ (Msg.zero (Ty.schema τ).n) .empty
  | reset {τ} {m0 m : Msg} {buf : Slice} : m0.off.a.length = (Ty.schema τ).n → m0.reset buf = .ok m → Lockstep Ty τ m .empty
  | decode {τ} {m0 m : Msg} {buf : Slice} {rs o} : m0.off.a.length = (Ty.schema τ).n → buf.len < maxLen → IsMinTagMessage rs buf.data →
      Unsplit Ty τ rs → Unmarshals Ty τ rs .empty o → m0.decode (Ty.schema τ).rep buf = .ok (m, none) → Lockstep Ty τ m o
  | set {τ} {m m' : Msg} {o rt f k x} : Lockstep Ty τ m o → (Ty.schema τ).kind f = some k → Ty.sub τ f = none → k.size x < maxLen →
      m.set rt k f x = .ok m' → Lockstep Ty τ m' (o.setVal f k x)
  | sub {τ} {m m' : Msg} {o rt f τ'} {y : Msg} {c} : Lockstep Ty τ m o → Ty.sub τ f = some τ' → (Ty.schema τ).rep f = false →
      Lockstep Ty τ' y c → m.setMessage rt f y = .ok m' → Lockstep Ty τ m' (o.setChild f c)
  | append {τ} {m m' : Msg} {o rt f τ'} {y : Msg} {c} : Lockstep Ty τ m o → Ty.sub τ f = some τ' → (Ty.schema τ).rep f = true →
      Lockstep Ty τ' y c → m.appendTo rt f y = .ok m' → Lockstep Ty τ m' (o.addElem f c)

/-! ## Proof -/

theorem Types.rep_false (Ty : Types) {τ : Ty.T} {f k} (hk : (Ty.schema τ).kind f = some k) (hs : Ty.sub τ f = none) :
    (Ty.schema τ).rep f = false := by
  cases hr : (Ty.schema τ).rep f with
  | false => rfl
  | true => exact absurd hs (Ty.rep_sub τ f hr (by rw [hk]; simp))

theorem _root_.Zeropb.Wire.IsMessage.bytes_le {rs : List Record} {bs : List Byte} (h : IsMessage rs bs) {f b} (hm : ⟨f, .bytes b⟩ ∈ rs) :
    b.length ≤ bs.length := by
  induction h with
  | nil => simp at hm
  | @cons r rs bs rest h1 _ ih =>
    rcases List.mem_cons.1 hm with rfl | hm
    · obtain ⟨tag, pay, rfl, _, lb, _, rfl⟩ := h1
      simp only [List.length_append]; omega
    · have := ih hm
      simp only [List.length_append]; omega

theorem mem_allVals {f : Nat} {rs : List Record} {v : Val} : v ∈ allVals f rs ↔ ⟨f, v⟩ ∈ rs := by
  unfold allVals
  simp only [List.mem_map, List.mem_filter, decide_eq_true_eq]
  constructor
  · rintro ⟨r, ⟨h1, rfl⟩, rfl⟩; exact h1
  · intro h; exact ⟨_, ⟨h, rfl⟩, rfl⟩

theorem lastVal_eq_getLast (f : Nat) (rs : List Record) : lastVal f rs = (allVals f rs).getLast? := by
  unfold lastVal allVals; rw [List.getLast?_map]

theorem Adds.spec {Ty : Types} {τ' : Ty.T} {vs : List Val} {es es' : List Obj} (h : Adds Ty τ' vs es es') :
    ∃ news, es' = es ++ news ∧ news.length = vs.length ∧
      ∀ (i : Nat) (c : Obj), news[i]? = some c → ∃ (b : List Byte) (rs : List Record), vs[i]? = some (Val.bytes b) ∧ IsMessage rs b ∧ Unmarshals Ty τ' rs .empty c := by
  induction h with
  | nil => exact ⟨[], by simp, rfl, by simp⟩
  | @cons b vs es rs c es' hm hu _ ih =>
    obtain ⟨news, e1, e2, e3⟩ := ih
    refine ⟨c :: news, by rw [e1]; simp, by simp [e2], ?_⟩
    intro i d hd
    cases i with
    | zero => simp only [List.getElem?_cons_zero, Option.some.injEq] at hd; subst hd; exact ⟨b, rs, rfl, hm, hu⟩
    | succ i => simp only [List.getElem?_cons_succ] at hd ⊢; exact e3 i d hd

theorem Adds.snoc {Ty : Types} {τ' : Ty.T} {vs : List Val} {es es' : List Obj} (h : Adds Ty τ' vs es es') {b rs c}
    (hm : IsMessage rs b) (hu : Unmarshals Ty τ' rs .empty c) : Adds Ty τ' (vs ++ [.bytes b]) es (es' ++ [c]) := by
  induction h with
  | nil => exact .cons hm hu .nil
  | cons a b _ ih => exact .cons a b ih

theorem ByField.wellTyped {Ty : Types} {τ : Ty.T} {rs o o'} (h : ByField Ty τ rs o o') (hp : Unsplit Ty τ rs) :
    WellTyped (Ty.schema τ) rs := by
  cases hp with
  | mk h1 _ _ => exact fun r hr => ⟨h1 r hr, h.typed r hr⟩

theorem Interop.reads (Ty : Types) (n : Nat) : ∀ (τ : Ty.T) (m : Msg) (o : Obj) (rs : List Record), Readable (Ty.schema τ) m →
    m.encode.data.length < maxLen →
    IsMessage rs m.encode.data → Unsplit Ty τ rs → Unmarshals Ty τ rs .empty o → ReadsObj Ty n τ m o := by
  induction n with
  | zero => intros; trivial
  | succ n ih =>
    intro τ m o rs hm hlen hmsg hp hu
    have hb := hu.byField
    have hw := hb.wellTyped hp
    obtain ⟨h1, _⟩ := hm.records hmsg
    obtain ⟨hp1, hp2, hp3⟩ := hp
    have down : ∀ f τ' b rs' c, Ty.sub τ f = some τ' → ⟨f, .bytes b⟩ ∈ rs → IsMessage rs' b → Unmarshals Ty τ' rs' .empty c →
        ∀ (x : Msg) (rest : List Byte), x.off.a.length = (Ty.schema τ').n →
        ∃ x', x.decode (Ty.schema τ').rep ⟨b, rest⟩ = .ok (x', none) ∧ ReadsObj Ty n τ' x' c := by
      intro f τ' b rs' c hs hmem hm' hu' x rest hx
      have hl := hmsg.bytes_le hmem
      have hp' := hp3 f τ' b rs' hs hmem hm'
      have hw' := hu'.byField.wellTyped hp'
      obtain ⟨x', d1, d2, _⟩ := decode_holds (S := Ty.schema τ') (m := x) hx (buf := ⟨b, rest⟩) (by simp only [Slice.len]; omega) hm'
        (fun r hr => (hw' r hr).1)
      refine ⟨x', d1, ih τ' x' c rs' (.decode hx (by simp only [Slice.len]; omega) hm' hw' d1) ?_ ?_ hp' hu'⟩
      · simp only [Msg.encode, d2]; omega
      · simp only [Msg.encode, d2]; exact hm'
    refine ⟨?_, ?_, ?_⟩
    · intro f k hk hs
      have hr := Ty.rep_false hk hs
      apply h1.get hk hr
      obtain ⟨v1, v2⟩ := hb.val f k hk hs
      cases hl : lastVal f rs with
      | none => rw [v1 hl]; rfl
      | some v =>
        obtain ⟨x, hx⟩ := hb.typed _ (lastVal_mem hl) k hk
        rw [v2 v x hl hx]; exact hx
    · intro f τ' hs hr x hx
      have hk := Ty.sub_bytes τ f τ' hs
      have hc := hb.child f τ' hs hr
      simp only [Obj.child_empty] at hc
      rcases C11_presence hm hmsg hk hr with ⟨ha, h⟩ | ⟨b, hl, rest, h⟩
      · have : allVals f rs = [] := by
          rw [List.eq_nil_iff_forall_not_mem]
          intro v hv
          exact ha _ (mem_allVals.1 hv) rfl
        rw [this] at hc
        generalize hd : o.child f = d at hc
        cases hc
        exact ⟨fun _ => h _ x, fun c hc => by cases hc⟩
      · have h2 := hp2 f τ' hs hr
        rw [lastVal_eq_getLast] at hl
        have : allVals f rs = [.bytes b] := by
          match h3 : allVals f rs with
          | [] => rw [h3] at hl; simp at hl
          | [v] => rw [h3] at hl; simp only [List.getLast?_singleton, Option.some.injEq] at hl; rw [hl]
          | _ :: _ :: _ => rw [h3] at h2; simp at h2
        have hmem : (⟨f, .bytes b⟩ : Record) ∈ rs := mem_allVals.1 (by rw [this]; simp)
        rw [this] at hc
        generalize hd : o.child f = d at hc
        cases hc with
        | @cons _ _ _ rs' c _ hm' hu' hrest =>
        cases hrest
        refine ⟨fun hn => (by cases hn), ?_⟩
        intro c' hc'
        cases hc'
        obtain ⟨x', d1, d2⟩ := down f τ' b rs' c hs hmem hm' hu' x rest hx
        exact ⟨x', by rw [h, d1]; rfl, d2⟩
    · intro f τ' hs hr
      have hk := Ty.sub_bytes τ f τ' hs
      obtain ⟨els, e1, its, i1, i2, i3⟩ := C09_iterate hm hmsg hk hr
      obtain ⟨news, n1, n2, n3⟩ := (hb.elems f τ' hs hr).spec
      simp only [Obj.elems_empty, List.nil_append] at n1
      rw [e1] at n2 n3
      simp only [List.length_map] at n2
      refine ⟨its, i1, ?_⟩
      intro x hx i
      rw [n1]
      constructor
      · intro c hc
        obtain ⟨b, rs', h3, h4, h5⟩ := n3 i c hc
        have hi : i < els.length := by
          rcases Nat.lt_or_ge i news.length with h | h
          · omega
          · rw [List.getElem?_eq_none h] at hc; simp at hc
        have hel : els[i] = b := by
          rw [List.getElem?_map, List.getElem?_eq_getElem hi] at h3
          simpa using h3
        have hmem : (⟨f, .bytes b⟩ : Record) ∈ rs := by
          apply mem_allVals.1; rw [e1, ← hel]; exact List.mem_map_of_mem (List.getElem_mem hi)
        obtain ⟨rest, hn⟩ := i2 i hi
        obtain ⟨x', d1, d2⟩ := down f τ' b rs' c hs hmem h4 h5 x rest hx
        exact ⟨x', by rw [hn, hel, d1]; rfl, d2⟩
      · intro hnone
        have hi : els.length ≤ i := by
          rcases Nat.lt_or_ge i news.length with h | h
          · rw [List.getElem?_eq_getElem h] at hnone; simp at hnone
          · omega
        exact i3 i hi _ x

/-- C60: zeropb reads what any other encoder wrote. If an ordinary implementation reads the bytes of
`buf` as the struct `o`, then (no field number above the declared ones, no message field in several
pieces) zeropb decodes them, into any struct, and reading the message recursively finds `o`. -/
theorem C60_decode (Ty : Types) (τ : Ty.T) {m0 : Msg} (h0 : m0.off.a.length = (Ty.schema τ).n) {buf : Slice} {rs : List Record} {o : Obj}
    (hlen : buf.len < maxLen) (hm : IsMessage rs buf.data) (hp : Unsplit Ty τ rs) (hu : Unmarshals Ty τ rs .empty o) :
    ∃ m, m0.decode (Ty.schema τ).rep buf = .ok (m, none) ∧ ∀ n, ReadsObj Ty n τ m o := by
  have hw := hu.byField.wellTyped hp
  obtain ⟨m, d1, d2, _⟩ := decode_holds (S := Ty.schema τ) h0 hlen hm (fun r hr => (hw r hr).1)
  refine ⟨m, d1, fun n => Interop.reads Ty n τ m o rs (.decode h0 hlen hm hw d1) ?_ ?_ hp hu⟩
  · simp only [Msg.encode, d2]; exact hlen
  · simp only [Msg.encode, d2]; exact hm

/-- What the calls preserve. -/
theorem Lockstep.inv {Ty : Types} {τ : Ty.T} {m : Msg} {o : Obj} (h : Lockstep Ty τ m o) :
    Reach (Ty.schema τ) m ∧ ∃ rs, IsMessage rs m.encode.data ∧ Unsplit Ty τ rs ∧ Unmarshals Ty τ rs .empty o := by
  have unsplit_nil : ∀ τ, Unsplit Ty τ [] := fun τ => .mk (by simp) (by simp [allVals]) (by simp)
  induction h with
  | zero => exact ⟨.zero, [], .nil, unsplit_nil _, .nil⟩
  | @reset τ m0 m buf h0 hr =>
    have hre : Reach (Ty.schema τ) m := .reset h0 hr
    exact ⟨hre, [], (HoldsMin.reset h0 hr).holds.isMessage, unsplit_nil _, .nil⟩
  | @decode τ m0 m buf rs o h0 hlen hm hp hu hd =>
    have hw := hu.byField.wellTyped hp
    obtain ⟨m', d1, d2, _⟩ := decode_holdsMin (S := Ty.schema τ) h0 hlen hm (fun r hr => (hw r hr).1)
    rw [hd] at d1
    cases d1
    refine ⟨.decode h0 hlen hm hw hd, rs, ?_, hp, hu⟩
    simp only [Msg.encode, d2]; exact IsMinTagMessage_isMessage hm
  | @set τ m m' o rt f k x _ hk hs hx he ih =>
    obtain ⟨hre, rs, hm, hp, hu⟩ := ih
    have hr := Ty.rep_false hk hs
    obtain ⟨h1, h2⟩ := hre.records hm
    have hb := hu.byField
    rcases h1.set rt hk hr x hx (fun v hv => h2.last hk hv) with ⟨m1, rs', e1, e2, e3, e4, e5, _⟩ | ⟨e1, _⟩
    · rw [he] at e1; cases e1
      have hre' : Reach (Ty.schema τ) m' := .set hre hk hr hx he
      have hm' := e2.holds.isMessage
      obtain ⟨_, hw'⟩ := hre'.records hm'
      refine ⟨hre', rs', hm', .mk (fun r hr => (hw' r hr).1) ?_ ?_, ByField.unmarshals ⟨fun r hr => (hw' r hr).2, ?_, ?_, ?_, ?_, ?_, ?_⟩⟩
      · intro g τ' hs' hr'
        have hg : g ≠ f := by rintro rfl; rw [hs] at hs'; cases hs'
        rw [allVals_of_filter_ne hg e4]
        cases hp with | mk _ p2 _ => exact p2 g τ' hs' hr'
      · intro g τ' b rs2 hs' hmem hm2
        rcases e5 _ hmem with h | h
        · simp only [Record.mk.injEq] at h; obtain ⟨rfl, _⟩ := h; rw [hs] at hs'; cases hs'
        · cases hp with | mk _ _ p3 => exact p3 g τ' b rs2 hs' h hm2
      · intro g k' hk' hs'
        by_cases hg : g = f
        · subst hg
          rw [hk] at hk'; cases hk'
          rw [e3]
          refine ⟨by simp, ?_⟩
          intro v x' hv hx'
          cases hv
          rw [decodeVal_encodeVal] at hx'; cases hx'
          simp
        · rw [lastVal_of_filter_ne hg e4, Obj.val_setVal_ne _ _ _ _ _ _ (Or.inl hg)]
          exact hb.val g k' hk' hs'
      · intro g k' hc
        rw [Obj.val_setVal_ne, hb.val_other g k' hc]
        by_cases hg : g = f
        · right; rintro rfl; subst hg
          rcases hc with hc | hc
          · exact hc hk
          · exact hc hs
        · exact Or.inl hg
      · intro g τ' hs' hr'
        have hg : g ≠ f := by rintro rfl; rw [hs] at hs'; cases hs'
        rw [allVals_of_filter_ne hg e4]; exact hb.child g τ' hs' hr'
      · exact hb.child_other
      · intro g τ' hs' hr'
        have hg : g ≠ f := by rintro rfl; rw [hs] at hs'; cases hs'
        rw [allVals_of_filter_ne hg e4]; exact hb.elems g τ' hs' hr'
      · exact hb.elems_other
    · rw [he] at e1; cases e1
  | @sub τ m m' o rt f τc y c _ hs hr _ he ih ihy =>
    obtain ⟨hre, rs, hm, hp, hu⟩ := ih
    obtain ⟨hry, rsy, hmy, hpy, huy⟩ := ihy
    have hk := Ty.sub_bytes τ f τc hs
    obtain ⟨h1, h2⟩ := hre.records hm
    have hb := hu.byField
    have hx : Kind.size .bytes y.encode.data < maxLen := by
      obtain ⟨hy, _⟩ := hry.records hmy
      obtain ⟨_, r, _⟩ := hy
      exact r.len
    unfold Msg.setMessage at he
    rcases h1.set rt hk hr y.encode.data hx (fun v hv => h2.last hk hv) with ⟨m1, rs', e1, e2, e3, e4, e5, _, _, e6⟩ | ⟨e1, _⟩
    · rw [he] at e1; cases e1
      have hre' : Reach (Ty.schema τ) m' := .set hre hk hr hx he
      have hm' := e2.holds.isMessage
      obtain ⟨_, hw'⟩ := hre'.records hm'
      obtain ⟨p1, p2, p3⟩ := hp
      have hall : allVals f rs' = [.bytes y.encode.data] := by
        have h3 : allVals f rs' = (allVals f rs).dropLast ++ [.bytes y.encode.data] := by
          unfold allVals; rw [e6]; simp [List.map_dropLast, encodeVal]
        have := p2 f τc hs hr
        rw [h3]
        match h4 : allVals f rs with
        | [] => rfl
        | [v] => rfl
        | _ :: _ :: _ => rw [h4] at this; simp at this
      refine ⟨hre', rs', hm', .mk (fun r hr => (hw' r hr).1) ?_ ?_, ByField.unmarshals ⟨fun r hr => (hw' r hr).2, ?_, ?_, ?_, ?_, ?_, ?_⟩⟩
      · intro g τ' hs' hr'
        by_cases hg : g = f
        · subst hg; rw [hall]; simp
        · rw [allVals_of_filter_ne hg e4]; exact p2 g τ' hs' hr'
      · intro g τ' b rs2 hs' hmem hm2
        rcases e5 _ hmem with h | h
        · simp only [Record.mk.injEq, encodeVal, Val.bytes.injEq] at h
          obtain ⟨rfl, rfl⟩ := h
          rw [hs] at hs'; cases hs'
          have := isMessage_unique hmy hm2
          subst this; exact hpy
        · exact p3 g τ' b rs2 hs' h hm2
      · intro g k' hk' hs'
        have hg : g ≠ f := by rintro rfl; rw [hs] at hs'; cases hs'
        rw [lastVal_of_filter_ne hg e4]
        exact hb.val g k' hk' hs'
      · exact hb.val_other
      · intro g τ' hs' hr'
        rw [Obj.child_setChild]
        by_cases hg : g = f
        · subst hg
          rw [hs] at hs'; cases hs'
          rw [hall, if_pos rfl]
          exact .cons hmy huy .nil
        · rw [if_neg hg, allVals_of_filter_ne hg e4]; exact hb.child g τ' hs' hr'
      · intro g hg
        rw [Obj.child_setChild, if_neg, hb.child_other g hg]
        rintro rfl
        rcases hg with hg | hg
        · rw [hs] at hg; cases hg
        · rw [hr] at hg; cases hg
      · intro g τ' hs' hr'
        have hg : g ≠ f := by rintro rfl; rw [hr] at hr'; cases hr'
        rw [allVals_of_filter_ne hg e4]; exact hb.elems g τ' hs' hr'
      · exact hb.elems_other
    · rw [he] at e1; cases e1
  | @append τ m m' o rt f τc y c _ hs hr _ he ih ihy =>
    obtain ⟨hre, rs, hm, hp, hu⟩ := ih
    obtain ⟨hry, rsy, hmy, hpy, huy⟩ := ihy
    have hk := Ty.sub_bytes τ f τc hs
    have hf := (Ty.schema τ).kind_lt f (by rw [hk]; simp)
    obtain ⟨h1, h2⟩ := hre.records hm
    have hb := hu.byField
    have hx : y.encode.data.length < maxLen := by
      obtain ⟨hy, _⟩ := hry.records hmy
      obtain ⟨_, r, _⟩ := hy
      exact r.len
    unfold Msg.appendTo at he
    rcases h1.append rt hf hr y.encode.data hx with ⟨m1, e1, e2, _⟩ | ⟨e1, _⟩
    · rw [he] at e1; cases e1
      have hre' : Reach (Ty.schema τ) m' := .append hre hk hr hx he
      have hm' := e2.holds.isMessage
      obtain ⟨_, hw'⟩ := hre'.records hm'
      obtain ⟨p1, p2, p3⟩ := hp
      refine ⟨hre', _, hm', .mk (fun r hr => (hw' r hr).1) ?_ ?_, ByField.unmarshals ⟨fun r hr => (hw' r hr).2, ?_, ?_, ?_, ?_, ?_, ?_⟩⟩
      · intro g τ' hs' hr'
        have hg : f ≠ g := by rintro rfl; rw [hr] at hr'; cases hr'
        rw [allVals_append_record, if_neg hg]; exact p2 g τ' hs' hr'
      · intro g τ' b rs2 hs' hmem hm2
        rcases List.mem_append.1 hmem with h | h
        · exact p3 g τ' b rs2 hs' h hm2
        · simp only [List.mem_singleton, Record.mk.injEq, Val.bytes.injEq] at h
          obtain ⟨rfl, rfl⟩ := h
          rw [hs] at hs'; cases hs'
          have := isMessage_unique hmy hm2
          subst this; exact hpy
      · intro g k' hk' hs'
        have hg : f ≠ g := by rintro rfl; rw [hs] at hs'; cases hs'
        rw [lastVal_append_record, if_neg hg]
        exact hb.val g k' hk' hs'
      · exact hb.val_other
      · intro g τ' hs' hr'
        have hg : f ≠ g := by rintro rfl; rw [hr] at hr'; cases hr'
        rw [allVals_append_record, if_neg hg]; exact hb.child g τ' hs' hr'
      · exact hb.child_other
      · intro g τ' hs' hr'
        rw [allVals_append_record, Obj.elems_addElem]
        by_cases hg : f = g
        · subst hg
          rw [hs] at hs'; cases hs'
          rw [if_pos rfl, if_pos rfl]
          have := hb.elems f τc hs hr
          exact this.snoc hmy huy
        · rw [if_neg hg, if_neg (Ne.symm hg)]; exact hb.elems g τ' hs' hr'
      · intro g hg
        rw [Obj.elems_addElem, if_neg, hb.elems_other g hg]
        rintro rfl
        rcases hg with hg | hg
        · rw [hs] at hg; cases hg
        · rw [hr] at hg; cases hg
    · rw [he] at e1; cases e1

/-- C60: after any history of calls mirrored on an ordinary struct, an ordinary implementation reads
zeropb's encoding as exactly that struct, and zeropb's own getters, accessors and iterators find it
too. -/
theorem C60_lockstep (Ty : Types) {τ : Ty.T} {m : Msg} {o : Obj} (h : Lockstep Ty τ m o) :
    StdReads Ty τ m.encode.data o ∧ (∀ o', StdReads Ty τ m.encode.data o' → o' = o) ∧ ∀ n, ReadsObj Ty n τ m o := by
  obtain ⟨hre, rs, hm, hp, hu⟩ := h.inv
  have hs : StdReads Ty τ m.encode.data o := ⟨rs, hm, hu⟩
  refine ⟨hs, fun o' h' => h'.det hs, fun n => Interop.reads Ty n τ m o rs (.reach hre) ?_ hm hp hu⟩
  obtain ⟨hy, _⟩ := hre.records hm
  obtain ⟨_, r, _⟩ := hy
  exact r.len

/-! ## What an ordinary encoder writes -/

theorem allVals_flatMap (g : Nat) (recs : Nat → List Record) (hn : ∀ f, ∀ r ∈ recs f, r.num = f) (n : Nat) :
    allVals g ((List.range n).flatMap recs) = if g < n then (recs g).map Record.val else [] := by
  have one : ∀ f, allVals g (recs f) = if f = g then (recs f).map Record.val else [] := by
    intro f
    unfold allVals
    by_cases hf : f = g
    · rw [if_pos hf, List.filter_eq_self.2]
      intro r hr; rw [hn f r hr, hf]; simp
    · rw [if_neg hf, List.filter_eq_nil_iff.2]; rfl
      intro r hr; rw [hn f r hr]; simpa using hf
  induction n with
  | zero => simp [allVals]
  | succ n ih =>
    have happ : ∀ a b : List Record, allVals g (a ++ b) = allVals g a ++ allVals g b := by
      intro a b; unfold allVals; rw [List.filter_append, List.map_append]
    rw [List.range_succ, List.flatMap_append, happ, ih]
    simp only [List.flatMap_cons, List.flatMap_nil, List.append_nil]
    rw [one]
    by_cases h1 : g < n
    · rw [if_pos h1, if_neg (by omega), if_pos (by omega)]; simp
    · rw [if_neg h1]
      by_cases h2 : n = g
      · subst h2; simp
      · rw [if_neg h2, if_neg (by omega)]; rfl

theorem decodeVal_enum (x : U32) : decodeVal .uint32 (encodeVal .int32 x) = some x := by
  simp only [encodeVal, decodeVal, Option.some.injEq]
  apply BitVec.eq_of_toNat_eq
  have h := x.isLt
  simp only [BitVec.toNat_ofNat, BitVec.toNat_ofInt, BitVec.toInt_eq_toNat_cond]
  split <;> omega

theorem Adds.range {Ty : Types} {τ' : Ty.T} (es : List Obj) (eb : Nat → List Byte) (ers : Nat → List Record)
    (h1 : ∀ i c, es[i]? = some c → IsMessage (ers i) (eb i)) (h2 : ∀ i c, es[i]? = some c → Unmarshals Ty τ' (ers i) .empty c) (n : Nat)
    (hn : n ≤ es.length) : Adds Ty τ' ((List.range n).map (fun i => Val.bytes (eb i))) [] (es.take n) := by
  induction n with
  | zero => exact .nil
  | succ n ih =>
    have hg : es[n]? = some es[n] := List.getElem?_eq_getElem (by omega)
    rw [List.range_succ, List.map_append, List.take_add_one, hg]
    exact (ih (by omega)).snoc (h1 n _ hg) (h2 n _ hg)

theorem Marshals.spec {Ty : Types} {τ : Ty.T} {o : Obj} {rs : List Record} (h : Marshals Ty τ o rs) :
    Unsplit Ty τ rs ∧ Unmarshals Ty τ rs .empty o := by
  induction h with
  | @mk τ o recs cb crs eb ers hfit hnone hdef hval hcnone hc1 hc2 _ he1 he2 _ ihc ihe =>
    obtain ⟨fit1, fit2, fit3⟩ := hfit
    have hnum : ∀ f, ∀ r ∈ recs f, r.num = f := by
      intro f r hr
      cases hk : (Ty.schema τ).kind f with
      | none => rw [hnone f hk] at hr; simp at hr
      | some k =>
        cases hs : Ty.sub τ f with
        | none =>
          by_cases hd : o.val f k = k.dflt
          · rw [hdef f k hk hs hd] at hr; simp at hr
          · rcases hval f k hk hs hd with h | ⟨_, h⟩ <;> (rw [h] at hr; simp only [List.mem_singleton] at hr; subst hr; rfl)
        | some τ' =>
          cases hr' : (Ty.schema τ).rep f with
          | false =>
            cases hc : o.child f with
            | none => rw [hcnone f τ' hs hr' hc] at hr; simp at hr
            | some c => rw [hc1 f τ' c hs hr' hc] at hr; simp only [List.mem_singleton] at hr; subst hr; rfl
          | true =>
            rw [he1 f τ' hs hr'] at hr
            obtain ⟨i, _, rfl⟩ := List.mem_map.1 hr; rfl
    have hall : ∀ g, allVals g ((List.range (Ty.schema τ).n).flatMap recs) = (recs g).map Record.val := by
      intro g
      rw [allVals_flatMap g recs hnum]
      by_cases hg : g < (Ty.schema τ).n
      · rw [if_pos hg]
      · rw [if_neg hg]
        have : (Ty.schema τ).kind g = none := by
          cases hk : (Ty.schema τ).kind g with
          | none => rfl
          | some k => exact absurd ((Ty.schema τ).kind_lt g (by rw [hk]; simp)) hg
        rw [hnone g this]; rfl
    have hmem : ∀ r ∈ (List.range (Ty.schema τ).n).flatMap recs, r ∈ recs r.num ∧ r.num < (Ty.schema τ).n := by
      intro r hr
      obtain ⟨f, h1, h2⟩ := List.mem_flatMap.1 hr
      have := hnum f r h2
      rw [this]; exact ⟨h2, List.mem_range.1 h1⟩
    have hone : ∀ f k, (Ty.schema τ).kind f = some k → Ty.sub τ f = none → o.val f k ≠ k.dflt →
        ∃ v, recs f = [⟨f, v⟩] ∧ decodeVal k v = some (o.val f k) := by
      intro f k hk hs hd
      rcases hval f k hk hs hd with h | ⟨hu, h⟩
      · exact ⟨_, h, decodeVal_encodeVal k _⟩
      · rw [hk] at hu; cases hu
        exact ⟨_, h, decodeVal_enum _⟩
    refine ⟨.mk (fun r hr => (hmem r hr).2) ?_ ?_, ByField.unmarshals ⟨?_, ?_, ?_, ?_, ?_, ?_, ?_⟩⟩
    · intro f τ' hs hr
      rw [hall]
      cases hc : o.child f with
      | none => rw [hcnone f τ' hs hr hc]; simp
      | some c => rw [hc1 f τ' c hs hr hc]; simp
    · intro f τ' b rs' hs hm hmsg
      have hm := (hmem _ hm).1
      simp only at hm
      cases hr : (Ty.schema τ).rep f with
      | false =>
        cases hc : o.child f with
        | none => rw [hcnone f τ' hs hr hc] at hm; simp at hm
        | some c =>
          rw [hc1 f τ' c hs hr hc] at hm
          simp only [List.mem_singleton, Record.mk.injEq, Val.bytes.injEq, true_and] at hm
          subst hm
          have := isMessage_unique hmsg (hc2 f τ' c hs hr hc)
          subst this
          exact (ihc f τ' c hs hr hc).1
      | true =>
        rw [he1 f τ' hs hr] at hm
        obtain ⟨i, h1, h2⟩ := List.mem_map.1 hm
        simp only [Record.mk.injEq, Val.bytes.injEq, true_and] at h2
        subst h2
        have hi := List.getElem?_eq_getElem (List.mem_range.1 h1)
        have := isMessage_unique hmsg (he2 f τ' i _ hs hr hi)
        subst this
        exact (ihe f τ' i _ hs hr hi).1
    · intro r hr k hk
      obtain ⟨hm, _⟩ := hmem r hr
      cases hs : Ty.sub τ r.num with
      | none =>
        by_cases hd : o.val r.num k = k.dflt
        · rw [hdef _ k hk hs hd] at hm; simp at hm
        · obtain ⟨v, h1, h2⟩ := hone _ k hk hs hd
          rw [h1] at hm
          simp only [List.mem_singleton] at hm
          have : r.val = v := by rw [hm]
          rw [this]; exact ⟨_, h2⟩
      | some τ' =>
        have hkb := Ty.sub_bytes τ _ τ' hs
        rw [hk] at hkb; cases hkb
        have : ∃ b, r.val = .bytes b := by
          cases hrep : (Ty.schema τ).rep r.num with
          | false =>
            cases hc : o.child r.num with
            | none => rw [hcnone _ τ' hs hrep hc] at hm; simp at hm
            | some c => rw [hc1 _ τ' c hs hrep hc] at hm; simp only [List.mem_singleton] at hm; exact ⟨_, by rw [hm]⟩
          | true =>
            rw [he1 _ τ' hs hrep] at hm
            obtain ⟨i, _, h2⟩ := List.mem_map.1 hm
            exact ⟨eb r.num i, by rw [← h2]⟩
        obtain ⟨b, hb⟩ := this
        rw [hb]; exact ⟨b, rfl⟩
    · intro f k hk hs
      rw [lastVal_eq_getLast, hall]
      by_cases hd : o.val f k = k.dflt
      · rw [hdef f k hk hs hd]
        exact ⟨fun _ => hd, by simp⟩
      · obtain ⟨v, h1, h2⟩ := hone f k hk hs hd
        rw [h1]
        refine ⟨by simp, ?_⟩
        intro v' x hv hx
        simp only [List.map_cons, List.map_nil, List.getLast?_singleton, Option.some.injEq] at hv
        subst hv
        rw [h2] at hx; cases hx; rfl
    · intro f k hc; exact fit1 f k hc
    · intro f τ' hs hr
      rw [hall]
      cases hc : o.child f with
      | none => rw [hcnone f τ' hs hr hc]; exact .nil
      | some c =>
        rw [hc1 f τ' c hs hr hc]
        exact .cons (hc2 f τ' c hs hr hc) (ihc f τ' c hs hr hc).2 .nil
    · intro f hf; exact fit2 f hf
    · intro f τ' hs hr
      rw [hall, he1 f τ' hs hr, List.map_map]
      have := Adds.range (Ty := Ty) (τ' := τ') (o.elems f) (eb f) (ers f) (fun i c h => he2 f τ' i c hs hr h) (fun i c h => (ihe f τ' i c hs hr h).2)
        (o.elems f).length (Nat.le_refl _)
      rw [List.take_length] at this
      exact this
    · intro f hf; exact fit3 f hf

/-- C60: a struct written by an ordinary encoder is read back by zeropb, recursively and exactly. -/
theorem C60_marshal (Ty : Types) (τ : Ty.T) {o : Obj} {rs : List Record} (h : Marshals Ty τ o rs) {buf : Slice}
    (hlen : buf.len < maxLen) (hm : IsMessage rs buf.data) {m0 : Msg} (h0 : m0.off.a.length = (Ty.schema τ).n) :
    StdReads Ty τ buf.data o ∧ ∃ m, m0.decode (Ty.schema τ).rep buf = .ok (m, none) ∧ ∀ n, ReadsObj Ty n τ m o := by
  obtain ⟨h1, h2⟩ := h.spec
  exact ⟨⟨rs, hm, h2⟩, C60_decode Ty τ h0 hlen hm h1 h2⟩

/-- A struct of test.proto: `int32` and an enum of value -1 set, an embedded message with `int64` 7, and
two elements, the first empty. -/
def stdObj : Obj := ((((Obj.empty.setVal 2 .int32 5#32).setVal 16 .uint32 0xffffffff#32).setChild 17 (Obj.empty.setVal 3 .int64 7#64)).addElem 34
  .empty).addElem 34 (Obj.empty.setVal 3 .int64 7#64)

/-- Its records: the enum is a sign-extended varint. -/
def stdRecords : List Record := [⟨2, .varint 5#64⟩, ⟨16, .varint 0xffffffffffffffff#64⟩, ⟨17, .bytes [0x18#8, 0x07#8]⟩, ⟨34, .bytes []⟩,
  ⟨34, .bytes [0x18#8, 0x07#8]⟩]

theorem varint1 (b : Byte) (h : b.toNat < 128) : IsVarint b.toNat [b] :=
  ⟨[], b, rfl, by simp, h, by simp, by simp only [varintValue]; omega, by omega⟩

theorem piece2 : IsMessage [⟨3, .varint 7#64⟩] [0x18#8, 0x07#8] :=
  .cons (bs := [0x18#8, 0x07#8]) (rest := []) ⟨[0x18#8], [0x07#8], rfl, varint1 0x18#8 (by decide), varint1 0x07#8 (by decide)⟩ .nil

theorem test_sub {f : Nat} {τ' : testTypes.T} (hs : testTypes.sub () f = some τ') : f = 17 ∨ f = 34 := by
  simp only [testTypes] at hs
  by_cases h : f = 17 ∨ f = 34
  · exact h
  · rw [if_neg h] at hs; cases hs

theorem test_fits_empty : Obj.empty.Fits testTypes () := ⟨fun _ _ _ => rfl, fun _ _ => rfl, fun _ _ => rfl⟩

theorem marshals_empty : Marshals testTypes () .empty [] := by
  have : [] = (List.range (testTypes.schema ()).n).flatMap (fun _ => ([] : List Record)) := by decide
  rw [this]
  exact .mk (fun _ => []) (fun _ => []) (fun _ => []) (fun _ _ => []) (fun _ _ => []) test_fits_empty (fun _ _ => rfl) (fun _ _ _ _ _ => rfl)
    (fun _ _ _ _ h => absurd rfl h) (fun _ _ _ _ _ => rfl) (fun _ _ _ _ _ h => by simp at h) (fun _ _ _ _ _ h => by simp at h)
    (fun _ _ _ _ _ h => by simp at h) (fun _ _ _ _ => rfl) (fun _ _ _ _ _ _ h => by simp at h) (fun _ _ _ _ _ _ h => by simp at h)

theorem marshals_inner : Marshals testTypes () (Obj.empty.setVal 3 .int64 7#64) [⟨3, .varint 7#64⟩] := by
  have : [⟨3, .varint 7#64⟩] = (List.range (testTypes.schema ()).n).flatMap (fun f => if f = 3 then [(⟨3, .varint 7#64⟩ : Record)] else []) := by
    decide
  rw [this]
  refine .mk _ (fun _ => []) (fun _ => []) (fun _ _ => []) (fun _ _ => []) ⟨?_, fun _ _ => rfl, fun _ _ => rfl⟩ ?_ ?_ ?_ ?_ (fun _ _ _ _ _ h => by simp at h)
    (fun _ _ _ _ _ h => by simp at h) (fun _ _ _ _ _ h => by simp at h) ?_ (fun _ _ _ _ _ _ h => by simp at h) (fun _ _ _ _ _ _ h => by simp at h)
  · intro f k hc
    rw [Obj.val_setVal_ne]; rfl
    by_cases hf : f = 3
    · subst hf; right; rintro rfl
      rcases hc with hc | hc
      · exact hc rfl
      · exact hc rfl
    · exact Or.inl hf
  · intro f hk
    by_cases hf : f = 3
    · subst hf; cases hk
    · rw [if_neg hf]
  · intro f k hk hs hd
    by_cases hf : f = 3
    · subst hf
      cases hk
      rw [Obj.val_setVal_self] at hd
      exact absurd hd (by decide)
    · rw [if_neg hf]
  · intro f k hk hs hd
    by_cases hf : f = 3
    · subst hf; cases hk; left; rw [Obj.val_setVal_self]; rfl
    · rw [Obj.val_setVal_ne _ _ _ _ _ _ (Or.inl hf)] at hd; exact absurd rfl hd
  · intro f τ' hs _ _
    rw [if_neg]; rcases test_sub hs with rfl | rfl <;> decide
  · intro f τ' hs _
    rw [if_neg]; rfl
    rcases test_sub hs with rfl | rfl <;> decide

/-- Hypotheses of `C60_marshal` (and so of `C60_decode`) met. -/
theorem stdObj_marshals : Marshals testTypes () stdObj stdRecords := by
  have : stdRecords = (List.range (testTypes.schema ()).n).flatMap (fun f => stdRecords.filter (fun r => r.num = f)) := by decide
  rw [this]
  have hval : ∀ f k, (f ≠ 2 ∨ k ≠ .int32) → (f ≠ 16 ∨ k ≠ .uint32) → stdObj.val f k = k.dflt := by
    intro f k h1 h2
    simp only [stdObj, Obj.val_addElem, Obj.val_setChild]
    rw [Obj.val_setVal_ne _ _ _ _ _ _ h2, Obj.val_setVal_ne _ _ _ _ _ _ h1]; rfl
  have h2 : stdObj.val 2 .int32 = 5#32 := by
    simp only [stdObj, Obj.val_addElem, Obj.val_setChild]
    rw [Obj.val_setVal_ne _ _ _ _ _ _ (Or.inl (by decide)), Obj.val_setVal_self]
  have h16 : stdObj.val 16 .uint32 = 0xffffffff#32 := by
    simp only [stdObj, Obj.val_addElem, Obj.val_setChild]
    rw [Obj.val_setVal_self]
  have hchild : ∀ f, stdObj.child f = if f = 17 then some (Obj.empty.setVal 3 .int64 7#64) else none := fun f => rfl
  have helems : ∀ f, stdObj.elems f = if f = 34 then [.empty, Obj.empty.setVal 3 .int64 7#64] else [] := by
    intro f
    simp only [stdObj, Obj.elems_addElem, Obj.elems_setChild, Obj.elems_setVal, Obj.elems_empty]
    by_cases h : f = 34 <;> simp [h]
  have hno : ∀ f, f ≠ 2 → f ≠ 16 → f ≠ 17 → f ≠ 34 → stdRecords.filter (fun r => r.num = f) = [] := by
    intro f a b c d
    simp [stdRecords, List.filter_cons, Ne.symm a, Ne.symm b, Ne.symm c, Ne.symm d]
  refine .mk _ (fun _ => [0x18#8, 0x07#8]) (fun _ => [⟨3, .varint 7#64⟩]) (fun _ i => if i = 0 then [] else [0x18#8, 0x07#8])
    (fun _ i => if i = 0 then [] else [⟨3, .varint 7#64⟩]) ⟨?_, ?_, ?_⟩ ?_ ?_ ?_ ?_ ?_ ?_ ?_ ?_ ?_ ?_
  · intro f k hc
    apply hval
    · by_cases hf : f = 2
      · subst hf; right; rintro rfl
        rcases hc with hc | hc <;> exact hc rfl
      · exact Or.inl hf
    · by_cases hf : f = 16
      · subst hf; right; rintro rfl
        rcases hc with hc | hc <;> exact hc rfl
      · exact Or.inl hf
  · intro f hf
    rw [hchild, if_neg]
    rintro rfl
    rcases hf with hf | hf <;> cases hf
  · intro f hf
    rw [helems, if_neg]
    rintro rfl
    rcases hf with hf | hf <;> cases hf
  · intro f hk
    apply hno <;> (rintro rfl; cases hk)
  · intro f k hk hs hd
    apply hno
    · rintro rfl; cases hk; rw [h2] at hd; exact absurd hd (by decide)
    · rintro rfl; cases hk; rw [h16] at hd; exact absurd hd (by decide)
    · rintro rfl; cases hs
    · rintro rfl; cases hs
  · intro f k hk hs hd
    by_cases hf2 : f = 2
    · subst hf2; cases hk; left; rw [h2]; decide
    · by_cases hf16 : f = 16
      · subst hf16; cases hk; right; rw [h16]; decide
      · exact absurd (hval f k (Or.inl hf2) (Or.inl hf16)) hd
  · intro f τ' hs hr hc
    rcases test_sub hs with rfl | rfl
    · rw [hchild, if_pos rfl] at hc; cases hc
    · cases hr
  · intro f τ' c hs hr hc
    rcases test_sub hs with rfl | rfl
    · decide
    · cases hr
  · intro f τ' c hs hr hc; exact piece2
  · intro f τ' c hs hr hc
    rw [hchild] at hc
    by_cases hf : f = 17
    · rw [if_pos hf] at hc; cases hc; exact marshals_inner
    · rw [if_neg hf] at hc; cases hc
  · intro f τ' hs hr
    rcases test_sub hs with rfl | rfl
    · cases hr
    · rw [helems, if_pos rfl]; decide
  · intro f τ' i c hs hr hc
    match i with
    | 0 => exact .nil
    | i + 1 => exact piece2
  · intro f τ' i c hs hr hc
    rw [helems] at hc
    by_cases hf : f = 34
    · rw [if_pos hf] at hc
      match i with
      | 0 => cases hc; exact marshals_empty
      | 1 => cases hc; exact marshals_inner
      | i + 2 => simp at hc
    · rw [if_neg hf] at hc; simp at hc

/-- The bytes an ordinary encoder writes for it. -/
def stdBytes : List Byte := [0x10#8, 0x05#8] ++ ([0x80#8, 0x01#8, 0xff#8, 0xff#8, 0xff#8, 0xff#8, 0xff#8, 0xff#8, 0xff#8, 0xff#8, 0xff#8, 0x01#8] ++
  ([0x8a#8, 0x01#8, 0x02#8, 0x18#8, 0x07#8] ++ ([0x92#8, 0x02#8, 0x00#8] ++ ([0x92#8, 0x02#8, 0x02#8, 0x18#8, 0x07#8] ++ []))))

/-- Hypotheses of `C60_marshal` met: these bytes encode those records. -/
example : IsMessage stdRecords stdBytes ∧ stdBytes.length < maxLen := by
  refine ⟨.cons ⟨[0x10#8], _, rfl, varint1 0x10#8 (by decide), varint1 0x05#8 (by decide)⟩ (.cons ⟨[0x80#8, 0x01#8], _, rfl, ?_, ?_⟩
    (.cons ⟨[0x8a#8, 0x01#8], _, rfl, ?_, ⟨[0x02#8], varint1 0x02#8 (by decide), rfl⟩⟩
    (.cons ⟨[0x92#8, 0x02#8], _, rfl, ?_, ⟨[0x00#8], varint1 0x00#8 (by decide), rfl⟩⟩
    (.cons ⟨[0x92#8, 0x02#8], _, rfl, ?_, ⟨[0x02#8], varint1 0x02#8 (by decide), rfl⟩⟩ .nil)))), by decide⟩
  · exact ⟨[0x80#8], 0x01#8, rfl, by decide, by decide, by decide, by decide, by decide⟩
  · exact ⟨[0xff#8, 0xff#8, 0xff#8, 0xff#8, 0xff#8, 0xff#8, 0xff#8, 0xff#8, 0xff#8], 0x01#8, rfl, by decide, by decide, by decide, by decide, by decide⟩
  · exact ⟨[0x8a#8], 0x01#8, rfl, by decide, by decide, by decide, by decide, by decide⟩
  · exact ⟨[0x92#8], 0x02#8, rfl, by decide, by decide, by decide, by decide, by decide⟩
  · exact ⟨[0x92#8], 0x02#8, rfl, by decide, by decide, by decide, by decide, by decide⟩

/-- The struct assigned by the calls of a tree. -/
def Tree.obj : Tree → Obj
  | nil => .empty
  | set t _ f k x => t.obj.setVal f k x
  | sub t _ f c => t.obj.setChild f c.obj
  | elem t _ f c => t.obj.addElem f c.obj

theorem Tree.lockstep (Ty : Types) (t : Tree) : ∀ τ : Ty.T, t.Valid Ty τ → t.cost < maxLen →
    ∃ m, t.build Ty τ = .ok m ∧ Lockstep Ty τ m t.obj := by
  induction t with
  | nil => intro τ _ _; exact ⟨_, rfl, .zero⟩
  | set t rt f k x ih =>
    intro τ hv hc
    obtain ⟨m', _, b1, _⟩ := (Tree.set t rt f k x).built Ty τ hv hc
    obtain ⟨v1, v2, v3, v4⟩ := hv
    simp only [Tree.cost] at hc
    obtain ⟨m, e1, e2⟩ := ih τ v1 (by omega)
    refine ⟨m', b1, .set e2 v2 v4 (by omega) (rt := rt) ?_⟩
    simp only [Tree.build, e1, bind, Except.bind] at b1; exact b1
  | sub t rt f c ih ihc =>
    intro τ hv hc
    obtain ⟨m', _, b1, _⟩ := (Tree.sub t rt f c).built Ty τ hv hc
    obtain ⟨v1, v2, τ', v3, v4⟩ := hv
    simp only [Tree.cost] at hc
    obtain ⟨m, e1, e2⟩ := ih τ v1 (by omega)
    obtain ⟨y, y1, y2⟩ := ihc τ' v4 (by omega)
    refine ⟨m', b1, .sub e2 v3 v2 y2 (rt := rt) ?_⟩
    simp only [Tree.build, e1, y1, v3, Option.getD_some, bind, Except.bind] at b1; exact b1
  | elem t rt f c ih ihc =>
    intro τ hv hc
    obtain ⟨m', _, b1, _⟩ := (Tree.elem t rt f c).built Ty τ hv hc
    obtain ⟨v1, v2, τ', v3, v4⟩ := hv
    simp only [Tree.cost] at hc
    obtain ⟨m, e1, e2⟩ := ih τ v1 (by omega)
    obtain ⟨y, y1, y2⟩ := ihc τ' v4 (by omega)
    refine ⟨m', b1, .append e2 v3 v2 y2 (rt := rt) ?_⟩
    simp only [Tree.build, e1, y1, v3, Option.getD_some, bind, Except.bind] at b1; exact b1

/-- C60: copying any struct into a zeropb message by setters, bottom-up, succeeds (below the length
limit), and an ordinary implementation reads the encoding as that struct and no other. -/
theorem C60_encode (Ty : Types) (τ : Ty.T) (t : Tree) (hv : t.Valid Ty τ) (hc : t.cost < maxLen) :
    ∃ m, t.build Ty τ = .ok m ∧ StdReads Ty τ m.encode.data t.obj ∧ ∀ o', StdReads Ty τ m.encode.data o' → o' = t.obj := by
  obtain ⟨m, h1, h2⟩ := t.lockstep Ty τ hv hc
  obtain ⟨h3, h4, _⟩ := C60_lockstep Ty h2
  exact ⟨m, h1, h3, h4⟩

/-- Hypotheses of `C60_encode` met: a tree with a child, two elements and scalars; and with it those of
`C60_lockstep`. -/
example : let t0 : Tree := Tree.nil.set Rt.exact 14 .string [0x68#8]
    let t1 : Tree := (Tree.nil.elem Rt.exact 34 t0).set Rt.exact 2 .int32 5#32
    let t : Tree := (((t0.sub Rt.exact 17 t1).elem Rt.exact 34 t1).elem Rt.exact 34 .nil).set Rt.exact 14 .string []
    t.Valid testTypes () ∧ t.cost < maxLen := by
  refine ⟨?_, by decide⟩
  simp [Tree.Valid, testTypes, testSchema, testKind, testRep]

/-! ### The message field in several pieces -/

/-- `int32: 5` in the message field, then `int64: 7` in the message field, of test.proto. -/
def splitBytes : List Byte := [0x8a#8, 0x01#8, 0x02#8, 0x10#8, 0x05#8, 0x8a#8, 0x01#8, 0x02#8, 0x18#8, 0x07#8]

/-- The two pieces. -/
def splitRecords : List Record := [⟨17, .bytes [0x10#8, 0x05#8]⟩, ⟨17, .bytes [0x18#8, 0x07#8]⟩]

/-- An ordinary implementation merges them. -/
def splitObj : Obj := Obj.empty.setChild 17 ((Obj.empty.setVal 2 .int32 5#32).setVal 3 .int64 7#64)

theorem splitBytes_isMessage : IsMinTagMessage splitRecords splitBytes := by
  have tag : IsMinVarint 138 [0x8a#8, 0x01#8] :=
    ⟨⟨[0x8a#8], 0x01#8, rfl, by decide, by decide, by decide, by decide, by decide⟩, Or.inr (by decide)⟩
  have pay : ∀ x y : Byte, IsPayload (.bytes [x, y]) [0x02#8, x, y] := fun x y => ⟨[0x02#8], varint1 0x02#8 (by decide), rfl⟩
  exact .cons (bs := [0x8a#8, 0x01#8, 0x02#8, 0x10#8, 0x05#8]) ⟨_, _, rfl, tag, pay _ _⟩
    (.cons (bs := [0x8a#8, 0x01#8, 0x02#8, 0x18#8, 0x07#8]) (rest := []) ⟨_, _, rfl, tag, pay _ _⟩ .nil)

theorem piece1 : IsMessage [⟨2, .varint 5#64⟩] [0x10#8, 0x05#8] :=
  .cons (bs := [0x10#8, 0x05#8]) (rest := []) ⟨[0x10#8], [0x05#8], rfl, varint1 0x10#8 (by decide), varint1 0x05#8 (by decide)⟩ .nil

theorem split_reads : Unmarshals testTypes () splitRecords .empty splitObj := by
  refine .child (τ' := ()) rfl rfl piece1 (.scalar (x := 5#32) rfl rfl rfl .nil) ?_
  have : splitObj = (Obj.empty.setChild 17 (Obj.empty.setVal 2 .int32 5#32)).setChild 17 ((Obj.empty.setVal 2 .int32 5#32).setVal 3 .int64 7#64) := by
    apply Obj.ext
    · intro f k; rfl
    · intro f; simp only [splitObj, Obj.child_setChild]; split <;> rfl
    · intro f; rfl
  rw [this]
  exact .child (τ' := ()) rfl rfl piece2 (.scalar (x := 7#64) rfl rfl rfl .nil) .nil

theorem split_typed : WellTyped testSchema splitRecords := by
  intro r hr
  simp only [splitRecords, List.mem_cons, List.not_mem_nil, or_false] at hr
  rcases hr with rfl | rfl <;> refine ⟨by decide, ?_⟩ <;> intro k hk <;> cases hk <;> exact ⟨_, rfl⟩

/-- C60: the condition on pieces is needed. An ordinary implementation reads these bytes as one
embedded message with both fields; zeropb decodes them without error and finds an embedded message
without the first. -/
theorem C60_false_split : StdReads testTypes () splitBytes splitObj ∧
    ∃ m, (Msg.zero 35).decode testSchema.rep ⟨splitBytes, []⟩ = .ok (m, none) ∧ ¬ ReadsObj testTypes 2 () m splitObj := by
  refine ⟨⟨_, IsMinTagMessage_isMessage splitBytes_isMessage, split_reads⟩, ?_⟩
  obtain ⟨m, rest, d1, d2⟩ := C08_split (S := testSchema) (m0 := Msg.zero 35) rfl (buf := ⟨splitBytes, []⟩) (rs1 := []) (rs2 := []) (rs3 := [])
    (by decide) (IsMinTagMessage_isMessage splitBytes_isMessage) split_typed (by simp) rfl rfl
  obtain ⟨x, e1, e2, e3, e4⟩ := C07_decode_any (S := testSchema) (m0 := Msg.zero 35) rfl (buf := ⟨[0x18#8, 0x07#8], rest⟩) (rs := [⟨3, .varint 7#64⟩])
    (show 2 < maxLen by decide) piece2 (by simp [testSchema])
  refine ⟨m, d1, ?_⟩
  rintro ⟨_, h, _⟩
  obtain ⟨_, h⟩ := h 17 () rfl rfl (Msg.zero 35) rfl
  obtain ⟨x', h1, h2, _⟩ := h _ rfl
  have h3 := h2 2 .int32 rfl rfl
  have h4 : m.subMessage testSchema.rep 17 (Msg.zero 35) = .ok (x', true, none) := h1
  rw [d2, e1] at h4
  simp only [Except.map, Except.ok.injEq, Prod.mk.injEq] at h4
  obtain ⟨rfl, _⟩ := h4
  have h5 := e3 2 .int32 0#32 rfl rfl rfl
  rw [h5] at h3
  simp only [Except.ok.injEq] at h3
  have h6 : ((Obj.empty.setVal 2 .int32 5#32).setVal 3 .int64 7#64).val 2 .int32 = 5#32 := by
    rw [Obj.val_setVal_ne _ _ _ _ _ _ (Or.inl (by decide))]; simp
  rw [h6] at h3
  exact absurd h3 (by decide)

/-- C60: nor does `SetMessage` on such a message do what an assignment does: it replaces the last
piece only. Here the empty message is assigned, the call returns, and an ordinary implementation
reads an embedded message with `int32` still 5. -/
theorem C60_false_set : ∃ m m', (Msg.zero 35).decode testSchema.rep ⟨splitBytes, []⟩ = .ok (m, none) ∧
    m.setMessage Rt.exact 17 (Msg.zero 35) = .ok m' ∧
    StdReads testTypes () m'.encode.data (Obj.empty.setChild 17 (Obj.empty.setVal 2 .int32 5#32)) ∧
    ¬ StdReads testTypes () m'.encode.data (splitObj.setChild 17 .empty) := by
  obtain ⟨m, d1, d2, d3, _⟩ := decode_holdsMin (S := testSchema) (m := Msg.zero 35) rfl (buf := ⟨splitBytes, []⟩) (by decide)
    splitBytes_isMessage (by decide)
  have hre : Reach testSchema m := .decode (m0 := Msg.zero 35) rfl (by decide) splitBytes_isMessage split_typed d1
  rcases d3.set Rt.exact (f := 17) (k := .bytes) rfl rfl [] (by decide) (fun v hv => split_typed.last rfl hv) with
    ⟨m', rs', e1, e2, e3, e4, e5, e6, _, e7⟩ | ⟨_, e2⟩
  · have hrs : rs' = [⟨17, .bytes [0x10#8, 0x05#8]⟩, ⟨17, .bytes []⟩] := by
      have h1 : rs'.filter (fun r => r.num ≠ 17) = [] := by rw [e4]; decide
      have h2 : rs'.filter (fun r => r.num = 17) = rs' := by
        rw [List.filter_eq_self]
        intro r hr
        rw [List.filter_eq_nil_iff] at h1
        simpa using h1 r hr
      rw [← h2, e7]; decide
    have hu : Unmarshals testTypes () rs' .empty (Obj.empty.setChild 17 (Obj.empty.setVal 2 .int32 5#32)) := by
      rw [hrs]
      refine .child (τ' := ()) rfl rfl piece1 (.scalar (x := 5#32) rfl rfl rfl .nil) ?_
      have : Obj.empty.setChild 17 (Obj.empty.setVal 2 .int32 5#32) =
          (Obj.empty.setChild 17 (Obj.empty.setVal 2 .int32 5#32)).setChild 17 (Obj.empty.setVal 2 .int32 5#32) := by
        apply Obj.ext
        · intro f k; rfl
        · intro f; simp only [Obj.child_setChild]; split <;> rfl
        · intro f; rfl
      have h2 : Unmarshals testTypes () [⟨17, .bytes []⟩] (Obj.empty.setChild 17 (Obj.empty.setVal 2 .int32 5#32))
          ((Obj.empty.setChild 17 (Obj.empty.setVal 2 .int32 5#32)).setChild 17 (Obj.empty.setVal 2 .int32 5#32)) :=
        .child (τ' := ()) rfl rfl .nil .nil .nil
      rw [← this] at h2
      exact h2
    have hs : StdReads testTypes () m'.encode.data (Obj.empty.setChild 17 (Obj.empty.setVal 2 .int32 5#32)) :=
      ⟨rs', e2.holds.isMessage, hu⟩
    refine ⟨m, m', d1, e1, hs, ?_⟩
    intro h
    have h1 := congrArg (fun o => (o.child 17).map (fun c => c.val 2 .int32)) (hs.det h)
    simp [Obj.child_setChild] at h1
    exact absurd h1 (by decide)
  · exfalso
    rw [d2] at e2
    exact absurd e2 (by decide)

end Zeropb
