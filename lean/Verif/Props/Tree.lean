import Verif.Props.Core
import Verif.Spec.Std
set_option linter.unusedSimpArgs false
set_option linter.unusedVariables false
/-!
# Trees of messages (C12)
-/

namespace Zeropb
open Wire

/-- A tree of messages, as the sequence of calls that builds it: setters of scalar fields,
`SetMessage` and `AppendTo` of separately built trees. -/
inductive Tree where
  | nil
  | set (t : Tree) (rt : Rt) (f : Nat) (k : Kind) (x : k.Ty)
  | sub (t : Tree) (rt : Rt) (f : Nat) (c : Tree)
  | elem (t : Tree) (rt : Rt) (f : Nat) (c : Tree)

namespace Tree

/-- The value of a scalar field: the one set last. -/
def val (f : Nat) : Tree → Option ((k : Kind) × k.Ty)
  | nil => none
  | set t _ g k x => if g = f then some ⟨k, x⟩ else t.val f
  | sub t _ _ _ => t.val f
  | elem t _ _ _ => t.val f

/-- The child in a message field: the one set last. -/
def child (f : Nat) : Tree → Option Tree
  | nil => none
  | set t _ _ _ _ => t.child f
  | sub t _ g c => if g = f then some c else t.child f
  | elem t _ _ _ => t.child f

/-- The children in a repeated message field, in order. -/
def elems (f : Nat) : Tree → List Tree
  | nil => []
  | set t _ _ _ _ => t.elems f
  | sub t _ _ _ => t.elems f
  | elem t _ g c => if g = f then t.elems f ++ [c] else t.elems f

/-- The tree uses the declared accessors of its types, with arguments of possible length. -/
def Valid (Ty : Types) : Ty.T → Tree → Prop
  | _, nil => True
  | τ, set t _ f k x => t.Valid Ty τ ∧ (Ty.schema τ).kind f = some k ∧ (Ty.schema τ).rep f = false ∧ Ty.sub τ f = none
  | τ, sub t _ f c => t.Valid Ty τ ∧ (Ty.schema τ).rep f = false ∧ ∃ τ', Ty.sub τ f = some τ' ∧ c.Valid Ty τ'
  | τ, elem t _ f c => t.Valid Ty τ ∧ (Ty.schema τ).rep f = true ∧ ∃ τ', Ty.sub τ f = some τ' ∧ c.Valid Ty τ'

/-- Build the tree by calling the API. -/
def build (Ty : Types) : Ty.T → Tree → Res Msg
  | τ, nil => .ok (Msg.zero (Ty.schema τ).n)
  | τ, set t rt f k x => do
    let m ← t.build Ty τ
    m.set rt k f x
  | τ, sub t rt f c => do
    let m ← t.build Ty τ
    let y ← c.build Ty ((Ty.sub τ f).getD τ)
    m.setMessage rt f y
  | τ, elem t rt f c => do
    let m ← t.build Ty τ
    let y ← c.build Ty ((Ty.sub τ f).getD τ)
    m.appendTo rt f y

/-- Upper bound on the encoded size. -/
def cost : Tree → Nat
  | nil => 0
  | set t _ _ k x => t.cost + 20 + k.size x
  | sub t _ _ c => t.cost + 20 + c.cost
  | elem t _ _ c => t.cost + 20 + c.cost

end Tree

/-- Reading the message `m` with getters, message accessors and iterators, recursively down to depth
`n`, finds the tree `t`. The structs given to the accessors to decode into are arbitrary. -/
def Reads (Ty : Types) : Nat → Ty.T → Msg → Tree → Prop
  | 0, _, _, _ => True
  | n + 1, τ, m, t =>
    (∀ f k, (Ty.schema τ).kind f = some k → (Ty.schema τ).rep f = false → Ty.sub τ f = none →
      (t.val f = none → m.get k f = .ok k.dflt) ∧ (∀ x, t.val f = some ⟨k, x⟩ → m.get k f = .ok x) ∧
      (∀ k' x, t.val f = some ⟨k', x⟩ → k' = k)) ∧
    (∀ f τ', Ty.sub τ f = some τ' → (Ty.schema τ).rep f = false →
      ∀ x : Msg, x.off.a.length = (Ty.schema τ').n →
        (t.child f = none → m.subMessage (Ty.schema τ').rep f x = .ok (x, false, none)) ∧
        (∀ c, t.child f = some c →
          ∃ x', m.subMessage (Ty.schema τ').rep f x = .ok (x', true, none) ∧ Reads Ty n τ' x' c)) ∧
    (∀ f τ', Ty.sub τ f = some τ' → (Ty.schema τ).rep f = true →
      ∃ its : Nat → Option Slice, m.messages f = .ok (its 0) ∧
        ∀ x : Msg, x.off.a.length = (Ty.schema τ').n → ∀ i,
          (∀ c, (t.elems f)[i]? = some c → ∃ x', Msg.next (Ty.schema τ').rep (its i) f x =
            .ok (its (i + 1), x', true, none) ∧ Reads Ty n τ' x' c) ∧
          ((t.elems f)[i]? = none → Msg.next (Ty.schema τ').rep (its i) f x = .ok (its (i + 1), x, false, none)))

/-! ## Proof -/

/-- The encoding of a built tree. -/
def Tree.enc (Ty : Types) (τ : Ty.T) (t : Tree) : List Byte :=
  match t.build Ty τ with
  | .ok m => m.encode.data
  | .error _ => []

/-- The records `rs` mean `t`. -/
def Tree.Means (Ty : Types) (τ : Ty.T) (t : Tree) (rs : List Record) : Prop :=
  (∀ f, (Ty.schema τ).rep f = false → Ty.sub τ f = none → lastVal f rs = (t.val f).map (fun p => encodeVal p.1 p.2)) ∧
  (∀ f τ', (Ty.schema τ).rep f = false → Ty.sub τ f = some τ' →
    lastVal f rs = (t.child f).map (fun c => .bytes (c.enc Ty τ'))) ∧
  (∀ f τ', (Ty.schema τ).rep f = true → Ty.sub τ f = some τ' →
    allVals f rs = (t.elems f).map (fun c => .bytes (c.enc Ty τ')))

theorem Tree.built (Ty : Types) (t : Tree) : ∀ τ : Ty.T, t.Valid Ty τ → t.cost < maxLen →
    ∃ m rs, t.build Ty τ = .ok m ∧ Reach (Ty.schema τ) m ∧ IsMessage rs m.encode.data ∧ m.encode.len ≤ t.cost ∧
      t.Means Ty τ rs := by
  induction t with
  | nil =>
    intro τ _ _
    exact ⟨_, [], rfl, Reach.zero, .nil, Nat.le_refl _, fun _ _ _ => rfl, fun _ _ _ _ => rfl, fun _ _ _ _ => rfl⟩
  | set t rt f k x ih =>
    intro τ hv hc
    obtain ⟨v1, v2, v3, v4⟩ := hv
    simp only [Tree.cost] at hc
    obtain ⟨m, rs, b1, b2, b3, b4, b5, b6, b7⟩ := ih τ v1 (by omega)
    obtain ⟨h1, h2⟩ := b2.records b3
    simp only [Msg.encode, Slice.len] at b4
    rcases h1.set rt v2 v3 x (by omega) (fun v hv => h2.last v2 hv) with ⟨m', rs', e1, e2, e3, e4, e5, e6, _⟩ | ⟨e1, e2⟩
    · refine ⟨m', rs', by simp only [Tree.build, b1, bind, Except.bind, e1], Reach.set b2 v2 v3 (by omega) e1,
        e2.holds.isMessage, by simp only [Tree.cost, Msg.encode, Slice.len]; omega, ?_, ?_, ?_⟩
      · intro g hg hs
        simp only [Tree.val]
        by_cases hgf : f = g
        · subst hgf; simp [e3]
        · rw [if_neg hgf, lastVal_of_filter_ne (Ne.symm hgf) e4]; exact b5 g hg hs
      · intro g τ' hg hs
        have hgf : g ≠ f := by rintro rfl; rw [v4] at hs; simp at hs
        rw [lastVal_of_filter_ne hgf e4]; exact b6 g τ' hg hs
      · intro g τ' hg hs
        have hgf : g ≠ f := by rintro rfl; rw [v4] at hs; simp at hs
        rw [allVals_of_filter_ne hgf e4]; exact b7 g τ' hg hs
    · omega
  | sub t rt f c ih ihc =>
    intro τ hv hc
    obtain ⟨v1, v2, τc, v3, v4⟩ := hv
    simp only [Tree.cost] at hc
    obtain ⟨m, rs, b1, b2, b3, b4, b5, b6, b7⟩ := ih τ v1 (by omega)
    obtain ⟨y, rsy, y1, y2, y3, y4, _⟩ := ihc τc v4 (by omega)
    have hk := Ty.sub_bytes τ f τc v3
    obtain ⟨h1, h2⟩ := b2.records b3
    simp only [Msg.encode, Slice.len] at b4 y4
    have hy : Kind.size .bytes y.encode.data < maxLen := by simp only [Kind.size, Msg.encode]; omega
    rcases h1.set rt hk v2 y.encode.data hy (fun v hv => h2.last hk hv) with ⟨m', rs', e1, e2, e3, e4, e5, e6, _⟩ | ⟨e1, e2⟩
    · simp only [Kind.size, Msg.encode] at e6
      have henc : c.enc Ty τc = y.encode.data := by unfold Tree.enc; rw [y1]
      refine ⟨m', rs', by simp only [Tree.build, b1, y1, v3, Option.getD_some, bind, Except.bind, Msg.setMessage, e1],
        Reach.set b2 hk v2 hy e1,
        e2.holds.isMessage, by simp only [Tree.cost, Msg.encode, Slice.len]; omega, ?_, ?_, ?_⟩
      · intro g hg hs
        have hgf : g ≠ f := by rintro rfl; rw [v3] at hs; simp at hs
        rw [lastVal_of_filter_ne hgf e4]; exact b5 g hg hs
      · intro g τ' hg hs
        simp only [Tree.child]
        by_cases hgf : f = g
        · subst hgf
          rw [v3] at hs
          simp only [Option.some.injEq] at hs
          subst hs
          simp [e3, encodeVal, henc]
        · rw [if_neg hgf, lastVal_of_filter_ne (Ne.symm hgf) e4]; exact b6 g τ' hg hs
      · intro g τ' hg hs
        have hgf : g ≠ f := by rintro rfl; rw [v2] at hg; simp at hg
        rw [allVals_of_filter_ne hgf e4]; exact b7 g τ' hg hs
    · simp only [Kind.size, Msg.encode] at e2; omega
  | elem t rt f c ih ihc =>
    intro τ hv hc
    obtain ⟨v1, v2, τc, v3, v4⟩ := hv
    simp only [Tree.cost] at hc
    obtain ⟨m, rs, b1, b2, b3, b4, b5, b6, b7⟩ := ih τ v1 (by omega)
    obtain ⟨y, rsy, y1, y2, y3, y4, _⟩ := ihc τc v4 (by omega)
    have hk := Ty.sub_bytes τ f τc v3
    have hf := (Ty.schema τ).kind_lt f (by rw [hk]; simp)
    obtain ⟨h1, h2⟩ := b2.records b3
    simp only [Msg.encode, Slice.len] at b4 y4
    rcases h1.append rt hf v2 y.encode.data (by simp only [Msg.encode]; omega) with ⟨m', e1, e2, e3, _⟩ | ⟨e1, e2⟩
    · simp only [Msg.encode] at e3
      have henc : c.enc Ty τc = y.encode.data := by unfold Tree.enc; rw [y1]
      refine ⟨m', _, by simp only [Tree.build, b1, y1, v3, Option.getD_some, bind, Except.bind, Msg.appendTo, e1],
        Reach.append b2 hk v2 (by simp only [Msg.encode]; omega) e1,
        e2.holds.isMessage, by simp only [Tree.cost, Msg.encode, Slice.len]; omega, ?_, ?_, ?_⟩
      · intro g hg hs
        have hgf : f ≠ g := by rintro rfl; rw [v3] at hs; simp at hs
        rw [lastVal_append_record, if_neg hgf]; exact b5 g hg hs
      · intro g τ' hg hs
        have hgf : f ≠ g := by rintro rfl; rw [v2] at hg; simp at hg
        rw [lastVal_append_record, if_neg hgf]; exact b6 g τ' hg hs
      · intro g τ' hg hs
        rw [allVals_append_record]
        simp only [Tree.elems]
        by_cases hgf : f = g
        · subst hgf
          rw [v3] at hs
          simp only [Option.some.injEq] at hs
          subst hs
          simp [b7 f τc hg v3, henc]
        · rw [if_neg hgf, if_neg hgf]; exact b7 g τ' hg hs
    · simp only [Msg.encode] at e2; omega

theorem Tree.val_kind (Ty : Types) {τ : Ty.T} (t : Tree) (hv : t.Valid Ty τ) {f : Nat} {p} (h : t.val f = some p) :
    (Ty.schema τ).kind f = some p.1 := by
  induction t with
  | nil => simp [Tree.val] at h
  | set t rt g k x ih =>
    simp only [Tree.val] at h
    split at h
    · next hg => subst hg; simp only [Option.some.injEq] at h; subst h; exact hv.2.1
    · exact ih hv.1 h
  | sub t rt g c ih => exact ih hv.1 h
  | elem t rt g c ih => exact ih hv.1 h

theorem Tree.child_sub (Ty : Types) {τ τ' : Ty.T} (t : Tree) (hv : t.Valid Ty τ) {f : Nat} {c} (h : t.child f = some c)
    (hs : Ty.sub τ f = some τ') : c.Valid Ty τ' ∧ c.cost ≤ t.cost := by
  induction t with
  | nil => simp [Tree.child] at h
  | set t rt g k x ih =>
    have := ih hv.1 h
    exact ⟨this.1, by simp only [Tree.cost]; omega⟩
  | elem t rt g c' ih =>
    have := ih hv.1 h
    exact ⟨this.1, by simp only [Tree.cost]; omega⟩
  | sub t rt g c' ih =>
    simp only [Tree.child] at h
    split at h
    · next hg =>
      subst hg; simp only [Option.some.injEq] at h; subst h
      obtain ⟨_, _, τ2, h2, h3⟩ := hv
      rw [hs] at h2
      simp only [Option.some.injEq] at h2
      subst h2
      exact ⟨h3, by simp only [Tree.cost]; omega⟩
    · have := ih hv.1 h
      exact ⟨this.1, by simp only [Tree.cost]; omega⟩

theorem Tree.elems_sub (Ty : Types) {τ τ' : Ty.T} (t : Tree) (hv : t.Valid Ty τ) {f : Nat} {c} (h : c ∈ t.elems f)
    (hs : Ty.sub τ f = some τ') : c.Valid Ty τ' ∧ c.cost ≤ t.cost := by
  induction t with
  | nil => simp [Tree.elems] at h
  | set t rt g k x ih =>
    have := ih hv.1 h
    exact ⟨this.1, by simp only [Tree.cost]; omega⟩
  | sub t rt g c' ih =>
    have := ih hv.1 h
    exact ⟨this.1, by simp only [Tree.cost]; omega⟩
  | elem t rt g c' ih =>
    simp only [Tree.elems] at h
    split at h
    · next hg =>
      subst hg
      simp only [List.mem_append, List.mem_singleton] at h
      rcases h with h | rfl
      · have := ih hv.1 h
        exact ⟨this.1, by simp only [Tree.cost]; omega⟩
      · obtain ⟨_, _, τ2, h2, h3⟩ := hv
        rw [hs] at h2
        simp only [Option.some.injEq] at h2
        subst h2
        exact ⟨h3, by simp only [Tree.cost]; omega⟩
    · have := ih hv.1 h
      exact ⟨this.1, by simp only [Tree.cost]; omega⟩

/-- Decoding the encoding of a built tree. -/
theorem Tree.decode_enc (Ty : Types) {τ : Ty.T} (c : Tree) (hv : c.Valid Ty τ) (hc : c.cost < maxLen) {x : Msg}
    (hx : x.off.a.length = (Ty.schema τ).n) (rest : List Byte) :
    ∃ x', x.decode (Ty.schema τ).rep ⟨c.enc Ty τ, rest⟩ = .ok (x', none) ∧ Reach (Ty.schema τ) x' ∧
      x'.encode.data = c.enc Ty τ := by
  obtain ⟨m, rs, b1, b2, _⟩ := c.built Ty τ hv hc
  have henc : c.enc Ty τ = m.encode.data := by unfold Tree.enc; rw [b1]
  obtain ⟨x', d1, d2, _, d3⟩ := C05_encode_decode b2 hx (buf := ⟨c.enc Ty τ, rest⟩) henc
  exact ⟨x', d1, d3, by rw [d2]⟩

theorem Tree.reads (Ty : Types) (n : Nat) : ∀ (τ : Ty.T) (t : Tree) (m : Msg), t.Valid Ty τ → t.cost < maxLen →
    Reach (Ty.schema τ) m → m.encode.data = t.enc Ty τ → Reads Ty n τ m t := by
  induction n with
  | zero => intros; trivial
  | succ n ih =>
    intro τ t m hv hc hm he
    obtain ⟨m0, rs, b1, b2, b3, b4, b5, b6, b7⟩ := t.built Ty τ hv hc
    have henc : t.enc Ty τ = m0.encode.data := by unfold Tree.enc; rw [b1]
    have hmsg : IsMessage rs m.encode.data := by rw [he, henc]; exact b3
    obtain ⟨h1, h2⟩ := hm.records hmsg
    refine ⟨?_, ?_, ?_⟩
    · intro f k hk hr hs
      have hl := b5 f hr hs
      refine ⟨?_, ?_, ?_⟩
      · intro hn
        rw [hn] at hl
        exact h1.holds.get hk hr (by rw [hl]; rfl)
      · intro x hx
        rw [hx] at hl
        exact h1.holds.get hk hr (by rw [hl]; exact decodeVal_encodeVal k x)
      · intro k' x hx
        have := t.val_kind Ty hv hx
        rw [hk] at this
        simp only [Option.some.injEq] at this
        exact this.symm
    · intro f τ' hs hr x hx
      have hk := Ty.sub_bytes τ f τ' hs
      have hl := b6 f τ' hr hs
      constructor
      · intro hn
        rw [hn] at hl
        rcases C11_presence (.reach hm) hmsg hk hr with ⟨_, h⟩ | ⟨b, hb, _⟩
        · exact h _ x
        · rw [hb] at hl; simp at hl
      · intro c hcc
        rw [hcc] at hl
        obtain ⟨cv, ccost⟩ := t.child_sub Ty hv hcc hs
        rcases C11_presence (.reach hm) hmsg hk hr with ⟨ha, _⟩ | ⟨b, hb, rest, h⟩
        · exfalso
          have := lastVal_mem (f := f) hl
          exact ha _ this rfl
        · rw [hb] at hl
          simp only [Option.map_some, Option.some.injEq, Val.bytes.injEq] at hl
          subst hl
          obtain ⟨x', d1, d2, d3⟩ := c.decode_enc Ty cv (by omega) hx rest
          exact ⟨x', by rw [h, d1]; rfl, ih τ' c x' cv (by omega) d2 d3⟩
    · intro f τ' hs hr
      have hk := Ty.sub_bytes τ f τ' hs
      have hl := b7 f τ' hr hs
      obtain ⟨els, e1, its, i1, i2, i3⟩ := C09_iterate (.reach hm) hmsg hk hr
      have hels : els = (t.elems f).map (fun c => c.enc Ty τ') := by
        rw [e1] at hl
        have hinj : ∀ l l' : List (List Byte), l.map Val.bytes = l'.map Val.bytes → l = l' := by
          intro l l' h
          exact (List.map_inj_right (fun x y hxy => Val.bytes.inj hxy)).1 h
        apply hinj
        rw [hl, List.map_map]; rfl
      refine ⟨its, i1, ?_⟩
      intro x hx i
      constructor
      · intro c hcc
        have hi : i < (t.elems f).length := by
          rcases Nat.lt_or_ge i (t.elems f).length with h | h
          · exact h
          · rw [List.getElem?_eq_none h] at hcc; simp at hcc
        have hi' : i < els.length := by rw [hels]; simpa using hi
        obtain ⟨rest, hn⟩ := i2 i hi'
        have hel : els[i] = c.enc Ty τ' := by
          have h1 : els[i]? = ((t.elems f).map (fun c => c.enc Ty τ'))[i]? := by rw [hels]
          rw [List.getElem?_eq_getElem hi', List.getElem?_map, hcc] at h1
          simpa using h1
        obtain ⟨cv, ccost⟩ := t.elems_sub Ty hv (List.mem_of_getElem? hcc) hs
        obtain ⟨x', d1, d2, d3⟩ := c.decode_enc Ty cv (by omega) hx rest
        exact ⟨x', by rw [hn, hel, d1]; rfl, ih τ' c x' cv (by omega) d2 d3⟩
      · intro hnone
        have hi : (t.elems f).length ≤ i := by
          rcases Nat.lt_or_ge i (t.elems f).length with h | h
          · rw [List.getElem?_eq_getElem h] at hnone; simp at hnone
          · exact h
        exact i3 i (by rw [hels]; simpa using hi) _ x

/-- C12: a tree of messages built bottom-up through the API reads back as the same tree, to any
depth; and so does the struct obtained by decoding its encoding (from a slice with the same bytes,
into any struct). -/
theorem C12_tree (Ty : Types) (τ : Ty.T) (t : Tree) (hv : t.Valid Ty τ) (hc : t.cost < maxLen) :
    ∃ m, t.build Ty τ = .ok m ∧ (∀ n, Reads Ty n τ m t) ∧
      ∀ (m0 : Msg) (buf : Slice), m0.off.a.length = (Ty.schema τ).n → buf.data = m.encode.data →
        ∃ m', m0.decode (Ty.schema τ).rep buf = .ok (m', none) ∧ ∀ n, Reads Ty n τ m' t := by
  obtain ⟨m, rs, b1, b2, _⟩ := t.built Ty τ hv hc
  have henc : t.enc Ty τ = m.encode.data := by unfold Tree.enc; rw [b1]
  refine ⟨m, b1, fun n => t.reads Ty n τ m hv hc b2 henc.symm, ?_⟩
  intro m0 buf h0 hb
  obtain ⟨m', d1, d2, _, d3⟩ := C05_encode_decode b2 h0 hb
  exact ⟨m', d1, fun n => t.reads Ty n τ m' hv hc d3 (by rw [d2, hb, henc])⟩

/-- The types of test.proto: one recursive message type, with a message field 17 and a repeated
message field 34. -/
def testTypes : Types where
  T := Unit
  schema := fun _ => testSchema
  sub := fun _ f => if f = 17 ∨ f = 34 then some () else none
  sub_bytes := by
    intro τ f τ' h
    by_cases hf : f = 17 ∨ f = 34
    · rcases hf with rfl | rfl <;> rfl
    · rw [if_neg hf] at h; simp at h
  rep_sub := by
    intro τ f h hk
    have h1 : 18 ≤ f ∧ f ≤ 34 := by simpa [testSchema, testRep] using h
    by_cases h34 : f = 34
    · subst h34; simp
    · exfalso; apply hk
      simp only [testSchema]
      unfold testKind
      split <;> first | omega | rfl

/-- Hypotheses met: a tree with a child, two elements (one of which has an element) and scalars. -/
example : let t0 : Tree := Tree.nil.set Rt.exact 14 .string [0x68#8]
    let t1 : Tree := (Tree.nil.elem Rt.exact 34 t0).set Rt.exact 2 .int32 5#32
    let t : Tree := (((t0.sub Rt.exact 17 t1).elem Rt.exact 34 t1).elem Rt.exact 34 .nil).set Rt.exact 14 .string []
    t.Valid testTypes () ∧ t.cost < maxLen := by
  refine ⟨?_, by decide⟩
  simp [Tree.Valid, testTypes, testSchema, testKind, testRep]

end Zeropb
