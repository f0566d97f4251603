import Verif.Proof.Varint
import Verif.Proof.Fixed
import Verif.Proof.Offsets
import Verif.Model.Message
/-!
# Messages as sequences of encoded records, and the representation invariant
-/

set_option linter.unusedSimpArgs false

namespace Zeropb
open Wire

/-- An encoded record. -/
structure Chunk where
  num : Nat
  val : Val
  tag : List Byte
  pay : List Byte

namespace Chunk

def bytes (c : Chunk) : List Byte := c.tag ++ c.pay
def record (c : Chunk) : Record := ⟨c.num, c.val⟩
def tagNum (c : Chunk) : Nat := c.num * 8 + c.val.wireType

structure WF (c : Chunk) : Prop where
  tag : IsVarint c.tagNum c.tag
  pay : IsPayload c.val c.pay

def MinTag (c : Chunk) : Prop := IsMinVarint c.tagNum c.tag

theorem bytes_length (c : Chunk) : c.bytes.length = c.tag.length + c.pay.length := by simp [bytes]

theorem WF.tag_pos {c : Chunk} (h : c.WF) : 0 < c.tag.length := h.tag.length_pos

theorem _root_.Zeropb.Wire.IsPayload.pos {v : Val} {pay : List Byte} (h : IsPayload v pay) : 0 < pay.length := by
  cases v with
  | varint v => exact IsVarint.length_pos h
  | fixed64 v => rw [show pay = _ from h, leBytes_length]; omega
  | fixed32 v => rw [show pay = _ from h, leBytes_length]; omega
  | bytes bs =>
    obtain ⟨lb, h1, rfl⟩ := h
    have := h1.length_pos
    simp; omega

theorem WF.pay_pos {c : Chunk} (h : c.WF) : 0 < c.pay.length := h.pay.pos

end Chunk

/-- The bytes of a sequence of encoded records. -/
def flat (cs : List Chunk) : List Byte := cs.flatMap Chunk.bytes

@[simp] theorem flat_nil : flat [] = [] := rfl
@[simp] theorem flat_cons (c : Chunk) (cs : List Chunk) : flat (c :: cs) = c.bytes ++ flat cs := rfl
@[simp] theorem flat_append (xs ys : List Chunk) : flat (xs ++ ys) = flat xs ++ flat ys := by
  simp [flat]

/-- The positions of the payloads of field `f`, for records starting at `base`. -/
def offs (f : Nat) : Nat → List Chunk → List Nat
  | _, [] => []
  | base, c :: cs =>
    (if c.num = f then [base + c.tag.length] else []) ++ offs f (base + c.bytes.length) cs

theorem offs_append (f base : Nat) (xs ys : List Chunk) :
    offs f base (xs ++ ys) = offs f base xs ++ offs f (base + (flat xs).length) ys := by
  induction xs generalizing base with
  | nil => simp [offs]
  | cons c xs ih =>
    simp only [List.cons_append, offs, ih, List.append_assoc, flat_cons, List.length_append, Nat.add_assoc]

theorem offs_shift (f base k : Nat) (cs : List Chunk) :
    offs f (base + k) cs = (offs f base cs).map (· + k) := by
  induction cs generalizing base with
  | nil => rfl
  | cons c cs ih =>
    simp only [offs, List.map_append]
    rw [show base + k + c.bytes.length = base + c.bytes.length + k by omega, ih]
    congr 1
    split <;> simp; omega

theorem offs_bounds {f base x : Nat} {cs : List Chunk} (hwf : ∀ c ∈ cs, c.WF) (h : x ∈ offs f base cs) :
    base < x ∧ x < base + (flat cs).length := by
  induction cs generalizing base with
  | nil => simp [offs] at h
  | cons c cs ih =>
    have h1 := (hwf c (by simp)).tag_pos
    have h2 := (hwf c (by simp)).pay_pos
    simp only [offs, List.mem_append] at h
    simp only [flat_cons, List.length_append, c.bytes_length] at *
    rcases h with h | h
    · split at h
      · simp at h; omega
      · simp at h
    · have := ih (fun c hc => hwf c (by simp [hc])) h
      omega

theorem offs_eq_nil {f base : Nat} {cs : List Chunk} : offs f base cs = [] ↔ ∀ c ∈ cs, c.num ≠ f := by
  induction cs generalizing base with
  | nil => simp [offs]
  | cons c cs ih =>
    simp only [offs, List.append_eq_nil_iff, ih, List.forall_mem_cons]
    constructor
    · rintro ⟨h1, h2⟩; refine ⟨?_, h2⟩; intro h; simp [h] at h1
    · rintro ⟨h1, h2⟩; simp [h1]; exact h2

/-- The first or the last. -/
def pick {α : Type} (first : Bool) (l : List α) : Option α := if first then l.head? else l.getLast?

theorem pick_map {α β : Type} (b : Bool) (g : α → β) (l : List α) : pick b (l.map g) = (pick b l).map g := by
  cases b
  · simp [pick, List.getLast?_map]
  · simp [pick, List.head?_map]

theorem pick_nil {α : Type} (b : Bool) : pick b ([] : List α) = none := by cases b <;> rfl

theorem pick_eq_none {α : Type} {b : Bool} {l : List α} : pick b l = none ↔ l = [] := by
  cases b <;> simp [pick, List.getLast?_eq_none_iff]

/-- The representation invariant: the buffer is the concatenation of the encoded records `cs`, and
the offsets point at the payload of the last occurrence of each singular field and the first
occurrence of each repeated field. -/
structure Rep (n : Nat) (rep : Nat → Bool) (buf : Slice) (o : Offsets) (cs : List Chunk) : Prop where
  data : buf.data = flat cs
  wf : ∀ c ∈ cs, c.WF
  lt : ∀ c ∈ cs, c.num < n
  len : buf.data.length < maxLen
  inv : o.Inv
  alen : o.a.length = n
  view : ∀ f, o.view f = pick (rep f) (offs f 0 cs)

/-- The last encoded record of a field. -/
def lastChunk (f : Nat) (cs : List Chunk) : Option Chunk := (cs.filter (fun c => c.num = f)).getLast?

theorem exists_last {f : Nat} {cs : List Chunk} (h : ∃ c ∈ cs, c.num = f) :
    ∃ pre c post, cs = pre ++ c :: post ∧ c.num = f ∧ ∀ d ∈ post, d.num ≠ f := by
  induction cs with
  | nil => simp at h
  | cons d cs ih =>
    by_cases h2 : ∃ c ∈ cs, c.num = f
    · obtain ⟨pre, c, post, rfl, h3, h4⟩ := ih h2
      exact ⟨d :: pre, c, post, rfl, h3, h4⟩
    · refine ⟨[], d, cs, rfl, ?_, fun c hc he => h2 ⟨c, hc, he⟩⟩
      obtain ⟨c, hc, he⟩ := h
      rcases List.mem_cons.1 hc with rfl | hc
      · exact he
      · exact absurd ⟨c, hc, he⟩ h2

theorem exists_first {f : Nat} {cs : List Chunk} (h : ∃ c ∈ cs, c.num = f) :
    ∃ pre c post, cs = pre ++ c :: post ∧ c.num = f ∧ ∀ d ∈ pre, d.num ≠ f := by
  induction cs with
  | nil => simp at h
  | cons d cs ih =>
    by_cases h1 : d.num = f
    · exact ⟨[], d, cs, rfl, h1, by simp⟩
    · have h2 : ∃ c ∈ cs, c.num = f := by
        obtain ⟨c, hc, he⟩ := h
        rcases List.mem_cons.1 hc with rfl | hc
        · exact absurd he h1
        · exact ⟨c, hc, he⟩
      obtain ⟨pre, c, post, rfl, h3, h4⟩ := ih h2
      refine ⟨d :: pre, c, post, rfl, h3, ?_⟩
      intro e he
      rcases List.mem_cons.1 he with rfl | he
      · exact h1
      · exact h4 e he

theorem lastChunk_eq {f : Nat} {pre post : List Chunk} {c : Chunk} (hc : c.num = f) (hp : ∀ d ∈ post, d.num ≠ f) :
    lastChunk f (pre ++ c :: post) = some c := by
  have : post.filter (fun d => d.num = f) = [] := by
    rw [List.filter_eq_nil_iff]; intro d hd; simpa using hp d hd
  simp [lastChunk, List.filter_append, List.filter_cons, hc, this]

theorem lastChunk_none {f : Nat} {cs : List Chunk} (h : ∀ c ∈ cs, c.num ≠ f) : lastChunk f cs = none := by
  have : cs.filter (fun d => d.num = f) = [] := by
    rw [List.filter_eq_nil_iff]; intro d hd; simpa using h d hd
  simp [lastChunk, this]

theorem pick_last {f : Nat} {pre post : List Chunk} {c : Chunk} (hc : c.num = f) (hp : ∀ d ∈ post, d.num ≠ f) :
    pick false (offs f 0 (pre ++ c :: post)) = some ((flat pre).length + c.tag.length) := by
  have h := (offs_eq_nil (base := (flat pre).length + c.bytes.length)).2 hp
  simp [pick, offs_append, offs, hc, h]

theorem pick_first {f : Nat} {pre post : List Chunk} {c : Chunk} (hc : c.num = f) (hp : ∀ d ∈ pre, d.num ≠ f) :
    pick true (offs f 0 (pre ++ c :: post)) = some ((flat pre).length + c.tag.length) := by
  have h := (offs_eq_nil (base := 0)).2 hp
  simp [pick, offs_append, offs, hc, h]

/-! ## Relation with the specification -/

def records (cs : List Chunk) : List Record := cs.map Chunk.record

theorem isMessage_iff {rs : List Record} {bs : List Byte} :
    IsMessage rs bs ↔ ∃ cs, flat cs = bs ∧ (∀ c ∈ cs, c.WF) ∧ records cs = rs := by
  constructor
  · intro h
    induction h with
    | nil => exact ⟨[], rfl, by simp, rfl⟩
    | @cons r rs bs rest h1 _ ih =>
      obtain ⟨cs, h2, h3, h4⟩ := ih
      obtain ⟨tag, pay, rfl, ht, hp⟩ := h1
      refine ⟨⟨r.num, r.val, tag, pay⟩ :: cs, by rw [flat_cons, h2]; rfl, ?_, ?_⟩
      · intro c hc
        rcases List.mem_cons.1 hc with rfl | hc
        · exact ⟨ht, hp⟩
        · exact h3 c hc
      · simp [records, Chunk.record] at *; exact h4
  · rintro ⟨cs, rfl, h2, rfl⟩
    induction cs with
    | nil => exact .nil
    | cons c cs ih =>
      have hc := h2 c (by simp)
      exact .cons ⟨c.tag, c.pay, rfl, hc.tag, hc.pay⟩ (ih (fun d hd => h2 d (by simp [hd])))

theorem isMinTagMessage_iff {rs : List Record} {bs : List Byte} :
    IsMinTagMessage rs bs ↔ ∃ cs, flat cs = bs ∧ (∀ c ∈ cs, c.WF) ∧ (∀ c ∈ cs, c.MinTag) ∧ records cs = rs := by
  constructor
  · intro h
    induction h with
    | nil => exact ⟨[], rfl, by simp, by simp, rfl⟩
    | @cons r rs bs rest h1 _ ih =>
      obtain ⟨cs, h2, h3, h5, h4⟩ := ih
      obtain ⟨tag, pay, rfl, ht, hp⟩ := h1
      refine ⟨⟨r.num, r.val, tag, pay⟩ :: cs, by rw [flat_cons, h2]; rfl, ?_, ?_, ?_⟩
      · intro c hc
        rcases List.mem_cons.1 hc with rfl | hc
        · exact ⟨ht.1, hp⟩
        · exact h3 c hc
      · intro c hc
        rcases List.mem_cons.1 hc with rfl | hc
        · exact ht
        · exact h5 c hc
      · simp [records, Chunk.record] at *; exact h4
  · rintro ⟨cs, rfl, h2, h3, rfl⟩
    induction cs with
    | nil => exact .nil
    | cons c cs ih =>
      have hc := h2 c (by simp)
      exact .cons ⟨c.tag, c.pay, rfl, h3 c (by simp), hc.pay⟩
        (ih (fun d hd => h2 d (by simp [hd])) (fun d hd => h3 d (by simp [hd])))

theorem filter_records (f : Nat) (cs : List Chunk) :
    (records cs).filter (fun r => r.num = f) = records (cs.filter (fun c => c.num = f)) := by
  simp only [records, List.filter_map]; rfl

theorem lastVal_records (f : Nat) (cs : List Chunk) : lastVal f (records cs) = (lastChunk f cs).map Chunk.val := by
  rw [lastVal, filter_records]; simp only [lastChunk, records, List.getLast?_map, Option.map_map]; rfl

theorem allVals_records (f : Nat) (cs : List Chunk) :
    allVals f (records cs) = (cs.filter (fun c => c.num = f)).map Chunk.val := by
  rw [allVals, filter_records]; simp only [records, List.map_map]; rfl

end Zeropb
