import Verif.Spec.Kind
/-!
# Independent specification: an ordinary protobuf implementation

What a conventional protobuf library (such as golang/protobuf, against which the repository's random
tests compare) does: messages are plain structs, `Unmarshal` fills them from bytes, `Marshal` writes
them. Written from the protobuf documentation; it mentions none of the model's functions.

Not specified: checking that `string` fields hold UTF-8 (zeropb does not check it).
-/

namespace Zeropb

/-- A family of message types: the schema of each type and the type of each message-typed field. -/
structure Types where
  T : Type
  schema : T → Schema
  sub : T → Nat → Option T
  sub_bytes : ∀ τ f τ', sub τ f = some τ' → (schema τ).kind f = some .bytes
  /-- repeated fields with accessors hold messages -/
  rep_sub : ∀ τ f, (schema τ).rep f = true → (schema τ).kind f ≠ none → sub τ f ≠ none

/-- A message of an ordinary implementation: a struct with the value of each scalar field (by number
and type, the default when never assigned), a pointer for each message field, and a slice for each
repeated message field. -/
inductive Obj where
  | mk (val : Nat → (k : Kind) → k.Ty) (child : Nat → Option Obj) (elems : Nat → List Obj)

namespace Obj

/-- The value of a scalar field. -/
def val : Obj → Nat → (k : Kind) → k.Ty
  | mk v _ _ => v

/-- The message in a message field. -/
def child : Obj → Nat → Option Obj
  | mk _ c _ => c

/-- The messages in a repeated field. -/
def elems : Obj → Nat → List Obj
  | mk _ _ e => e

/-- The zero struct. -/
def empty : Obj := mk (fun _ k => k.dflt) (fun _ => none) (fun _ => [])

/-- Assign a scalar field. -/
def setVal (o : Obj) (f : Nat) (k : Kind) (x : k.Ty) : Obj :=
  mk (fun g k' => if h : k = k' then (if g = f then h ▸ x else o.val g k') else o.val g k') o.child o.elems

/-- Assign a message field. -/
def setChild (o : Obj) (f : Nat) (c : Obj) : Obj :=
  mk o.val (fun g => if g = f then some c else o.child g) o.elems

/-- Append to a repeated message field. -/
def addElem (o : Obj) (f : Nat) (c : Obj) : Obj :=
  mk o.val o.child (fun g => if g = f then o.elems g ++ [c] else o.elems g)

end Obj

open Wire

/-- `Unmarshal` of an ordinary implementation: reading the records `rs` of a message of type `τ`, in
order, into the struct `o` gives `o'`. A scalar is assigned; a message is merged into the one already
there; an element is appended; a field the type has no accessors for is skipped. -/
inductive Unmarshals (Ty : Types) : Ty.T → List Record → Obj → Obj → Prop where
  | nil {τ o} : Unmarshals Ty τ [] o o
  | scalar {τ f v rs o o' k x} : (Ty.schema τ).kind f = some k → Ty.sub τ f = none → decodeVal k v = some x →
      Unmarshals Ty τ rs (o.setVal f k x) o' → Unmarshals Ty τ (⟨f, v⟩ :: rs) o o'
  | child {τ f b rs o o' τ' rs' c} : Ty.sub τ f = some τ' → (Ty.schema τ).rep f = false → IsMessage rs' b →
      Unmarshals Ty τ' rs' ((o.child f).getD .empty) c → Unmarshals Ty τ rs (o.setChild f c) o' →
      Unmarshals Ty τ (⟨f, .bytes b⟩ :: rs) o o'
  | elem {τ f b rs o o' τ' rs' c} : Ty.sub τ f = some τ' → (Ty.schema τ).rep f = true → IsMessage rs' b →
      Unmarshals Ty τ' rs' .empty c → Unmarshals Ty τ rs (o.addElem f c) o' →
      Unmarshals Ty τ (⟨f, .bytes b⟩ :: rs) o o'
  | skip {τ f v rs o o'} : (Ty.schema τ).kind f = none → Unmarshals Ty τ rs o o' →
      Unmarshals Ty τ (⟨f, v⟩ :: rs) o o'

/-- An ordinary implementation reads the bytes `b` as the message `o`. -/
def StdReads (Ty : Types) (τ : Ty.T) (b : List Byte) (o : Obj) : Prop :=
  ∃ rs, IsMessage rs b ∧ Unmarshals Ty τ rs .empty o

/-- A message in which no field number exceeds those declared and no singular message field is
written in several pieces, here and in all embedded messages. -/
inductive Unsplit (Ty : Types) : Ty.T → List Record → Prop where
  | mk {τ rs} : (∀ r ∈ rs, r.num < (Ty.schema τ).n) →
      (∀ f τ', Ty.sub τ f = some τ' → (Ty.schema τ).rep f = false → (allVals f rs).length ≤ 1) →
      (∀ f τ' b rs', Ty.sub τ f = some τ' → ⟨f, .bytes b⟩ ∈ rs → IsMessage rs' b → Unsplit Ty τ' rs') →
      Unsplit Ty τ rs

/-- The struct only has values in fields of its type. -/
def Obj.Fits (Ty : Types) (τ : Ty.T) (o : Obj) : Prop :=
  (∀ f k, (Ty.schema τ).kind f ≠ some k ∨ Ty.sub τ f ≠ none → o.val f k = k.dflt) ∧
  (∀ f, Ty.sub τ f = none ∨ (Ty.schema τ).rep f = true → o.child f = none) ∧
  (∀ f, Ty.sub τ f = none ∨ (Ty.schema τ).rep f = false → o.elems f = [])

/-- `Marshal` of an ordinary implementation: the records of the fields in order of their numbers,
defaults omitted, embedded messages written the same way. `recs f` are the records of field `f`. (An
enum, which zeropb treats as `uint32`, is written like an `int32`.) -/
inductive Marshals (Ty : Types) : Ty.T → Obj → List Record → Prop where
  | mk {τ o} (recs : Nat → List Record) (cb : Nat → List Byte) (crs : Nat → List Record)
      (eb : Nat → Nat → List Byte) (ers : Nat → Nat → List Record) : o.Fits Ty τ →
      (∀ f, (Ty.schema τ).kind f = none → recs f = []) →
      (∀ f k, (Ty.schema τ).kind f = some k → Ty.sub τ f = none → o.val f k = k.dflt → recs f = []) →
      (∀ f k, (Ty.schema τ).kind f = some k → Ty.sub τ f = none → o.val f k ≠ k.dflt →
        recs f = [⟨f, encodeVal k (o.val f k)⟩] ∨
        ((Ty.schema τ).kind f = some .uint32 ∧ recs f = [⟨f, encodeVal .int32 (o.val f .uint32)⟩])) →
      (∀ f τ', Ty.sub τ f = some τ' → (Ty.schema τ).rep f = false → o.child f = none → recs f = []) →
      (∀ f τ' c, Ty.sub τ f = some τ' → (Ty.schema τ).rep f = false → o.child f = some c →
        recs f = [⟨f, .bytes (cb f)⟩]) →
      (∀ f τ' c, Ty.sub τ f = some τ' → (Ty.schema τ).rep f = false → o.child f = some c →
        IsMessage (crs f) (cb f)) →
      (∀ f τ' c, Ty.sub τ f = some τ' → (Ty.schema τ).rep f = false → o.child f = some c →
        Marshals Ty τ' c (crs f)) →
      (∀ f τ', Ty.sub τ f = some τ' → (Ty.schema τ).rep f = true →
        recs f = (List.range (o.elems f).length).map (fun i => ⟨f, .bytes (eb f i)⟩)) →
      (∀ f τ' i c, Ty.sub τ f = some τ' → (Ty.schema τ).rep f = true → (o.elems f)[i]? = some c →
        IsMessage (ers f i) (eb f i)) →
      (∀ f τ' i c, Ty.sub τ f = some τ' → (Ty.schema τ).rep f = true → (o.elems f)[i]? = some c →
        Marshals Ty τ' c (ers f i)) →
      Marshals Ty τ o ((List.range (Ty.schema τ).n).flatMap recs)

end Zeropb
