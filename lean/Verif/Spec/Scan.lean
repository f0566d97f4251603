import Verif.Spec.Wire
/-!
# Independent specification: what can be wrong with a byte string

Every byte string is a valid message followed by nothing, by a cut-off record, or by a defect.
-/

namespace Zeropb.Wire

/-- All bytes announce a continuation: a varint that has not ended. -/
def Unterminated (bs : List Byte) : Prop := ∀ b ∈ bs, 128 ≤ b.toNat

/-- The bytes start with a varint that does not fit 64 bits. -/
def OverflowVarint (bs : List Byte) : Prop :=
  ∃ init last rest, bs = init ++ last :: rest ∧ Unterminated init ∧ last.toNat < 128 ∧
    (9 < init.length ∨ init.length = 9 ∧ 1 < last.toNat)

/-- `Y` is the nonempty beginning of a payload of the wire type that has been cut off. `pos` is the
position of `Y` in the input; the end of the payload is below position 2^63. -/
inductive CutPayload (pos : Nat) : Nat → List Byte → Prop where
  | varint {Y} : Y ≠ [] → Unterminated Y → CutPayload pos 0 Y
  | fixed64 {Y} : Y ≠ [] → Y.length < 8 → CutPayload pos 1 Y
  | fixed32 {Y} : Y ≠ [] → Y.length < 4 → CutPayload pos 5 Y
  | length {Y} : Y ≠ [] → Unterminated Y → CutPayload pos 2 Y
  | bytes {L lb Z} : IsVarint L lb → Z.length < L → pos + lb.length + L < 2 ^ 63 → CutPayload pos 2 (lb ++ Z)

/-- `X`, at position `base`, is the nonempty beginning of a cut-off record whose number, if it is
followed by anything, is below `n`. -/
inductive CutRecord (n base : Nat) : List Byte → Prop where
  | tag {X} : X ≠ [] → Unterminated X → CutRecord n base X
  | noPayload {t tag} : IsVarint t tag → CutRecord n base tag
  | payload {t tag Y} : IsVarint t tag → t / 8 < n → CutPayload (base + tag.length) (t % 8) Y →
      CutRecord n base (tag ++ Y)

/-- `X`, at position `base`, starts with something that is not a record of a field below `n`. -/
inductive Defect (n base : Nat) : List Byte → Prop where
  /-- a tag that does not fit 64 bits -/
  | tagOverflow {X} : OverflowVarint X → Defect n base X
  /-- a field number outside the table -/
  | number {t tag rest} : IsVarint t tag → n ≤ t / 8 → rest ≠ [] → Defect n base (tag ++ rest)
  /-- a wire type that is not supported (groups) or does not exist -/
  | wireType {t tag rest} : IsVarint t tag → t / 8 < n → t % 8 = 3 ∨ t % 8 = 4 ∨ t % 8 = 6 ∨ t % 8 = 7 → rest ≠ [] →
      Defect n base (tag ++ rest)
  /-- a value or length that does not fit 64 bits -/
  | payOverflow {t tag rest} : IsVarint t tag → t / 8 < n → t % 8 = 0 ∨ t % 8 = 2 → OverflowVarint rest →
      Defect n base (tag ++ rest)
  /-- a length reaching beyond position 2^63 -/
  | length {t tag L lb rest} : IsVarint t tag → t / 8 < n → t % 8 = 2 → IsVarint L lb →
      2 ^ 63 ≤ base + tag.length + lb.length + L → Defect n base (tag ++ (lb ++ rest))

end Zeropb.Wire
