import Verif.Model.Message
/-!
# The message type of golden/testzeropb/test.zeropb.go
-/

namespace Zeropb

/-- test.zeropb.go:7-212: the accessors of `TestMessage`, by field number (the constants passed to
`zeropb.GetX`/`SetX`); field 16 is an enum, 17 the message field, 34 the repeated message field. -/
def testKind : Nat → Option Kind
  | 1 => some .bool
  | 2 => some .int32
  | 3 => some .int64
  | 4 => some .uint32
  | 5 => some .uint64
  | 6 => some .sint32
  | 7 => some .sint64
  | 8 => some .fixed32
  | 9 => some .fixed64
  | 10 => some .sfixed32
  | 11 => some .sfixed64
  | 12 => some .double
  | 13 => some .float
  | 14 => some .string
  | 15 => some .bytes
  | 16 => some .uint32
  | 17 => some .bytes
  | 34 => some .bytes
  | _ => none

/-- test.zeropb.go:15-33 `repeatedFields_TestMessage`. -/
def testRep (f : Nat) : Bool := 18 ≤ f && f ≤ 34

theorem testKind_lt (f : Nat) (h : testKind f ≠ none) : f < 35 := by
  rcases Nat.lt_or_ge f 35 with h1 | h1
  · exact h1
  · exfalso; apply h
    unfold testKind
    split <;> first | omega | rfl

theorem testKind_rep (f : Nat) (k : Kind) (hr : testRep f = true) (hk : testKind f = some k) : k = .bytes := by
  unfold testKind at hk
  simp only [testRep, Bool.and_eq_true, decide_eq_true_eq] at hr
  split at hk <;> first | omega | simp_all

/-- `TestMessage`: 35 slots (test.zeropb.go:10). -/
def testSchema : Schema where
  n := 35
  rep := testRep
  kind := testKind
  n_le := by decide
  kind_lt := testKind_lt
  rep_bytes := testKind_rep

end Zeropb
