import Verif.Go.Prim
/-!
# Model of /repo/offsets.go
-/

namespace Zeropb

/-- offsets.go:13 `offsetInMap` = `math.MaxUint16`. -/
def offsetInMap : U16 := 65535#16
/-- offsets.go:11 `offsetUnset`. -/
def offsetUnset : U16 := 0#16
/-- offsets.go:15 `offsetMaxInArray` = `offsetInMap - 1`. -/
def offsetMaxInArray : U16 := offsetInMap - 1#16

/-- offsets.go:35-38 `Offsets`: the array and the lazily allocated map (`none` is the nil map).
The Go struct holds references; the model passes the contents around and returns the updated
contents. -/
structure Offsets where
  a : List U16
  m : Option GoMap
deriving DecidableEq, Repr

namespace Offsets

/-- The offsets of a zero struct whose array has `n` slots. -/
def zero (n : Nat) : Offsets := ⟨List.replicate n offsetUnset, none⟩

/-- `o.a[fieldID]` -/
def slot (o : Offsets) (fieldID : Nat) : Res U16 :=
  match o.a[fieldID]? with
  | some v => .ok v
  | none => .error .indexOutOfRange

/-- `(*o.m)[fieldID]`: reading a nil map or a missing key gives 0. -/
def mapRead (o : Offsets) (fieldID : Nat) : U64 :=
  match o.m with
  | none => 0#64
  | some m => (m.find fieldID).getD 0#64

/-- offsets.go:47-54 `Get`. -/
def get (o : Offsets) (fieldID : Nat) : Res (U64 × Bool) := do
  let offset ← o.slot fieldID
  if offset ≠ offsetInMap then return (offset.setWidth 64, offset ≠ offsetUnset)
  return (o.mapRead fieldID, true)

/-- offsets.go:57-74 `Set`. (`delete` on a nil map is a no-op; the map is allocated on first use.) -/
def set (o : Offsets) (fieldID : Nat) (offset : U64) : Res Offsets :=
  if offset ≤ offsetMaxInArray.setWidth 64 then do
    let previous ← o.slot fieldID
    let m := if previous = offsetInMap then o.m.map (·.del fieldID) else o.m
    return ⟨o.a.set fieldID (offset.setWidth 16), m⟩
  else do
    let _ ← o.slot fieldID
    return ⟨o.a.set fieldID offsetInMap, some ((o.m.getD []).put fieldID offset)⟩

/-- offsets.go:77-86 `Clear`: every array slot unset, every map entry deleted; an allocated map
stays allocated. -/
def clear (o : Offsets) : Offsets :=
  ⟨o.a.map (fun _ => offsetUnset), o.m.map (fun _ => [])⟩

end Offsets
end Zeropb
