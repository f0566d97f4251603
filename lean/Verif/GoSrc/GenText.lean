import Verif.GoSrc.GenSyntax
import Verif.Props.Gen
/-!
# Generated text and syntax trees

The tokens of a generated file are those of the syntax trees of its declarations, for all names that are
identifiers.
-/

set_option linter.constructorNameAsVariable false
set_option maxRecDepth 4000

namespace Zeropb.GoSrc.G
open Zeropb.Gen

/-- A nonempty text of letters, digits and `_`. -/
def Word (t : Text) : Prop := t ≠ [] ∧ ∀ x ∈ t, isIdChar x = true

/-- Keywords of Go, and predeclared or imported names that generated files use. -/
def reserved : List Text := [t!"break", t!"case", t!"chan", t!"const", t!"continue", t!"default", t!"defer", t!"else", t!"fallthrough",
  t!"for", t!"func", t!"go", t!"goto", t!"if", t!"import", t!"interface", t!"map", t!"package", t!"range", t!"return", t!"select",
  t!"struct", t!"switch", t!"type", t!"var", t!"_",
  t!"bool", t!"int", t!"int32", t!"int64", t!"uint16", t!"uint32", t!"uint64", t!"float32", t!"float64", t!"string", t!"byte", t!"error",
  t!"len", t!"panic", t!"true", t!"false", t!"nil", t!"zeropb"]

/-- An identifier a generated file may declare. -/
def IsIdent (t : Text) : Prop := Word t ∧ t.head?.all (fun x => !x.isDigit) = true ∧ t ∉ reserved

instance (t : Text) : Decidable (Word t) := inferInstanceAs (Decidable (_ ∧ _))
instance (t : Text) : Decidable (IsIdent t) := inferInstanceAs (Decidable (_ ∧ _))

/-- The rest does not continue a word. -/
def Ends (rest : Text) : Prop := (rest.head?.map isIdChar).getD false = false

theorem isIdChar_not {x : Char} (h : isIdChar x = true) : x ≠ '\n' ∧ x ≠ ' ' ∧ x ≠ '\t' ∧ x ≠ '/' := by
  refine ⟨?_, ?_, ?_, ?_⟩ <;> (rintro rfl; exact absurd h (by decide))

/-- A word is one token. -/
theorem lex_word1 (cur last : Text) (x : Char) (t rest : Text) (h : ∀ y ∈ x :: t, isIdChar y = true) (hr : Ends rest) :
    lex 1 cur last (x :: t ++ rest) = (cur.reverse ++ x :: t) :: lex 0 [] (cur.reverse ++ x :: t) rest := by
  induction t generalizing x cur with
  | nil =>
    show lex 1 cur last (x :: rest) = _
    rw [lex]
    have : (rest.head?.map isIdChar).getD false = false := hr
    simp [this]
  | cons y t ih =>
    show lex 1 cur last (x :: y :: (t ++ rest)) = _
    rw [lex]
    have hy : isIdChar y = true := h y (by simp)
    simp only [List.head?_cons, Option.map_some, Option.getD_some, hy, if_true]
    have := ih (x :: cur) y (fun z hz => h z (List.mem_cons_of_mem _ hz))
    simp only [List.cons_append] at this
    rw [this]
    simp

theorem lex_word {t : Text} (h : Word t) (last rest : Text) (hr : Ends rest) :
    lex 0 [] last (t ++ rest) = t :: lex 0 [] t rest := by
  obtain ⟨h1, h2⟩ := h
  cases t with
  | nil => exact absurd rfl h1
  | cons x t =>
    have hx := h2 x (by simp)
    obtain ⟨n1, n2, n3, n4⟩ := isIdChar_not hx
    show lex 0 [] last (x :: (t ++ rest)) = _
    rw [lex]
    simp only [n1, n2, n3, n4, hx, if_false, if_true, decide_false, Bool.or_self, Bool.false_and, Bool.false_eq_true]
    cases t with
    | nil =>
      have : (rest.head?.map isIdChar).getD false = false := hr
      simp [this]
    | cons y t =>
      have hy := h2 y (by simp)
      simp only [List.cons_append, List.head?_cons, Option.map_some, Option.getD_some, hy, if_true]
      have := lex_word1 [x] last y t rest (fun z hz => h2 z (List.mem_cons_of_mem _ hz)) hr
      simp only [List.cons_append] at this
      rw [this]
      rfl

theorem Word.append {s t : Text} (hs : ∀ x ∈ s, isIdChar x = true) (ht : Word t) : Word (s ++ t) := by
  refine ⟨by simp [ht.1], ?_⟩
  intro x hx
  rcases List.mem_append.1 hx with h | h
  · exact hs x h
  · exact ht.2 x h

theorem lex_word2 {w t : Text} (h : Word t) (hw : ∀ x ∈ w, isIdChar x = true) (last rest : Text) (hr : Ends rest) :
    lex 0 [] last (w ++ (t ++ rest)) = (w ++ t) :: lex 0 [] (w ++ t) rest := by
  rw [← List.append_assoc]
  exact lex_word (Word.append hw h) last rest hr

theorem itoa_word {n : Int} (h : 0 ≤ n) : Word (itoa n) := by
  obtain ⟨h1, h2, _⟩ := (C46_numbers n).1 h
  refine ⟨h1, fun x hx => ?_⟩
  have := h2 x hx
  simp [isIdChar, Char.isAlphanum, this]

/-- A word ends a statement at the end of a line. -/
theorem endsStmt_word {t : Text} (h : Word t) : endsStmt t = true := by
  unfold endsStmt
  cases e : t.getLast? with
  | none => rw [List.getLast?_eq_none_iff] at e; exact absurd e h.1
  | some x =>
    have := h.2 x (List.mem_of_getLast? e)
    simp [this]

/-- What a declaration must satisfy to be Go at all: names are identifiers, numbers are not negative. -/
def Ok : Decl → Prop
  | .struct msg slots => IsIdent msg ∧ 0 ≤ slots
  | .repeatedTable msg nums => IsIdent msg ∧ ∀ n ∈ nums, 0 ≤ n
  | .encode msg | .decode msg | .reset msg => IsIdent msg
  | .get msg name goType fn num | .set msg name goType fn num =>
    IsIdent msg ∧ IsIdent name ∧ (Word goType ∨ goType = t!"[]byte") ∧ Word fn ∧ 0 ≤ num
  | .getMessage msg name typ num | .setMessage msg name typ num | .appendTo msg name typ num => IsIdent msg ∧ IsIdent name ∧ IsIdent typ ∧ 0 ≤ num
  | .iterType it => IsIdent it
  | .iterNext it typ num => IsIdent it ∧ IsIdent typ ∧ 0 ≤ num
  | .getRepeated msg name it num => IsIdent msg ∧ IsIdent name ∧ IsIdent it ∧ 0 ≤ num

/-! ## Pieces of text -/

section
variable (last r : Text)

private theorem lit0 : lex 0 [] last (t!"type " ++ r) = [t!"type"] ++ lex 0 [] t!"type" r := rfl
private theorem lit1 : lex 0 [] last (t!" struct {\n  buf []byte\n  offsets struct {\n    a [" ++ r) = [t!"struct", t!"{", t!"buf", t!"[", t!"]", t!"byte", t!";", t!"offsets", t!"struct", t!"{", t!"a", t!"["] ++ lex 0 [] t!"[" r := rfl
private theorem lit2 : lex 0 [] last (t!"func (m *" ++ r) = [t!"func", t!"(", t!"m", t!"*"] ++ lex 0 [] t!"*" r := rfl
private theorem lit3 : lex 0 [] last (t!") Decode(buf []byte) error {\n  m.buf = buf\n  return zeropb.Decode(m.buf, zeropb.WrapOffsets(m.offsets.a[:], &m.offsets.m), repeatedFields_" ++ r) = [t!")", t!"Decode", t!"(", t!"buf", t!"[", t!"]", t!"byte", t!")", t!"error", t!"{", t!"m", t!".", t!"buf", t!"=", t!"buf", t!";", t!"return", t!"zeropb", t!".", t!"Decode", t!"(", t!"m", t!".", t!"buf", t!",", t!"zeropb", t!".", t!"WrapOffsets", t!"(", t!"m", t!".", t!"offsets", t!".", t!"a", t!"[", t!":", t!"]", t!",", t!"&", t!"m", t!".", t!"offsets", t!".", t!"m", t!")", t!","] ++ lex 0 [] t!"," (t!"repeatedFields_" ++ r) := rfl
private theorem lit4 : lex 0 [] last (t!") " ++ r) = [t!")"] ++ lex 0 [] t!")" r := rfl
private theorem lit5 : lex 0 [] last (t!"() " ++ r) = [t!"(", t!")"] ++ lex 0 [] t!")" r := rfl
private theorem lit6 : lex 0 [] last (t!" {\n  return zeropb.Get" ++ r) = [t!"{", t!"return", t!"zeropb", t!"."] ++ lex 0 [] t!"." (t!"Get" ++ r) := rfl
private theorem lit7 : lex 0 [] last (t!"(m.buf, zeropb.WrapOffsets(m.offsets.a[:], &m.offsets.m), " ++ r) = [t!"(", t!"m", t!".", t!"buf", t!",", t!"zeropb", t!".", t!"WrapOffsets", t!"(", t!"m", t!".", t!"offsets", t!".", t!"a", t!"[", t!":", t!"]", t!",", t!"&", t!"m", t!".", t!"offsets", t!".", t!"m", t!")", t!","] ++ lex 0 [] t!"," r := rfl
private theorem lit8 : lex 0 [] last (t!") Set" ++ r) = [t!")"] ++ lex 0 [] t!")" (t!"Set" ++ r) := rfl
private theorem lit9 : lex 0 [] last (t!"(x " ++ r) = [t!"(", t!"x"] ++ lex 0 [] t!"x" r := rfl
private theorem lit10 : lex 0 [] last (t!") {\n  zeropb.Set" ++ r) = [t!")", t!"{", t!"zeropb", t!"."] ++ lex 0 [] t!"." (t!"Set" ++ r) := rfl
private theorem lit11 : lex 0 [] last (t!"(&m.buf, zeropb.WrapOffsets(m.offsets.a[:], &m.offsets.m), " ++ r) = [t!"(", t!"&", t!"m", t!".", t!"buf", t!",", t!"zeropb", t!".", t!"WrapOffsets", t!"(", t!"m", t!".", t!"offsets", t!".", t!"a", t!"[", t!":", t!"]", t!",", t!"&", t!"m", t!".", t!"offsets", t!".", t!"m", t!")", t!","] ++ lex 0 [] t!"," r := rfl
private theorem lit12 : lex 0 [] last (t!"(x *" ++ r) = [t!"(", t!"x", t!"*"] ++ lex 0 [] t!"*" r := rfl
private theorem lit13 : lex 0 [] last (t!") (bool, error) {\n  buf := zeropb.GetBytes(m.buf, zeropb.WrapOffsets(m.offsets.a[:], &m.offsets.m), " ++ r) = [t!")", t!"(", t!"bool", t!",", t!"error", t!")", t!"{", t!"buf", t!":=", t!"zeropb", t!".", t!"GetBytes", t!"(", t!"m", t!".", t!"buf", t!",", t!"zeropb", t!".", t!"WrapOffsets", t!"(", t!"m", t!".", t!"offsets", t!".", t!"a", t!"[", t!":", t!"]", t!",", t!"&", t!"m", t!".", t!"offsets", t!".", t!"m", t!")", t!","] ++ lex 0 [] t!"," r := rfl
private theorem lit14 : lex 0 [] last (t!") {\n  buf := x.Encode()\n  zeropb.SetBytes(&m.buf, zeropb.WrapOffsets(m.offsets.a[:], &m.offsets.m), " ++ r) = [t!")", t!"{", t!"buf", t!":=", t!"x", t!".", t!"Encode", t!"(", t!")", t!";", t!"zeropb", t!".", t!"SetBytes", t!"(", t!"&", t!"m", t!".", t!"buf", t!",", t!"zeropb", t!".", t!"WrapOffsets", t!"(", t!"m", t!".", t!"offsets", t!".", t!"a", t!"[", t!":", t!"]", t!",", t!"&", t!"m", t!".", t!"offsets", t!".", t!"m", t!")", t!","] ++ lex 0 [] t!"," r := rfl
private theorem lit15 : lex 0 [] last (t!"func (i *" ++ r) = [t!"func", t!"(", t!"i", t!"*"] ++ lex 0 [] t!"*" r := rfl
private theorem lit16 : lex 0 [] last (t!") Next(m *" ++ r) = [t!")", t!"Next", t!"(", t!"m", t!"*"] ++ lex 0 [] t!"*" r := rfl
private theorem lit17 : lex 0 [] last (t!") (bool, error) {\n  var buf []byte\n  *i, buf = zeropb.FindNextField((*i), " ++ r) = [t!")", t!"(", t!"bool", t!",", t!"error", t!")", t!"{", t!"var", t!"buf", t!"[", t!"]", t!"byte", t!";", t!"*", t!"i", t!",", t!"buf", t!"=", t!"zeropb", t!".", t!"FindNextField", t!"(", t!"(", t!"*", t!"i", t!")", t!","] ++ lex 0 [] t!"," r := rfl
private theorem lit18 : lex 0 [] last (t!" {\n  return " ++ r) = [t!"{", t!"return"] ++ lex 0 [] t!"return" r := rfl
private theorem lit19 : lex 0 [] last (t!"(zeropb.GetRepeatedNonPacked(m.buf, zeropb.WrapOffsets(m.offsets.a[:], &m.offsets.m), " ++ r) = [t!"(", t!"zeropb", t!".", t!"GetRepeatedNonPacked", t!"(", t!"m", t!".", t!"buf", t!",", t!"zeropb", t!".", t!"WrapOffsets", t!"(", t!"m", t!".", t!"offsets", t!".", t!"a", t!"[", t!":", t!"]", t!",", t!"&", t!"m", t!".", t!"offsets", t!".", t!"m", t!")", t!","] ++ lex 0 [] t!"," r := rfl
private theorem lit20 : lex 0 [] last (t!") AppendTo" ++ r) = [t!")"] ++ lex 0 [] t!")" (t!"AppendTo" ++ r) := rfl
private theorem lit21 : lex 0 [] last (t!") {\n  buf := x.Encode()\n  zeropb.AppendBytes(&m.buf, zeropb.WrapOffsets(m.offsets.a[:], &m.offsets.m), " ++ r) = [t!")", t!"{", t!"buf", t!":=", t!"x", t!".", t!"Encode", t!"(", t!")", t!";", t!"zeropb", t!".", t!"AppendBytes", t!"(", t!"&", t!"m", t!".", t!"buf", t!",", t!"zeropb", t!".", t!"WrapOffsets", t!"(", t!"m", t!".", t!"offsets", t!".", t!"a", t!"[", t!":", t!"]", t!",", t!"&", t!"m", t!".", t!"offsets", t!".", t!"m", t!")", t!","] ++ lex 0 [] t!"," r := rfl
private theorem litB : lex 0 [] last (t!"[]byte" ++ (t!" {\n  return zeropb.Get" ++ r)) = [c '[', c ']', t!"byte"] ++ lex 0 [] t!"byte" (t!" {\n  return zeropb.Get" ++ r) := rfl
private theorem litB2 : lex 0 [] last (t!"[]byte" ++ (t!") {\n  zeropb.Set" ++ r)) = [c '[', c ']', t!"byte"] ++ lex 0 [] t!"byte" (t!") {\n  zeropb.Set" ++ r) := rfl

end

private theorem text_struct (msg : Text) (slots : Int) (h_msg : Word msg) (h_slots : 0 ≤ slots) (rest : Text) :
    lex 0 [] [] ((Decl.struct msg slots).text ++ rest) = (ast (.struct msg slots)).toks ++ lex 0 [] [] rest := by
  rw [show (Decl.struct msg slots).text ++ rest = t!"type " ++ (msg ++ (t!" struct {\n  buf []byte\n  offsets struct {\n    a [" ++ ((itoa slots) ++ (t!"]uint16\n    m map[int]uint64\n  }\n}\n\n" ++ (rest))))) from by
    simp [Decl.text, code, ind]]
  rw [lit0, lex_word h_msg, lit1, lex_word (itoa_word h_slots)]
  
  all_goals rfl

private theorem text_encode (msg : Text) (h_msg : Word msg) (rest : Text) :
    lex 0 [] [] ((Decl.encode msg).text ++ rest) = (ast (.encode msg)).toks ++ lex 0 [] [] rest := by
  rw [show (Decl.encode msg).text ++ rest = t!"func (m *" ++ (msg ++ (t!") Encode() []byte {\n  return m.buf\n}\n\n" ++ (rest))) from by
    simp [Decl.text, code, ind]]
  rw [lit2, lex_word h_msg]
  
  all_goals rfl

private theorem text_decode (msg : Text) (h_msg : Word msg) (rest : Text) :
    lex 0 [] [] ((Decl.decode msg).text ++ rest) = (ast (.decode msg)).toks ++ lex 0 [] [] rest := by
  rw [show (Decl.decode msg).text ++ rest = t!"func (m *" ++ (msg ++ (t!") Decode(buf []byte) error {\n  m.buf = buf\n  return zeropb.Decode(m.buf, zeropb.WrapOffsets(m.offsets.a[:], &m.offsets.m), repeatedFields_" ++ (msg ++ (t!")\n}\n\n" ++ (rest))))) from by
    simp [Decl.text, code, ind, offsetsText]]
  rw [lit2, lex_word h_msg, lit3, lex_word2 h_msg (by decide)]
  
  all_goals rfl

private theorem text_reset (msg : Text) (h_msg : Word msg) (rest : Text) :
    lex 0 [] [] ((Decl.reset msg).text ++ rest) = (ast (.reset msg)).toks ++ lex 0 [] [] rest := by
  rw [show (Decl.reset msg).text ++ rest = t!"func (m *" ++ (msg ++ (t!") Reset(buf []byte) {\n  if len(buf) > 0 {\n    panic(`buf must be empty`)\n  }\n  m.buf = buf\n  zeropb.WrapOffsets(m.offsets.a[:], &m.offsets.m).Clear()\n}\n\n" ++ (rest))) from by
    simp [Decl.text, code, ind, offsetsText]]
  rw [lit2, lex_word h_msg]
  
  all_goals rfl

private theorem text_get (msg name goType fn : Text) (num : Int) (h_msg : Word msg) (h_name : Word name) (h_goType : Word goType) (h_fn : Word fn) (h_num : 0 ≤ num) (h_ne : goType ≠ t!"[]byte") (rest : Text) :
    lex 0 [] [] ((Decl.get msg name goType fn num).text ++ rest) = (ast (.get msg name goType fn num)).toks ++ lex 0 [] [] rest := by
  rw [show (Decl.get msg name goType fn num).text ++ rest = t!"func (m *" ++ (msg ++ (t!") " ++ (name ++ (t!"() " ++ (goType ++ (t!" {\n  return zeropb.Get" ++ (fn ++ (t!"(m.buf, zeropb.WrapOffsets(m.offsets.a[:], &m.offsets.m), " ++ ((itoa num) ++ (t!")\n}\n\n" ++ (rest))))))))))) from by
    simp [Decl.text, code, ind, offsetsText]]
  rw [lit2, lex_word h_msg, lit4, lex_word h_name, lit5, lex_word h_goType, lit6, lex_word2 h_fn (by decide), lit7, lex_word (itoa_word h_num)]
  simp only [ast, srcGet, scalarTy, if_neg h_ne]
  all_goals rfl

private theorem text_getB (msg name fn : Text) (num : Int) (h_msg : Word msg) (h_name : Word name) (h_fn : Word fn) (h_num : 0 ≤ num) (rest : Text) :
    lex 0 [] [] ((Decl.get msg name t!"[]byte" fn num).text ++ rest) = (ast (.get msg name t!"[]byte" fn num)).toks ++ lex 0 [] [] rest := by
  rw [show (Decl.get msg name t!"[]byte" fn num).text ++ rest = t!"func (m *" ++ (msg ++ (t!") " ++ (name ++ (t!"() " ++ (t!"[]byte" ++ (t!" {\n  return zeropb.Get" ++ (fn ++ (t!"(m.buf, zeropb.WrapOffsets(m.offsets.a[:], &m.offsets.m), " ++ ((itoa num) ++ (t!")\n}\n\n" ++ (rest))))))))))) from by
    simp [Decl.text, code, ind, offsetsText]]
  rw [lit2, lex_word h_msg, lit4, lex_word h_name, lit5, litB, lit6, lex_word2 h_fn (by decide), lit7, lex_word (itoa_word h_num)]
  
  all_goals rfl

private theorem text_set (msg name goType fn : Text) (num : Int) (h_msg : Word msg) (h_name : Word name) (h_goType : Word goType) (h_fn : Word fn) (h_num : 0 ≤ num) (h_ne : goType ≠ t!"[]byte") (rest : Text) :
    lex 0 [] [] ((Decl.set msg name goType fn num).text ++ rest) = (ast (.set msg name goType fn num)).toks ++ lex 0 [] [] rest := by
  rw [show (Decl.set msg name goType fn num).text ++ rest = t!"func (m *" ++ (msg ++ (t!") Set" ++ (name ++ (t!"(x " ++ (goType ++ (t!") {\n  zeropb.Set" ++ (fn ++ (t!"(&m.buf, zeropb.WrapOffsets(m.offsets.a[:], &m.offsets.m), " ++ ((itoa num) ++ (t!", x)\n}\n\n" ++ (rest))))))))))) from by
    simp [Decl.text, code, ind, offsetsText]]
  rw [lit2, lex_word h_msg, lit8, lex_word2 h_name (by decide), lit9, lex_word h_goType, lit10, lex_word2 h_fn (by decide), lit11, lex_word (itoa_word h_num)]
  simp only [ast, srcSet, scalarTy, if_neg h_ne]
  all_goals rfl

private theorem text_setB (msg name fn : Text) (num : Int) (h_msg : Word msg) (h_name : Word name) (h_fn : Word fn) (h_num : 0 ≤ num) (rest : Text) :
    lex 0 [] [] ((Decl.set msg name t!"[]byte" fn num).text ++ rest) = (ast (.set msg name t!"[]byte" fn num)).toks ++ lex 0 [] [] rest := by
  rw [show (Decl.set msg name t!"[]byte" fn num).text ++ rest = t!"func (m *" ++ (msg ++ (t!") Set" ++ (name ++ (t!"(x " ++ (t!"[]byte" ++ (t!") {\n  zeropb.Set" ++ (fn ++ (t!"(&m.buf, zeropb.WrapOffsets(m.offsets.a[:], &m.offsets.m), " ++ ((itoa num) ++ (t!", x)\n}\n\n" ++ (rest))))))))))) from by
    simp [Decl.text, code, ind, offsetsText]]
  rw [lit2, lex_word h_msg, lit8, lex_word2 h_name (by decide), lit9, litB2, lit10, lex_word2 h_fn (by decide), lit11, lex_word (itoa_word h_num)]
  
  all_goals rfl

private theorem text_getMessage (msg name typ : Text) (num : Int) (h_msg : Word msg) (h_name : Word name) (h_typ : Word typ) (h_num : 0 ≤ num) (rest : Text) :
    lex 0 [] [] ((Decl.getMessage msg name typ num).text ++ rest) = (ast (.getMessage msg name typ num)).toks ++ lex 0 [] [] rest := by
  rw [show (Decl.getMessage msg name typ num).text ++ rest = t!"func (m *" ++ (msg ++ (t!") " ++ (name ++ (t!"(x *" ++ (typ ++ (t!") (bool, error) {\n  buf := zeropb.GetBytes(m.buf, zeropb.WrapOffsets(m.offsets.a[:], &m.offsets.m), " ++ ((itoa num) ++ (t!")\n  if buf == nil {\n    return false, nil\n  }\n  return true, x.Decode(buf)\n}\n\n" ++ (rest))))))))) from by
    simp [Decl.text, code, ind, offsetsText]]
  rw [lit2, lex_word h_msg, lit4, lex_word h_name, lit12, lex_word h_typ, lit13, lex_word (itoa_word h_num)]
  
  all_goals rfl

private theorem text_setMessage (msg name typ : Text) (num : Int) (h_msg : Word msg) (h_name : Word name) (h_typ : Word typ) (h_num : 0 ≤ num) (rest : Text) :
    lex 0 [] [] ((Decl.setMessage msg name typ num).text ++ rest) = (ast (.setMessage msg name typ num)).toks ++ lex 0 [] [] rest := by
  rw [show (Decl.setMessage msg name typ num).text ++ rest = t!"func (m *" ++ (msg ++ (t!") Set" ++ (name ++ (t!"(x " ++ (typ ++ (t!") {\n  buf := x.Encode()\n  zeropb.SetBytes(&m.buf, zeropb.WrapOffsets(m.offsets.a[:], &m.offsets.m), " ++ ((itoa num) ++ (t!", buf)\n}\n\n" ++ (rest))))))))) from by
    simp [Decl.text, code, ind, offsetsText]]
  rw [lit2, lex_word h_msg, lit8, lex_word2 h_name (by decide), lit9, lex_word h_typ, lit14, lex_word (itoa_word h_num)]
  
  all_goals rfl

private theorem text_iterType (it : Text) (h_it : Word it) (rest : Text) :
    lex 0 [] [] ((Decl.iterType it).text ++ rest) = (ast (.iterType it)).toks ++ lex 0 [] [] rest := by
  rw [show (Decl.iterType it).text ++ rest = t!"type " ++ (it ++ (t!" []byte\n\n" ++ (rest))) from by
    simp [Decl.text, code, ind]]
  rw [lit0, lex_word h_it]
  
  all_goals rfl

private theorem text_iterNext (it typ : Text) (num : Int) (h_it : Word it) (h_typ : Word typ) (h_num : 0 ≤ num) (rest : Text) :
    lex 0 [] [] ((Decl.iterNext it typ num).text ++ rest) = (ast (.iterNext it typ num)).toks ++ lex 0 [] [] rest := by
  rw [show (Decl.iterNext it typ num).text ++ rest = t!"func (i *" ++ (it ++ (t!") Next(m *" ++ (typ ++ (t!") (bool, error) {\n  var buf []byte\n  *i, buf = zeropb.FindNextField((*i), " ++ ((itoa num) ++ (t!")\n  if buf == nil {\n    return false, nil\n  }\n  return true, m.Decode(buf)\n}\n\n" ++ (rest))))))) from by
    simp [Decl.text, code, ind]]
  rw [lit15, lex_word h_it, lit16, lex_word h_typ, lit17, lex_word (itoa_word h_num)]
  
  all_goals rfl

private theorem text_getRepeated (msg name it : Text) (num : Int) (h_msg : Word msg) (h_name : Word name) (h_it : Word it) (h_num : 0 ≤ num) (rest : Text) :
    lex 0 [] [] ((Decl.getRepeated msg name it num).text ++ rest) = (ast (.getRepeated msg name it num)).toks ++ lex 0 [] [] rest := by
  rw [show (Decl.getRepeated msg name it num).text ++ rest = t!"func (m *" ++ (msg ++ (t!") " ++ (name ++ (t!"() " ++ (it ++ (t!" {\n  return " ++ (it ++ (t!"(zeropb.GetRepeatedNonPacked(m.buf, zeropb.WrapOffsets(m.offsets.a[:], &m.offsets.m), " ++ ((itoa num) ++ (t!"))\n}\n\n" ++ (rest))))))))))) from by
    simp [Decl.text, code, ind, offsetsText]]
  rw [lit2, lex_word h_msg, lit4, lex_word h_name, lit5, lex_word h_it, lit18, lex_word h_it, lit19, lex_word (itoa_word h_num)]
  
  all_goals rfl

private theorem text_appendTo (msg name typ : Text) (num : Int) (h_msg : Word msg) (h_name : Word name) (h_typ : Word typ) (h_num : 0 ≤ num) (rest : Text) :
    lex 0 [] [] ((Decl.appendTo msg name typ num).text ++ rest) = (ast (.appendTo msg name typ num)).toks ++ lex 0 [] [] rest := by
  rw [show (Decl.appendTo msg name typ num).text ++ rest = t!"func (m *" ++ (msg ++ (t!") AppendTo" ++ (name ++ (t!"(x " ++ (typ ++ (t!") {\n  buf := x.Encode()\n  zeropb.AppendBytes(&m.buf, zeropb.WrapOffsets(m.offsets.a[:], &m.offsets.m), " ++ ((itoa num) ++ (t!", buf)\n}\n\n" ++ (rest))))))))) from by
    simp [Decl.text, code, ind, offsetsText]]
  rw [lit2, lex_word h_msg, lit20, lex_word2 h_name (by decide), lit9, lex_word h_typ, lit21, lex_word (itoa_word h_num)]
  
  all_goals rfl

private theorem text_table_nums (nums : List Int) (h : ∀ n ∈ nums, 0 ≤ n) (rest : Text) :
    lex 0 [] [] (code (nums.map (fun n => (1, [itoa n, t!": struct{}{},\n"]))) ++ rest) =
    (nums.map (fun k => [itoa k, c ':', t!"struct", c '{', c '}', c '{', c '}', c ','])).flatten ++ lex 0 [] [] rest := by
  induction nums with
  | nil => rfl
  | cons n nums ih =>
    rw [show code ((n :: nums).map (fun n => (1, [itoa n, t!": struct{}{},\n"]))) ++ rest =
        t!"  " ++ (itoa n ++ (t!": struct{}{},\n" ++ (code (nums.map (fun n => (1, [itoa n, t!": struct{}{},\n"]))) ++ rest))) from by
      simp [code, ind]]
    rw [show ∀ last r, lex 0 [] last (t!"  " ++ r) = lex 0 [] last r from fun _ _ => rfl, lex_word (itoa_word (h n (by simp))),
      show ∀ last r, lex 0 [] last (t!": struct{}{},\n" ++ r) = [c ':', t!"struct", c '{', c '}', c '{', c '}', c ','] ++ lex 0 [] [] r from fun _ _ => rfl,
      ih (fun k hk => h k (List.mem_cons_of_mem _ hk))]
    all_goals rfl

private theorem text_table (msg : Text) (nums : List Int) (h_msg : Word msg) (h : ∀ n ∈ nums, 0 ≤ n) (rest : Text) :
    lex 0 [] [] ((Decl.repeatedTable msg nums).text ++ rest) = (ast (.repeatedTable msg nums)).toks ++ lex 0 [] [] rest := by
  rw [show (Decl.repeatedTable msg nums).text ++ rest = t!"var repeatedFields_" ++ (msg ++ (t!" = zeropb.RepeatedFields{\n" ++
      (code (nums.map (fun n => (1, [itoa n, t!": struct{}{},\n"]))) ++ (t!"}\n\n" ++ rest)))) from by
    simp [Decl.text, code, ind]]
  rw [show ∀ last r, lex 0 [] last (t!"var repeatedFields_" ++ r) = [t!"var"] ++ lex 0 [] t!"var" (t!"repeatedFields_" ++ r) from fun _ _ => rfl,
    lex_word2 h_msg (by decide),
    show ∀ last r, lex 0 [] last (t!" = zeropb.RepeatedFields{\n" ++ r) = [c '=', t!"zeropb", c '.', t!"RepeatedFields", c '{'] ++ lex 0 [] [] r from fun _ _ => rfl,
    text_table_nums nums h]
  · show _ = ([t!"var", t!"repeatedFields_" ++ msg, c '=', t!"zeropb", c '.', t!"RepeatedFields", c '{'] ++ _ ++ [c '}', c ';']) ++ _
    simp only [List.append_assoc]
    rfl
  · rfl

/-- The tokens of the text of a declaration are those of its syntax tree. -/
theorem decl_text {d : Decl} (h : Ok d) (rest : Text) : lex 0 [] [] (d.text ++ rest) = (ast d).toks ++ lex 0 [] [] rest := by
  cases d with
  | struct msg slots => exact text_struct msg slots h.1.1 h.2 rest
  | repeatedTable msg nums => exact text_table msg nums h.1.1 h.2 rest
  | encode msg => exact text_encode msg h.1 rest
  | decode msg => exact text_decode msg h.1 rest
  | reset msg => exact text_reset msg h.1 rest
  | get msg name goType fn num =>
    obtain ⟨h1, h2, h3, h4, h5⟩ := h
    by_cases hb : goType = t!"[]byte"
    · subst hb; exact text_getB msg name fn num h1.1 h2.1 h4 h5 rest
    · exact text_get msg name goType fn num h1.1 h2.1 (h3.resolve_right hb) h4 h5 hb rest
  | set msg name goType fn num =>
    obtain ⟨h1, h2, h3, h4, h5⟩ := h
    by_cases hb : goType = t!"[]byte"
    · subst hb; exact text_setB msg name fn num h1.1 h2.1 h4 h5 rest
    · exact text_set msg name goType fn num h1.1 h2.1 (h3.resolve_right hb) h4 h5 hb rest
  | getMessage msg name typ num => exact text_getMessage msg name typ num h.1.1 h.2.1.1 h.2.2.1.1 h.2.2.2 rest
  | setMessage msg name typ num => exact text_setMessage msg name typ num h.1.1 h.2.1.1 h.2.2.1.1 h.2.2.2 rest
  | iterType it => exact text_iterType it h.1 rest
  | iterNext it typ num => exact text_iterNext it typ num h.1.1 h.2.1.1 h.2.2 rest
  | getRepeated msg name it num => exact text_getRepeated msg name it num h.1.1 h.2.1.1 h.2.2.1.1 h.2.2.2 rest
  | appendTo msg name typ num => exact text_appendTo msg name typ num h.1.1 h.2.1.1 h.2.2.1.1 h.2.2.2 rest

/-- The tokens of a generated file are those of its syntax tree. -/
theorem file_text {pkg : Text} {ds : List Decl} (hp : IsIdent pkg) (h : ∀ d ∈ ds, Ok d) :
    tokenize (fileText pkg ds) = ((fileAst pkg ds).map Top.toks).flatten := by
  have body : lex 0 [] [] (ds.flatMap Decl.text) = ((ds.map ast).map Top.toks).flatten := by
    induction ds with
    | nil => rfl
    | cons d ds ih =>
      rw [List.flatMap_cons, decl_text (h d (by simp)), ih (fun e he => h e (List.mem_cons_of_mem _ he))]
      rfl
  unfold tokenize
  rw [show fileText pkg ds = t!"// Code generated by protoc-gen-zeropb. DO NOT EDIT.\n\npackage " ++ (pkg ++
    (t!"\n\nimport \"github.com/danhhz/zeropb\"\n\n" ++ ds.flatMap Decl.text)) from by simp [fileText, code, ind]]
  rw [show ∀ r, lex 0 [] [] (t!"// Code generated by protoc-gen-zeropb. DO NOT EDIT.\n\npackage " ++ r) = t!"package" :: lex 0 [] t!"package" r from fun _ => rfl,
    lex_word hp.1]
  · have hnl : ∀ last r, endsStmt last = true → lex 0 [] last (t!"\n\nimport \"github.com/danhhz/zeropb\"\n\n" ++ r) =
        [c ';', t!"import", t!"\"github.com/danhhz/zeropb\"", c ';'] ++ lex 0 [] [] r := by
      intro last r he
      show lex 0 [] last ('\n' :: (t!"\nimport \"github.com/danhhz/zeropb\"\n\n" ++ r)) = _
      rw [lex]
      simp only [he, if_true]
      rfl
    rw [hnl _ _ (endsStmt_word hp.1), body]
    rfl
  · rfl

end Zeropb.GoSrc.G
