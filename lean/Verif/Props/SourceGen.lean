import Verif.GoSrc.GenRun
import Verif.GoSrc.GenLookup
import Verif.Props.Source
import Verif.Props.GenOut
import Verif.Props.Alloc
/-!
# C63: generated code, from its text to its behaviour

The text of a generated file is the text of syntax trees (`C63_text`). Interpreted, with the source of zeropb.go and
offsets.go for the calls of package zeropb, each method does to memory exactly what the model of it does.
-/

set_option linter.constructorNameAsVariable false

namespace Zeropb.GoSrc.G
open Zeropb.Gen

/-- Call the method `name` of message or iterator type `t`; calls nest at most `d + 5` deep. -/
noncomputable def run (p : Program) (rt : Rt) (d : Nat) (t name : Text) (args : List GVal) (s : GSt) : M (List GVal × GSt) :=
  callMethod p (goCall rt (d + 3)) (d + 2) t name args s

/-- The result of a method that only reads agrees with the model. -/
def Reads {α : Type} (r : M (List GVal × GSt)) (s : GSt) (q : Res α) (P : α → Val → Prop) : Prop :=
  match q with
  | .error e => r = .error (.fail e)
  | .ok x => ∃ v, r = .ok ([.val v], s) ∧ P x v

/-- The model call that the setter of a field of type `k` stands for. -/
def setCall (rt : Rt) (k : Kind) (f : Nat) (x : k.Ty) : Val → HCall
  | .str s | .bytes s => .setBytes rt f s
  | .nil => .setBytes rt f (.lit [])
  | _ => .set rt f k x

/-- Memory that `v` refers to exists, and is not longer than any slice with room for a tag and a length. -/
def ValOk (w : World) (v : Val) : Prop := ∀ s, v = .str s ∨ v = .bytes s → World.WFsrc w s ∧ strLen s + 10 < maxLen

/-! ## The text -/

/-- The names of a .proto file give Go identifiers: not empty (a field named `_` would have no name), of letters, digits and `_`, not starting
with a digit, not a keyword, nor a predeclared name or package that generated code uses. -/
structure GoNames (U : Unicode) (f : FileDesc) : Prop where
  package : IsIdent f.getPackage
  messages : ∀ m, some m ∈ f.messageType → IsIdent m.getName
  fields : ∀ m, some m ∈ f.messageType → ∀ fd, some fd ∈ m.field → Accessible fd → IsIdent (toGoCase U (getName (some fd)))
  types : ∀ m, some m ∈ f.messageType → ∀ fd, some fd ∈ m.field → getType (some fd) = 11 → IsIdent (fieldToGoTypeMessage (getTypeName (some fd)))
  numbers : ∀ m, some m ∈ f.messageType → ∀ fd, some fd ∈ m.field → 0 ≤ (getNumber (some fd)).toInt ∧ (getNumber (some fd)).toInt < 2 ^ 31 - 1

theorem iter_ident {a b : Text} (ha : IsIdent a) (hb : IsIdent b) : IsIdent (a ++ b ++ t!"Iterator") := by
  obtain ⟨⟨a1, a2⟩, a3, _⟩ := ha
  refine ⟨Word.append ?_ ⟨by decide, by decide⟩, ?_, ?_⟩
  · intro x hx
    rcases List.mem_append.1 hx with h | h
    · exact a2 x h
    · exact hb.1.2 x h
  · cases a with
    | nil => exact absurd rfl a1
    | cons x a => exact a3
  · intro h
    have : ∀ r ∈ reserved, ¬ t!"Iterator" <:+ r := by decide
    exact this _ h (List.suffix_append _ _)

theorem fn_word (k : Kind) : Word (Kind.fn k) := by cases k <;> decide

theorem goType_word (k : Kind) : Word (Kind.goType k) ∨ Kind.goType k = t!"[]byte" := by cases k <;> decide

theorem decls_ok {U : Unicode} {f : FileDesc} (h : GoNames U f) : ∀ d ∈ fileDecls U f, Ok d := by
  intro d hd
  obtain ⟨m, hm, hd⟩ := List.mem_flatMap.1 hd
  obtain ⟨mo, hm, rfl⟩ := List.mem_filterMap.1 hm
  have hname := h.messages m hm
  have hnum := h.numbers m hm
  have hn : ∀ f ∈ m.field, (getNumber f).toInt < 2 ^ 31 - 1 := by
    intro f hf
    cases f with
    | none => decide
    | some fd => exact (hnum fd hf).2
  obtain ⟨slots, t1, t2, _⟩ := decls_table U m hn
  have hs := (t1 m.getName _).1 (List.mem_append_left _ (List.mem_cons_self ..))
  rcases List.mem_append.1 hd with hd | hd
  · simp only [List.mem_cons, List.not_mem_nil, or_false] at hd
    rcases hd with rfl | rfl | rfl | rfl | rfl
    · exact ⟨hname, by omega⟩
    · refine ⟨hname, ?_⟩
      intro n hn
      obtain ⟨fp, hfp, rfl⟩ := List.mem_map.1 hn
      cases fp with
      | none => decide
      | some fd => exact (hnum fd (List.mem_filter.1 hfp).1).1
    · exact hname
    · exact hname
    · exact hname
  · obtain ⟨fp, hfp, hd⟩ := List.mem_flatMap.1 hd
    cases fp with
    | none => simp [fieldDecls] at hd
    | some fd =>
      have hacc : Accessible fd → IsIdent (toGoCase U (getName (some fd))) := h.fields m hm fd hfp
      have htyp := h.types m hm fd hfp
      have h0 := (hnum fd hfp).1
      unfold fieldDecls at hd
      simp only [Option.isNone_some, Bool.false_eq_true, if_false] at hd
      split at hd
      next hl =>
        have ha := hacc (by rcases hl with hl | hl <;> simp [Accessible, hl])
        split at hd
        next ht =>
          simp only [List.mem_cons, List.not_mem_nil, or_false] at hd
          rcases hd with rfl | rfl <;> exact ⟨hname, ha, htyp ht, h0⟩
        · split at hd
          next k _ =>
            simp only [List.mem_cons, List.not_mem_nil, or_false] at hd
            rcases hd with rfl | rfl <;> exact ⟨hname, ha, goType_word k, fn_word k, h0⟩
          · cases hd
      · split at hd
        next hl =>
          have ha := hacc (Or.inr (Or.inr hl))
          have ht := htyp hl.2
          simp only [List.mem_cons, List.not_mem_nil, or_false] at hd
          rcases hd with rfl | rfl | rfl | rfl
          · exact iter_ident hname ht
          · exact ⟨iter_ident hname ht, ht, h0⟩
          · exact ⟨hname, ha, iter_ident hname ht, h0⟩
          · exact ⟨hname, ha, ht, h0⟩
        · cases hd

/-- C63: the tokens of each generated file are those of the syntax trees of its declarations, after the package clause and the import. -/
theorem C63_text (U : Unicode) (req : Request) (out : List OutFile) (h : generate U req = .ok out) :
    out.length = req.requested.length ∧ ∀ (i : Nat) (o : OutFile) (f : FileDesc), out[i]? = some o → req.requested[i]? = some f → GoNames U f →
      tokenize o.content = ((fileAst f.getPackage (fileDecls U f)).map Top.toks).flatten := by
  have h := C43_files U req out h
  subst h
  refine ⟨List.length_map .., ?_⟩
  intro i o f ho hf hn
  rw [List.getElem?_map, hf, Option.map_some] at ho
  injection ho with ho
  subst ho
  exact file_text hn.package (decls_ok hn)

/-- C63: the files of a request form a Go package if their names are identifiers and no name is declared twice (for one file: `C44_iff`). -/
theorem C63_package (U : Unicode) (pkg : Text) (fs : List FileDesc) (hn : ∀ f ∈ fs, f.getPackage = pkg ∧ GoNames U f)
    (h1 : ((fs.flatMap (fileDecls U)).map Decl.declares).Nodup) :
    Package (fs.flatMap (fun f => fileAst f.getPackage (fileDecls U f))) (fs.flatMap (fileDecls U)) where
  files := by
    refine ⟨pkg, fs.map (fileDecls U), ?_, (List.flatMap_def ..)⟩
    rw [List.flatMap_map]
    clear h1
    induction fs with
    | nil => rfl
    | cons f fs ih => rw [List.flatMap_cons, List.flatMap_cons, (hn f (by simp)).1, ih (fun g hg => hn g (List.mem_cons_of_mem _ hg))]
  names := by
    intro d hd
    obtain ⟨f, hf, hd⟩ := List.mem_flatMap.1 hd
    exact decls_ok (hn f hf).2 d hd
  once := h1

/-! ## The functions of package zeropb that a generated file names -/

theorem pkg_get (k : Kind) : pkgFunc (t!"Get" ++ Kind.fn k) = some (getterOf k) := by cases k <;> rfl
theorem pkg_set (k : Kind) : pkgFunc (t!"Set" ++ Kind.fn k) = some (setterOf k) := by cases k <;> rfl

theorem const_get (rt : Rt) (d f : Nat) (k : Kind) (a b : Val) (h : Heap) :
    goCall rt (d + 1) (getterOf k) [a, b, .const f] h = goCall rt (d + 1) (getterOf k) [a, b, .int f] h := by cases k <;> rfl
theorem const_set (rt : Rt) (d f : Nat) (k : Kind) (a b v : Val) (h : Heap) :
    goCall rt (d + 1) (setterOf k) [a, b, .const f, v] h = goCall rt (d + 1) (setterOf k) [a, b, .int f, v] h := by cases k <;> rfl

theorem goType_reserved (k : Kind) : Kind.goType k ∈ reserved ∨ Kind.goType k = t!"[]byte" := by cases k <;> decide

theorem no_brackets {p : Program} {ds : List Decl} (hp : Package p ds) : slots p t!"[]byte" = none := by
  unfold slots
  rw [List.findSome?_eq_none_iff]
  intro x hx
  rcases hp.mem.1 x hx with ⟨d, hd, rfl⟩ | ⟨n, rfl⟩ | ⟨n, rfl⟩
  · cases e : ast d with
    | struct y n =>
      have := ast_struct e
      subst this
      simp only [ite_eq_right_iff, reduceCtorEq, imp_false]
      rintro rfl
      exact absurd (hp.names _ hd).1.1 (by decide)
    | _ => rfl
  · rfl
  · rfl

theorem goType_slots {p : Program} {ds : List Decl} (hp : Package p ds) (k : Kind) : slots p (Kind.goType k) = none := by
  rcases goType_reserved k with h | h
  · exact hp.scalar h
  · rw [h]; exact no_brackets hp

theorem setCall_run (rt : Rt) (d : Nat) {f i : Nat} {k : Kind} (x : k.Ty) (v : Val) (h : Heap) (hv : IsVal h.w k x v) (ho : ValOk h.w v) (hw : h.w.WF (h.ms i)) :
    goCall rt (d + 3) (setterOf k) [.bufPtr i, .offs i, .int f, v] h = (lift ((setCall rt k f x v).run h.w (h.ms i)) >>= fun r => .ok ([], h.upd i r)) := by
  cases k <;> simp only [setterOf, IsVal] at *
  · subst hv; exact go_SetBool rt d i f _ h hw
  · subst hv; exact go_SetInt32 rt d i f _ h hw
  · subst hv; exact go_SetInt64 rt d i f _ h hw
  · subst hv; exact go_SetUint32 rt d i f _ h hw
  · subst hv; exact go_SetUint64 rt d i f _ h hw
  · subst hv; exact go_SetZigZagInt32 rt d i f _ h hw
  · subst hv; exact go_SetZigZagInt64 rt d i f _ h hw
  · subst hv; exact go_SetFixedUint32 rt d i f _ h hw
  · subst hv; exact go_SetFixedUint64 rt d i f _ h hw
  · subst hv; exact go_SetFixedInt32 rt d i f _ h hw
  · subst hv; exact go_SetFixedInt64 rt d i f _ h hw
  · subst hv; exact go_SetFloat32 rt d i f _ h hw
  · subst hv; exact go_SetFloat64 rt d i f _ h hw
  · obtain ⟨s, rfl, rfl⟩ := hv
    obtain ⟨h1, h2⟩ := ho s (Or.inl rfl)
    exact go_SetString rt d i f s h h1 h2 hw
  · rcases hv with ⟨rfl, rfl⟩ | ⟨s, rfl, rfl⟩
    · exact go_SetBytes rt d i f Arg.nil h trivial (by decide) hw
    · obtain ⟨h1, h2⟩ := ho s (Or.inr rfl)
      exact go_SetBytes rt d i f (Arg.bytes s) h h1 h2 hw

/-! ## Methods -/

section
variable {p : Program} {ds : List Decl} (hp : Package p ds) (rt : Rt) (d : Nat) {msg name typ : Text} {f i j : Nat} (s : GSt)
include hp

/-- C63: `Encode` returns the buffer. -/
theorem C63_encode (hd : Decl.encode msg ∈ ds) :
    run p rt d msg t!"Encode" [.ptr msg i] s = .ok ([.val (.bytes (.mem (s.h.ms i).buf))], s) :=
  run_encode (hp.method hd rfl) s

/-- C63: `Decode(b)` is the model's `Decode`, with the numbers of the generated table as the repeated fields. -/
theorem C63_decode {nums : List Int} (hd : Decl.decode msg ∈ ds) (ht : Decl.repeatedTable msg nums ∈ ds) (b : HSlice)
    (hb : s.h.w.WFs b) (hw : s.h.w.WF (s.h.ms i)) :
    run p rt d msg t!"Decode" [.ptr msg i, .val (.bytes (.mem b))] s =
    (lift ((s.h.ms i).decode (fun n => decide ((n : Int) ∈ nums)) s.h.w b) >>= fun r =>
      .ok ([.val (errVal r.2.2)], { s with h := s.h.upd i (r.1, r.2.1) })) :=
  run_decode (d := d + 1) (hp.method hd rfl) (hp.table ht) b s hb hw.2

/-- C63: `Reset(b)` is the model's `Reset`. -/
theorem C63_reset (hd : Decl.reset msg ∈ ds) (b : HSlice) (hw : s.h.w.WF (s.h.ms i)) :
    run p rt d msg t!"Reset" [.ptr msg i, .val (.bytes (.mem b))] s =
    (lift ((s.h.ms i).reset s.h.w b) >>= fun r => .ok ([], { s with h := s.h.upd i r })) :=
  run_reset (d := d + 2) (hp.method hd rfl) b s hw.2

/-- C63: `Reset(nil)` is the model's `Reset` with the nil slice. -/
theorem C63_reset_nil (hd : Decl.reset msg ∈ ds) (hw : s.h.w.WF (s.h.ms i)) :
    run p rt d msg t!"Reset" [.ptr msg i, .val .nil] s =
    (lift ((s.h.ms i).reset s.h.w .nil) >>= fun r => .ok ([], { s with h := s.h.upd i r })) :=
  run_reset_nil (d := d + 2) (hp.method hd rfl) s hw.2

/-- C63: the getter of a scalar field returns what the model's getter returns, panics when it does, and touches no memory. -/
theorem C63_get {k : Kind} (hd : Decl.get msg name (Kind.goType k) (Kind.fn k) f ∈ ds) (hb : s.h.w.WFs (s.h.ms i).buf) :
    Reads (run p rt d msg name [.ptr msg i] s) s ((s.h.w.msg (s.h.ms i)).get k f) (IsVal s.h.w k) := by
  have h := run_get (rt := rt) (d := d + 2) (n := d + 1) (i := i) (hp.method hd rfl) (pkg_get k) s
  have hg := C62_getters rt (d + 1) i f k s.h hb
  rw [const_get] at h
  unfold run
  cases e : (s.h.w.msg (s.h.ms i)).get k f with
  | error e' =>
    rw [e] at hg
    have hg : goCall rt (d + 2 + 1) (getterOf k) _ _ = _ := hg
    rw [hg] at h
    exact h
  | ok x =>
    rw [e] at hg
    obtain ⟨v, hg, hv⟩ := hg
    have hg : goCall rt (d + 2 + 1) (getterOf k) _ _ = _ := hg
    rw [hg] at h
    exact ⟨v, h, hv⟩

/-- C63: the setter of a scalar field is the model's setter. A `string` or `[]byte` argument may be anywhere in memory. -/
theorem C63_set {k : Kind} (hd : Decl.set msg name (Kind.goType k) (Kind.fn k) f ∈ ds) (x : k.Ty) (v : Val) (hv : IsVal s.h.w k x v)
    (ho : ValOk s.h.w v) (hw : s.h.w.WF (s.h.ms i)) :
    run p rt d msg (t!"Set" ++ name) [.ptr msg i, .val v] s =
    (lift ((setCall rt k f x v).run s.h.w (s.h.ms i)) >>= fun r => .ok ([], { s with h := s.h.upd i r })) := by
  unfold run
  refine (run_set (d := d + 2) (n := d + 1) (hp.method hd rfl) (pkg_set k) (goType_slots hp k) v s).trans ?_
  rw [const_set, setCall_run rt d x v s.h hv ho hw]
  cases (setCall rt k f x v).run s.h.w (s.h.ms i) <;> rfl

/-- C63: the getter of a message field decodes the embedded message into `*x`, as the model's does. -/
theorem C63_getMessage {nums : List Int} (hd : Decl.getMessage msg name typ f ∈ ds) (hx : Decl.decode typ ∈ ds)
    (ht : Decl.repeatedTable typ nums ∈ ds) (hw : s.h.w.WFs (s.h.ms i).buf) (hj : s.h.w.WF (s.h.ms j)) :
    run p rt d msg name [.ptr msg i, .ptr typ j] s =
    (lift ((s.h.ms i).subMessage (fun n => decide ((n : Int) ∈ nums)) s.h.w f (s.h.ms j)) >>= fun r =>
      .ok ([.val (.bool r.2.2.1), .val (errVal r.2.2.2)], { s with h := s.h.upd j (r.1, r.2.1) })) :=
  run_getMessage (d := d + 1) (hp.method hd rfl) (hp.method hx rfl) (hp.table ht) s hw hj.2

/-- C63: the setter of a message field stores the buffer of `x`, as the model's does. `x` is passed by value: its struct is copied
(to location `s.next`, which nothing else refers to), its buffer is not. -/
theorem C63_setMessage {n : Int} (hd : Decl.setMessage msg name typ f ∈ ds) (hx : Decl.encode typ ∈ ds) (ht : Decl.struct typ n ∈ ds)
    (hi : i < s.next) (hw : s.h.w.WF (s.h.ms i)) (hj : s.h.w.WFs (s.h.ms j).buf) (hl : (s.h.ms j).buf.len + 10 < maxLen) :
    run p rt d msg (t!"Set" ++ name) [.ptr msg i, .struct typ j] s =
    (lift ((s.h.ms i).setBytes rt s.h.w f (.mem (s.h.ms j).buf)) >>= fun r =>
      .ok ([], ⟨(s.h.put s.next (s.h.ms j)).upd i r, s.next + 1, s.its⟩)) :=
  run_setMessage (hp.method hd rfl) (hp.method hx rfl) (by rw [hp.slots ht]; rfl) s (Nat.ne_of_lt hi) hw hj hl

/-- C63: `AppendTo` of a repeated message field. -/
theorem C63_appendTo {n : Int} (hd : Decl.appendTo msg name typ f ∈ ds) (hx : Decl.encode typ ∈ ds) (ht : Decl.struct typ n ∈ ds)
    (hi : i < s.next) (hw : s.h.w.WF (s.h.ms i)) (hj : s.h.w.WFs (s.h.ms j).buf) (hl : (s.h.ms j).buf.len + 10 < maxLen) :
    run p rt d msg (t!"AppendTo" ++ name) [.ptr msg i, .struct typ j] s =
    (lift ((s.h.ms i).appendBytes rt s.h.w f (.mem (s.h.ms j).buf)) >>= fun r =>
      .ok ([], ⟨(s.h.put s.next (s.h.ms j)).upd i r, s.next + 1, s.its⟩)) :=
  run_appendTo (hp.method hd rfl) (hp.method hx rfl) (by rw [hp.slots ht]; rfl) s (Nat.ne_of_lt hi) hw hj hl

/-- C63: the getter of a repeated message field returns the model's iterator. -/
theorem C63_getRepeated {it : Text} (hd : Decl.getRepeated msg name it f ∈ ds) (ht : Decl.iterType it ∈ ds) :
    run p rt d msg name [.ptr msg i] s = (lift ((s.h.ms i).messages s.h.w f) >>= fun r => .ok ([.val (optBytes r)], s)) :=
  run_getRepeated (d := d + 1) (hp.method hd rfl) (hp.iter ht) s

/-- C63: `Next(x)` advances the iterator variable and decodes the element into `*x`, as the model's does. -/
theorem C63_next {it : Text} {nums : List Int} (hd : Decl.iterNext it typ f ∈ ds) (hx : Decl.decode typ ∈ ds)
    (ht : Decl.repeatedTable typ nums ∈ ds) (hb : ∀ b, s.its i = some b → s.h.w.WFs b) (hj : s.h.w.WF (s.h.ms j)) :
    run p rt d it t!"Next" [.iter it i, .ptr typ j] s =
    (lift (hNext (fun n => decide ((n : Int) ∈ nums)) s.h.w (s.its i) f (s.h.ms j)) >>= fun r =>
      .ok ([.val (.bool r.2.2.2.1), .val (errVal r.2.2.2.2)],
        { s with h := s.h.upd j (r.2.1, r.2.2.1), its := fun k => if k = i then r.1 else s.its k })) :=
  run_next (d := d + 1) (hp.method hd rfl) (hp.method hx rfl) (hp.table ht) s hb hj.2

end

end Zeropb.GoSrc.G
