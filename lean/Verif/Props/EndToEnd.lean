import Verif.Props.SourceTool
/-!
# C65: from the .proto file to the behaviour of the program

The plugin (C64) and the code it generates (C63) together: what a user of protoc and zeropb gets, in terms of the descriptor of the .proto
file, the bytes of the response and the calls of the program.
-/

set_option linter.constructorNameAsVariable false

namespace Zeropb.GoSrc.E
open Zeropb.Gen Wire Zeropb.GoSrc.G

/-! ## Specification -/

/-- An optional or required field of a scalar type. -/
def ScalarField (m : Desc) (fd : Field) (k : Kind) : Prop :=
  some fd ∈ m.field ∧ (getLabel (some fd) = 1 ∨ getLabel (some fd) = 2) ∧ protoKind (getType (some fd)) = some k

/-- An optional or required field of a message type. -/
def MessageField (m : Desc) (fd : Field) : Prop :=
  some fd ∈ m.field ∧ (getLabel (some fd) = 1 ∨ getLabel (some fd) = 2) ∧ getType (some fd) = 11

/-- A repeated field of a message type. -/
def RepeatedField (m : Desc) (fd : Field) : Prop := some fd ∈ m.field ∧ getLabel (some fd) = 3 ∧ getType (some fd) = 11

/-- The name of a field in Go. -/
def goName (U : Unicode) (fd : Field) : Text := toGoCase U (getName (some fd))

/-- The Go type of a message field: the last part of the name. -/
def goType (fd : Field) : Text := fieldToGoTypeMessage (getTypeName (some fd))

/-- Its number. -/
def num (fd : Field) : Nat := (getNumber (some fd)).toNat

/-- The Go type of the iterator over a repeated field. -/
def iterOf (m : Desc) (fd : Field) : Text := m.getName ++ goType fd ++ t!"Iterator"

/-- The files form a package that the plugin is made for: one Go package; names that give Go identifiers, no two of them the same; no groups;
every message type that is used is one of the messages of the files. -/
structure Compilable (U : Unicode) (fs : List FileDesc) (pkg : Text) : Prop where
  package : ∀ f ∈ fs, f.getPackage = pkg
  names : ∀ f ∈ fs, GoNames U f
  valid : ∀ f ∈ fs, ∀ m, some m ∈ f.messageType → ValidDesc m
  resolves : ∀ f ∈ fs, ∀ m, some m ∈ f.messageType → ∀ fd, MessageField m fd ∨ RepeatedField m fd →
    ∃ g ∈ fs, ∃ m', some m' ∈ g.messageType ∧ m'.getName = goType fd
  once : ((fs.flatMap (fileDecls U)).map Decl.declares).Nodup

/-- The records of an encoded message fit the descriptor: no number above those of the descriptor (the number 0, which protobuf does not
allow, is let through), and the values have the wire type of the field. -/
def Conforms (m : Desc) (rs : List Record) : Prop :=
  ∀ r ∈ rs, (r.num = 0 ∨ ∃ fd, some fd ∈ m.field ∧ r.num ≤ num fd) ∧
    ∀ fd, some fd ∈ m.field → num fd = r.num →
      (∀ k, ScalarField m fd k → ∃ x, decodeVal k r.val = some x) ∧
      (MessageField m fd ∨ RepeatedField m fd → ∃ b, r.val = .bytes b)

/-- `name(args)` is a call of a method of struct `i`, which is of type `m`; on the simple record it is `op`. -/
inductive Calls (U : Unicode) (m : Desc) (rt : Rt) (i : Nat) (s : GSt) : Text → List GVal → Zeropb.Op → Prop
  /-- `m.SetName(v)` -/
  | set {fd k} {x : Kind.Ty k} {v} : ScalarField m fd k → IsVal s.h.w k x v →
      v.Apart s.h.w (s.h.ms i).buf → lenOf k x + 10 < maxLen →
      Calls U m rt i s (t!"Set" ++ goName U fd) [.ptr m.getName i, .val v] (.set rt (num fd) k x)
  /-- `m.SetName(x)`, `x` a message -/
  | setMessage {fd j} : MessageField m fd → (Src.mem (s.h.ms j).buf).Apart s.h.w (s.h.ms i).buf → (s.h.ms j).buf.len + 10 < maxLen →
      Calls U m rt i s (t!"Set" ++ goName U fd) [.ptr m.getName i, .struct (goType fd) j] (.set rt (num fd) .bytes (s.h.w.src (.mem (s.h.ms j).buf)))
  /-- `m.AppendToName(x)` -/
  | append {fd j} : RepeatedField m fd → (Src.mem (s.h.ms j).buf).Apart s.h.w (s.h.ms i).buf → (s.h.ms j).buf.len + 10 < maxLen →
      Calls U m rt i s (t!"AppendTo" ++ goName U fd) [.ptr m.getName i, .struct (goType fd) j] (.append rt (num fd) (s.h.w.src (.mem (s.h.ms j).buf)))
  /-- `m.Reset(b)` -/
  | reset {b} : s.h.w.WFs b → b.len = 0 → Calls U m rt i s t!"Reset" [.ptr m.getName i, .val (.bytes (.mem b))] (.reset (s.h.w.slice b))
  /-- `m.Reset(nil)` -/
  | resetNil : Calls U m rt i s t!"Reset" [.ptr m.getName i, .val .nil] (.reset .empty)
  /-- `m.Decode(b)` -/
  | decode {b rs} : s.h.w.WFs b → b.len < maxLen → IsMinTagMessage rs (s.h.w.slice b).data → Conforms m rs →
      Calls U m rt i s t!"Decode" [.ptr m.getName i, .val (.bytes (.mem b))] (.decode (s.h.w.slice b) rs)

/-- A run of the program `p`, as far as struct `i` of type `m` is concerned: calls of its methods, one per operation, and anything
that keeps the message. -/
inductive Runs (U : Unicode) (p : Program) (m : Desc) (i : Nat) : GSt → List Zeropb.Op → GSt → Prop
  | done (s) : Runs U p m i s [] s
  | call {s rt d name args op out s1 ops s2} : Calls U m rt i s name args op → G.run p rt d m.getName name args s = .ok (out, s1) →
      Runs U p m i s1 ops s2 → Runs U p m i s (op :: ops) s2
  | other {s s1 ops s2} : Keeps i s s1 → Runs U p m i s1 ops s2 → Runs U p m i s ops s2

/-- The bytes of `b` are bytes of `B`: nothing was copied. -/
def Within (b B : HSlice) : Prop := ∀ a q, b.owns a q → B.owns a q

/-- `its 0`, `its 1`, … are the values of an iterator over the elements `els`, which lie in the buffer `B`, with the bytes it has in `w`: in any state `t`
in which `B` still has those bytes, if iterator variable `v` has the value `its k`, then `v.Next(x)` reports true, decodes element `k` into `*x` and makes
the value `its (k + 1)`; or, if there is no element `k`, it reports false and changes nothing. -/
def Iterates (p : Program) (m : Desc) (fd : Field) (B : HSlice) (w : World) (its : Nat → Option HSlice) (els : List (List Byte)) : Prop :=
  ∀ (k v j : Nat) (t : GSt), Intact B w t.h.w → t.its v = its k → t.h.w.WF (t.h.ms j) → ∀ rt d,
    let t' : GSt := { t with its := fun u => if u = v then its (k + 1) else t.its u }
    (∀ hk : k < els.length, ∃ b, Within b B ∧ t.h.w.WFs b ∧ (t.h.w.slice b).data = els[k] ∧
      G.run p rt d (iterOf m fd) t!"Next" [.iter (iterOf m fd) v, .ptr (goType fd) j] t =
      (G.run p rt d (goType fd) t!"Decode" [.ptr (goType fd) j, .val (.bytes (.mem b))] t' >>= fun r => .ok (.val (.bool true) :: r.1, r.2))) ∧
    (els.length ≤ k → G.run p rt d (iterOf m fd) t!"Next" [.iter (iterOf m fd) v, .ptr (goType fd) j] t = .ok ([.val (.bool false), .val .nil], t))

/-- In state `s`, struct `i` of type `m` is a message with the contents `c`, as seen through the methods of the program `p`. -/
structure Shows (U : Unicode) (p : Program) (m : Desc) (i : Nat) (s : GSt) (c : Contents) : Prop where
  /-- getters of scalar fields: the value assigned last, or the default -/
  scalar : ∀ fd k, ScalarField m fd k → ∀ rt d, ∃ x v, G.run p rt d m.getName (goName U fd) [.ptr m.getName i] s = .ok ([.val v], s) ∧
    IsVal s.h.w k x v ∧ readVal k (c.sing (num fd)) = some x
  /-- getters of message fields: absent, or present, and then the bytes are those assigned last, decoded into the struct given -/
  message : ∀ fd, MessageField m fd → ∀ rt d j, s.h.w.WF (s.h.ms j) →
    (c.sing (num fd) = none ∧ G.run p rt d m.getName (goName U fd) [.ptr m.getName i, .ptr (goType fd) j] s = .ok ([.val (.bool false), .val .nil], s)) ∨
    (∃ bs b, c.sing (num fd) = some (.bytes bs) ∧ Within b (s.h.ms i).buf ∧ s.h.w.WFs b ∧ (s.h.w.slice b).data = bs ∧
      G.run p rt d m.getName (goName U fd) [.ptr m.getName i, .ptr (goType fd) j] s =
      (G.run p rt d (goType fd) t!"Decode" [.ptr (goType fd) j, .val (.bytes (.mem b))] s >>= fun r => .ok (.val (.bool true) :: r.1, r.2)))
  /-- iterators over repeated message fields: the elements in order, each decoded into the struct given, then the end -/
  repeated : ∀ fd, RepeatedField m fd → ∃ its : Nat → Option HSlice,
    (∀ rt d, G.run p rt d m.getName (goName U fd) [.ptr m.getName i] s = .ok ([.val (optBytes (its 0))], s)) ∧
    Iterates p m fd (s.h.ms i).buf s.h.w its (c.elems (num fd))
  /-- `Encode`: a message in the wire format, with exactly these values, that fits the descriptor -/
  encode : ∃ b rs, (∀ rt d, G.run p rt d m.getName t!"Encode" [.ptr m.getName i] s = .ok ([.val (.bytes (.mem b))], s)) ∧ s.h.w.WFs b ∧
    IsMinTagMessage rs (s.h.w.slice b).data ∧ Conforms m rs ∧
    (∀ fd, (∃ k, ScalarField m fd k) ∨ MessageField m fd → lastVal (num fd) rs = c.sing (num fd)) ∧
    (∀ fd, RepeatedField m fd → allVals (num fd) rs = (c.elems (num fd)).map .bytes)
  /-- calls succeed, unless the message grows too long, leave the other structs alone, and make the message longer by what is given and 20 bytes at most -/
  calls : ∀ rt d name args op, Calls U m rt i s name args op → (s.h.ms i).buf.len + op.cost < maxLen →
    ∃ s2, G.run p rt d m.getName name args s = .ok (returned op, s2) ∧ (∀ j, j ≠ i → j < s.next → s2.h.ms j = s.h.ms j) ∧
      (s2.h.ms i).buf.len ≤ (s.h.ms i).buf.len + op.cost

/-! ## Proof -/

section
variable {U : Unicode} {m : Desc} (hv : ValidDesc m)
include hv

theorem scalar_schema {fd : Field} {k : Kind} (h : ScalarField m fd k) : (schemaOf m hv).kind (num fd) = some k ∧ (schemaOf m hv).rep (num fd) = false := by
  obtain ⟨h1, h2, h3⟩ := h
  have hf : fieldWith m (num fd) = some fd := fieldWith_unique hv h1
  have h11 : getType (some fd) ≠ 11 := by intro e; rw [e] at h3; revert h3; decide +revert
  refine ⟨?_, ?_⟩
  · show (fieldWith m _).bind fieldKind = _
    rw [hf]
    simp only [Option.bind_some, fieldKind, if_neg h11]
    rw [if_neg (by omega), h3]
  · show (match fieldWith m _ with | some fd => getLabel (some fd) == 3 | none => false) = false
    rw [hf]
    simp only [beq_eq_false_iff_ne]
    omega

theorem message_schema {fd : Field} (h : MessageField m fd) : (schemaOf m hv).kind (num fd) = some .bytes ∧ (schemaOf m hv).rep (num fd) = false := by
  obtain ⟨h1, h2, h3⟩ := h
  have hf : fieldWith m (num fd) = some fd := fieldWith_unique hv h1
  refine ⟨?_, ?_⟩
  · show (fieldWith m _).bind fieldKind = _
    rw [hf]
    simp only [Option.bind_some, fieldKind, if_pos h3]
  · show (match fieldWith m _ with | some fd => getLabel (some fd) == 3 | none => false) = false
    rw [hf]
    simp only [beq_eq_false_iff_ne]
    omega

theorem repeated_schema {fd : Field} (h : RepeatedField m fd) : (schemaOf m hv).kind (num fd) = some .bytes ∧ (schemaOf m hv).rep (num fd) = true := by
  obtain ⟨h1, h2, h3⟩ := h
  have hf : fieldWith m (num fd) = some fd := fieldWith_unique hv h1
  refine ⟨?_, ?_⟩
  · show (fieldWith m _).bind fieldKind = _
    rw [hf]
    simp only [Option.bind_some, fieldKind, if_pos h3]
  · show (match fieldWith m _ with | some fd => getLabel (some fd) == 3 | none => false) = true
    rw [hf]
    simp [h2]

/-- Every field with a kind is of one of the three sorts. -/
theorem schema_kind {i : Nat} {k : Kind} (h : (schemaOf m hv).kind i = some k) :
    ∃ fd, num fd = i ∧ some fd ∈ m.field ∧ (ScalarField m fd k ∨ (k = .bytes ∧ (MessageField m fd ∨ RepeatedField m fd))) := by
  have h : (fieldWith m i).bind fieldKind = some k := h
  cases hf : fieldWith m i with
  | none => rw [hf] at h; cases h
  | some fd =>
    rw [hf] at h
    obtain ⟨h1, h2⟩ := fieldWith_some hf
    refine ⟨fd, h2, h1, ?_⟩
    simp only [Option.bind_some, fieldKind] at h
    have hl := hv.labels fd h1
    split at h
    · rename_i h11
      injection h with h
      refine Or.inr ⟨h.symm, ?_⟩
      rcases hl with hl | hl | hl
      · exact Or.inl ⟨h1, Or.inl hl, h11⟩
      · exact Or.inl ⟨h1, Or.inr hl, h11⟩
      · exact Or.inr ⟨h1, hl, h11⟩
    · split at h
      · cases h
      · rename_i h3
        exact Or.inl ⟨h1, by omega, h⟩

theorem conforms_typed {rs : List Record} : (Conforms m rs → WellTyped (schemaOf m hv) rs) ∧
    (WellTyped (schemaOf m hv) rs → Conforms m rs) := by
  have hb : ∀ v : Wire.Val, (∃ x, decodeVal .bytes v = some x) ↔ ∃ b, v = .bytes b := by
    intro v; cases v <;> simp [decodeVal]
  have hle : ∀ (l : List Nat) (n : Nat), 1 ≤ n → n ≤ l.foldr max 0 → ∃ x ∈ l, n ≤ x := by
    intro l n h1
    induction l with
    | nil => intro h; simp at h; omega
    | cons a l ih =>
      intro h
      rw [List.foldr_cons] at h
      by_cases ha : n ≤ a
      · exact ⟨a, by simp, ha⟩
      · obtain ⟨x, hx, hn⟩ := ih (by omega)
        exact ⟨x, by simp [hx], hn⟩
  have hge : ∀ (l : List Nat) (x : Nat), x ∈ l → x ≤ l.foldr max 0 := by
    intro l x
    induction l with
    | nil => intro h; cases h
    | cons a l ih =>
      intro h
      rw [List.foldr_cons]
      rcases List.mem_cons.1 h with rfl | h
      · exact Nat.le_max_left _ _
      · exact Nat.le_trans (ih h) (Nat.le_max_right _ _)
  refine ⟨fun h r hr => ?_, fun h r hr => ?_⟩
  · obtain ⟨h1, h2⟩ := h r hr
    refine ⟨?_, ?_⟩
    · show r.num < slotsOf m
      unfold slotsOf
      rcases h1 with h0 | ⟨fd, hfd, hn⟩
      · omega
      refine Nat.lt_succ_of_le (Nat.le_trans hn (hge _ _ ?_))
      exact List.mem_map.2 ⟨fd, List.mem_filterMap.2 ⟨some fd, hfd, rfl⟩, rfl⟩
    · intro k hk
      obtain ⟨fd', e1, e2, e3⟩ := schema_kind hv hk
      obtain ⟨f1, f2⟩ := h2 fd' e2 e1
      rcases e3 with e3 | ⟨rfl, e3⟩
      · exact f1 k e3
      · exact (hb _).2 (f2 e3)
  · obtain ⟨h1, h2⟩ := h r hr
    refine ⟨?_, ?_⟩
    · have h1 : r.num < slotsOf m := h1
      unfold slotsOf at h1
      by_cases h0 : r.num = 0
      · exact Or.inl h0
      obtain ⟨x, hx, hn⟩ := hle _ _ (by omega) (Nat.le_of_lt_succ h1)
      obtain ⟨fd, hfd, rfl⟩ := List.mem_map.1 hx
      obtain ⟨f, hf, rfl⟩ := List.mem_filterMap.1 hfd
      exact Or.inr ⟨fd, hf, hn⟩
    · intro fd hfd hn
      refine ⟨fun k hk => ?_, fun hm => (hb _).1 ?_⟩
      · exact h2 k (hn ▸ (scalar_schema hv hk).1)
      · rcases hm with hm | hm
        · exact h2 .bytes (hn ▸ (message_schema hv hm).1)
        · exact h2 .bytes (hn ▸ (repeated_schema hv hm).1)

theorem decl_get {fd : Field} {k : Kind} (h : ScalarField m fd k) :
    Decl.get m.getName (goName U fd) (Kind.goType k) (Kind.fn k) (num fd : Nat) ∈ messageDecls U m ∧
    Decl.set m.getName (goName U fd) (Kind.goType k) (Kind.fn k) (num fd : Nat) ∈ messageDecls U m := by
  obtain ⟨a1, a2, _⟩ := decls_accessors U m
  have hn : (num fd : Int) = (getNumber (some fd)).toInt := (number_toInt hv h.1).symm
  exact ⟨(a1 _ _ _ _ _).2 ⟨fd, k, h, by rw [hn]; rfl⟩, (a2 _ _ _ _ _).2 ⟨fd, k, h, by rw [hn]; rfl⟩⟩

theorem decl_message {fd : Field} (h : MessageField m fd) :
    Decl.getMessage m.getName (goName U fd) (goType fd) (num fd : Nat) ∈ messageDecls U m ∧
    Decl.setMessage m.getName (goName U fd) (goType fd) (num fd : Nat) ∈ messageDecls U m := by
  obtain ⟨_, _, a3, a4, _⟩ := decls_accessors U m
  have hn : (num fd : Int) = (getNumber (some fd)).toInt := (number_toInt hv h.1).symm
  exact ⟨(a3 _ _ _ _).2 ⟨fd, h, by rw [hn]; rfl⟩, (a4 _ _ _ _).2 ⟨fd, h, by rw [hn]; rfl⟩⟩

theorem decl_repeated {fd : Field} (h : RepeatedField m fd) :
    Decl.iterType (iterOf m fd) ∈ messageDecls U m ∧ Decl.iterNext (iterOf m fd) (goType fd) (num fd : Nat) ∈ messageDecls U m ∧
    Decl.getRepeated m.getName (goName U fd) (iterOf m fd) (num fd : Nat) ∈ messageDecls U m ∧
    Decl.appendTo m.getName (goName U fd) (goType fd) (num fd : Nat) ∈ messageDecls U m := by
  obtain ⟨_, _, _, _, a5, a6, a7, a8⟩ := decls_accessors U m
  have hn : (num fd : Int) = (getNumber (some fd)).toInt := (number_toInt hv h.1).symm
  exact ⟨(a5 _).2 ⟨fd, h, rfl⟩, (a6 _ _ _).2 ⟨fd, h, by rw [hn]; rfl⟩, (a7 _ _ _ _).2 ⟨fd, h, by rw [hn]; rfl⟩, (a8 _ _ _ _).2 ⟨fd, h, by rw [hn]; rfl⟩⟩

theorem calls_issues {rt : Rt} {i : Nat} {s : GSt} {name : Text} {args : List GVal} {op : Zeropb.Op} (h : Calls U m rt i s name args op) :
    Issues (messageDecls U m) m.getName (schemaOf m hv) rt i s name args op := by
  cases h with
  | set h1 h2 h3 h4 => exact .set (decl_get hv h1).2 h2 h3 h4
  | setMessage h1 h2 h3 => exact .setMessage (decl_message hv h1).2 h2 h3
  | append h1 h2 h3 => exact .append (decl_repeated hv h1).2.2.2 h2 h3
  | reset h1 h2 => exact .reset h1 h2
  | resetNil => exact .resetNil
  | decode h1 h2 h3 h4 => exact .decode h1 h2 h3 ((conforms_typed hv).1 h4)

theorem runs_ran {p : Program} {i : Nat} {s s' : GSt} {ops : List Zeropb.Op} (h : Runs U p m i s ops s') :
    Ran p (messageDecls U m) m.getName (schemaOf m hv) i s ops s' := by
  induction h with
  | done s => exact .done s
  | call h1 h2 _ ih => exact .call (calls_issues hv h1) h2 ih
  | other h1 _ ih => exact .other h1 ih

end

section
variable {U : Unicode} {fs : List FileDesc} {pkg : Text} (h : Compilable U fs pkg)
include h

/-- The program of the files. -/
def programOf (U : Unicode) (fs : List FileDesc) : Program := fs.flatMap (fun f => fileAst f.getPackage (fileDecls U f))

omit h in
theorem sub_of {f : FileDesc} (hf : f ∈ fs) {m : Desc} (hm : some m ∈ f.messageType) : ∀ x ∈ messageDecls U m, x ∈ fs.flatMap (fileDecls U) := by
  intro x hx
  exact List.mem_flatMap.2 ⟨f, hf, List.mem_flatMap.2 ⟨m, List.mem_filterMap.2 ⟨some m, hm, rfl⟩, hx⟩⟩

omit h in
theorem of_sub {x : Decl} (hx : x ∈ fs.flatMap (fileDecls U)) : ∃ f ∈ fs, ∃ m, some m ∈ f.messageType ∧ x ∈ messageDecls U m := by
  obtain ⟨f, hf, hx⟩ := List.mem_flatMap.1 hx
  obtain ⟨m, hm, hx⟩ := List.mem_flatMap.1 hx
  obtain ⟨o, ho, e⟩ := List.mem_filterMap.1 hm
  subst e
  exact ⟨f, hf, m, ho, hx⟩

theorem Compilable.program : Package (programOf U fs) (fs.flatMap (fileDecls U)) :=
  C63_package U pkg fs (fun f hf => ⟨h.package f hf, h.names f hf⟩) h.once

/-- The methods of the type of a message field. -/
theorem Compilable.target {f : FileDesc} (hf : f ∈ fs) {m : Desc} (hm : some m ∈ f.messageType) {fd : Field} (hfd : MessageField m fd ∨ RepeatedField m fd) :
    Decl.encode (goType fd) ∈ fs.flatMap (fileDecls U) ∧ Decl.decode (goType fd) ∈ fs.flatMap (fileDecls U) ∧
    (∃ n, Decl.struct (goType fd) n ∈ fs.flatMap (fileDecls U)) ∧ ∃ nums, Decl.repeatedTable (goType fd) nums ∈ fs.flatMap (fileDecls U) := by
  obtain ⟨g, hg, m', hm', hn⟩ := h.resolves f hf m hm fd hfd
  have hs := sub_of (U := U) hg hm'
  rw [← hn]
  exact ⟨hs _ (by simp [messageDecls]), hs _ (by simp [messageDecls]), ⟨_, hs _ (List.mem_append_left _ (List.mem_cons_self ..))⟩,
    _, hs _ (List.mem_append_left _ (List.mem_cons_of_mem _ (List.mem_cons_self ..)))⟩

theorem Compilable.closed : Closed (fs.flatMap (fileDecls U)) := by
  intro msg name typ n hd
  have : ∃ f ∈ fs, ∃ m, some m ∈ f.messageType ∧ ∃ fd, (MessageField m fd ∨ RepeatedField m fd) ∧ typ = goType fd := by
    rcases hd with hd | hd
    · obtain ⟨f, hf, m, hm, hx⟩ := of_sub hd
      obtain ⟨_, _, _, a4, _⟩ := decls_accessors U m
      obtain ⟨fd, hfd, e⟩ := (a4 _ _ _ _).1 hx
      simp only [Prod.mk.injEq] at e
      exact ⟨f, hf, m, hm, fd, Or.inl hfd, e.2.2.1⟩
    · obtain ⟨f, hf, m, hm, hx⟩ := of_sub hd
      obtain ⟨_, _, _, _, _, _, _, a8⟩ := decls_accessors U m
      obtain ⟨fd, hfd, e⟩ := (a8 _ _ _ _).1 hx
      simp only [Prod.mk.injEq] at e
      exact ⟨f, hf, m, hm, fd, Or.inr hfd, e.2.2.1⟩
  obtain ⟨f, hf, m, hm, fd, hfd, rfl⟩ := this
  obtain ⟨t1, _, t3, _⟩ := h.target hf hm hfd
  exact ⟨t1, t3⟩

theorem Compilable.supported {req : Request} (he : req.requested = fs) : ¬ HasUnsupported req := by
  rintro ⟨f, hf, m, hm, fd, hfd, _, ht⟩
  rw [he] at hf
  rcases (h.valid f hf m hm).types fd hfd with h1 | h1
  · omega
  · have : ∀ t : Int, (t < 1 ∨ t = 10 ∨ 18 < t) → protoKind t = none := by
      intro t ht
      unfold protoKind
      rcases ht with h | rfl | h
      · split <;> first | omega | rfl
      · rfl
      · split <;> first | omega | rfl
    exact h1 (this _ ht)

end

/-! ## C65 -/

/-- The iterator over a repeated field of a message known to hold `c`. -/
theorem iterates_of {U : Unicode} {fs : List FileDesc} {pkg : Text} (h : Compilable U fs pkg) {f : FileDesc} (hf : f ∈ fs) {m : Desc} (hm : some m ∈ f.messageType)
    {i : Nat} {s : GSt} {rs : List Record} {c : Contents} (hv : ValidDesc m) (a1 : s.h.w.WF (s.h.ms i)) (a3 : Tracks (schemaOf m hv) (s.h.w.msg (s.h.ms i)) rs c)
    {fd : Field} (hfd : RepeatedField m fd) : ∃ its : Nat → Option HSlice,
      (∀ rt d, G.run (programOf U fs) rt d m.getName (goName U fd) [.ptr m.getName i] s = .ok ([.val (optBytes (its 0))], s)) ∧
      Iterates (programOf U fs) m fd (s.h.ms i).buf s.h.w its (c.elems (num fd)) ∧ Finds (s.h.ms i).buf s.h.w (num fd) its (c.elems (num fd)).length := by
  have hi := decls_implements U m hv
  have hsub := sub_of (U := U) hf hm
  obtain ⟨_, t2, _, _, t4⟩ := h.target hf hm (Or.inr hfd)
  obtain ⟨d1, d2, d3, _⟩ := decl_repeated (U := U) hv hfd
  obtain ⟨its, i1, i3, i2⟩ := iterate_finds h.program hi hsub a1 a3 d3 (hsub _ d1) (hsub _ d2) t2 t4
  refine ⟨its, i1, fun k v j t t1 t2 t3 rt d => ?_, i3⟩
  obtain ⟨j1, j2⟩ := i2 k v j t t1 t2 t3 rt d
  refine ⟨fun hk => ?_, j2⟩
  obtain ⟨b, b1, b2⟩ := j1 hk
  exact ⟨b, fun _ _ ho => b1.owns ho, b2⟩

/-- A message known to hold `c` is seen as `c`. -/
theorem shows_of {U : Unicode} {fs : List FileDesc} {pkg : Text} (h : Compilable U fs pkg) {f : FileDesc} (hf : f ∈ fs) {m : Desc} (hm : some m ∈ f.messageType)
    {i : Nat} {s : GSt} {rs : List Record} {c : Contents} (hv : ValidDesc m) (a1 : s.h.w.WF (s.h.ms i)) (a2 : i < s.next)
    (a3 : Tracks (schemaOf m hv) (s.h.w.msg (s.h.ms i)) rs c) : Shows U (programOf U fs) m i s c := by
  have hi := decls_implements U m hv
  have hsub := sub_of (U := U) hf hm
  obtain ⟨g1, g2⟩ := C63_history_at h.program h.closed hi hsub a1 a2 a3
  refine ⟨fun fd k hfd rt d => g1 _ _ _ (decl_get hv hfd).1 rt d, fun fd hfd rt d j hj => ?_, fun fd hfd => ?_, ?_,
    fun rt d name args op hc hl => g2 rt d name args op (calls_issues hv hc) hl⟩
  · obtain ⟨_, t2, _, _, t4⟩ := h.target hf hm (Or.inl hfd)
    rcases C63_presence_at h.program hi hsub a1 a3 (decl_message hv hfd).1 t2 t4 rt d j hj with h1 | ⟨bs, b, h1, h2, h3, h4⟩
    · exact Or.inl h1
    · exact Or.inr ⟨bs, b, h1, fun _ _ ho => h2.owns ho, h3, h4⟩
  · obtain ⟨its, i1, i2, _⟩ := iterates_of h hf hm hv a1 a3 hfd
    exact ⟨its, i1, i2⟩
  · obtain ⟨b1, b2, b3, b4, _⟩ := a3
    refine ⟨(s.h.ms i).buf, rs, fun rt d => C63_encode h.program rt d s (hsub _ (by simp [messageDecls])), a1.1, b1.isMessage,
      (conforms_typed hv).2 b2, ?_, ?_⟩
    · rintro fd (⟨k, hk⟩ | hk)
      · exact b3 _ (scalar_schema hv hk).2
      · exact b3 _ (message_schema hv hk).2
    · intro fd hk
      exact b4 _ (repeated_schema hv hk).2 (repeated_schema hv hk).1

/-- C65: after any run, a struct that was zero is seen, through the methods of the generated program, as the simple record of the calls made. -/
theorem C65_program {U : Unicode} {fs : List FileDesc} {pkg : Text} (h : Compilable U fs pkg) {f : FileDesc} (hf : f ∈ fs) {m : Desc} (hm : some m ∈ f.messageType)
    {i : Nat} {s s' : GSt} {ops : List Zeropb.Op} (h0 : s.h.ms i = .zero (slotsOf m)) (hn : i < s.next) (hr : Runs U (programOf U fs) m i s ops s') :
    Shows U (programOf U fs) m i s' (applyAll ops .empty) := by
  have hv := h.valid f hf m hm
  obtain ⟨z1, z2⟩ := start_tracks (S := schemaOf m hv) h0
  obtain ⟨a1, a2, rs, a3⟩ := ran_tracks h.program h.closed (decls_implements U m hv) (sub_of (U := U) hf hm) (runs_ran hv hr) z1 hn z2
  exact shows_of h hf hm hv a1 a2 a3

/-- C65: the whole way. The plugin, run from its source on a request for compilable files, with input, library and output that work,
writes exactly the encoded response; the files in it are, token by token, a program; and after any run of calls on a zero struct of any message
type of the files, the methods of that program show the simple record. -/
theorem C65_end_to_end {ε : Type} (y : Gen.Sys ε) {req : Request} {pkg : Text} {res : List Byte} (h1 : y.stdin.2 = none) (h2 : y.unmarshal y.stdin.1 = .ok req)
    (h3 : Compilable y.unicode req.requested pkg) (h4 : y.marshal (filesOf y.unicode req) = .ok res) (h5 : y.write res = (res.length, none)) :
    T.process y T.pluginGo 2 = some ⟨res, [], 0⟩ ∧
    ∃ files : List (List G.Top),
      (filesOf y.unicode req).map (fun o => tokenize o.content) = files.map (fun a => (a.map G.Top.toks).flatten) ∧
      ∀ f ∈ req.requested, ∀ m, some m ∈ f.messageType → ∀ (i : Nat) (s s' : GSt) (ops : List Zeropb.Op), s.h.ms i = .zero (slotsOf m) → i < s.next →
        Runs y.unicode files.flatten m i s ops s' → Shows y.unicode files.flatten m i s' (applyAll ops .empty) := by
  have hs := h3.supported rfl
  refine ⟨T.C64_success y 0 h1 h2 hs h4 h5, req.requested.map (fun f => fileAst f.getPackage (fileDecls y.unicode f)), ?_, ?_⟩
  · obtain ⟨hlen, ht⟩ := C63_text y.unicode req _ (Gen.generate_ok y.unicode hs)
    apply List.ext_getElem (by simp [hlen])
    intro k hk1 hk2
    simp only [List.length_map] at hk1 hk2
    simp only [List.getElem_map]
    exact ht k _ _ (List.getElem?_eq_getElem hk1) (List.getElem?_eq_getElem hk2) (h3.names _ (List.getElem_mem hk2))
  · intro f hf m hm i s s' ops h0 hn hr
    have e : (req.requested.map (fun f => fileAst f.getPackage (fileDecls y.unicode f))).flatten = programOf y.unicode req.requested := by
      rw [programOf, List.flatMap_def]
    rw [e] at hr ⊢
    exact C65_program h3 hf hm h0 hn hr

/-! ## The hypotheses are met -/

/-- `fs` is compilable if a check that can be run says so. -/
theorem compilable_of {U : Unicode} {f : FileDesc} (hn : GoNames U f) (hv : ∀ m ∈ f.messageType.filterMap id, ValidDesc m)
    (hr : ∀ m ∈ f.messageType.filterMap id, ∀ fd ∈ m.field.filterMap id, getType (some fd) = 11 → ∃ m' ∈ f.messageType.filterMap id, m'.getName = goType fd)
    (ho : ((fileDecls U f).map Decl.declares).Nodup) : Compilable U [f] f.getPackage where
  package := by intro g hg; rw [List.mem_singleton.1 hg]
  names := by intro g hg; rw [List.mem_singleton.1 hg]; exact hn
  valid := by intro g hg m hm; rw [List.mem_singleton.1 hg] at hm; exact hv m (List.mem_filterMap.2 ⟨_, hm, rfl⟩)
  resolves := by
    intro g hg m hm fd hfd
    rw [List.mem_singleton.1 hg] at hm
    have h : some fd ∈ m.field ∧ getType (some fd) = 11 := by
      rcases hfd with h | h
      · exact ⟨h.1, h.2.2⟩
      · exact ⟨h.1, h.2.2⟩
    obtain ⟨m', h1, h2⟩ := hr m (List.mem_filterMap.2 ⟨_, hm, rfl⟩) fd (List.mem_filterMap.2 ⟨_, h.1, rfl⟩) h.2
    obtain ⟨o, ho, e⟩ := List.mem_filterMap.1 h1
    subst e
    exact ⟨f, List.mem_singleton.2 rfl, m', ho, h2⟩
  once := by rw [List.flatMap_cons, List.flatMap_nil, List.append_nil]; exact ho

theorem testFile_compilable : Compilable asciiUnicode [testFile] testFile.getPackage :=
  compilable_of testFile_names (fun m hm => C51_golden.1 m (List.mem_append_left _ hm)) (by decide +kernel) (by decide +kernel)

theorem raftFile_compilable : Compilable asciiUnicode [raftFile] raftFile.getPackage :=
  compilable_of raftFile_names (fun m hm => C51_golden.1 m (List.mem_append_right _ hm)) (by decide +kernel) (by decide +kernel)

/-- A system that asks for golden/raft.proto. -/
def raftSys : Gen.Sys Unit where
  stdin := ([0x01#8], none)
  unmarshal := fun _ => .ok ⟨[raftFile.getName], [some testFile, some raftFile]⟩
  marshal := fun fs => .ok (fs.map (fun f => BitVec.ofNat 8 f.content.length))
  write := fun b => (b.length, none)
  marshalText := fun _ => ([], none)
  errText := fun _ => [0x0a#8]
  panicText := fun _ => [0x0a#8]
  unicode := asciiUnicode

/-- `C65_end_to_end` applies to it. -/
example : ∃ req res, raftSys.stdin.2 = none ∧ raftSys.unmarshal raftSys.stdin.1 = .ok req ∧ Compilable raftSys.unicode req.requested raftFile.getPackage ∧
    raftSys.marshal (filesOf raftSys.unicode req) = .ok res ∧ raftSys.write res = (res.length, none) ∧ req.requested = [raftFile] := by
  have : (Request.mk [raftFile.getName] [some testFile, some raftFile]).requested = [raftFile] := by
    have h : decide (testFile.getName ∈ [raftFile.getName]) = false := by decide +kernel
    simp only [Request.requested, List.filterMap_cons, id, List.filterMap_nil, List.filter_cons, h]
    simp
  exact ⟨_, _, rfl, rfl, by rw [this]; exact raftFile_compilable, rfl, rfl, this⟩

/-- A run on a struct of golden/test.proto: `m.SetInt32(7)`. -/
example (rt : Rt) : ∃ s1 fd, Runs asciiUnicode (programOf asciiUnicode [testFile]) testDesc 0 zeroState [.set rt 2 .int32 7#32] s1 ∧ ScalarField testDesc fd .int32 ∧
    ∃ v, G.run (programOf asciiUnicode [testFile]) rt 0 testDesc.getName (goName asciiUnicode fd) [.ptr testDesc.getName 0] s1 = .ok ([.val v], s1) ∧
      IsVal s1.h.w .int32 7#32 v := by
  have hm : some testDesc ∈ testFile.messageType := by rw [C51_golden.2.1]; simp
  have hf : testFile ∈ [testFile] := by simp
  have hz : zeroState.h.ms 0 = .zero (slotsOf testDesc) := by
    have : slotsOf testDesc = 35 := by decide +kernel
    rw [this]; rfl
  have hfd : ∃ fd, ScalarField testDesc fd .int32 ∧ num fd = 2 := by
    have : ∃ fd ∈ testDesc.field.filterMap id, (getLabel (some fd) = 1 ∨ getLabel (some fd) = 2) ∧ protoKind (getType (some fd)) = some .int32 ∧ num fd = 2 := by decide +kernel
    obtain ⟨fd, h1, h2, h3, h4⟩ := this
    obtain ⟨o, ho, e⟩ := List.mem_filterMap.1 h1
    subst e
    exact ⟨fd, ⟨ho, h2, h3⟩, h4⟩
  obtain ⟨fd, hfd, hn⟩ := hfd
  have c : Calls asciiUnicode testDesc rt 0 zeroState (t!"Set" ++ goName asciiUnicode fd) [.ptr testDesc.getName 0, .val (.i32 7#32)] (.set rt 2 .int32 7#32) := by
    rw [← hn]
    exact .set hfd rfl (by intro _ h; rcases h with h | h <;> cases h) (by decide)
  have s0 := C65_program testFile_compilable hf hm hz (by decide) (.done _)
  obtain ⟨s1, h1, _⟩ := s0.calls rt 0 _ _ _ c (show 0 + (20 + Kind.size .int32 7#32) < maxLen by decide)
  have r1 := Runs.call c h1 (.done _)
  obtain ⟨x, v, g1, g2, g3⟩ := (C65_program testFile_compilable hf hm hz (by decide) r1).scalar fd .int32 hfd rt 0
  refine ⟨s1, fd, r1, hfd, v, g1, ?_⟩
  rw [hn] at g3
  have : x = 7#32 := by
    have e : readVal .int32 ((applyAll [Zeropb.Op.set rt 2 .int32 7#32] .empty).sing 2) = some 7#32 := show readVal .int32 (some (encodeVal .int32 7#32)) = some 7#32 by decide
    rw [e] at g3
    exact (Option.some.inj g3).symm
  rw [← this]
  exact g2

end Zeropb.GoSrc.E
