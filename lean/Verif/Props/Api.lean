import Verif.Props.Compiles
/-!
# C85: which changes of the .proto files keep the Go API

The types and methods that a generated package provides, read off its syntax trees, and when a new version of the .proto files provides all that the old one did.
-/

set_option linter.constructorNameAsVariable false
set_option maxRecDepth 4000

namespace Zeropb.GoSrc.E
open Zeropb.Gen Zeropb.GoSrc.G

/-! ## Specification -/

/-- A type, or a method of a pointer to a type, with the types of its parameters and results. -/
inductive Provided where
  | type (name : Text)
  | method (recv name : Text) (params results : List G.Ty)
deriving DecidableEq

/-- What a declaration of a generated file provides. -/
def provides : G.Top → List Provided
  | .struct n _ => [.type n]
  | .bytesType n => [.type n]
  | .func f => [.method f.recv.2 f.name (f.params.map (·.2)) f.results]
  | _ => []

/-- What the files of a package provide. -/
def Provides (files : List (List G.Top)) (x : Provided) : Prop := ∃ a ∈ files, ∃ t ∈ a, x ∈ provides t

/-- The new files have every message of the old ones, and every field with accessors, with the same name and the same Go type; a field is still repeated if it was.
Numbers, order and the encoding may be different, and there may be more fields and messages. -/
structure Keeps (U : Unicode) (fs fs' : List FileDesc) : Prop where
  messages : ∀ f ∈ fs, ∀ m, some m ∈ f.messageType → ∃ f' ∈ fs', ∃ m', some m' ∈ f'.messageType ∧ m'.getName = m.getName
  scalar : ∀ f ∈ fs, ∀ m, some m ∈ f.messageType → ∀ fd k, ScalarField m fd k → ∃ f' ∈ fs', ∃ m', some m' ∈ f'.messageType ∧ m'.getName = m.getName ∧
    ∃ fd' k', ScalarField m' fd' k' ∧ goName U fd' = goName U fd ∧ Kind.goType k' = Kind.goType k
  message : ∀ f ∈ fs, ∀ m, some m ∈ f.messageType → ∀ fd, MessageField m fd → ∃ f' ∈ fs', ∃ m', some m' ∈ f'.messageType ∧ m'.getName = m.getName ∧
    ∃ fd', MessageField m' fd' ∧ goName U fd' = goName U fd ∧ goType fd' = goType fd
  repeated : ∀ f ∈ fs, ∀ m, some m ∈ f.messageType → ∀ fd, RepeatedField m fd → ∃ f' ∈ fs', ∃ m', some m' ∈ f'.messageType ∧ m'.getName = m.getName ∧
    ∃ fd', RepeatedField m' fd' ∧ goName U fd' = goName U fd ∧ goType fd' = goType fd

/-- The new files have all messages and fields of the old ones, and maybe more. -/
def Adds (fs fs' : List FileDesc) : Prop :=
  ∀ f ∈ fs, ∀ m, some m ∈ f.messageType → ∃ f' ∈ fs', ∃ m', some m' ∈ f'.messageType ∧ m'.getName = m.getName ∧ ∀ fd ∈ m.field, fd ∈ m'.field

/-- No name is declared twice. -/
def Once (U : Unicode) (fs : List FileDesc) : Prop := ((fs.flatMap (fileDecls U)).map Decl.declares).Nodup

/-! ## The API of a message type -/

/-- The types and methods for a message type. -/
inductive MessageApi (U : Unicode) (m : Desc) : Provided → Prop
  | type : MessageApi U m (.type m.getName)
  | encode : MessageApi U m (.method m.getName t!"Encode" [] [.bytes])
  | decode : MessageApi U m (.method m.getName t!"Decode" [.bytes] [.name t!"error"])
  | reset : MessageApi U m (.method m.getName t!"Reset" [.bytes] [])
  | get {fd k} : ScalarField m fd k → MessageApi U m (.method m.getName (goName U fd) [] [scalarTy (Kind.goType k)])
  | set {fd k} : ScalarField m fd k → MessageApi U m (.method m.getName (t!"Set" ++ goName U fd) [scalarTy (Kind.goType k)] [])
  | getMessage {fd} : MessageField m fd → MessageApi U m (.method m.getName (goName U fd) [.ptr (goType fd)] [.name t!"bool", .name t!"error"])
  | setMessage {fd} : MessageField m fd → MessageApi U m (.method m.getName (t!"Set" ++ goName U fd) [.name (goType fd)] [])
  | iterator {fd} : RepeatedField m fd → MessageApi U m (.type (iterOf m fd))
  | next {fd} : RepeatedField m fd → MessageApi U m (.method (iterOf m fd) t!"Next" [.ptr (goType fd)] [.name t!"bool", .name t!"error"])
  | elements {fd} : RepeatedField m fd → MessageApi U m (.method m.getName (goName U fd) [] [.name (iterOf m fd)])
  | append {fd} : RepeatedField m fd → MessageApi U m (.method m.getName (t!"AppendTo" ++ goName U fd) [.name (goType fd)] [])

theorem field_decls {U : Unicode} {m : Desc} {d : Decl} (h : d ∈ m.field.flatMap (fieldDecls U m.getName)) :
    (∃ fd k, ScalarField m fd k ∧ (d = .get m.getName (goName U fd) (Kind.goType k) (Kind.fn k) (getNumber (some fd)).toInt ∨
      d = .set m.getName (goName U fd) (Kind.goType k) (Kind.fn k) (getNumber (some fd)).toInt)) ∨
    (∃ fd, MessageField m fd ∧ (d = .getMessage m.getName (goName U fd) (goType fd) (getNumber (some fd)).toInt ∨
      d = .setMessage m.getName (goName U fd) (goType fd) (getNumber (some fd)).toInt)) ∨
    (∃ fd, RepeatedField m fd ∧ (d = .iterType (iterOf m fd) ∨ d = .iterNext (iterOf m fd) (goType fd) (getNumber (some fd)).toInt ∨
      d = .getRepeated m.getName (goName U fd) (iterOf m fd) (getNumber (some fd)).toInt ∨
      d = .appendTo m.getName (goName U fd) (goType fd) (getNumber (some fd)).toInt)) := by
  obtain ⟨fp, hfp, hd⟩ := List.mem_flatMap.1 h
  cases fp with
  | none => simp [fieldDecls] at hd
  | some fd =>
    unfold fieldDecls at hd
    simp only [Option.isNone_some, Bool.false_eq_true, if_false] at hd
    split at hd
    next hl =>
      split at hd
      next ht =>
        simp only [List.mem_cons, List.not_mem_nil, or_false] at hd
        exact .inr (.inl ⟨fd, ⟨hfp, hl, ht⟩, hd⟩)
      · split at hd
        next k hk =>
          simp only [List.mem_cons, List.not_mem_nil, or_false] at hd
          exact .inl ⟨fd, k, ⟨hfp, hl, hk⟩, hd⟩
        · cases hd
    · split at hd
      next hl =>
        simp only [List.mem_cons, List.not_mem_nil, or_false] at hd
        exact .inr (.inr ⟨fd, ⟨hfp, hl.1, hl.2⟩, hd⟩)
      · cases hd

theorem scalar_decl {U : Unicode} {m : Desc} {fd : Field} {k : Kind} (h : ScalarField m fd k) {d : Decl}
    (hd : d = .get m.getName (goName U fd) (Kind.goType k) (Kind.fn k) (getNumber (some fd)).toInt ∨
      d = .set m.getName (goName U fd) (Kind.goType k) (Kind.fn k) (getNumber (some fd)).toInt) : d ∈ messageDecls U m := by
  refine List.mem_append_right _ (List.mem_flatMap.2 ⟨some fd, h.1, ?_⟩)
  have h11 : getType (some fd) ≠ 11 := fun e => by have := h.2.2; rw [e] at this; cases this
  unfold fieldDecls
  simp only [Option.isNone_some, Bool.false_eq_true, if_false]
  rw [if_pos h.2.1, if_neg h11, h.2.2]
  rcases hd with rfl | rfl <;> simp [goName]

theorem message_decl {U : Unicode} {m : Desc} {fd : Field} (h : MessageField m fd) {d : Decl}
    (hd : d = .getMessage m.getName (goName U fd) (goType fd) (getNumber (some fd)).toInt ∨
      d = .setMessage m.getName (goName U fd) (goType fd) (getNumber (some fd)).toInt) : d ∈ messageDecls U m := by
  refine List.mem_append_right _ (List.mem_flatMap.2 ⟨some fd, h.1, ?_⟩)
  unfold fieldDecls
  simp only [Option.isNone_some, Bool.false_eq_true, if_false]
  rw [if_pos h.2.1, if_pos h.2.2]
  rcases hd with rfl | rfl <;> simp [goName, goType]

theorem repeated_decl {U : Unicode} {m : Desc} {fd : Field} (h : RepeatedField m fd) {d : Decl}
    (hd : d = .iterType (iterOf m fd) ∨ d = .iterNext (iterOf m fd) (goType fd) (getNumber (some fd)).toInt ∨
      d = .getRepeated m.getName (goName U fd) (iterOf m fd) (getNumber (some fd)).toInt ∨
      d = .appendTo m.getName (goName U fd) (goType fd) (getNumber (some fd)).toInt) : d ∈ messageDecls U m := by
  refine List.mem_append_right _ (List.mem_flatMap.2 ⟨some fd, h.1, ?_⟩)
  unfold fieldDecls
  simp only [Option.isNone_some, Bool.false_eq_true, if_false]
  rw [if_neg (by rw [h.2.1]; decide), if_pos h.2]
  rcases hd with rfl | rfl | rfl | rfl <;> simp [goName, goType, iterOf]

/-- What the declarations of a message type provide. -/
theorem message_api {U : Unicode} {m : Desc} {x : Provided} : (∃ d ∈ messageDecls U m, x ∈ provides (ast d)) ↔ MessageApi U m x := by
  constructor
  · rintro ⟨d, hd, hx⟩
    rcases List.mem_append.1 hd with hd | hd
    · simp only [List.mem_cons, List.not_mem_nil, or_false] at hd
      rcases hd with rfl | rfl | rfl | rfl | rfl <;>
        simp only [ast, provides, srcEncode, G.srcDecode, srcReset, List.map_nil, List.map_cons, List.mem_singleton, List.not_mem_nil] at hx <;> subst hx
      · exact .type
      · exact .encode
      · exact .decode
      · exact .reset
    · rcases field_decls hd with ⟨fd, k, h, rfl | rfl⟩ | ⟨fd, h, rfl | rfl⟩ | ⟨fd, h, rfl | rfl | rfl | rfl⟩ <;>
        simp only [ast, provides, G.srcGet, G.srcSet, srcGetMessage, srcSetMessage, srcNext, srcGetRepeated, srcAppendTo, List.map_nil, List.map_cons, List.mem_singleton] at hx <;> subst hx
      · exact .get h
      · exact .set h
      · exact .getMessage h
      · exact .setMessage h
      · exact .iterator h
      · exact .next h
      · exact .elements h
      · exact .append h
  · intro h
    cases h with
    | type => exact ⟨_, List.mem_append_left _ (List.mem_cons_self ..), by simp [ast, provides]⟩
    | encode => exact ⟨.encode m.getName, by simp [messageDecls], by simp [ast, provides, srcEncode]⟩
    | decode => exact ⟨.decode m.getName, by simp [messageDecls], by simp [ast, provides, G.srcDecode]⟩
    | reset => exact ⟨.reset m.getName, by simp [messageDecls], by simp [ast, provides, srcReset]⟩
    | get h => exact ⟨_, scalar_decl h (.inl rfl), by simp [ast, provides, G.srcGet]⟩
    | set h => exact ⟨_, scalar_decl h (.inr rfl), by simp [ast, provides, G.srcSet]⟩
    | getMessage h => exact ⟨_, message_decl h (.inl rfl), by simp [ast, provides, srcGetMessage]⟩
    | setMessage h => exact ⟨_, message_decl h (.inr rfl), by simp [ast, provides, srcSetMessage]⟩
    | iterator h => exact ⟨_, repeated_decl h (.inl rfl), by simp [ast, provides]⟩
    | next h => exact ⟨_, repeated_decl h (.inr (.inl rfl)), by simp [ast, provides, srcNext]⟩
    | elements h => exact ⟨_, repeated_decl h (.inr (.inr (.inl rfl))), by simp [ast, provides, srcGetRepeated]⟩
    | append h => exact ⟨_, repeated_decl h (.inr (.inr (.inr rfl))), by simp [ast, provides, srcAppendTo]⟩

/-- A generated package provides what belongs to its messages. -/
theorem C85_api {U : Unicode} {fs : List FileDesc} {x : Provided} :
    Provides (trees U fs) x ↔ ∃ f ∈ fs, ∃ m, some m ∈ f.messageType ∧ MessageApi U m x := by
  constructor
  · rintro ⟨a, ha, t, ht, hx⟩
    obtain ⟨f, hf, rfl⟩ := List.mem_map.1 ha
    rcases List.mem_append.1 ht with ht | ht
    · simp only [List.mem_cons, List.not_mem_nil, or_false] at ht
      rcases ht with rfl | rfl <;> cases hx
    · obtain ⟨d, hd, rfl⟩ := List.mem_map.1 ht
      obtain ⟨m, hm, hd⟩ := List.mem_flatMap.1 hd
      obtain ⟨mo, hm, rfl⟩ := List.mem_filterMap.1 hm
      exact ⟨f, hf, m, hm, message_api.1 ⟨d, hd, hx⟩⟩
  · rintro ⟨f, hf, m, hm, h⟩
    obtain ⟨d, hd, hx⟩ := message_api.2 h
    exact ⟨_, List.mem_map.2 ⟨f, hf, rfl⟩, ast d, List.mem_append_right _ (List.mem_map.2 ⟨d, List.mem_flatMap.2 ⟨m, List.mem_filterMap.2 ⟨_, hm, rfl⟩, hd⟩, rfl⟩), hx⟩

/-! ## When the API is kept -/

/-- If the fields are kept, so is the API. -/
theorem C85_kept {U : Unicode} {fs fs' : List FileDesc} (h : Keeps U fs fs') (x : Provided) : Provides (trees U fs) x → Provides (trees U fs') x := by
  rw [C85_api, C85_api]
  rintro ⟨f, hf, m, hm, hx⟩
  cases hx with
  | type => obtain ⟨f', hf', m', hm', e⟩ := h.messages f hf m hm; rw [← e]; exact ⟨f', hf', m', hm', .type⟩
  | encode => obtain ⟨f', hf', m', hm', e⟩ := h.messages f hf m hm; rw [← e]; exact ⟨f', hf', m', hm', .encode⟩
  | decode => obtain ⟨f', hf', m', hm', e⟩ := h.messages f hf m hm; rw [← e]; exact ⟨f', hf', m', hm', .decode⟩
  | reset => obtain ⟨f', hf', m', hm', e⟩ := h.messages f hf m hm; rw [← e]; exact ⟨f', hf', m', hm', .reset⟩
  | get hfd => obtain ⟨f', hf', m', hm', e, fd', k', h1, h2, h3⟩ := h.scalar f hf m hm _ _ hfd; rw [← e, ← h2, ← h3]; exact ⟨f', hf', m', hm', .get h1⟩
  | set hfd => obtain ⟨f', hf', m', hm', e, fd', k', h1, h2, h3⟩ := h.scalar f hf m hm _ _ hfd; rw [← e, ← h2, ← h3]; exact ⟨f', hf', m', hm', .set h1⟩
  | getMessage hfd => obtain ⟨f', hf', m', hm', e, fd', h1, h2, h3⟩ := h.message f hf m hm _ hfd; rw [← e, ← h2, ← h3]; exact ⟨f', hf', m', hm', .getMessage h1⟩
  | setMessage hfd => obtain ⟨f', hf', m', hm', e, fd', h1, h2, h3⟩ := h.message f hf m hm _ hfd; rw [← e, ← h2, ← h3]; exact ⟨f', hf', m', hm', .setMessage h1⟩
  | iterator hfd =>
    obtain ⟨f', hf', m', hm', e, fd', h1, h2, h3⟩ := h.repeated f hf m hm _ hfd
    rw [show iterOf m _ = iterOf m' fd' by unfold iterOf; rw [e, h3]]; exact ⟨f', hf', m', hm', .iterator h1⟩
  | next hfd =>
    obtain ⟨f', hf', m', hm', e, fd', h1, h2, h3⟩ := h.repeated f hf m hm _ hfd
    rw [show iterOf m _ = iterOf m' fd' by unfold iterOf; rw [e, h3], ← h3]; exact ⟨f', hf', m', hm', .next h1⟩
  | elements hfd =>
    obtain ⟨f', hf', m', hm', e, fd', h1, h2, h3⟩ := h.repeated f hf m hm _ hfd
    rw [show iterOf m _ = iterOf m' fd' by unfold iterOf; rw [e, h3], ← h2, ← e]; exact ⟨f', hf', m', hm', .elements h1⟩
  | append hfd =>
    obtain ⟨f', hf', m', hm', e, fd', h1, h2, h3⟩ := h.repeated f hf m hm _ hfd
    rw [← h2, ← e, ← h3]; exact ⟨f', hf', m', hm', .append h1⟩

theorem scalarTy_inj {s t : Text} (h : scalarTy s = scalarTy t) : s = t := by
  unfold scalarTy at h
  split at h <;> split at h
  · next a b => rw [a, b]
  · cases h
  · cases h
  · injection h

theorem scalarTy_iterator {k : Kind} {m : Desc} {fd : Field} : scalarTy (Kind.goType k) ≠ .name (iterOf m fd) := by
  intro h
  unfold scalarTy at h
  split at h
  · cases h
  · injection h with h
    have h2 : (Kind.goType k).getLast? = some 'r' := by rw [h, iterOf, List.getLast?_append]; rfl
    cases k <;> exact absurd h2 (by decide)

theorem once_eq {U : Unicode} {fs : List FileDesc} (h : Once U fs) {f f' : FileDesc} (hf : f ∈ fs) (hf' : f' ∈ fs) {m m' : Desc}
    (hm : some m ∈ f.messageType) (hm' : some m' ∈ f'.messageType) {d d' : Decl} (hd : d ∈ messageDecls U m) (hd' : d' ∈ messageDecls U m')
    (e : d.declares = d'.declares) : d = d' := by
  have key : ∀ l : List Decl, (l.map Decl.declares).Nodup → d ∈ l → d' ∈ l → d = d' := by
    intro l
    induction l with
    | nil => intro _ h; cases h
    | cons a l ih =>
      intro hn h1 h2
      rw [List.map_cons, List.nodup_cons] at hn
      rcases List.mem_cons.1 h1 with rfl | h3 <;> rcases List.mem_cons.1 h2 with rfl | h4
      · rfl
      · exact absurd (List.mem_map.2 ⟨_, h4, e.symm⟩) hn.1
      · exact absurd (List.mem_map.2 ⟨_, h3, e⟩) hn.1
      · exact ih hn.2 h3 h4
  exact key _ h (mem_decls hf hm hd) (mem_decls hf' hm' hd')

/-- The new package provides all that the old one did exactly if the fields are kept. -/
theorem C85_iff {U : Unicode} {fs fs' : List FileDesc} (ho : Once U fs) (ho' : Once U fs') :
    (∀ x, Provides (trees U fs) x → Provides (trees U fs') x) ↔ Keeps U fs fs' := by
  refine ⟨fun h => ?_, fun h x => C85_kept h x⟩
  have h : ∀ f ∈ fs, ∀ m, some m ∈ f.messageType → ∀ x, MessageApi U m x → ∃ f' ∈ fs', ∃ m', some m' ∈ f'.messageType ∧ MessageApi U m' x :=
    fun f hf m hm x hx => C85_api.1 (h x (C85_api.2 ⟨f, hf, m, hm, hx⟩))
  have hmsg : ∀ f ∈ fs, ∀ m, some m ∈ f.messageType → ∃ f' ∈ fs', ∃ m', some m' ∈ f'.messageType ∧ m'.getName = m.getName := by
    intro f hf m hm
    obtain ⟨f', hf', m', hm', hx⟩ := h f hf m hm _ .encode
    refine ⟨f', hf', m', hm', ?_⟩
    generalize hy : Provided.method m.getName t!"Encode" [] [G.Ty.bytes] = y at hx
    cases hx <;> simp only [Provided.method.injEq, reduceCtorEq, List.cons.injEq, and_false, false_and] at hy
    · exact hy.1.symm
    · exact hy.1.symm
  refine ⟨hmsg, ?_, ?_, ?_⟩
  · intro f hf m hm fd k hfd
    obtain ⟨f', hf', m', hm', hx⟩ := h f hf m hm _ (.get hfd)
    refine ⟨f', hf', m', hm', ?_⟩
    generalize hy : Provided.method m.getName (goName U fd) [] [scalarTy (Kind.goType k)] = y at hx
    cases hx <;> simp only [Provided.method.injEq, reduceCtorEq, List.cons.injEq, and_false, false_and, and_true, true_and] at hy
    · have := once_eq ho hf hf hm hm (d := .encode m.getName) (by simp [messageDecls]) (scalar_decl hfd (.inl rfl)) (by simp [Decl.declares, hy.2.1])
      cases this
    · next h1 => exact ⟨hy.1.symm, _, _, h1, hy.2.1.symm, (scalarTy_inj hy.2.2).symm⟩
    · exact absurd hy.2.2 scalarTy_iterator
  · intro f hf m hm fd hfd
    obtain ⟨f', hf', m', hm', hx⟩ := h f hf m hm _ (.getMessage hfd)
    refine ⟨f', hf', m', hm', ?_⟩
    generalize hy : Provided.method m.getName (goName U fd) [.ptr (goType fd)] [.name t!"bool", .name t!"error"] = y at hx
    cases hx <;> simp only [Provided.method.injEq, reduceCtorEq, List.cons.injEq, and_false, and_true, G.Ty.ptr.injEq] at hy
    · next h1 => exact ⟨hy.1.symm, _, h1, hy.2.1.symm, hy.2.2.symm⟩
    · next h1 =>
      obtain ⟨g, hg, m'', hm'', e⟩ := hmsg f hf m hm
      have := once_eq ho' hg hf' hm'' hm' (List.mem_append_left _ (List.mem_cons_self ..)) (repeated_decl h1 (.inl rfl)) (by simp [Decl.declares, e, hy.1])
      cases this
  · intro f hf m hm fd hfd
    obtain ⟨f', hf', m', hm', hx⟩ := h f hf m hm _ (.elements hfd)
    refine ⟨f', hf', m', hm', ?_⟩
    generalize hy : Provided.method m.getName (goName U fd) [] [.name (iterOf m fd)] = y at hx
    cases hx <;> simp only [Provided.method.injEq, reduceCtorEq, List.cons.injEq, and_false, false_and, and_true, true_and, G.Ty.name.injEq] at hy
    · exact absurd hy.2.2.symm scalarTy_iterator
    · next h1 =>
      refine ⟨hy.1.symm, _, h1, hy.2.1.symm, ?_⟩
      have e := hy.2.2
      unfold iterOf at e
      rw [hy.1] at e
      exact (List.append_cancel_left (List.append_cancel_right e)).symm

/-- Adding messages and fields keeps the API. -/
theorem C85_adds {U : Unicode} {fs fs' : List FileDesc} (h : Adds fs fs') : Keeps U fs fs' := by
  refine ⟨?_, ?_, ?_, ?_⟩
  · intro f hf m hm
    obtain ⟨f', hf', m', hm', e, _⟩ := h f hf m hm
    exact ⟨f', hf', m', hm', e⟩
  · intro f hf m hm fd k hfd
    obtain ⟨f', hf', m', hm', e, hall⟩ := h f hf m hm
    exact ⟨f', hf', m', hm', e, fd, k, ⟨hall _ hfd.1, hfd.2⟩, rfl, rfl⟩
  · intro f hf m hm fd hfd
    obtain ⟨f', hf', m', hm', e, hall⟩ := h f hf m hm
    exact ⟨f', hf', m', hm', e, fd, ⟨hall _ hfd.1, hfd.2⟩, rfl, rfl⟩
  · intro f hf m hm fd hfd
    obtain ⟨f', hf', m', hm', e, hall⟩ := h f hf m hm
    exact ⟨f', hf', m', hm', e, fd, ⟨hall _ hfd.1, hfd.2⟩, rfl, rfl⟩

/-- Adding messages and fields changes no method. -/
theorem C85_verbatim {U : Unicode} {fs fs' : List FileDesc} (h : Adds fs fs') (fn : G.Func) (hfn : ∃ a ∈ trees U fs, .func fn ∈ a) :
    ∃ a ∈ trees U fs', .func fn ∈ a := by
  obtain ⟨a, ha, ht⟩ := hfn
  obtain ⟨f, hf, rfl⟩ := List.mem_map.1 ha
  rcases List.mem_append.1 ht with ht | ht
  · simp at ht
  · obtain ⟨d, hd, hdt⟩ := List.mem_map.1 ht
    obtain ⟨m, hm, hd⟩ := List.mem_flatMap.1 hd
    obtain ⟨mo, hm, rfl⟩ := List.mem_filterMap.1 hm
    obtain ⟨f', hf', m', hm', e, hall⟩ := h f hf m hm
    have hd' : d ∈ messageDecls U m' := by
      rcases List.mem_append.1 hd with hd | hd
      · simp only [List.mem_cons, List.not_mem_nil, or_false] at hd
        rcases hd with rfl | rfl | rfl | rfl | rfl
        · cases hdt
        · cases hdt
        all_goals rw [← e]; simp [messageDecls]
      · obtain ⟨fp, hfp, hd⟩ := List.mem_flatMap.1 hd
        exact List.mem_append_right _ (List.mem_flatMap.2 ⟨fp, hall fp hfp, by rw [e]; exact hd⟩)
    exact ⟨_, List.mem_map.2 ⟨f', hf', rfl⟩, List.mem_append_right _ (List.mem_map.2 ⟨d, List.mem_flatMap.2 ⟨m', List.mem_filterMap.2 ⟨_, hm', rfl⟩, hd'⟩, hdt⟩)⟩

/-- The output of the generator before and after a change of the .proto files: syntax trees, token by token, of which the new ones provide all that the old ones did
exactly if the fields are kept. -/
theorem C85_output {U : Unicode} {req req' : Request} {out out' : List OutFile} (h : generate U req = .ok out) (h' : generate U req' = .ok out')
    (hn : ∀ f ∈ req.requested, GoNames U f) (hn' : ∀ f ∈ req'.requested, GoNames U f) (ho : Once U req.requested) (ho' : Once U req'.requested) :
    ∃ files files' : List (List G.Top), out.map (fun o => tokenize o.content) = files.map (fun a => (a.map G.Top.toks).flatten) ∧
      out'.map (fun o => tokenize o.content) = files'.map (fun a => (a.map G.Top.toks).flatten) ∧
      ((∀ x, Provides files x → Provides files' x) ↔ Keeps U req.requested req'.requested) := by
  have key : ∀ {req : Request} {out : List OutFile}, generate U req = .ok out → (∀ f ∈ req.requested, GoNames U f) →
      out.map (fun o => tokenize o.content) = (trees U req.requested).map (fun a => (a.map G.Top.toks).flatten) := by
    intro req out h hn
    obtain ⟨hlen, ht⟩ := C63_text U req out h
    apply List.ext_getElem (by simp [hlen, trees])
    intro k hk1 hk2
    simp only [List.length_map, trees] at hk1 hk2
    simp only [List.getElem_map, trees]
    exact ht k _ _ (List.getElem?_eq_getElem hk1) (List.getElem?_eq_getElem hk2) (hn _ (List.getElem_mem hk2))
  exact ⟨_, _, key h hn, key h' hn', C85_iff ho ho'⟩

/-! ## Examples -/

/-- `message M { int32 a = 1; repeated M b = 2; }` -/
def before : List FileDesc := [fileOf [(t!"M", [(t!"a", 1, 1, 5, []), (t!"b", 2, 3, 11, t!".x.M")])]]
/-- The same with a field and a message more. -/
def more : List FileDesc := [fileOf [(t!"N", []), (t!"M", [(t!"c", 3, 1, 9, []), (t!"a", 1, 1, 5, []), (t!"b", 2, 3, 11, t!".x.M")])]]
/-- The same with other numbers, and `sint32` for `int32`: the API stays, but (C82) the messages cannot be read. -/
def renumbered : List FileDesc := [fileOf [(t!"M", [(t!"a", 7, 1, 17, []), (t!"b", 1, 3, 11, t!".x.M")])]]

/-- Incompatible changes: `a` renamed; `int64` for `int32`; `a` repeated; `b` optional; `b` removed; the message renamed. -/
def incompatible : List (List FileDesc) := [
  [fileOf [(t!"M", [(t!"z", 1, 1, 5, []), (t!"b", 2, 3, 11, t!".x.M")])]],
  [fileOf [(t!"M", [(t!"a", 1, 1, 3, []), (t!"b", 2, 3, 11, t!".x.M")])]],
  [fileOf [(t!"M", [(t!"a", 1, 3, 5, []), (t!"b", 2, 3, 11, t!".x.M")])]],
  [fileOf [(t!"M", [(t!"a", 1, 1, 5, []), (t!"b", 2, 1, 11, t!".x.M")])]],
  [fileOf [(t!"M", [(t!"a", 1, 1, 5, [])])]],
  [fileOf [(t!"K", [(t!"a", 1, 1, 5, []), (t!"b", 2, 3, 11, t!".x.K")])]]]

instance (files : List (List G.Top)) (x : Provided) : Decidable (Provides files x) := by unfold Provides; infer_instance

/-- All that a package provides. -/
def allProvided (files : List (List G.Top)) : List Provided := files.flatten.flatMap provides

theorem allProvided_iff {files : List (List G.Top)} {x : Provided} : x ∈ allProvided files ↔ Provides files x := by
  unfold allProvided Provides
  rw [List.mem_flatMap]
  constructor
  · rintro ⟨t, ht, hx⟩
    obtain ⟨a, ha, ht⟩ := List.mem_flatten.1 ht
    exact ⟨a, ha, t, ht, hx⟩
  · rintro ⟨a, ha, t, ht, hx⟩
    exact ⟨t, List.mem_flatten.2 ⟨a, ha, ht⟩, hx⟩

instance (U : Unicode) (fs : List FileDesc) : Decidable (Once U fs) := by unfold Once; infer_instance

/-- Both compatible changes keep the API; the first adds only. -/
example : Once asciiUnicode before ∧ Once asciiUnicode more ∧ Once asciiUnicode renumbered ∧ (allProvided (trees asciiUnicode before)).length = 10 ∧
    Keeps asciiUnicode before more ∧ Keeps asciiUnicode before renumbered := by
  have h1 : Once asciiUnicode before := by decide +kernel
  have h2 : Once asciiUnicode more := by decide +kernel
  have h3 : Once asciiUnicode renumbered := by decide +kernel
  refine ⟨h1, h2, h3, by decide +kernel, (C85_iff h1 h2).1 fun x hx => ?_, (C85_iff h1 h3).1 fun x hx => ?_⟩
  · have : ∀ x ∈ allProvided (trees asciiUnicode before), Provides (trees asciiUnicode more) x := by decide +kernel
    exact this x (allProvided_iff.2 hx)
  · have : ∀ x ∈ allProvided (trees asciiUnicode before), Provides (trees asciiUnicode renumbered) x := by decide +kernel
    exact this x (allProvided_iff.2 hx)

example : Adds before more := by
  intro f hf m hm
  rw [List.mem_singleton.1 hf] at hm
  have e := Option.some.inj (List.mem_singleton.1 hm)
  subst e
  exact ⟨_, List.mem_singleton.2 rfl, _, List.mem_cons_of_mem _ (List.mem_singleton.2 rfl), rfl, fun fd hfd => List.mem_cons_of_mem _ hfd⟩

/-- None of the incompatible changes does. -/
example : ∀ fs' ∈ incompatible, ¬ Keeps asciiUnicode before fs' := by
  intro fs' h hk
  have key : ∀ fs' ∈ incompatible, ∃ x ∈ allProvided (trees asciiUnicode before), ¬ Provides (trees asciiUnicode fs') x := by decide +kernel
  obtain ⟨x, hx, hn⟩ := key fs' h
  exact hn (C85_kept hk x (allProvided_iff.1 hx))

end Zeropb.GoSrc.E
