import Verif.GoSrc.CheckGen
import Verif.Props.EndToEnd
/-!
# C69: when the generated package compiles

`GoSrc/Check` is what a Go compiler checks. For all files whose names give Go identifiers, the generated files pass the check exactly if the five conditions
`Clean` on the .proto files hold.
-/

set_option linter.constructorNameAsVariable false
set_option maxRecDepth 4000

namespace Zeropb.GoSrc.E
open Zeropb.Gen Zeropb.GoSrc.G
open Zeropb.GoSrc.G.Check (packageOk)

/-! ## Specification -/

/-- `unicode.ToTitle` gives no lower-case ASCII letter. -/
def Titles (U : Unicode) : Prop := ∀ r, (U.toTitle r).isLower = false

/-- What .proto files need, beyond names that are identifiers. -/
structure Clean (U : Unicode) (fs : List FileDesc) (pkg : Text) : Prop where
  /-- no file without a message: it would import zeropb and not use it -/
  nonempty : ∀ f ∈ fs, ∃ m, some m ∈ f.messageType
  /-- no message is named `init`, or `main` in package main -/
  init : ∀ f ∈ fs, ∀ m, some m ∈ f.messageType → m.getName ≠ t!"init" ∧ ¬ (pkg = t!"main" ∧ m.getName = t!"main")
  /-- no name is declared twice -/
  once : ((fs.flatMap (fileDecls U)).map Decl.declares).Nodup
  /-- the message types that are used are messages of the files -/
  resolves : ∀ f ∈ fs, ∀ m, some m ∈ f.messageType → ∀ fd, MessageField m fd ∨ RepeatedField m fd →
    ∃ g ∈ fs, ∃ m', some m' ∈ g.messageType ∧ m'.getName = goType fd
  /-- no two repeated fields of a message have the same number -/
  numbers : ∀ f ∈ fs, ∀ m, some m ∈ f.messageType → (m.field.filter (fun fd => getLabel fd = 3)).Pairwise (fun a b => getNumber a ≠ getNumber b)

/-- The trees of the generated files. -/
def trees (U : Unicode) (fs : List FileDesc) : List (List G.Top) := fs.map (fun f => fileAst f.getPackage (fileDecls U f))

/-! ## Proof -/

theorem head_toGoCase {U : Unicode} (hU : Titles U) : ∀ (s : Text) (c : Char), (toGoCase U s).head? = some c → c.isLower = false := by
  intro s c h
  unfold toGoCase at h
  induction s with
  | nil => cases h
  | cons r s ih =>
    rw [mapText] at h
    split at h
    next t' e =>
      split at e
      · cases e
        exact ih h
      · simp only [if_true, reduceCtorEq, Prod.mk.injEq, and_false] at e
    next t' r' e =>
      split at e
      · simp only [reduceCtorEq, Prod.mk.injEq, and_false] at e
      · simp only [if_true, Prod.mk.injEq, Option.some.injEq] at e
        obtain ⟨rfl, rfl⟩ := e
        simp only [List.head?_cons, Option.some.injEq] at h
        subst h
        exact hU r

theorem toGoCase_not_field {U : Unicode} (hU : Titles U) (s : Text) : toGoCase U s ≠ t!"buf" ∧ toGoCase U s ≠ t!"offsets" := by
  refine ⟨fun h => ?_, fun h => ?_⟩
  · have := head_toGoCase hU s 'b' (by rw [h]; rfl)
    exact absurd this (by decide)
  · have := head_toGoCase hU s 'o' (by rw [h]; rfl)
    exact absurd this (by decide)

section
variable {U : Unicode} {fs : List FileDesc} {pkg : Text} (hp : ∀ f ∈ fs, f.getPackage = pkg) (hn : ∀ f ∈ fs, GoNames U f)

theorem trees_eq (hp : ∀ f ∈ fs, f.getPackage = pkg) : trees U fs = (fs.map (fileDecls U)).map (fileAst pkg) := by
  rw [List.map_map]
  exact List.map_congr_left (fun f hf => by rw [hp f hf]; rfl)

include hp hn in
theorem scope (h : ((fs.flatMap (fileDecls U)).map Decl.declares).Nodup) : Check.Scope (trees U fs).flatten (fs.flatMap (fileDecls U)) where
  objs := by rw [trees_eq hp, Check.filterMap_files _ (fun _ => rfl) (fun _ => rfl), List.flatMap_def]
  unders := by rw [trees_eq hp, Check.filterMap_files _ (fun _ => rfl) (fun _ => rfl), List.flatMap_def]
  methods := by rw [trees_eq hp, Check.filterMap_files _ (fun _ => rfl) (fun _ => rfl), List.flatMap_def]
  names := by
    intro d hd
    obtain ⟨f, hf, hd⟩ := List.mem_flatMap.1 hd
    exact decls_ok (hn f hf) d hd
  once := h

theorem declared_ast (d : Decl) : Check.declared (ast d) = some d.declares := by cases d <;> rfl

include hp in
theorem declared_eq : (trees U fs).flatten.filterMap Check.declared = (fs.flatMap (fileDecls U)).map Decl.declares := by
  rw [trees_eq hp, Check.filterMap_files _ (fun _ => rfl) (fun _ => rfl), List.flatMap_def]
  simp only [declared_ast]
  rw [List.filterMap_eq_map']

theorem mem_decls {f : FileDesc} (hf : f ∈ fs) {m : Desc} (hm : some m ∈ f.messageType) {d : Decl} (hd : d ∈ messageDecls U m) :
    d ∈ fs.flatMap (fileDecls U) :=
  List.mem_flatMap.2 ⟨f, hf, List.mem_flatMap.2 ⟨m, List.mem_filterMap.2 ⟨_, hm, rfl⟩, hd⟩⟩

theorem decls_mem {d : Decl} (hd : d ∈ fs.flatMap (fileDecls U)) : ∃ f ∈ fs, ∃ m, some m ∈ f.messageType ∧ d ∈ messageDecls U m := by
  obtain ⟨f, hf, hd⟩ := List.mem_flatMap.1 hd
  obtain ⟨m, hm, hd⟩ := List.mem_flatMap.1 hd
  obtain ⟨mo, hm, rfl⟩ := List.mem_filterMap.1 hm
  exact ⟨f, hf, m, hm, hd⟩

include hp hn in
/-- Every declaration is correct. -/
theorem decl_ok (hU : Titles U) (hc : Clean U fs pkg) {f : FileDesc} (hf : f ∈ fs) {d : Decl} (hd : d ∈ fileDecls U f) :
    Check.topOk (trees U fs).flatten Check.zimp (ast d) = true := by
  have hs := scope hp hn hc.once
  have hdd : d ∈ fs.flatMap (fileDecls U) := List.mem_flatMap.2 ⟨f, hf, hd⟩
  have hok := decls_ok (hn f hf) d hd
  obtain ⟨m, hm, hd⟩ := List.mem_flatMap.1 hd
  obtain ⟨mo, hm, rfl⟩ := List.mem_filterMap.1 hm
  have hst : Decl.struct m.getName (largestFieldID m.field + 1#32).toInt ∈ fs.flatMap (fileDecls U) := mem_decls hf hm (by simp [messageDecls])
  have hnum := (hn f hf).numbers m hm
  have typ : ∀ fd, MessageField m fd ∨ RepeatedField m fd → ∃ k, Decl.struct (goType fd) k ∈ fs.flatMap (fileDecls U) ∧
      Decl.decode (goType fd) ∈ fs.flatMap (fileDecls U) ∧ Decl.encode (goType fd) ∈ fs.flatMap (fileDecls U) := by
    intro fd h
    obtain ⟨g, hg, m', hm', e⟩ := hc.resolves f hf m hm fd h
    rw [← e]
    exact ⟨_, mem_decls hg hm' (List.mem_append_left _ (List.mem_cons_self ..)), mem_decls hg hm' (by simp [messageDecls]), mem_decls hg hm' (by simp [messageDecls])⟩
  rcases List.mem_append.1 hd with hd | hd
  · simp only [List.mem_cons, List.not_mem_nil, or_false] at hd
    rcases hd with rfl | rfl | rfl | rfl | rfl
    · simp only [ast, Check.topOk, Check.identifier_of hok.1, decide_eq_true hok.2, hs.lookType_byte, hs.lookType_basic (x := t!"uint16") (by decide) (by decide),
        hs.lookType_basic (x := t!"int") (by decide) (by decide), hs.lookType_basic (x := t!"uint64") (by decide) (by decide)]
      rfl
    · have ha : Check.apiType t!"RepeatedFields" = some (.map (.basic t!"int") .struct) := by decide +kernel
      have hnd : ((m.field.filter (fun f => getLabel f = 3)).map (fun f => (getNumber f).toInt)).Nodup := by
        rw [List.Nodup, List.pairwise_map]
        exact (hc.numbers f hf m hm).imp (fun h e => h (BitVec.eq_of_toInt_eq e))
      have hr : ((m.field.filter (fun f => getLabel f = 3)).map (fun f => (getNumber f).toInt)).all (fun n => Check.representable n (.basic t!"int")) = true := by
        rw [List.all_eq_true]
        intro n hn'
        obtain ⟨fp, hfp, rfl⟩ := List.mem_map.1 hn'
        have := (getNumber fp).toInt_lt
        have := (getNumber fp).le_toInt
        simp only [Check.representable, true_or, if_true, decide_eq_true_eq]
        omega
      simp only [ast, Check.topOk, Check.identifier_prefix (a := t!"repeatedFields_") (by decide) hok.1, hs.zeropb, ha, hr, decide_eq_true hnd]
      rfl
    · exact hs.encode_ok hst
    · exact hs.decode_ok hst (mem_decls hf hm (List.mem_append_left _ (List.mem_cons_of_mem _ (List.mem_cons_self ..))))
    · exact hs.reset_ok hst
  · obtain ⟨fp, hfp, hd⟩ := List.mem_flatMap.1 hd
    cases fp with
    | none => simp [fieldDecls] at hd
    | some fd =>
      have h0 := (hnum fd hfp).1
      have h1 : (getNumber (some fd)).toInt < 2 ^ 31 := by have := (hnum fd hfp).2; omega
      have hnf := toGoCase_not_field hU (getName (some fd))
      have hd0 := hd
      unfold fieldDecls at hd
      simp only [Option.isNone_some, Bool.false_eq_true, if_false] at hd
      split at hd
      next hl =>
        split at hd
        next ht =>
          obtain ⟨k, t1, t2, t3⟩ := typ fd (Or.inl ⟨hfp, hl, ht⟩)
          simp only [List.mem_cons, List.not_mem_nil, or_false] at hd
          rcases hd with rfl | rfl
          · exact hs.getMessage_ok hst hok.2.1 hnf h0 h1 t1 t2
          · exact hs.setMessage_ok hst hok.2.1 h0 h1 t1 t3
        · split at hd
          next k _ =>
            simp only [List.mem_cons, List.not_mem_nil, or_false] at hd
            rcases hd with rfl | rfl
            · exact hs.get_ok hst hok.2.1 hnf h0 h1
            · exact hs.set_ok hst hok.2.1 h0 h1
          · cases hd
      · split at hd
        next hl =>
          obtain ⟨k, t1, t2, t3⟩ := typ fd (Or.inr ⟨hfp, hl.1, hl.2⟩)
          have hit : Decl.iterType (m.getName ++ fieldToGoTypeMessage (getTypeName (some fd)) ++ t!"Iterator") ∈ fs.flatMap (fileDecls U) :=
            mem_decls hf hm (List.mem_append_right _ (List.mem_flatMap.2 ⟨_, hfp, by simp [fieldDecls, hl]⟩))
          simp only [List.mem_cons, List.not_mem_nil, or_false] at hd
          rcases hd with rfl | rfl | rfl | rfl
          · simp only [ast, Check.topOk, Check.identifier_of (show IsIdent _ from hok), hs.lookType_byte]
            rfl
          · exact hs.next_ok hit h0 h1 t1 t2
          · refine hs.getRepeated_ok hst hok.2.1 hnf h0 h1 hit ?_
            intro e
            have := congrArg List.length e
            simp at this
            omega
          · exact hs.appendTo_ok hst hok.2.1 h0 h1 t1 t3
        · cases hd

theorem imports_file (pkg : Text) (ds : List Decl) : Check.importsOf (fileAst pkg ds) = some Check.zimp := by
  have : Check.apiName t!"github.com/danhhz/zeropb" = some t!"zeropb" := by decide +kernel
  simp only [fileAst, Check.importsOf, List.cons_append, this, Option.map_some]

theorem body_file (pkg : Text) (ds : List Decl) : Check.body (fileAst pkg ds) = ds.map ast := rfl

include hp in
/-- What the check says of a file. -/
theorem file_iff {f : FileDesc} (hf : f ∈ fs) : Check.fileOk (trees U fs).flatten pkg (fileAst f.getPackage (fileDecls U f)) = true ↔
    Check.identifier pkg = true ∧ (∃ d ∈ fileDecls U f, t!"zeropb" ∈ Check.usesTop (ast d)) ∧
    ((trees U fs).flatten.filterMap Check.objOf).lookup t!"zeropb" = none ∧ ∀ d ∈ fileDecls U f, Check.topOk (trees U fs).flatten Check.zimp (ast d) = true := by
  have hb : ((fileDecls U f).map ast).all Check.isDecl = true := by
    rw [List.all_map, List.all_eq_true]
    intro d _
    cases d <;> rfl
  have hu : (fileAst f.getPackage (fileDecls U f)).any (fun d => (Check.usesTop d).contains t!"zeropb") = true ↔ ∃ d ∈ fileDecls U f, t!"zeropb" ∈ Check.usesTop (ast d) := by
    rw [List.any_eq_true]
    constructor
    · rintro ⟨t, ht, h⟩
      rcases List.mem_cons.1 ht with rfl | ht
      · cases h
      · rcases List.mem_cons.1 ht with rfl | ht
        · cases h
        · obtain ⟨d, hd, rfl⟩ := List.mem_map.1 ht
          exact ⟨d, hd, List.contains_iff_mem.1 h⟩
    · rintro ⟨d, hd, h⟩
      exact ⟨ast d, List.mem_append_right _ (List.mem_map.2 ⟨d, hd, rfl⟩), List.contains_iff_mem.2 h⟩
  unfold Check.fileOk
  rw [imports_file, body_file, hb]
  simp only [Bool.and_eq_true, Check.zimp, List.all_cons, List.all_nil, hu, Option.isNone_iff_eq_none, List.all_map, List.all_eq_true, Function.comp, and_true]
  have : (Check.clause (fileAst f.getPackage (fileDecls U f)) == some pkg) = true := by rw [hp f hf]; exact beq_self_eq_true _
  simp only [this, true_and]
  exact ⟨fun h => ⟨h.1, h.2.1.1, h.2.1.2, h.2.2⟩, fun h => ⟨h.1, ⟨h.2.1, h.2.2.1⟩, h.2.2.2⟩⟩

include hp in
/-- The names of the package block. -/
theorem init_iff : ((trees U fs).flatten.filterMap Check.objOf).all (fun x => x.1 != t!"init" && !(pkg == t!"main" && x.1 == t!"main")) = true ↔
    ∀ f ∈ fs, ∀ m, some m ∈ f.messageType → m.getName ≠ t!"init" ∧ ¬ (pkg = t!"main" ∧ m.getName = t!"main") := by
  rw [trees_eq hp, Check.filterMap_files _ (fun _ => rfl) (fun _ => rfl), ← List.flatMap_def, List.all_eq_true]
  have key : ∀ x : Text × Check.Obj, (x.1 != t!"init" && !(pkg == t!"main" && x.1 == t!"main")) = true ↔ x.1 ≠ t!"init" ∧ ¬ (pkg = t!"main" ∧ x.1 = t!"main") := by
    intro x
    simp only [Bool.and_eq_true, bne_iff_ne, ne_eq, Bool.not_eq_true', Bool.and_eq_false_iff, beq_eq_false_iff_ne]
    exact ⟨fun h => ⟨h.1, fun g => h.2.elim (fun k => k g.1) (fun k => k g.2)⟩, fun h => ⟨h.1, Classical.or_iff_not_imp_left.2 (fun k g => h.2 ⟨Classical.not_not.1 k, g⟩)⟩⟩
  constructor
  · intro h f hf m hm
    exact (key _).1 (h (m.getName, .type (.named m.getName)) (List.mem_filterMap.2 ⟨_, mem_decls hf hm (List.mem_append_left _ (List.mem_cons_self ..)), rfl⟩))
  · intro h x hx
    obtain ⟨d, hd, e⟩ := List.mem_filterMap.1 hx
    obtain ⟨f, hf, m, hm, hd⟩ := decls_mem hd
    refine (key x).2 ?_
    rcases List.mem_append.1 hd with hd | hd
    · simp only [List.mem_cons, List.not_mem_nil, or_false] at hd
      rcases hd with rfl | rfl | rfl | rfl | rfl <;> simp only [ast, Check.objOf, Option.some.injEq, reduceCtorEq] at e
      · subst e
        exact h f hf m hm
      · subst e
        refine ⟨fun e => ?_, fun e => ?_⟩
        · exact absurd (congrArg List.head? e) (by simp)
        · exact absurd (congrArg List.head? e.2) (by simp)
    · obtain ⟨fp, hfp, hd⟩ := List.mem_flatMap.1 hd
      have hl : x.1.length ≥ 8 := by
        unfold fieldDecls at hd
        split at hd
        · cases hd
        · split at hd
          · split at hd
            · simp only [List.mem_cons, List.not_mem_nil, or_false] at hd
              rcases hd with rfl | rfl <;> simp [ast, Check.objOf] at e
            · split at hd
              · simp only [List.mem_cons, List.not_mem_nil, or_false] at hd
                rcases hd with rfl | rfl <;> simp [ast, Check.objOf] at e
              · cases hd
          · split at hd
            · simp only [List.mem_cons, List.not_mem_nil, or_false] at hd
              rcases hd with rfl | rfl | rfl | rfl <;> simp only [ast, Check.objOf, Option.some.injEq, reduceCtorEq] at e
              subst e
              simp only [List.length_append]
              have : (t!"Iterator").length = 8 := rfl
              omega
            · cases hd
      refine ⟨fun e => ?_, fun e => ?_⟩
      · rw [e] at hl; exact absurd hl (by decide)
      · rw [e.2] at hl; exact absurd hl (by decide)

include hp hn in
/-- C69, one direction. -/
theorem C69_compiles (hU : Titles U) (hc : Clean U fs pkg) : packageOk pkg (trees U fs) = true := by
  have hs := scope hp hn hc.once
  unfold packageOk
  rw [Bool.and_eq_true, Bool.and_eq_true]
  refine ⟨⟨?_, ?_⟩, (init_iff hp).2 hc.init⟩
  · rw [List.all_eq_true]
    intro a ha
    obtain ⟨f, hf, rfl⟩ := List.mem_map.1 ha
    refine (file_iff hp hf).2 ⟨?_, ?_, hs.free (by decide), fun d hd => decl_ok hp hn hU hc hf hd⟩
    · rw [← hp f hf]
      exact Check.identifier_of (hn f hf).package
    · obtain ⟨m, hm⟩ := hc.nonempty f hf
      refine ⟨.repeatedTable m.getName _, List.mem_flatMap.2 ⟨m, List.mem_filterMap.2 ⟨_, hm, rfl⟩, List.mem_append_left _ (List.mem_cons_of_mem _ (List.mem_cons_self ..))⟩, ?_⟩
      exact List.mem_singleton.2 rfl
  · rw [declared_eq hp]
    exact decide_eq_true hc.once

/-! ### The other direction -/

theorem seq_elim {res : List Check.T} {Γ : Check.Env} {a b : G.Stmt} (h : (Check.stmt res Γ (.seq a b)).isSome = true) :
    ∃ Γ', Check.stmt res Γ a = some Γ' ∧ (Check.stmt res Γ' b).isSome = true := by
  rw [Check.stmt] at h
  split at h
  next Γ' e => exact ⟨Γ', e, h⟩
  · cases h

theorem add_elim {Γ Γ' : Check.Env} {b : List (Text × Check.T)} {x : Text} {t : Check.T} (hb : Γ.blocks = [b]) (h : Γ.add x t = some Γ') :
    Γ' = { Γ with blocks := [(x, t) :: b] } := by
  unfold Check.Env.add at h
  rw [hb] at h
  simp only [Option.ite_none_right_eq_some, Option.some.injEq] at h
  exact h.2.symm

theorem ite_elim {res : List Check.T} {Γ Γ' : Check.Env} {c : G.Expr} {t : G.Stmt} (h : Check.stmt res Γ (.ite c t) = some Γ') : Γ' = Γ := by
  rw [Check.stmt] at h
  split at h
  · simp only [Option.ite_none_right_eq_some, Option.some.injEq] at h
    exact h.2.symm
  · cases h

theorem args_elim {Γ : Check.Env} {e es : G.Expr} (h : (Check.expr Γ (.args e es)).isSome = true) :
    (Check.one (Check.expr Γ e)).isSome = true ∧ (Check.expr Γ es).isSome = true := by
  rw [Check.expr] at h
  split at h
  next e1 e2 => rw [e1, e2]; exact ⟨rfl, rfl⟩
  · cases h

theorem retDecode_elim {res : List Check.T} {Γ : Check.Env} {x : Text} (h : (Check.stmt res Γ (retDecode x)).isSome = true) :
    ∃ t, Γ.look x = some (.var t) ∧ (Check.methodSig Γ t true t!"Decode").isSome = true := by
  unfold retDecode at h
  rw [Check.stmt] at h
  split at h
  next vs b e =>
    have h1 := (args_elim (by rw [e]; rfl : (Check.expr Γ (.args .true_ (.arg (.method (.id x) t!"Decode" (.arg (.id t!"buf")))))).isSome = true)).2
    rw [Check.expr, Option.isSome_map] at h1
    cases h2 : Check.expr Γ (.method (.id x) t!"Decode" (.arg (.id t!"buf"))) with
    | none => rw [h2] at h1; cases h1
    | some r =>
      rw [Check.expr] at h2
      split at h2
      next t a ts _ e1 e2 =>
        rw [Check.expr] at e1
        split at e1
        next t' e3 =>
          simp only [Check.one, Option.some.injEq, Prod.mk.injEq] at e1
          obtain ⟨rfl, rfl⟩ := e1
          refine ⟨_, e3, ?_⟩
          split at h2
          next s e4 => rw [e4]; rfl
          · cases h2
        · cases e1
      · cases h2
  · cases h

theorem method_elim {Γ : Check.Env} {t : Check.T} (h : (Check.methodSig Γ (.ptr t) true t!"Decode").isSome = true) :
    ∃ n f, t = .named n ∧ (Γ.p.filterMap Check.methodOf).lookup (n, t!"Decode") = some f := by
  unfold Check.methodSig at h
  split at h
  next n e =>
    cases e
    cases h2 : (Γ.p.filterMap Check.methodOf).lookup (n, t!"Decode") with
    | none => rw [h2] at h; cases h
    | some f => exact ⟨n, f, rfl, h2⟩
  next e => cases e
  next e => cases e
  · cases h

theorem universe_not_named {x n : Text} : Check.universe_ x ≠ some (.type (.named n)) := by
  unfold Check.universe_
  intro h
  repeat' split at h
  all_goals cases h

/-- A type with a method `Decode` is a message of the files. -/
theorem message_of (hs : Check.Scope (trees U fs).flatten (fs.flatMap (fileDecls U))) {typ n : Text} {f : G.Func}
    (h1 : Check.lookType (trees U fs).flatten Check.zimp typ = some (.named n))
    (h2 : ((trees U fs).flatten.filterMap Check.methodOf).lookup (n, t!"Decode") = some f) :
    ∃ g ∈ fs, ∃ m', some m' ∈ g.messageType ∧ m'.getName = typ := by
  have hnt : n = typ := by
    unfold Check.lookType at h1
    split at h1
    next t e =>
      cases h1
      unfold Check.look at e
      split at e
      next o e' =>
        cases e
        rw [hs.objs] at e'
        obtain ⟨d, _, e⟩ := Check.lookup_mem (g := fun d => Check.objOf (ast d)) e'
        cases d <;> simp only [ast, Check.objOf, Option.some.injEq, Prod.mk.injEq, Check.Obj.type.injEq, Check.T.named.injEq, reduceCtorEq, and_false] at e
        · exact e.2.symm.trans e.1
        · exact e.2.symm.trans e.1
      · split at e
        · cases e
        · exact absurd e universe_not_named
    · cases h1
  subst hnt
  rw [hs.methods] at h2
  obtain ⟨d, hd, e⟩ := Check.lookup_mem (g := fun d => Check.methodOf (ast d)) h2
  obtain ⟨g, hg, m', hm', hd⟩ := decls_mem hd
  have e := Check.methodOf_declares e
  refine ⟨g, hg, m', hm', ?_⟩
  rcases List.mem_append.1 hd with hd | hd
  · simp only [List.mem_cons, List.not_mem_nil, or_false] at hd
    rcases hd with rfl | rfl | rfl | rfl | rfl <;> simp only [Decl.declares, Prod.mk.injEq, reduceCtorEq, Option.some.injEq, false_and] at e <;> exact e.1
  · obtain ⟨fp, hfp, hd⟩ := List.mem_flatMap.1 hd
    unfold fieldDecls at hd
    split at hd
    · cases hd
    · split at hd
      · split at hd
        · simp only [List.mem_cons, List.not_mem_nil, or_false] at hd
          rcases hd with rfl | rfl <;> simp only [Decl.declares, Prod.mk.injEq, Option.some.injEq] at e <;> exact e.1
        · split at hd
          · simp only [List.mem_cons, List.not_mem_nil, or_false] at hd
            rcases hd with rfl | rfl <;> simp only [Decl.declares, Prod.mk.injEq, Option.some.injEq] at e <;> exact e.1
          · cases hd
      · split at hd
        · simp only [List.mem_cons, List.not_mem_nil, or_false] at hd
          rcases hd with rfl | rfl | rfl | rfl <;> simp only [Decl.declares, Prod.mk.injEq, Option.some.injEq, reduceCtorEq, false_and] at e
          · exact absurd e.2 (by decide)
          · exact e.1
          · exact e.1
        · cases hd

theorem getMessage_elim (hs : Check.Scope (trees U fs).flatten (fs.flatMap (fileDecls U))) {msg name typ : Text} {k : Int}
    (h : Check.funcOk (trees U fs).flatten Check.zimp (srcGetMessage msg name typ k) = true) : ∃ g ∈ fs, ∃ m', some m' ∈ g.messageType ∧ m'.getName = typ := by
  obtain ⟨n, s, _, h2, h3⟩ := Check.funcOk_elim h
  cases ht : Check.lookType (trees U fs).flatten Check.zimp typ with
  | none => simp [Check.sig, srcGetMessage, Check.ty, ht] at h2
  | some t =>
    simp only [Check.sig, srcGetMessage, List.mapM_cons, List.mapM_nil, Check.ty, ht, hs.lookType_bool, hs.lookType_error, Option.map_some, Option.pure_def,
      Option.bind_eq_bind, Option.bind_some, Option.some.injEq] at h2
    subst h2
    simp only [srcGetMessage, List.map_cons, List.map_nil, List.zip_cons_cons, List.zip_nil_right, block] at h3
    obtain ⟨Γ1, e1, h3⟩ := seq_elim h3
    obtain ⟨Γ2, e2, h3⟩ := seq_elim h3
    obtain ⟨Γ3, e3, _⟩ := seq_elim h3
    have e2 := ite_elim e2
    subst e2
    obtain ⟨t', l, hm⟩ := retDecode_elim (Γ := Γ2) (by rw [e3]; rfl)
    rw [Check.stmt] at e1
    split at e1
    next tb _ _ =>
      have := add_elim rfl e1
      subst this
      rw [Check.look_local rfl] at l
      cases l
      obtain ⟨n', f, rfl, hm⟩ := method_elim hm
      exact message_of hs ht hm
    · cases e1

theorem next_elim (hs : Check.Scope (trees U fs).flatten (fs.flatMap (fileDecls U))) {it typ : Text} {k : Int}
    (h : Check.funcOk (trees U fs).flatten Check.zimp (srcNext it typ k) = true) : ∃ g ∈ fs, ∃ m', some m' ∈ g.messageType ∧ m'.getName = typ := by
  obtain ⟨n, s, _, h2, h3⟩ := Check.funcOk_elim h
  cases ht : Check.lookType (trees U fs).flatten Check.zimp typ with
  | none => simp [Check.sig, srcNext, Check.ty, ht] at h2
  | some t =>
    simp only [Check.sig, srcNext, List.mapM_cons, List.mapM_nil, Check.ty, ht, hs.lookType_bool, hs.lookType_error, Option.map_some, Option.pure_def,
      Option.bind_eq_bind, Option.bind_some, Option.some.injEq] at h2
    subst h2
    simp only [srcNext, List.map_cons, List.map_nil, List.zip_cons_cons, List.zip_nil_right, block] at h3
    obtain ⟨Γ1, e1, h3⟩ := seq_elim h3
    obtain ⟨Γ2, e2, h3⟩ := seq_elim h3
    obtain ⟨Γ3, e3, h3⟩ := seq_elim h3
    obtain ⟨Γ4, e4, _⟩ := seq_elim h3
    have e3 := ite_elim e3
    subst e3
    obtain ⟨t', l, hm⟩ := retDecode_elim (Γ := Γ3) (by rw [e4]; rfl)
    have e2 : Γ3 = Γ1 := by
      rw [Check.stmt] at e2
      split at e2
      · simp only [Option.ite_none_right_eq_some, Option.some.injEq] at e2
        exact e2.2.symm
      · cases e2
    subst e2
    rw [Check.stmt] at e1
    split at e1
    next tb _ =>
      have := add_elim rfl e1
      subst this
      rw [Check.look_local rfl] at l
      cases l
      obtain ⟨n', f, rfl, hm⟩ := method_elim hm
      exact message_of hs ht hm
    · cases e1

include hp hn in
/-- C69: the generated files compile exactly if: every file has a message; no message is named `init` (or `main` in package main); no name is declared twice;
every message type that is used is one of the messages of the files; and no two repeated fields of a message have the same number. -/
theorem C69_iff (hU : Titles U) : packageOk pkg (trees U fs) = true ↔ Clean U fs pkg := by
  refine ⟨fun h => ?_, C69_compiles hp hn hU⟩
  unfold packageOk at h
  rw [Bool.and_eq_true, Bool.and_eq_true, List.all_eq_true, declared_eq hp, decide_eq_true_eq, init_iff hp] at h
  obtain ⟨⟨h1, h2⟩, h3⟩ := h
  have hs := scope hp hn h2
  have hfile : ∀ f ∈ fs, _ := fun f hf => (file_iff hp hf).1 (h1 _ (List.mem_map.2 ⟨f, hf, rfl⟩))
  have htop : ∀ f ∈ fs, ∀ m, some m ∈ f.messageType → ∀ d ∈ messageDecls U m, Check.topOk (trees U fs).flatten Check.zimp (ast d) = true :=
    fun f hf m hm d hd => (hfile f hf).2.2.2 d (List.mem_flatMap.2 ⟨m, List.mem_filterMap.2 ⟨_, hm, rfl⟩, hd⟩)
  refine ⟨?_, h3, h2, ?_, ?_⟩
  · intro f hf
    obtain ⟨d, hd, _⟩ := (hfile f hf).2.1
    obtain ⟨m, hm, _⟩ := List.mem_flatMap.1 hd
    obtain ⟨mo, hm, rfl⟩ := List.mem_filterMap.1 hm
    exact ⟨m, hm⟩
  · rintro f hf m hm fd (hfd | hfd)
    · have := htop f hf m hm (.getMessage m.getName (goName U fd) (goType fd) (getNumber (some fd)).toInt)
        (List.mem_append_right _ (List.mem_flatMap.2 ⟨_, hfd.1, by simp [fieldDecls, hfd.2.1, hfd.2.2, goName, goType]⟩))
      exact getMessage_elim hs this
    · have := htop f hf m hm (.iterNext (iterOf m fd) (goType fd) (getNumber (some fd)).toInt)
        (List.mem_append_right _ (List.mem_flatMap.2 ⟨_, hfd.1, by simp [fieldDecls, hfd.2.1, hfd.2.2, iterOf, goType]⟩))
      exact next_elim hs this
  · intro f hf m hm
    have := htop f hf m hm (.repeatedTable m.getName _) (List.mem_append_left _ (List.mem_cons_of_mem _ (List.mem_cons_self ..)))
    simp only [ast, Check.topOk, Bool.and_eq_true] at this
    have h := this.2
    split at h
    · rw [Bool.and_eq_true, decide_eq_true_eq, List.Nodup, List.pairwise_map] at h
      exact h.2.imp (fun h e => h (congrArg BitVec.toInt e))
    · cases h

end

/-- C69: the whole way. The plugin, run from its source on a request for files of one package whose names give Go identifiers, with input, library and output that
work, writes exactly the encoded response; its files are, token by token, syntax trees; and a Go compiler accepts these, as a package, exactly if the five conditions hold. -/
theorem C69_plugin {ε : Type} (y : Gen.Sys ε) {req : Request} {pkg : Text} {res : List Byte} (h1 : y.stdin.2 = none) (h2 : y.unmarshal y.stdin.1 = .ok req)
    (hp : ∀ f ∈ req.requested, f.getPackage = pkg) (hn : ∀ f ∈ req.requested, GoNames y.unicode f) (hs : ¬ HasUnsupported req) (hU : Titles y.unicode)
    (h4 : y.marshal (filesOf y.unicode req) = .ok res) (h5 : y.write res = (res.length, none)) :
    T.process y T.pluginGo 2 = some ⟨res, [], 0⟩ ∧
    ∃ files : List (List G.Top),
      (filesOf y.unicode req).map (fun o => tokenize o.content) = files.map (fun a => (a.map G.Top.toks).flatten) ∧
      (packageOk pkg files = true ↔ Clean y.unicode req.requested pkg) := by
  refine ⟨T.C64_success y 0 h1 h2 hs h4 h5, trees y.unicode req.requested, ?_, C69_iff hp hn hU⟩
  obtain ⟨hlen, ht⟩ := C63_text y.unicode req _ (Gen.generate_ok y.unicode hs)
  apply List.ext_getElem (by simp [hlen, trees])
  intro k hk1 hk2
  simp only [List.length_map, trees] at hk1 hk2
  simp only [List.getElem_map, trees]
  exact ht k _ _ (List.getElem?_eq_getElem hk1) (List.getElem?_eq_getElem hk2) (hn _ (List.getElem_mem hk2))

/-- C69: the packages of C65 compile, if every file has a message and none is named `init`, or `main` in package main. -/
theorem C69_compilable {U : Unicode} {fs : List FileDesc} {pkg : Text} (h : Compilable U fs pkg) (hU : Titles U) (h1 : ∀ f ∈ fs, ∃ m, some m ∈ f.messageType)
    (h2 : ∀ f ∈ fs, ∀ m, some m ∈ f.messageType → m.getName ≠ t!"init" ∧ ¬ (pkg = t!"main" ∧ m.getName = t!"main")) : packageOk pkg (trees U fs) = true :=
  C69_compiles h.package h.names hU ⟨h1, h2, h.once, h.resolves, fun f hf m hm => (h.valid f hf m hm).distinct.filter _⟩

/-! ## The hypotheses are met, and needed -/

theorem ascii_titles : Titles asciiUnicode := by
  intro r
  show (Char.toUpper r).isLower = false
  by_cases h : r.isLower = true
  · have key : ∀ n, n < 123 → 97 ≤ n → (Char.toUpper (Char.ofNat n)).isLower = false := by decide
    have h' : 97 ≤ r.toNat ∧ r.toNat ≤ 122 := by
      simp only [Char.isLower, Bool.and_eq_true, decide_eq_true_eq, ge_iff_le, UInt32.le_iff_toNat_le] at h
      exact h
    have := key r.toNat (by omega) h'.1
    rwa [Char.ofNat_toNat] at this
  · have e : r.toUpper = r := by
      unfold Char.toUpper
      rw [dif_neg]
      intro h'
      apply h
      simp only [Char.isLower, Bool.and_eq_true, decide_eq_true_eq, ge_iff_le]
      exact h'
    rw [e]
    simpa using h

/-- golden/test.proto and golden/raft.proto meet the conditions. -/
example : Clean asciiUnicode [testFile] testFile.getPackage ∧ Clean asciiUnicode [raftFile] raftFile.getPackage :=
  ⟨(C69_iff (by intro f hf; rw [List.mem_singleton.1 hf]) (by intro f hf; rw [List.mem_singleton.1 hf]; exact testFile_names) ascii_titles).1 (by decide +kernel),
   (C69_iff (by intro f hf; rw [List.mem_singleton.1 hf]) (by intro f hf; rw [List.mem_singleton.1 hf]; exact raftFile_names) ascii_titles).1 (by decide +kernel)⟩

/-- The check resolves names as Go does: messages named like the variables of the generated methods do no harm. -/
example : packageOk t!"x" (trees asciiUnicode [fileOf [(t!"m", [(t!"a", 1, 3, 11, t!".x.m"), (t!"b", 2, 1, 11, t!".x.buf")]), (t!"buf", [(t!"m", 1, 1, 9, []), (t!"x", 2, 1, 11, t!".x.m")])]]) = true := by
  decide +kernel

/-- Packages that do not compile:
* a file without messages imports zeropb and does not use it;
* a message named `init`; a message named `main` in package main;
* two fields with the same Go name;
* a field of a message type of another package;
* two repeated fields with the same number. -/
def unclean : List (Text × List FileDesc) := [(t!"x", [fileOf [(t!"M", [(t!"a", 1, 1, 5, [])])], fileOf []]),
  (t!"x", [fileOf [(t!"init", [(t!"a", 1, 1, 5, [])])]]),
  (t!"main", [{ fileOf [(t!"main", [(t!"a", 1, 1, 5, [])])] with package := some t!"main" }]),
  (t!"x", [fileOf [(t!"M", [(t!"a_b", 1, 1, 5, []), (t!"aB", 2, 1, 5, [])])]]),
  (t!"x", [fileOf [(t!"M", [(t!"a", 1, 1, 11, t!".y.T")])]]),
  (t!"x", [fileOf [(t!"M", [(t!"a", 1, 3, 5, []), (t!"b", 1, 3, 5, [])])]])]

/-- C69: the conditions of `Clean` are needed, one by one: the generator writes all of these files, their names are identifiers, and they do not compile. -/
theorem C69_false_unclean : ∀ x ∈ unclean,
    ¬ HasUnsupported ⟨[t!"x.proto"], x.2.map some⟩ ∧ (∀ f ∈ x.2, f.getPackage = x.1 ∧ GoNames asciiUnicode f) ∧
    packageOk x.1 (trees asciiUnicode x.2) = false := by
  intro x hx
  have key : ∀ x ∈ unclean, (∀ f ∈ x.2, f.getPackage = x.1 ∧ IsIdent f.getPackage ∧ ∀ m ∈ f.messageType.filterMap id, IsIdent m.getName ∧
      ∀ fd ∈ m.field.filterMap id, (1 ≤ getType (some fd) ∧ getType (some fd) ≠ 10 ∧ getType (some fd) ≤ 18) ∧
        IsIdent (toGoCase asciiUnicode (getName (some fd))) ∧ (getType (some fd) = 11 → IsIdent (fieldToGoTypeMessage (getTypeName (some fd)))) ∧
        0 ≤ (getNumber (some fd)).toInt ∧ (getNumber (some fd)).toInt < 2 ^ 31 - 1) := by
    set_option synthInstance.maxSize 1000 in
    set_option synthInstance.maxHeartbeats 200000 in
    decide +kernel
  have k1 := key x hx
  have k2 : ∀ x ∈ unclean, packageOk x.1 (trees asciiUnicode x.2) = false := by decide +kernel
  have k2 := k2 x hx
  have some_mem : ∀ {α : Type} {l : List (Option α)} {a : α}, some a ∈ l → a ∈ l.filterMap id := fun h => List.mem_filterMap.2 ⟨_, h, rfl⟩
  refine ⟨?_, ?_, k2⟩
  · rintro ⟨f, hf, m, hm, fd, hfd, _, h⟩
    have hf : f ∈ x.2 := by
      obtain ⟨g, hg, e⟩ := List.mem_filterMap.1 (List.mem_filter.1 hf).1
      obtain ⟨f', hf', rfl⟩ := List.mem_map.1 hg
      cases e
      exact hf'
    have := ((k1 f hf).2.2 m (some_mem hm)).2 fd (some_mem hfd)
    omega
  · intro f hf
    obtain ⟨a, b, c⟩ := k1 f hf
    exact ⟨a, b, fun m hm => (c m (some_mem hm)).1, fun m hm fd hfd _ => ((c m (some_mem hm)).2 fd (some_mem hfd)).2.1,
      fun m hm fd hfd => ((c m (some_mem hm)).2 fd (some_mem hfd)).2.2.1, fun m hm fd hfd => ((c m (some_mem hm)).2 fd (some_mem hfd)).2.2.2⟩

/-- C69: so are names that do not shadow what generated code uses: `Decode` of the message `error` returns the wrong type, the message `byte` is no element type
of `[]byte`, and in the package of a message `zeropb` the import is a second declaration of that name. -/
theorem C69_false_names : ∀ n ∈ [t!"error", t!"byte", t!"zeropb", t!"uint16", t!"len", t!"nil", t!"type", t!"_"],
    packageOk t!"x" (trees asciiUnicode [fileOf [(n, [(t!"a", 1, 1, 5, []), (t!"b", 2, 1, 11, t!".x." ++ n)])]]) = false := by
  decide +kernel

end Zeropb.GoSrc.E
