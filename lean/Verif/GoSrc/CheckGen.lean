import Verif.GoSrc.Check
import Verif.GoSrc.GenLookup
/-!
# Generated declarations pass the check

Each declaration of a package of generated files is correct if no name is declared twice and the message types exist.
-/

set_option linter.constructorNameAsVariable false
set_option maxRecDepth 4000

namespace Zeropb.GoSrc.G.Check
open Zeropb.Gen

theorem lookup_of {α β γ : Type} [BEq β] [LawfulBEq β] {g : α → Option (β × γ)} {l : List α} {a : α} {k : β} {v : γ} (ha : a ∈ l) (hg : g a = some (k, v))
    (hu : ∀ a' ∈ l, ∀ v', g a' = some (k, v') → v' = v) : (l.filterMap g).lookup k = some v := by
  induction l with
  | nil => cases ha
  | cons b l ih =>
    rw [List.filterMap_cons]
    have ih' := fun h => ih h (fun a' h' => hu a' (List.mem_cons_of_mem _ h'))
    cases hb : g b with
    | none =>
      rcases List.mem_cons.1 ha with rfl | ha
      · rw [hg] at hb; cases hb
      · exact ih' ha
    | some kv =>
      obtain ⟨k', v'⟩ := kv
      simp only [List.lookup_cons]
      cases hk : k == k' with
      | true =>
        have := eq_of_beq hk
        subst this
        exact congrArg some (hu b (by simp) v' hb)
      | false =>
        rcases List.mem_cons.1 ha with rfl | ha
        · rw [hg] at hb
          cases hb
          simp at hk
        · exact ih' ha

theorem lookup_none {α β γ : Type} [BEq β] [LawfulBEq β] {g : α → Option (β × γ)} {l : List α} {k : β}
    (hu : ∀ a ∈ l, ∀ v, g a ≠ some (k, v)) : (l.filterMap g).lookup k = none := by
  induction l with
  | nil => rfl
  | cons b l ih =>
    rw [List.filterMap_cons]
    have ih' := ih (fun a' h' => hu a' (List.mem_cons_of_mem _ h'))
    cases hb : g b with
    | none => exact ih'
    | some kv =>
      obtain ⟨k', v'⟩ := kv
      simp only [List.lookup_cons]
      cases hk : k == k' with
      | true =>
        have := eq_of_beq hk
        subst this
        exact absurd hb (hu b (by simp) v')
      | false => exact ih'

theorem lookup_mem {α β γ : Type} [BEq β] [LawfulBEq β] {g : α → Option (β × γ)} {l : List α} {k : β} {v : γ} (h : (l.filterMap g).lookup k = some v) :
    ∃ a ∈ l, g a = some (k, v) := by
  induction l with
  | nil => cases h
  | cons b l ih =>
    rw [List.filterMap_cons] at h
    cases hb : g b with
    | none =>
      rw [hb] at h
      obtain ⟨a, h1, h2⟩ := ih h
      exact ⟨a, List.mem_cons_of_mem _ h1, h2⟩
    | some kv =>
      obtain ⟨k', v'⟩ := kv
      rw [hb] at h
      simp only [List.lookup_cons] at h
      cases hk : k == k' with
      | true =>
        have := eq_of_beq hk
        subst this
        simp only [hk, Option.some.injEq] at h
        subst h
        exact ⟨b, by simp, hb⟩
      | false =>
        simp only [hk] at h
        obtain ⟨a, h1, h2⟩ := ih h
        exact ⟨a, List.mem_cons_of_mem _ h1, h2⟩

/-! ## Identifiers -/

theorem identifier_of {x : Text} (h : IsIdent x) : identifier x = true := by
  obtain ⟨⟨h1, h2⟩, h3, h4⟩ := h
  have hk : ∀ r ∈ keywords, r ∈ reserved := by decide
  have h5 : x ∉ keywords := fun h => h4 (hk x h)
  have h6 : x ≠ t!"_" := by rintro rfl; exact h4 (by decide)
  have h7 : x.isEmpty = false := by cases x with | nil => exact absurd rfl h1 | cons _ _ => rfl
  unfold identifier
  simp only [h7, h3, Bool.not_false, Bool.true_and, Bool.and_true, Bool.and_eq_true, List.all_eq_true, bne_iff_ne, ne_eq, Bool.not_eq_true',
    List.contains_eq_mem, decide_eq_false_iff_not]
  exact ⟨⟨h2, h5⟩, h6⟩

theorem identifier_prefix {a x : Text} (ha : a ∈ [t!"Set", t!"AppendTo", t!"repeatedFields_"]) (h : IsIdent x) : identifier (a ++ x) = true := by
  obtain ⟨⟨h1, h2⟩, h3, h4⟩ := h
  have key : ∀ a ∈ [t!"Set", t!"AppendTo", t!"repeatedFields_"], (∀ r ∈ keywords ++ [t!"_"], ¬ a <+: r) ∧ (∀ c ∈ a, isIdChar c = true) ∧
      a.isEmpty = false ∧ a.head?.all (fun x => !x.isDigit) = true := by decide
  obtain ⟨k1, k2, k3, k4⟩ := key a ha
  have h5 : a ++ x ∉ keywords := fun h => k1 _ (List.mem_append_left _ h) (List.prefix_append _ _)
  have h6 : a ++ x ≠ t!"_" := fun h => k1 _ (List.mem_append_right _ (List.mem_singleton.2 h)) (List.prefix_append _ _)
  cases a with
  | nil => cases k3
  | cons b a =>
    unfold identifier
    simp only [List.cons_append, List.isEmpty_cons, Bool.not_false, Bool.true_and, Bool.and_eq_true, List.all_eq_true, bne_iff_ne, ne_eq, Bool.not_eq_true',
      List.contains_eq_mem, decide_eq_false_iff_not]
    refine ⟨⟨⟨?_, k4⟩, h5⟩, h6⟩
    intro c hc
    rcases List.mem_append.1 (show c ∈ (b :: a) ++ x from hc) with hc | hc
    · exact k2 c hc
    · exact h2 c hc

/-! ## A package of generated declarations -/

/-- The declarations of the trees. -/
theorem filterMap_files {β : Type} (g : Top → Option β) (h1 : ∀ n, g (.package n) = none) (h2 : ∀ n, g (.importOne n) = none) (pkg : Text) (fss : List (List Decl)) :
    ((fss.map (fileAst pkg)).flatten).filterMap g = fss.flatten.filterMap (fun d => g (ast d)) := by
  induction fss with
  | nil => rfl
  | cons ds fss ih =>
    simp only [List.map_cons, List.flatten_cons, List.filterMap_append, ih, fileAst, List.filterMap_map, List.filterMap_cons, h1, h2,
      List.nil_append, List.cons_append]
    rfl

/-- What the check needs to know of the package: `p` has the declarations `ds`. -/
structure Scope (p : Decls) (ds : List Decl) : Prop where
  objs : p.filterMap objOf = ds.filterMap (fun d => objOf (ast d))
  unders : p.filterMap underOf = ds.filterMap (fun d => underOf (ast d))
  methods : p.filterMap methodOf = ds.filterMap (fun d => methodOf (ast d))
  names : ∀ d ∈ ds, Ok d
  once : (ds.map Decl.declares).Nodup

theorem objOf_declares {d : Decl} {x : Text} {o : Obj} (h : objOf (ast d) = some (x, o)) : d.declares = (none, x) := by
  cases d <;> simp only [ast, objOf, Option.some.injEq, Prod.mk.injEq, reduceCtorEq] at h <;> (obtain ⟨rfl, rfl⟩ := h; rfl)

theorem underOf_declares {d : Decl} {x : Text} {o : T} (h : underOf (ast d) = some (x, o)) : d.declares = (none, x) := by
  cases d <;> simp only [ast, underOf, Option.some.injEq, Prod.mk.injEq, reduceCtorEq] at h <;> (obtain ⟨rfl, rfl⟩ := h; rfl)

theorem methodOf_declares {d : Decl} {x y : Text} {f : Func} (h : methodOf (ast d) = some ((x, y), f)) : d.declares = (some x, y) := by
  cases d <;> simp only [ast, methodOf, Option.some.injEq, Prod.mk.injEq, reduceCtorEq] at h <;> (obtain ⟨⟨rfl, rfl⟩, rfl⟩ := h; rfl)

theorem repeatedFields_not {msg x : Text} (hx : x ∈ reserved) : t!"repeatedFields_" ++ msg ≠ x := by
  rintro rfl
  have : ∀ r ∈ reserved, ¬ t!"repeatedFields_" <+: r := by decide
  exact this _ hx (List.prefix_append _ _)

section
variable {p : Decls} {ds : List Decl} (hs : Scope p ds)
include hs

/-- Reserved names are not declared. -/
theorem Scope.free {x : Text} (hx : x ∈ reserved) : (p.filterMap objOf).lookup x = none := by
  rw [hs.objs]
  refine lookup_none (g := fun d => objOf (ast d)) ?_
  intro d hd o h
  have hok := hs.names d hd
  cases d <;> simp only [ast, objOf, Option.some.injEq, Prod.mk.injEq, reduceCtorEq] at h
  · exact hok.1.2.2 (h.1 ▸ hx)
  · exact repeatedFields_not hx h.1
  · exact hok.2.2 (h.1 ▸ hx)

theorem Scope.look_free {is : List Text} {x : Text} (hx : x ∈ reserved) : look p is x = if x ∈ is then some .pkg else universe_ x := by
  unfold look
  rw [hs.free hx]

/-- Declared names are found. -/
theorem Scope.look_obj {is : List Text} {d : Decl} (hd : d ∈ ds) {x : Text} {o : Obj} (h : objOf (ast d) = some (x, o)) : look p is x = some o := by
  unfold look
  rw [hs.objs, lookup_of (g := fun d => objOf (ast d)) hd h]
  intro d' hd' o' h'
  have : d' = d := inj_of_nodup_map hs.once hd' hd (by rw [objOf_declares h, objOf_declares h'])
  subst this
  rw [h] at h'
  cases h'
  rfl

theorem Scope.under_named {d : Decl} (hd : d ∈ ds) {x : Text} {t : T} (h : underOf (ast d) = some (x, t)) : under p (.named x) = some t := by
  unfold under
  simp only
  rw [hs.unders, lookup_of (g := fun d => underOf (ast d)) hd h]
  intro d' hd' o' h'
  have : d' = d := inj_of_nodup_map hs.once hd' hd (by rw [underOf_declares h, underOf_declares h'])
  subst this
  rw [h] at h'
  cases h'
  rfl

theorem Scope.method {d : Decl} (hd : d ∈ ds) {x y : Text} {f : Func} (h : methodOf (ast d) = some ((x, y), f)) : (p.filterMap methodOf).lookup (x, y) = some f := by
  rw [hs.methods, lookup_of (g := fun d => methodOf (ast d)) hd h]
  intro d' hd' o' h'
  have : d' = d := inj_of_nodup_map hs.once hd' hd (by rw [methodOf_declares h, methodOf_declares h'])
  subst this
  rw [h] at h'
  cases h'
  rfl

end

/-! ## Expressions and statements of generated methods -/

/-- `[]byte`. -/
abbrev bytesT : T := .slice (.basic t!"uint8")

/-- The type of a generated struct. -/
abbrev structT (k : Int) : T := .field t!"buf" bytesT (.field t!"offsets"
      (.field t!"a" (.array k (.basic t!"uint16")) (.field t!"m" (.map (.basic t!"int") (.basic t!"uint64")) .struct)) .struct)

abbrev zimp : List Text := [t!"zeropb"]

theorem look_local {p : Decls} {is : List Text} {bs : List (List (Text × T))} {x : Text} {t : T} (h : bs.flatten.lookup x = some t) :
    Env.look ⟨p, is, bs⟩ x = some (.var t) := by
  unfold Env.look
  simp only [h]

theorem look_outer {p : Decls} {is : List Text} {bs : List (List (Text × T))} {x : Text} (h : bs.flatten.lookup x = none) :
    Env.look ⟨p, is, bs⟩ x = look p is x := by
  unfold Env.look
  simp only [h]

section
variable {Γ : Env} {msg : Text} {k : Int}

theorem mbuf_ok (hm : Γ.look t!"m" = some (.var (.ptr (.named msg)))) (hu : under Γ.p (.named msg) = some (structT k)) :
    expr Γ mbuf = some ([bytesT], true) := by
  simp only [mbuf, expr, hm, one, hu, Option.bind_some]
  rfl

theorem wrap_ok (hm : Γ.look t!"m" = some (.var (.ptr (.named msg)))) (hu : under Γ.p (.named msg) = some (structT k)) (hz : Γ.look t!"zeropb" = some .pkg) :
    expr Γ wrap = some ([.imported t!"Offsets"], false) := by
  have ha : apiFunc t!"WrapOffsets" = some ⟨[.slice (.basic t!"uint16"), .ptr (.map (.basic t!"int") (.basic t!"uint64"))], [.imported t!"Offsets"]⟩ := by decide +kernel
  simp only [wrap, expr, hm, one, hu, hz, ha, Option.bind_some]
  rfl

end

/-- The environment of a method body with these parameters and variables. -/
abbrev env (p : Decls) (l : List (Text × T)) : Env := ⟨p, zimp, [l]⟩

theorem isSome_of {α : Type} {o : Option α} {a : α} (h : o = some a) : o.isSome = true := by rw [h]; rfl

theorem pkg_ok {Γ : Env} {f : Text} {es : Expr} {s : Sig} {ts : List T} {b : Bool} (hz : Γ.look t!"zeropb" = some .pkg) (ha : apiFunc f = some s)
    (he : expr Γ es = some (ts, b)) (hA : assignableAll Γ.p ts s.params = true) : expr Γ (.pkg f es) = some (s.results, false) := by
  simp only [expr, hz, ha, he, hA, if_true]

theorem args_ok {Γ : Env} {e es : Expr} {t : T} {ts : List T} {b b' : Bool} (h1 : expr Γ e = some ([t], b)) (h2 : expr Γ es = some (ts, b')) :
    expr Γ (.args e es) = some (t :: ts, false) := by
  simp only [expr, h1, h2, one]

theorem arg_ok {Γ : Env} {e : Expr} {t : T} {b : Bool} (h1 : expr Γ e = some ([t], b)) : expr Γ (.arg e) = some ([t], false) := by
  simp only [expr, h1, one, Option.map_some]

theorem id_ok {Γ : Env} {x : Text} {t : T} (h : Γ.look x = some (.var t)) : expr Γ (.id x) = some ([t], true) := by
  simp only [expr, h]

theorem addr_ok {Γ : Env} {e : Expr} {t : T} (h : expr Γ e = some ([t], true)) : expr Γ (.addr e) = some ([.ptr t], false) := by
  simp only [expr, h, one]

theorem num_ok {Γ : Env} {n : Int} : expr Γ (.num n) = some ([.constInt n], false) := rfl

theorem all_nil (p : Decls) : assignableAll p [] [] = true := rfl

theorem all_cons {p : Decls} {v t : T} {vs ts : List T} (h1 : assignable p v t = true) (h2 : assignableAll p vs ts = true) :
    assignableAll p (v :: vs) (t :: ts) = true := by
  simp only [assignableAll, Bool.and_eq_true, beq_iff_eq, List.length_cons, List.zip_cons_cons, List.all_cons, h1] at h2 ⊢
  exact ⟨by omega, trivial, h2.2⟩

theorem seq_ok {res : List T} {Γ Γ' Γ'' : Env} {s rest : Stmt} (h1 : stmt res Γ s = some Γ') (h2 : stmt res Γ' rest = some Γ'') :
    stmt res Γ (.seq s rest) = some Γ'' := by
  simp only [stmt, h1, h2]

theorem ret_ok {res vs : List T} {Γ : Env} {es : Expr} {b : Bool} (h : expr Γ es = some (vs, b)) (hA : assignableAll Γ.p vs res = true) :
    stmt res Γ (.ret es) = some Γ := by
  simp only [stmt, h, hA, if_true]

theorem exprPkg_ok {res : List T} {Γ : Env} {f : Text} {es : Expr} {r} (h : expr Γ (.pkg f es) = some r) : stmt res Γ (.expr (.pkg f es)) = some Γ := by
  simp only [stmt, h, Option.isSome_some, if_true]

theorem assign_ok {res : List T} {Γ : Env} {l e : Expr} {t v : T} {b : Bool} (h1 : expr Γ l = some ([t], true)) (h2 : expr Γ e = some ([v], b))
    (hA : assignable Γ.p v t = true) : stmt res Γ (.assign l e) = some Γ := by
  simp only [stmt, h1, h2, one, hA, if_true]

theorem define_ok {res : List T} {Γ Γ' : Env} {x : Text} {e : Expr} {t : T} {b : Bool} (h : expr Γ e = some ([t], b)) (ha : Γ.add x t = some Γ') :
    stmt res Γ (.define x e) = some Γ' := by
  simp only [stmt, h, one, ha]

theorem ite_ok {res : List T} {Γ Γ' : Env} {c : Expr} {t : Stmt} {b : Bool} (hc : expr Γ c = some ([.constBool], b))
    (ht : stmt res { Γ with blocks := [] :: Γ.blocks } t = some Γ') : stmt res Γ (.ite c t) = some Γ := by
  simp only [stmt, hc, one, ht]
  rfl

theorem eqNil_ok {Γ : Env} {e : Expr} {t u : T} {b : Bool} (h1 : expr Γ e = some ([t], b)) (hn : Γ.look t!"nil" = some (.const .nil)) (hu : under Γ.p t = some u)
    (ha : nilable u = true) : expr Γ (.eq e .nil) = some ([.constBool], false) := by
  simp only [expr, h1, hn, one, hu, Option.any_some, ha, if_true]

theorem nil_ok {Γ : Env} (hn : Γ.look t!"nil" = some (.const .nil)) : expr Γ .nil = some ([.nil], false) := by simp only [expr, hn]
theorem false_ok {Γ : Env} (hn : Γ.look t!"false" = some (.const .constBool)) : expr Γ .false_ = some ([.constBool], false) := by simp only [expr, hn]
theorem true_ok {Γ : Env} (hn : Γ.look t!"true" = some (.const .constBool)) : expr Γ .true_ = some ([.constBool], false) := by simp only [expr, hn]

theorem method_ok {Γ : Env} {e : Expr} {f : Text} {es : Expr} {t : T} {b b' : Bool} {ts : List T} {s : Sig} (h1 : expr Γ e = some ([t], b))
    (h2 : expr Γ es = some (ts, b')) (hm : methodSig Γ t b f = some s) (hA : assignableAll Γ.p ts s.params = true) :
    expr Γ (.method e f es) = some (s.results, false) := by
  simp only [expr, h1, h2, one, hm, hA, if_true]

theorem exprMethod_ok {res : List T} {Γ : Env} {e : Expr} {f : Text} {es : Expr} {r} (h : expr Γ (.method e f es) = some r) :
    stmt res Γ (.expr (.method e f es)) = some Γ := by
  simp only [stmt, h, Option.isSome_some, if_true]

theorem assignable_self (p : Decls) {t : T} (h : typed t = true) : assignable p t t = true := by
  cases t <;> simp_all [assignable, typed]

theorem assignable_int (p : Decls) {n : Int} (h0 : 0 ≤ n) (h1 : n < 2 ^ 31) : assignable p (.constInt n) (.basic t!"int") = true := by
  simp only [assignable, under, Option.any_some, representable]
  simp
  omega

/-! ## Methods -/

theorem funcOk_of {p : Decls} {is : List Text} {f : Func} {n : Text} {s : Sig} {t : T} (h1 : identifier f.name = true)
    (h2 : (f.recv.1 :: f.params.map (·.1) ++ locals f.body).all identifier = true) (h3 : (f.recv.1 :: f.params.map (·.1) ++ locals f.body).Nodup)
    (h4 : lookType p is f.recv.2 = some (.named n)) (h5 : sig p is f = some s) (h6 : under p (.named n) = some t) (h7 : (fieldNames t).contains f.name = false)
    (h8 : (stmt s.results ⟨p, is, [(f.recv.1, .ptr (.named n)) :: (f.params.map (·.1)).zip s.params]⟩ f.body).isSome = true)
    (h9 : (s.results.isEmpty || terminating f.body) = true) (h10 : (locals f.body).all (fun x => (usesIn f.body).contains x) = true) :
    funcOk p is f = true := by
  unfold funcOk
  rw [h1, h2, decide_eq_true h3, h4, h5, h10]
  simp only [h6, Option.any_some, h7, h8, h9]
  rfl

/-- Conversely. -/
theorem funcOk_elim {p : Decls} {is : List Text} {f : Func} (h : funcOk p is f = true) :
    ∃ n s, lookType p is f.recv.2 = some (.named n) ∧ sig p is f = some s ∧
      (stmt s.results ⟨p, is, [(f.recv.1, .ptr (.named n)) :: (f.params.map (·.1)).zip s.params]⟩ f.body).isSome = true := by
  unfold funcOk at h
  simp only [Bool.and_eq_true] at h
  obtain ⟨⟨_, h⟩, _⟩ := h
  split at h
  next n s e1 e2 =>
    simp only [Bool.and_eq_true] at h
    exact ⟨n, s, e1, e2, h.1.2⟩
  · cases h

section
variable {p : Decls} {ds : List Decl} (hs : Scope p ds)
include hs

theorem Scope.zeropb : look p zimp t!"zeropb" = some .pkg := by rw [hs.look_free (by decide)]; rfl

theorem Scope.lookType_msg {msg : Text} {k : Int} (h : Decl.struct msg k ∈ ds) : lookType p zimp msg = some (.named msg) := by
  unfold lookType
  rw [hs.look_obj h rfl]

theorem Scope.lookType_iter {it : Text} (h : Decl.iterType it ∈ ds) : lookType p zimp it = some (.named it) := by
  unfold lookType
  rw [hs.look_obj h rfl]

theorem Scope.under_msg {msg : Text} {k : Int} (h : Decl.struct msg k ∈ ds) : under p (.named msg) = some (structT k) := hs.under_named h rfl

theorem Scope.under_iter {it : Text} (h : Decl.iterType it ∈ ds) : under p (.named it) = some bytesT := hs.under_named h rfl

theorem Scope.lookType_basic {x : Text} (hx : x ∈ basics) (hr : x ∈ reserved) : lookType p zimp x = some (.basic x) := by
  unfold lookType
  rw [hs.look_free hr]
  have : ∀ x ∈ basics, x ∉ zimp := by decide
  rw [if_neg (this x hx)]
  simp only [universe_, if_pos hx]

theorem Scope.lookType_byte : lookType p zimp t!"byte" = some (.basic t!"uint8") := by
  unfold lookType
  rw [hs.look_free (by decide)]
  rfl

theorem Scope.ty_bytes : ty p zimp .bytes = some bytesT := by
  simp only [ty, hs.lookType_byte, Option.map_some]

theorem Scope.lookType_bool : lookType p zimp t!"bool" = some (.basic t!"bool") := hs.lookType_basic (by decide) (by decide)
theorem Scope.lookType_error : lookType p zimp t!"error" = some (.basic t!"error") := hs.lookType_basic (by decide) (by decide)
theorem Scope.ty_bool : ty p zimp (.name t!"bool") = some (.basic t!"bool") := hs.lookType_basic (by decide) (by decide)
theorem Scope.ty_error : ty p zimp (.name t!"error") = some (.basic t!"error") := hs.lookType_basic (by decide) (by decide)

theorem Scope.encode_ok {msg : Text} {k : Int} (h : Decl.struct msg k ∈ ds) : funcOk p zimp (srcEncode msg) = true := by
  refine funcOk_of (n := msg) (s := ⟨[], [bytesT]⟩) rfl rfl (by simp [srcEncode, block, locals]) (hs.lookType_msg h) ?_ (hs.under_msg h) rfl ?_ rfl rfl
  · simp [sig, srcEncode, hs.ty_bytes]
  · have hm := mbuf_ok (Γ := ⟨p, zimp, [[(t!"m", .ptr (.named msg))]]⟩) (look_local rfl) (hs.under_msg h)
    simp only [srcEncode, block, stmt, expr]
    simp [hm, one, assignableAll, assignable_self p (t := bytesT) rfl]

theorem Scope.decode_sig {msg : Text} : sig p zimp (srcDecode msg) = some ⟨[bytesT], [.basic t!"error"]⟩ := by
  simp [sig, srcDecode, hs.ty_bytes, hs.ty_error]

theorem Scope.encode_sig {msg : Text} : sig p zimp (srcEncode msg) = some ⟨[], [bytesT]⟩ := by
  simp [sig, srcEncode, hs.ty_bytes]

theorem Scope.decode_ok {msg : Text} {k : Int} {nums : List Int} (h : Decl.struct msg k ∈ ds) (hr : Decl.repeatedTable msg nums ∈ ds) :
    funcOk p zimp (srcDecode msg) = true := by
  refine funcOk_of (n := msg) (s := ⟨[bytesT], [.basic t!"error"]⟩) rfl rfl (by simp [srcDecode, block, locals]) (hs.lookType_msg h) hs.decode_sig
    (hs.under_msg h) rfl ?_ rfl rfl
  have l0 : Env.look (env p [(t!"m", .ptr (.named msg)), (t!"buf", bytesT)]) t!"m" = some (.var (.ptr (.named msg))) := look_local rfl
  have l1 : Env.look (env p [(t!"m", .ptr (.named msg)), (t!"buf", bytesT)]) t!"zeropb" = some .pkg := (look_outer rfl).trans hs.zeropb
  have l2 : Env.look (env p [(t!"m", .ptr (.named msg)), (t!"buf", bytesT)]) (t!"repeatedFields_" ++ msg) = some (.var (.imported t!"RepeatedFields")) :=
    (look_outer rfl).trans (hs.look_obj hr rfl)
  have hm := mbuf_ok l0 (hs.under_msg h)
  have hw := wrap_ok l0 (hs.under_msg h) l1
  have hb := id_ok (Γ := (env p [(t!"m", .ptr (.named msg)), (t!"buf", bytesT)])) (x := t!"buf") (t := bytesT) (look_local rfl)
  have ha : apiFunc t!"Decode" = some ⟨[bytesT, .imported t!"Offsets", .imported t!"RepeatedFields"], [.basic t!"error"]⟩ := by decide +kernel
  refine isSome_of (a := env p [(t!"m", .ptr (.named msg)), (t!"buf", bytesT)]) ?_
  refine seq_ok (assign_ok hm hb (assignable_self p rfl)) (seq_ok (ret_ok (arg_ok (pkg_ok l1 ha (args_ok hm (args_ok hw (arg_ok (id_ok l2)))) ?_)) ?_) rfl)
  · exact all_cons (assignable_self p rfl) (all_cons (assignable_self p rfl) (all_cons (assignable_self p rfl) (all_nil p)))
  · exact all_cons (assignable_self p rfl) (all_nil p)

theorem Scope.reset_ok {msg : Text} {k : Int} (h : Decl.struct msg k ∈ ds) : funcOk p zimp (srcReset msg) = true := by
  refine funcOk_of (n := msg) (s := ⟨[bytesT], []⟩) rfl rfl (by simp [srcReset, block, locals]) (hs.lookType_msg h) (by simp [sig, srcReset, hs.ty_bytes])
    (hs.under_msg h) rfl ?_ rfl rfl
  have l0 : Env.look (env p [(t!"m", .ptr (.named msg)), (t!"buf", bytesT)]) t!"m" = some (.var (.ptr (.named msg))) := look_local rfl
  have l1 : Env.look (env p [(t!"m", .ptr (.named msg)), (t!"buf", bytesT)]) t!"zeropb" = some .pkg := (look_outer rfl).trans hs.zeropb
  have l2 : Env.look (env p [(t!"m", .ptr (.named msg)), (t!"buf", bytesT)]) t!"len" = some .builtin := (look_outer rfl).trans ((hs.look_free (by decide)).trans rfl)
  have l3 : Env.look ⟨p, zimp, [[], [(t!"m", .ptr (.named msg)), (t!"buf", bytesT)]]⟩ t!"panic" = some .builtin :=
    (look_outer rfl).trans ((hs.look_free (by decide)).trans rfl)
  have hm := mbuf_ok l0 (hs.under_msg h)
  have hw := wrap_ok l0 (hs.under_msg h) l1
  have hb := id_ok (Γ := (env p [(t!"m", .ptr (.named msg)), (t!"buf", bytesT)])) (x := t!"buf") (t := bytesT) (look_local rfl)
  have ha : apiMethod t!"Offsets" t!"Clear" = some ⟨[], []⟩ := by decide +kernel
  refine isSome_of (a := env p [(t!"m", .ptr (.named msg)), (t!"buf", bytesT)]) ?_
  refine seq_ok ?_ (seq_ok (assign_ok hm hb (assignable_self p rfl)) (seq_ok ?_ rfl))
  · refine ite_ok (b := false) ?_ (Γ' := ⟨p, zimp, [[], [(t!"m", .ptr (.named msg)), (t!"buf", bytesT)]]⟩) ?_
    · show expr (env p [(t!"m", .ptr (.named msg)), (t!"buf", bytesT)]) _ = _
      simp only [expr, l2, one, under]
      rw [look_local rfl]
      rfl
    · show stmt [] ⟨p, zimp, [[], [(t!"m", .ptr (.named msg)), (t!"buf", bytesT)]]⟩ _ = _
      simp only [block, stmt, l3, if_true]
  · exact exprMethod_ok (method_ok hw rfl ha rfl)

/-! ### Scalar fields -/

/-- The type of the values of a field type. -/
def kindT : Kind → T
  | .bytes => bytesT
  | k => .basic (Kind.goType k)

omit hs in
theorem api_get (k : Kind) : apiFunc (t!"Get" ++ Kind.fn k) = some ⟨[bytesT, .imported t!"Offsets", .basic t!"int"], [kindT k]⟩ := by
  cases k <;> decide +kernel

omit hs in
theorem api_set (k : Kind) : apiFunc (t!"Set" ++ Kind.fn k) = some ⟨[.ptr bytesT, .imported t!"Offsets", .basic t!"int", kindT k], []⟩ := by
  cases k <;> decide +kernel

theorem Scope.ty_kind (k : Kind) : ty p zimp (scalarTy (Kind.goType k)) = some (kindT k) := by
  cases k
  case bytes => exact hs.ty_bytes
  all_goals exact hs.lookType_basic (by decide) (by decide)

omit hs in
theorem kind_typed (k : Kind) : typed (kindT k) = true := by cases k <;> rfl

omit hs in
theorem not_field {k : Int} {name : Text} (h : name ≠ t!"buf" ∧ name ≠ t!"offsets") : (fieldNames (structT k)).contains name = false := by
  simp only [fieldNames, List.contains_eq_mem, decide_eq_false_iff_not, List.mem_cons, List.not_mem_nil, or_false, not_or]
  exact h

theorem Scope.get_ok {msg name : Text} {k : Int} {K : Kind} {n : Int} (h : Decl.struct msg k ∈ ds) (hi : IsIdent name) (hf : name ≠ t!"buf" ∧ name ≠ t!"offsets")
    (h0 : 0 ≤ n) (h1 : n < 2 ^ 31) : funcOk p zimp (srcGet msg name (Kind.goType K) (Kind.fn K) n) = true := by
  refine funcOk_of (n := msg) (s := ⟨[], [kindT K]⟩) (identifier_of hi) rfl (by simp [srcGet, block, locals]) (hs.lookType_msg h) (by simp [sig, srcGet, hs.ty_kind])
    (hs.under_msg h) (not_field hf) ?_ rfl rfl
  have l0 : Env.look (env p [(t!"m", .ptr (.named msg))]) t!"m" = some (.var (.ptr (.named msg))) := look_local rfl
  have l1 : Env.look (env p [(t!"m", .ptr (.named msg))]) t!"zeropb" = some .pkg := (look_outer rfl).trans hs.zeropb
  have hm := mbuf_ok l0 (hs.under_msg h)
  have hw := wrap_ok l0 (hs.under_msg h) l1
  refine isSome_of (a := env p [(t!"m", .ptr (.named msg))]) ?_
  refine seq_ok (ret_ok (arg_ok (pkg_ok l1 (api_get K) (args_ok hm (args_ok hw (arg_ok num_ok))) ?_)) ?_) rfl
  · exact all_cons (assignable_self p rfl) (all_cons (assignable_self p rfl) (all_cons (assignable_int p h0 h1) (all_nil p)))
  · exact all_cons (assignable_self p (kind_typed K)) (all_nil p)

omit hs in
theorem prefix_not_field {a name : Text} (ha : a ∈ [t!"Set", t!"AppendTo"]) : a ++ name ≠ t!"buf" ∧ a ++ name ≠ t!"offsets" := by
  have key : ∀ a ∈ [t!"Set", t!"AppendTo"], ¬ a <+: t!"buf" ∧ ¬ a <+: t!"offsets" := by decide
  exact ⟨fun h => (key a ha).1 (h ▸ List.prefix_append _ _), fun h => (key a ha).2 (h ▸ List.prefix_append _ _)⟩

theorem Scope.set_ok {msg name : Text} {k : Int} {K : Kind} {n : Int} (h : Decl.struct msg k ∈ ds) (hi : IsIdent name)
    (h0 : 0 ≤ n) (h1 : n < 2 ^ 31) : funcOk p zimp (srcSet msg name (Kind.goType K) (Kind.fn K) n) = true := by
  refine funcOk_of (n := msg) (s := ⟨[kindT K], []⟩) (identifier_prefix (by decide) hi) rfl (by simp [srcSet, block, locals]) (hs.lookType_msg h)
    (by simp [sig, srcSet, hs.ty_kind]) (hs.under_msg h) (not_field (prefix_not_field (by decide))) ?_ rfl rfl
  have l0 : Env.look (env p [(t!"m", .ptr (.named msg)), (t!"x", kindT K)]) t!"m" = some (.var (.ptr (.named msg))) := look_local rfl
  have l1 : Env.look (env p [(t!"m", .ptr (.named msg)), (t!"x", kindT K)]) t!"zeropb" = some .pkg := (look_outer rfl).trans hs.zeropb
  have l2 : Env.look (env p [(t!"m", .ptr (.named msg)), (t!"x", kindT K)]) t!"x" = some (.var (kindT K)) := look_local rfl
  have hm := mbuf_ok l0 (hs.under_msg h)
  have hw := wrap_ok l0 (hs.under_msg h) l1
  refine isSome_of (a := env p [(t!"m", .ptr (.named msg)), (t!"x", kindT K)]) ?_
  refine seq_ok (exprPkg_ok (pkg_ok l1 (api_set K) (args_ok (addr_ok hm) (args_ok hw (args_ok num_ok (arg_ok (id_ok l2))))) ?_)) rfl
  exact all_cons (assignable_self p rfl) (all_cons (assignable_self p rfl) (all_cons (assignable_int p h0 h1) (all_cons (assignable_self p (kind_typed K)) (all_nil p))))

/-! ### Message fields -/

/-- `if buf == nil { return false, nil }` -/
theorem Scope.ifNil_ok {l : List (Text × T)} (hb : l.lookup t!"buf" = some bytesT) (h1 : l.lookup t!"nil" = none) (h2 : l.lookup t!"false" = none) :
    stmt [.basic t!"bool", .basic t!"error"] (env p l) ifNil = some (env p l) := by
  have hf : [l].flatten = l := by simp
  have l0 : Env.look (env p l) t!"buf" = some (.var bytesT) := look_local (by rw [hf]; exact hb)
  have l1 : Env.look (env p l) t!"nil" = some (.const .nil) := (look_outer (by rw [hf]; exact h1)).trans ((hs.look_free (by decide)).trans rfl)
  have l2 : Env.look ⟨p, zimp, [[], l]⟩ t!"nil" = some (.const .nil) := (look_outer (by simp [h1])).trans ((hs.look_free (by decide)).trans rfl)
  have l3 : Env.look ⟨p, zimp, [[], l]⟩ t!"false" = some (.const .constBool) := (look_outer (by simp [h2])).trans ((hs.look_free (by decide)).trans rfl)
  exact ite_ok (eqNil_ok (id_ok l0) l1 rfl rfl) (seq_ok (ret_ok (args_ok (false_ok l3) (arg_ok (nil_ok l2))) rfl) rfl)

/-- `return true, x.Decode(buf)` -/
theorem Scope.retDecode_ok {l : List (Text × T)} {x typ : Text} (hb : l.lookup t!"buf" = some bytesT) (hx : l.lookup x = some (.ptr (.named typ)))
    (h2 : l.lookup t!"true" = none) (hd : Decl.decode typ ∈ ds) :
    stmt [.basic t!"bool", .basic t!"error"] (env p l) (retDecode x) = some (env p l) := by
  have hf : [l].flatten = l := by simp
  have l0 : Env.look (env p l) t!"buf" = some (.var bytesT) := look_local (by rw [hf]; exact hb)
  have l1 : Env.look (env p l) x = some (.var (.ptr (.named typ))) := look_local (by rw [hf]; exact hx)
  have l3 : Env.look (env p l) t!"true" = some (.const .constBool) := (look_outer (by rw [hf]; exact h2)).trans ((hs.look_free (by decide)).trans rfl)
  have hm : methodSig (env p l) (.ptr (.named typ)) true t!"Decode" = some ⟨[bytesT], [.basic t!"error"]⟩ := by
    simp only [methodSig]
    rw [hs.method (x := typ) (y := t!"Decode") hd rfl]
    exact hs.decode_sig
  refine ret_ok (args_ok (true_ok l3) (arg_ok (method_ok (id_ok l1) (arg_ok (id_ok l0)) hm ?_))) ?_
  · exact all_cons (assignable_self p rfl) (all_nil p)
  · exact all_cons rfl (all_cons (assignable_self p rfl) (all_nil p))

theorem Scope.getMessage_ok {msg name typ : Text} {k k' : Int} {n : Int} (h : Decl.struct msg k ∈ ds) (hi : IsIdent name) (hf : name ≠ t!"buf" ∧ name ≠ t!"offsets")
    (h0 : 0 ≤ n) (h1 : n < 2 ^ 31) (ht : Decl.struct typ k' ∈ ds) (hd : Decl.decode typ ∈ ds) : funcOk p zimp (srcGetMessage msg name typ n) = true := by
  refine funcOk_of (n := msg) (s := ⟨[.ptr (.named typ)], [.basic t!"bool", .basic t!"error"]⟩) (identifier_of hi) rfl
    (by simp [srcGetMessage, block, locals, ifNil, retDecode]) (hs.lookType_msg h)
    (by simp [sig, srcGetMessage, ty, hs.lookType_bool, hs.lookType_error, hs.lookType_msg ht]) (hs.under_msg h) (not_field hf) ?_ rfl rfl
  have l0 : Env.look (env p [(t!"m", .ptr (.named msg)), (t!"x", .ptr (.named typ))]) t!"m" = some (.var (.ptr (.named msg))) := look_local rfl
  have l1 : Env.look (env p [(t!"m", .ptr (.named msg)), (t!"x", .ptr (.named typ))]) t!"zeropb" = some .pkg := (look_outer rfl).trans hs.zeropb
  have hm := mbuf_ok l0 (hs.under_msg h)
  have hw := wrap_ok l0 (hs.under_msg h) l1
  refine isSome_of (a := env p [(t!"buf", bytesT), (t!"m", .ptr (.named msg)), (t!"x", .ptr (.named typ))]) ?_
  refine seq_ok (define_ok (pkg_ok l1 (api_get .bytes) (args_ok hm (args_ok hw (arg_ok num_ok))) ?_) rfl)
    (seq_ok (hs.ifNil_ok rfl rfl rfl) (seq_ok (hs.retDecode_ok rfl rfl rfl hd) rfl))
  exact all_cons (assignable_self p rfl) (all_cons (assignable_self p rfl) (all_cons (assignable_int p h0 h1) (all_nil p)))

/-- The body of setters of message fields and of `AppendTo`. -/
theorem Scope.store_ok {msg typ fn : Text} {k : Int} {n : Int} (h : Decl.struct msg k ∈ ds)
    (h0 : 0 ≤ n) (h1 : n < 2 ^ 31) (hd : Decl.encode typ ∈ ds)
    (ha : apiFunc fn = some ⟨[.ptr bytesT, .imported t!"Offsets", .basic t!"int", bytesT], []⟩) :
    (stmt [] (env p [(t!"m", .ptr (.named msg)), (t!"x", .named typ)]) (block [.define t!"buf" (.method (.id t!"x") t!"Encode" .noArgs),
      .expr (.pkg fn (.args (.addr mbuf) (.args wrap (.args (.num n) (.arg (.id t!"buf"))))))])).isSome = true := by
  have l2 : Env.look (env p [(t!"m", .ptr (.named msg)), (t!"x", .named typ)]) t!"x" = some (.var (.named typ)) := look_local rfl
  have l0 : Env.look (env p [(t!"buf", bytesT), (t!"m", .ptr (.named msg)), (t!"x", .named typ)]) t!"m" = some (.var (.ptr (.named msg))) := look_local rfl
  have l1 : Env.look (env p [(t!"buf", bytesT), (t!"m", .ptr (.named msg)), (t!"x", .named typ)]) t!"zeropb" = some .pkg := (look_outer rfl).trans hs.zeropb
  have l3 : Env.look (env p [(t!"buf", bytesT), (t!"m", .ptr (.named msg)), (t!"x", .named typ)]) t!"buf" = some (.var bytesT) := look_local rfl
  have hm := mbuf_ok l0 (hs.under_msg h)
  have hw := wrap_ok l0 (hs.under_msg h) l1
  have hM : methodSig (env p [(t!"m", .ptr (.named msg)), (t!"x", .named typ)]) (.named typ) true t!"Encode" = some ⟨[], [bytesT]⟩ := by
    simp only [methodSig, if_true]
    rw [hs.method (x := typ) (y := t!"Encode") hd rfl]
    exact hs.encode_sig
  refine isSome_of (a := env p [(t!"buf", bytesT), (t!"m", .ptr (.named msg)), (t!"x", .named typ)]) ?_
  refine seq_ok (define_ok (method_ok (id_ok l2) rfl hM rfl) rfl)
    (seq_ok (exprPkg_ok (pkg_ok l1 ha (args_ok (addr_ok hm) (args_ok hw (args_ok num_ok (arg_ok (id_ok l3))))) ?_)) rfl)
  exact all_cons (assignable_self p rfl) (all_cons (assignable_self p rfl) (all_cons (assignable_int p h0 h1) (all_cons (assignable_self p rfl) (all_nil p))))

theorem Scope.setMessage_ok {msg name typ : Text} {k k' : Int} {n : Int} (h : Decl.struct msg k ∈ ds) (hi : IsIdent name)
    (h0 : 0 ≤ n) (h1 : n < 2 ^ 31) (ht : Decl.struct typ k' ∈ ds) (hd : Decl.encode typ ∈ ds) : funcOk p zimp (srcSetMessage msg name typ n) = true :=
  funcOk_of (n := msg) (s := ⟨[.named typ], []⟩) (identifier_prefix (by decide) hi) rfl (by simp [srcSetMessage, block, locals]) (hs.lookType_msg h)
    (by simp [sig, srcSetMessage, ty, hs.lookType_msg ht]) (hs.under_msg h) (not_field (prefix_not_field (by decide)))
    (hs.store_ok h h0 h1 hd (api_set .bytes)) rfl rfl

theorem Scope.appendTo_ok {msg name typ : Text} {k k' : Int} {n : Int} (h : Decl.struct msg k ∈ ds) (hi : IsIdent name)
    (h0 : 0 ≤ n) (h1 : n < 2 ^ 31) (ht : Decl.struct typ k' ∈ ds) (hd : Decl.encode typ ∈ ds) : funcOk p zimp (srcAppendTo msg name typ n) = true :=
  funcOk_of (n := msg) (s := ⟨[.named typ], []⟩) (identifier_prefix (by decide) hi) rfl (by simp [srcAppendTo, block, locals]) (hs.lookType_msg h)
    (by simp [sig, srcAppendTo, ty, hs.lookType_msg ht]) (hs.under_msg h) (not_field (prefix_not_field (by decide)))
    (hs.store_ok h h0 h1 hd (by decide +kernel)) rfl rfl

theorem Scope.next_ok {it typ : Text} {k' : Int} {n : Int} (h : Decl.iterType it ∈ ds) (h0 : 0 ≤ n) (h1 : n < 2 ^ 31) (ht : Decl.struct typ k' ∈ ds)
    (hd : Decl.decode typ ∈ ds) : funcOk p zimp (srcNext it typ n) = true := by
  refine funcOk_of (n := it) (s := ⟨[.ptr (.named typ)], [.basic t!"bool", .basic t!"error"]⟩) rfl rfl
    (by simp [srcNext, block, locals, ifNil, retDecode]) (hs.lookType_iter h)
    (by simp [sig, srcNext, ty, hs.lookType_bool, hs.lookType_error, hs.lookType_msg ht]) (hs.under_iter h) rfl ?_ rfl rfl
  have l1 : Env.look (env p [(t!"buf", bytesT), (t!"i", .ptr (.named it)), (t!"m", .ptr (.named typ))]) t!"zeropb" = some .pkg := (look_outer rfl).trans hs.zeropb
  have l2 : Env.look (env p [(t!"buf", bytesT), (t!"i", .ptr (.named it)), (t!"m", .ptr (.named typ))]) t!"i" = some (.var (.ptr (.named it))) := look_local rfl
  have l3 : Env.look (env p [(t!"buf", bytesT), (t!"i", .ptr (.named it)), (t!"m", .ptr (.named typ))]) t!"buf" = some (.var bytesT) := look_local rfl
  have l4 : Env.look (env p [(t!"i", .ptr (.named it)), (t!"m", .ptr (.named typ))]) t!"byte" = some (.type (.basic t!"uint8")) :=
    (look_outer rfl).trans ((hs.look_free (by decide)).trans rfl)
  have ha : apiFunc t!"FindNextField" = some ⟨[bytesT, .basic t!"int"], [bytesT, bytesT]⟩ := by decide +kernel
  have hi : expr (env p [(t!"buf", bytesT), (t!"i", .ptr (.named it)), (t!"m", .ptr (.named typ))]) (.star (.id t!"i")) = some ([.named it], true) := by
    simp only [expr, l2, one]
  have hu := hs.under_iter h
  have a1 : assignable p bytesT (.named it) = true := by simp only [assignable, hu, hasName]; rfl
  have a2 : assignable p (.named it) bytesT = true := by simp only [assignable, hu, hasName]; simp [under]
  have hc := pkg_ok (es := .args (.paren (.star (.id t!"i"))) (.arg (.num n))) l1 ha (args_ok (e := .paren (.star (.id t!"i"))) hi (arg_ok num_ok))
    (all_cons a2 (all_cons (assignable_int p h0 h1) (all_nil p)))
  refine isSome_of (a := env p [(t!"buf", bytesT), (t!"i", .ptr (.named it)), (t!"m", .ptr (.named typ))]) ?_
  refine seq_ok (Γ' := env p [(t!"buf", bytesT), (t!"i", .ptr (.named it)), (t!"m", .ptr (.named typ))]) ?_
    (seq_ok ?_ (seq_ok (hs.ifNil_ok rfl rfl rfl) (seq_ok (hs.retDecode_ok rfl rfl rfl hd) rfl)))
  · show stmt _ (env p [(t!"i", .ptr (.named it)), (t!"m", .ptr (.named typ))]) _ = _
    simp only [stmt, l4]
    rfl
  · simp only [stmt, hi, id_ok l3, hc, one, a1, assignable_self p (t := bytesT) rfl]
    rfl

theorem Scope.getRepeated_ok {msg name it : Text} {k : Int} {n : Int} (h : Decl.struct msg k ∈ ds) (hi : IsIdent name) (hf : name ≠ t!"buf" ∧ name ≠ t!"offsets")
    (h0 : 0 ≤ n) (h1 : n < 2 ^ 31) (ht : Decl.iterType it ∈ ds) (hit : it ≠ t!"m") : funcOk p zimp (srcGetRepeated msg name it n) = true := by
  refine funcOk_of (n := msg) (s := ⟨[], [.named it]⟩) (identifier_of hi) rfl (by simp [srcGetRepeated, block, locals]) (hs.lookType_msg h)
    (by simp [sig, srcGetRepeated, ty, hs.lookType_iter ht]) (hs.under_msg h) (not_field hf) ?_ rfl rfl
  have l0 : Env.look (env p [(t!"m", .ptr (.named msg))]) t!"m" = some (.var (.ptr (.named msg))) := look_local rfl
  have l1 : Env.look (env p [(t!"m", .ptr (.named msg))]) t!"zeropb" = some .pkg := (look_outer rfl).trans hs.zeropb
  have l2 : Env.look (env p [(t!"m", .ptr (.named msg))]) it = some (.type (.named it)) :=
    (look_outer (by have : (it == t!"m") = false := beq_eq_false_iff_ne.2 hit
                    simp [List.lookup_cons, this])).trans (hs.look_obj ht rfl)
  have hm := mbuf_ok l0 (hs.under_msg h)
  have hw := wrap_ok l0 (hs.under_msg h) l1
  have ha : apiFunc t!"GetRepeatedNonPacked" = some ⟨[bytesT, .imported t!"Offsets", .basic t!"int"], [bytesT]⟩ := by decide +kernel
  have hu := hs.under_iter ht
  have a1 : assignable p bytesT (.named it) = true := by simp only [assignable, hu, hasName]; rfl
  have hc := pkg_ok (es := .args mbuf (.args wrap (.arg (.num n)))) l1 ha (args_ok hm (args_ok hw (arg_ok num_ok)))
    (all_cons (assignable_self p rfl) (all_cons (assignable_self p rfl) (all_cons (assignable_int p h0 h1) (all_nil p))))
  have hv : expr (env p [(t!"m", .ptr (.named msg))]) (.conv it (.pkg t!"GetRepeatedNonPacked" (.args mbuf (.args wrap (.arg (.num n)))))) = some ([.named it], false) := by
    rw [expr, l2, hc]
    simp only [one, convertible, a1]
    rfl
  refine isSome_of (a := env p [(t!"m", .ptr (.named msg))]) ?_
  exact seq_ok (ret_ok (arg_ok hv) (all_cons (assignable_self p rfl) (all_nil p))) rfl

end

end Zeropb.GoSrc.G.Check
