import Verif.GoSrc.GenText
import Verif.GoSrc.GenSem
/-!
# Names in a package of generated files

In a package whose files declare each name once, every method, type and variable is found.
-/

set_option linter.constructorNameAsVariable false

namespace Zeropb.GoSrc.G
open Zeropb.Gen

/-- `p` is a Go package with the declarations `ds`: one or more generated files of one package, each with its package clause and
import; names are identifiers, and no name is declared twice. -/
structure Package (p : Program) (ds : List Decl) : Prop where
  files : ∃ (pkg : Text) (fss : List (List Decl)), p = fss.flatMap (fileAst pkg) ∧ ds = fss.flatten
  names : ∀ d ∈ ds, Ok d
  once : (ds.map Decl.declares).Nodup

theorem findSome_of {α β : Type} {f : α → Option β} {y : β} {l : List α} {x : α} (hx : x ∈ l) (hf : f x = some y)
    (hu : ∀ x' ∈ l, ∀ z, f x' = some z → z = y) : l.findSome? f = some y := by
  induction l with
  | nil => cases hx
  | cons a l ih =>
    rw [List.findSome?_cons]
    cases ha : f a with
    | some z => exact congrArg some (hu a (by simp) z ha)
    | none =>
      rcases List.mem_cons.1 hx with rfl | hx
      · rw [hf] at ha; cases ha
      · exact ih hx (fun x' h => hu x' (List.mem_cons_of_mem _ h))

theorem inj_of_nodup_map {α β : Type} {f : α → β} {l : List α} (h : (l.map f).Nodup) {a b : α} (ha : a ∈ l) (hb : b ∈ l) (he : f a = f b) : a = b := by
  induction l with
  | nil => cases ha
  | cons c l ih =>
    rw [List.map_cons, List.nodup_cons] at h
    rcases List.mem_cons.1 ha with ha | ha
    · rcases List.mem_cons.1 hb with hb | hb
      · exact ha.trans hb.symm
      · exact absurd (List.mem_map.2 ⟨b, hb, by rw [← he, ha]⟩) h.1
    · rcases List.mem_cons.1 hb with hb | hb
      · exact absurd (List.mem_map.2 ⟨a, ha, by rw [he, hb]⟩) h.1
      · exact ih h.2 ha hb

/-- What a package consists of. -/
theorem Package.mem {p : Program} {ds : List Decl} (h : Package p ds) :
    (∀ t, t ∈ p → (∃ d ∈ ds, t = ast d) ∨ (∃ n, t = .package n) ∨ ∃ n, t = .importOne n) ∧ ∀ d ∈ ds, ast d ∈ p := by
  obtain ⟨pkg, fss, rfl, rfl⟩ := h.files
  constructor
  · intro t ht
    obtain ⟨fs, hfs, ht⟩ := List.mem_flatMap.1 ht
    rcases List.mem_append.1 ht with ht | ht
    · simp only [List.mem_cons, List.not_mem_nil, or_false] at ht
      rcases ht with ht | ht
      · exact Or.inr (Or.inl ⟨_, ht⟩)
      · exact Or.inr (Or.inr ⟨_, ht⟩)
    · obtain ⟨d, hd, rfl⟩ := List.mem_map.1 ht
      exact Or.inl ⟨d, List.mem_flatten.2 ⟨fs, hfs, hd⟩, rfl⟩
  · intro d hd
    obtain ⟨fs, hfs, hd⟩ := List.mem_flatten.1 hd
    exact List.mem_flatMap.2 ⟨fs, hfs, List.mem_append_right _ (List.mem_map.2 ⟨d, hd, rfl⟩)⟩

theorem ast_func {d : Decl} {g : Func} (h : ast d = .func g) : d.declares = (some g.recv.2, g.name) := by
  cases d <;> simp only [ast, Top.func.injEq, reduceCtorEq] at h <;> subst h <;> rfl

theorem ast_repeated {d : Decl} {x : Text} {nums : List Int} (h : ast d = .repeated x nums) : d.declares = (none, x) := by
  cases d <;> simp only [ast, Top.repeated.injEq, reduceCtorEq] at h
  obtain ⟨rfl, rfl⟩ := h
  rfl

theorem ast_struct {d : Decl} {x : Text} {n : Int} (h : ast d = .struct x n) : d = .struct x n := by
  cases d <;> simp only [ast, Top.struct.injEq, reduceCtorEq] at h
  obtain ⟨rfl, rfl⟩ := h
  rfl

section
variable {p : Program} {ds : List Decl}

/-- Methods are found. -/
theorem Package.method (h : Package p ds) {d : Decl} (hd : d ∈ ds) {g : Func} (hg : ast d = .func g) : method p g.recv.2 g.name = some g := by
  refine findSome_of (h.mem.2 d hd) (by rw [hg]; simp) ?_
  intro x' hx' z hz
  rcases h.mem.1 x' hx' with ⟨d', hd', rfl⟩ | ⟨n, rfl⟩ | ⟨n, rfl⟩
  · cases e : ast d' with
    | func g' =>
      rw [e] at hz
      simp only [Option.ite_none_right_eq_some, Option.some.injEq] at hz
      obtain ⟨⟨e1, e2⟩, rfl⟩ := hz
      have : d' = d := inj_of_nodup_map h.once hd' hd (by rw [ast_func e, ast_func hg, e1, e2])
      subst this
      rw [hg] at e
      injection e with e
      exact e.symm
    | _ => rw [e] at hz; simp at hz
  · simp at hz
  · simp at hz

/-- The table of repeated fields is found. -/
theorem Package.table (h : Package p ds) {msg : Text} {nums : List Int} (hd : Decl.repeatedTable msg nums ∈ ds) :
    global p (t!"repeatedFields_" ++ msg) = some (.val (.reps (fun n => decide ((n : Int) ∈ nums)))) := by
  refine findSome_of (h.mem.2 _ hd) (by simp only [ast, if_true]) ?_
  intro x' hx' z hz
  rcases h.mem.1 x' hx' with ⟨d', hd', rfl⟩ | ⟨n, rfl⟩ | ⟨n, rfl⟩
  · cases e : ast d' with
    | repeated y ns =>
      rw [e] at hz
      simp only [Option.ite_none_right_eq_some, Option.some.injEq] at hz
      obtain ⟨rfl, rfl⟩ := hz
      have : d' = Decl.repeatedTable msg nums := inj_of_nodup_map h.once hd' hd (by rw [ast_repeated e]; rfl)
      subst this
      injection e with e1 e2
      rw [e2]
    | _ => rw [e] at hz; simp at hz
  · simp at hz
  · simp at hz

/-- Message types are found. -/
theorem Package.slots (h : Package p ds) {msg : Text} {n : Int} (hd : Decl.struct msg n ∈ ds) : slots p msg = some n := by
  refine findSome_of (h.mem.2 _ hd) (by simp only [ast, if_true]) ?_
  intro x' hx' z hz
  rcases h.mem.1 x' hx' with ⟨d', hd', rfl⟩ | ⟨n, rfl⟩ | ⟨n, rfl⟩
  · cases e : ast d' with
    | struct y ns =>
      rw [e] at hz
      simp only [Option.ite_none_right_eq_some, Option.some.injEq] at hz
      obtain ⟨rfl, rfl⟩ := hz
      have := ast_struct e
      subst this
      have := inj_of_nodup_map h.once hd' hd rfl
      injection this
    | _ => rw [e] at hz; simp at hz
  · simp at hz
  · simp at hz

/-- Predeclared types are not message types. -/
theorem Package.scalar (h : Package p ds) {t : Text} (ht : t ∈ reserved) : G.slots p t = none := by
  unfold G.slots
  rw [List.findSome?_eq_none_iff]
  intro x hx
  rcases h.mem.1 x hx with ⟨d, hd, rfl⟩ | ⟨n, rfl⟩ | ⟨n, rfl⟩
  · cases e : ast d with
    | struct y n =>
      have := ast_struct e
      subst this
      simp only [ite_eq_right_iff, reduceCtorEq, imp_false]
      rintro rfl
      exact (h.names _ hd).1.2.2 ht
    | _ => rfl
  · rfl
  · rfl

/-- Iterator types are found. -/
theorem Package.iter (h : Package p ds) {it : Text} (hd : Decl.iterType it ∈ ds) : isBytesType p it = true := by
  unfold isBytesType
  rw [List.any_eq_true]
  exact ⟨_, h.mem.2 _ hd, by simp [ast]⟩

end

end Zeropb.GoSrc.G
