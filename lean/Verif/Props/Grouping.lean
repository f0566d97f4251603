import Verif.GoSrc.Group
/-!
# The syntax trees are the only way to read the source's expressions

C62, C63, C64 and C68 check that the syntax trees print to the tokens of the source files. Here: every expression of those trees is grouped by the precedence rules of the Go specification
(`Spec/GoExpr`), so that its tokens cannot be read in another way.
-/

namespace Zeropb.GoSrc
open Zeropb.Gen (Text)
open Zeropb.GoExpr

/-- The tokens are those of the expressions, grouped as Go groups them, and there is no other way to read them. -/
def ReadsOnlyAs (ts : List Text) (s : Items) : Prop := s.Grouped ∧ s.toks = ts ∧ ∀ s' : Items, s'.Grouped → s'.toks = ts → s' = s

theorem readsOnlyAs {ts : List Text} {s : Items} (h : s.Grouped ∧ s.toks = ts) : ReadsOnlyAs ts s :=
  ⟨h.1, h.2, fun _ g e => unambiguous_items g h.1 (e.trans h.2.symm)⟩

set_option maxRecDepth 20000 in
theorem runtime_groups : ∀ top ∈ offsetsFile ++ zeropbFile, ∀ e ∈ top.exprs, (e.before .done).Grouped ∧ (e.before .done).toks = e.toks := by
  decide +kernel

/-- offsets.go and zeropb.go: every expression reads as its syntax tree only. -/
theorem C84_runtime : ∀ top ∈ offsetsFile ++ zeropbFile, ∀ e ∈ top.exprs, ReadsOnlyAs e.toks (e.before .done) :=
  fun top ht e he => readsOnlyAs (runtime_groups top ht e he)

/-! ## The generator -/

section
open T

set_option maxRecDepth 20000 in
theorem tools_groups : ∀ top ∈ descriptorGo ++ stringtreeGo ++ generateGo ++ pluginGo ++ textGo, ∀ e ∈ top.exprs,
    (e.before .done).Grouped ∧ (e.before .done).toks = e.toks := by
  decide +kernel

/-- descriptor.go, stringtree.go, generate.go, the plugin and text.go: every expression reads as its syntax tree only. -/
theorem C84_tools : ∀ top ∈ descriptorGo ++ stringtreeGo ++ generateGo ++ pluginGo ++ textGo, ∀ e ∈ top.exprs, ReadsOnlyAs e.toks (e.before .done) :=
  fun top ht e he => readsOnlyAs (tools_groups top ht e he)

end

/-! ## string.go and internals.go -/

section
open X

set_option maxRecDepth 20000 in
theorem text_groups : ∀ top ∈ stringGo ++ testInternalsGo ++ raftInternalsGo, ∀ e ∈ top.exprs,
    (e.before .done).Grouped ∧ (e.before .done).toks = e.toks := by
  decide +kernel

/-- golden/testzeropb/string.go and both internals.go: every expression reads as its syntax tree only. -/
theorem C84_text : ∀ top ∈ stringGo ++ testInternalsGo ++ raftInternalsGo, ∀ e ∈ top.exprs, ReadsOnlyAs e.toks (e.before .done) :=
  fun top ht e he => readsOnlyAs (text_groups top ht e he)

end

/-! ## Generated files -/

namespace G

/-- Letters, digits and `_` do not make operators or brackets. -/
theorem cls_word {t : Text} (h : Word t) : cls t = .atom := by
  obtain ⟨h0, h⟩ := h
  cases t with
  | nil => exact absurd rfl h0
  | cons x t =>
    have hx := h x (List.mem_cons_self ..)
    have key : ∀ l : List Text, (∀ u ∈ l, ∀ y ∈ u.head?, isIdChar y = false) → (x :: t) ∉ l := fun l hl hm => by
      have := hl _ hm x rfl
      rw [hx] at this; cases this
    have h1 := key openings (by decide)
    have h2 := key closings (by decide)
    have h3 := key separators (by decide)
    have h4 : (x :: t) ≠ t!"." := fun e => by
      have := key [t!"."] (by decide); exact this (by rw [e]; exact List.mem_cons_self ..)
    have h5 : ¬ ((x :: t) ∈ binary.map (·.1) ∨ (x :: t) ∈ unaries) := fun e => by
      rcases e with e | e
      · exact key (binary.map (·.1)) (by decide) e
      · exact key unaries (by decide) e
    unfold cls
    simp only [h1, h2, h3, h4, h5, if_false]

theorem cls_prefix {w t : Text} (hw : ∀ x ∈ w, isIdChar x = true) (h : Word t) : cls (w ++ t) = .atom := cls_word (Word.append hw h)

/-- Every declaration the generator writes. -/
theorem generated_groups {d : Gen.Decl} (h : Ok d) : ∀ e ∈ (ast d).exprs, (e.before .done).Grouped ∧ (e.before .done).toks = e.toks := by
  cases d <;> simp only [ast, Top.exprs, srcEncode, srcDecode, srcReset, srcGet, srcSet, srcGetMessage, srcSetMessage, srcNext, srcGetRepeated, srcAppendTo, block, Stmt.exprs, ifNil, retDecode, wrap, mbuf,
      List.forall_mem_cons, List.not_mem_nil, List.append_nil, List.nil_append, List.cons_append, Expr.before, Expr.toks, first]
  all_goals simp (decide := true) [Tree.Grouped, Items.Grouped, Tree.toks, Items.toks, Tree.level, Stops, c]
  case decode => exact cls_prefix (w := t!"repeatedFields_") (by decide) h.1
  case get => exact ⟨cls_prefix (w := t!"Get") (by decide) h.2.2.2.1, cls_word (itoa_word h.2.2.2.2)⟩
  case set => exact ⟨cls_prefix (w := t!"Set") (by decide) h.2.2.2.1, cls_word (itoa_word h.2.2.2.2)⟩
  case getMessage => exact cls_word (itoa_word h.2.2.2)
  case setMessage => exact cls_word (itoa_word h.2.2.2)
  case iterNext => exact cls_word (itoa_word h.2.2)
  case getRepeated => exact ⟨cls_word h.2.2.1.1, cls_word (itoa_word h.2.2.2)⟩
  case appendTo => exact cls_word (itoa_word h.2.2.2)

end G

/-- Every expression in a generated file whose declarations use identifiers and field numbers that are not negative reads as its syntax tree only. -/
theorem C84_generated {ds : List Gen.Decl} (h : ∀ d ∈ ds, G.Ok d) (pkg : Text) :
    ∀ top ∈ G.fileAst pkg ds, ∀ e ∈ top.exprs, ReadsOnlyAs e.toks (e.before .done) := by
  intro top ht e he
  simp only [G.fileAst, List.mem_append, List.mem_cons, List.not_mem_nil, or_false, List.mem_map] at ht
  rcases ht with (rfl | rfl) | ⟨d, hd, rfl⟩
  · cases he
  · cases he
  · exact readsOnlyAs (G.generated_groups (h d hd) e he)

/-! ## No operator is outside of these expressions -/

/-- Operators that do not occur in types. -/
def operators (ts : List Text) : List Text := ts.filter fun t => cls t = .operator ∧ t ≠ t!"*"

/-- The operators of the files, apart from `*` (which occurs in types), are those of the expressions, in the same order. -/
theorem C84_complete :
    (∀ top ∈ offsetsFile ++ zeropbFile, operators top.toks = operators (top.exprs.map Expr.toks).flatten) ∧
    (∀ top ∈ T.descriptorGo ++ T.stringtreeGo ++ T.generateGo ++ T.pluginGo ++ T.textGo, operators top.toks = operators (top.exprs.map T.Expr.toks).flatten) ∧
    (∀ top ∈ X.stringGo ++ X.testInternalsGo ++ X.raftInternalsGo, operators top.toks = operators (top.exprs.map X.Expr.toks).flatten) := by
  refine ⟨?_, ?_, ?_⟩ <;> decide +kernel

/-! ## Examples -/

/-- `a - b + c` is `(a - b) + c`, and not `a - (b + c)`. -/
example : ReadsOnlyAs (Expr.toks (.bin .add (.bin .sub (.id .i) (.id .n)) (.id .m)))
    (.item (.bin t!"+" (.bin t!"-" (.atom t!"i") (.atom t!"n")) (.atom t!"m")) .done) := readsOnlyAs (by decide)
/-- A syntax tree with the operators the other way round has the same tokens but is not grouped so. -/
example : Expr.toks (.bin .sub (.id .i) (.bin .add (.id .n) (.id .m))) = Expr.toks (.bin .add (.bin .sub (.id .i) (.id .n)) (.id .m)) ∧
    ¬ ((Expr.before (.bin .sub (.id .i) (.bin .add (.id .n) (.id .m))) .done).Grouped) := by decide
/-- `x<<3 | 5` groups `x<<3`, and `a == b && c > d` the comparisons. -/
example : (Expr.before (.bin .or (.bin .shl (.id .x) (.num 3)) (.num 5)) .done).Grouped ∧
    ¬ (Expr.before (.bin .shl (.id .x) (.bin .or (.num 3) (.num 5))) .done).Grouped ∧
    (Expr.before (.bin .land (.bin .eq (.id .a) (.id .n)) (.bin .gt (.id .x) (.id .i))) .done).Grouped := by decide +kernel
/-- `*o.m` is `*(o.m)`, and `(*o.m)[f]` needs its parentheses. -/
example : (Expr.before (.star (.sel (.id .o) .m)) .done).Grouped ∧ ¬ (Expr.before (.sel (.star (.id .o)) .m) .done).Grouped ∧
    (Expr.before (.index (.paren (.star (.sel (.id .o) .m))) (.id .f)) .done).Grouped ∧
    ¬ (Expr.before (.index (.star (.sel (.id .o) .m)) (.id .f)) .done).Grouped := by decide
/-- There are many such expressions. -/
example : 200 ≤ ((offsetsFile ++ zeropbFile).map (fun top => top.exprs.length)).sum := by decide +kernel
example : ∃ top ∈ G.fileAst t!"p" [.get t!"M" t!"A" t!"int32" t!"Int32" 3], top.exprs ≠ [] :=
  ⟨_, List.mem_cons_of_mem _ (List.mem_cons_of_mem _ (List.mem_cons_self ..)), by decide⟩

end Zeropb.GoSrc
