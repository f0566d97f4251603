import Verif.Gen.StringTree
/-!
# How Go groups operators and operands

From the Go specification: "Unary operators have the highest precedence. […] There are five precedence levels for binary operators. Multiplication operators bind strongest, followed by
addition operators, comparison operators, && (logical AND), and finally || (logical OR). […] Binary operators of the same precedence associate from left to right." Selectors, indices,
slices and calls belong to the operand in front of them. This is stated here for trees over tokens, of which the leaves may be any names or literals; and it is proved that a sequence of
tokens can be read in only one way.
-/

namespace Zeropb.GoExpr
open Zeropb.Gen (Text)

/-! ## Specification -/

/-- Kinds of tokens. -/
inductive Class where
  | opening | closing | separator | dot | operator | atom
deriving DecidableEq

def openings : List Text := [t!"(", t!"[", t!"{"]
def closings : List Text := [t!")", t!"]", t!"}"]
def separators : List Text := [t!",", t!":", t!"..."]
/-- Binary operators: "5 * / % << >> & &^; 4 + - | ^; 3 == != < <= > >=; 2 &&; 1 ||". -/
def binary : List (Text × Nat) :=
  [(t!"*", 5), (t!"/", 5), (t!"%", 5), (t!"<<", 5), (t!">>", 5), (t!"&", 5), (t!"&^", 5), (t!"+", 4), (t!"-", 4), (t!"|", 4), (t!"^", 4),
   (t!"==", 3), (t!"!=", 3), (t!"<", 3), (t!"<=", 3), (t!">", 3), (t!">=", 3), (t!"&&", 2), (t!"||", 1)]
/-- Unary operators. -/
def unaries : List Text := [t!"+", t!"-", t!"!", t!"^", t!"*", t!"&", t!"<-"]

/-- The kind of a token. -/
def cls (t : Text) : Class :=
  if t ∈ openings then .opening else if t ∈ closings then .closing else if t ∈ separators then .separator else if t = t!"." then .dot
  else if t ∈ binary.map (·.1) ∨ t ∈ unaries then .operator else .atom

/-- The precedence of a binary operator; 0 for other tokens. -/
def prec (t : Text) : Nat := if cls t = .operator then (binary.lookup t).getD 0 else 0

/-- The token is a unary operator. -/
def Unary (t : Text) : Prop := cls t = .operator ∧ t ∈ unaries

instance (t : Text) : Decidable (Unary t) := by unfold Unary; infer_instance

/-- The bracket that closes a bracket. -/
def closer (t : Text) : Text := if t = t!"(" then t!")" else if t = t!"[" then t!"]" else t!"}"

/-- The token continues the operand in front of it. -/
def Continues (t : Text) : Prop := cls t = .dot ∨ cls t = .opening

instance (t : Text) : Decidable (Continues t) := by unfold Continues; infer_instance

mutual
/-- Expressions. -/
inductive Tree where
  | atom (t : Text)
  | group (o : Text) (s : Items)               -- ( … ), [ … ], { … }
  | pre (op : Text) (e : Tree)
  | bin (op : Text) (l r : Tree)
  | app (e : Tree) (o : Text) (s : Items)      -- e( … ), e[ … ], e{ … }
  | dot (e : Tree) (f : Text)
/-- What is between brackets: expressions and separators. -/
inductive Items where
  | done
  | sep (t : Text) (rest : Items)
  | item (e : Tree) (rest : Items)
end

mutual
def Tree.toks : Tree → List Text
  | .atom t => [t]
  | .group o s => o :: (s.toks ++ [closer o])
  | .pre op e => op :: e.toks
  | .bin op l r => l.toks ++ op :: r.toks
  | .app e o s => e.toks ++ o :: (s.toks ++ [closer o])
  | .dot e f => e.toks ++ [t!".", f]
def Items.toks : Items → List Text
  | .done => []
  | .sep t rest => t :: rest.toks
  | .item e rest => e.toks ++ rest.toks
end

/-- How strongly the parts of an expression are bound together: by the operator, or 6 by a unary operator, or 7. -/
def Tree.level : Tree → Nat
  | .bin op _ _ => prec op
  | .pre _ _ => 6
  | _ => 7

/-- The tokens do not belong to an expression in front of them. -/
def Stops (ts : List Text) : Prop := ∀ t ∈ ts.head?, prec t = 0 ∧ ¬ Continues t

instance (ts : List Text) : Decidable (Stops ts) := by unfold Stops; infer_instance

mutual
/-- The expression is grouped as Go groups it. -/
def Tree.Grouped : Tree → Prop
  | .atom t => cls t = .atom
  | .group o s => cls o = .opening ∧ s.Grouped
  | .pre op e => Unary op ∧ e.Grouped ∧ 6 ≤ e.level
  | .bin op l r => prec op ≠ 0 ∧ l.Grouped ∧ r.Grouped ∧ prec op ≤ l.level ∧ prec op < r.level
  | .app e o s => cls o = .opening ∧ e.Grouped ∧ e.level = 7 ∧ s.Grouped
  | .dot e f => cls f = .atom ∧ e.Grouped ∧ e.level = 7
def Items.Grouped : Items → Prop
  | .done => True
  | .sep t rest => cls t = .separator ∧ rest.Grouped
  | .item e rest => e.Grouped ∧ rest.Grouped ∧ Stops rest.toks
end

/-! ## Reading is unambiguous

A reader, which needs no knowledge of the tree, finds every grouped tree from its tokens. -/

mutual
/-- Read an expression, with operators of precedence `p` and more. -/
def expr : Nat → Nat → List Text → Option (Tree × List Text)
  | 0, _, _ => none
  | n + 1, p, ts => match operand n ts with
    | some (e, ts) => loop n p e ts
    | none => none
/-- Go on with operators. -/
def loop : Nat → Nat → Tree → List Text → Option (Tree × List Text)
  | 0, _, _, _ => none
  | _ + 1, _, l, [] => some (l, [])
  | n + 1, p, l, t :: ts =>
    if p ≤ prec t then match expr n (prec t + 1) ts with
      | some (r, ts) => loop n p (.bin t l r) ts
      | none => none
    else some (l, t :: ts)
/-- Read an operand with its unary operators. -/
def operand : Nat → List Text → Option (Tree × List Text)
  | 0, _ => none
  | _ + 1, [] => none
  | n + 1, t :: ts =>
    match cls t with
    | .operator => (operand n ts).map fun r => (.pre t r.1, r.2)
    | .opening => match items n ts with
      | some (s, _ :: ts) => suffix n (.group t s) ts
      | _ => none
    | .atom => suffix n (.atom t) ts
    | _ => none
/-- Go on with what belongs to the operand. -/
def suffix : Nat → Tree → List Text → Option (Tree × List Text)
  | 0, _, _ => none
  | _ + 1, e, [] => some (e, [])
  | n + 1, e, t :: ts =>
    match cls t with
    | .dot => match ts with
      | f :: ts => suffix n (.dot e f) ts
      | [] => none
    | .opening => match items n ts with
      | some (s, _ :: ts) => suffix n (.app e t s) ts
      | _ => none
    | _ => some (e, t :: ts)
/-- Read what is between brackets. -/
def items : Nat → List Text → Option (Items × List Text)
  | 0, _ => none
  | _ + 1, [] => some (.done, [])
  | n + 1, t :: ts =>
    match cls t with
    | .closing => some (.done, t :: ts)
    | .separator => (items n ts).map fun r => (.sep t r.1, r.2)
    | _ => match expr n 1 (t :: ts) with
      | some (e, ts) => (items n ts).map fun r => (.item e r.1, r.2)
      | none => none
end

theorem prec_operator {t : Text} (h : prec t ≠ 0) : cls t = .operator := by
  unfold prec at h
  by_cases hc : cls t = .operator
  · exact hc
  · rw [if_neg hc] at h; exact absurd rfl h

theorem prec_le (t : Text) : prec t ≤ 5 := by
  unfold prec
  split
  · have : ∀ o ∈ binary.lookup t, o ≤ 5 := by
      intro o ho
      have key : ∀ l : List (Text × Nat), (∀ x ∈ l, x.2 ≤ 5) → ∀ o, l.lookup t = some o → o ≤ 5 := by
        intro l
        induction l with
        | nil => intro _ o h; cases h
        | cons a l ih =>
          intro h o ho
          rw [List.lookup_cons] at ho
          split at ho
          · cases ho; exact h a (by simp)
          · exact ih (fun x hx => h x (by simp [hx])) o ho
      exact key binary (by decide) o ho
    cases h : binary.lookup t with
    | none => simp
    | some o => exact this o h
  · omega

theorem closer_closing (o : Text) : cls (closer o) = .closing := by unfold closer; split <;> (try split) <;> decide

theorem closer_prec (o : Text) : prec (closer o) = 0 := by unfold closer; split <;> (try split) <;> decide

theorem closer_stops (o : Text) (ts : List Text) : Stops (closer o :: ts) := by
  intro t ht
  cases ht
  exact ⟨closer_prec o, by unfold closer; split <;> (try split) <;> decide⟩

/-- How expressions begin. -/
theorem head_toks : ∀ g : Tree, g.Grouped → ∃ t ts, g.toks = t :: ts ∧ (cls t = .operator ∨ cls t = .opening ∨ cls t = .atom)
  | .atom t, h => ⟨t, [], rfl, .inr (.inr h)⟩
  | .group o s, h => ⟨o, _, rfl, .inr (.inl h.1)⟩
  | .pre op e, h => ⟨op, _, rfl, .inl h.1.1⟩
  | .bin op l r, h => by
    obtain ⟨t, ts, e, ht⟩ := head_toks l h.2.1
    exact ⟨t, _, by rw [Tree.toks, e]; rfl, ht⟩
  | .app e o s, h => by
    obtain ⟨t, ts, e, ht⟩ := head_toks e h.2.1
    exact ⟨t, _, by rw [Tree.toks, e]; rfl, ht⟩
  | .dot e f, h => by
    obtain ⟨t, ts, e, ht⟩ := head_toks e h.2.1
    exact ⟨t, _, by rw [Tree.toks, e]; rfl, ht⟩

/-- No selector, index or call. -/
def Bare (ts : List Text) : Prop := ∀ t ∈ ts.head?, ¬ Continues t

theorem suffix_bare {g : Tree} {ts : List Text} (h : Bare ts) (n : Nat) : suffix (n + 1) g ts = some (g, ts) := by
  cases ts with
  | nil => rfl
  | cons t ts =>
    have h : ¬ Continues t := h t rfl
    unfold Continues at h
    unfold suffix
    rw [not_or] at h
    cases hc : cls t <;> first | rfl | exact absurd hc h.1 | exact absurd hc h.2

theorem suffix_open {o : Text} (h : cls o = .opening) {g : Tree} {ts : List Text} (n : Nat) :
    suffix (n + 1) g (o :: ts) = match items n ts with
      | some (s, _ :: ts) => suffix n (.app g o s) ts
      | _ => none := by
  conv => lhs; unfold suffix
  rw [h]

theorem loop_stop {p : Nat} {g : Tree} {ts : List Text} (h : ∀ t ∈ ts.head?, prec t < p) (n : Nat) : loop (n + 1) p g ts = some (g, ts) := by
  cases ts with
  | nil => rfl
  | cons t ts => rw [loop, if_neg (by have := h t rfl; omega)]

/-- The reader reads the operand, and goes on with what belongs to it. -/
def ReadsPrimary (g : Tree) : Prop := ∀ rest, ∃ k d, ∀ n, d ≤ n → operand (n + k) (g.toks ++ rest) = suffix n g rest
/-- The reader reads the operand. -/
def ReadsOperand (g : Tree) : Prop := ∀ rest, Bare rest → ∃ d, ∀ n, d ≤ n → operand n (g.toks ++ rest) = some (g, rest)
/-- The reader reads the expression, and goes on with operators. -/
def ReadsExpr (g : Tree) : Prop := ∀ p rest, p ≤ g.level → Bare rest → (∀ t ∈ rest.head?, prec t ≤ g.level) →
  ∃ k d, ∀ n, d ≤ n → expr (n + k) p (g.toks ++ rest) = loop n p g rest
/-- The reader reads what is between brackets. -/
def ReadsItems (s : Items) : Prop := ∀ rest, (∀ t ∈ rest.head?, cls t = .closing) → Stops rest → ∃ d, ∀ n, d ≤ n → items n (s.toks ++ rest) = some (s, rest)

theorem ReadsPrimary.operand {g : Tree} (h : ReadsPrimary g) : ReadsOperand g := by
  intro rest hb
  obtain ⟨k, d, h⟩ := h rest
  refine ⟨d + 1 + k, fun n hn => ?_⟩
  obtain ⟨m, rfl⟩ : ∃ m, n = (m + 1) + k := ⟨n - k - 1, by omega⟩
  rw [h (m + 1) (by omega), suffix_bare hb]

theorem ReadsOperand.expr {g : Tree} (h : ReadsOperand g) : ReadsExpr g := by
  intro p rest _ hb _
  obtain ⟨d, h⟩ := h rest hb
  refine ⟨1, d, fun n hn => ?_⟩
  rw [GoExpr.expr, h n hn]

theorem ReadsExpr.all {g : Tree} (h : ReadsExpr g) {p : Nat} {rest : List Text} (hp : p ≤ g.level) (hb : Bare rest) (hr : ∀ t ∈ rest.head?, prec t ≤ g.level) (hs : ∀ t ∈ rest.head?, prec t < p) :
    ∃ d, ∀ n, d ≤ n → expr n p (g.toks ++ rest) = some (g, rest) := by
  obtain ⟨k, d, h⟩ := h p rest hp hb hr
  refine ⟨d + 1 + k, fun n hn => ?_⟩
  obtain ⟨m, rfl⟩ : ∃ m, n = (m + 1) + k := ⟨n - k - 1, by omega⟩
  rw [h (m + 1) (by omega), loop_stop hs]

mutual
theorem reads_tree : ∀ g : Tree, g.Grouped → (g.level = 7 → ReadsPrimary g) ∧ (6 ≤ g.level → ReadsOperand g) ∧ ReadsExpr g
  | .atom t, h => by
    have : ReadsPrimary (.atom t) := fun rest => ⟨1, 0, fun n _ => by
      show operand (n + 1) (t :: rest) = _
      rw [operand, show cls t = .atom from h]⟩
    exact ⟨fun _ => this, fun _ => this.operand, this.operand.expr⟩
  | .group o s, h => by
    have : ReadsPrimary (.group o s) := fun rest => by
      obtain ⟨d, hd⟩ := reads_items s h.2 (closer o :: rest) (by intro t ht; cases ht; exact closer_closing o) (closer_stops o rest)
      refine ⟨1, d, fun n hn => ?_⟩
      have e : (Tree.group o s).toks ++ rest = o :: (s.toks ++ closer o :: rest) := by simp [Tree.toks]
      rw [e, operand, h.1]
      simp only [hd n hn]
    exact ⟨fun _ => this, fun _ => this.operand, this.operand.expr⟩
  | .pre op e, h => by
    have : ReadsOperand (.pre op e) := fun rest hb => by
      obtain ⟨d, hd⟩ := (reads_tree e h.2.1).2.1 h.2.2 rest hb
      refine ⟨d + 1, fun n hn => ?_⟩
      obtain ⟨m, rfl⟩ : ∃ m, n = m + 1 := ⟨n - 1, by omega⟩
      show operand (m + 1) (op :: (e.toks ++ rest)) = _
      rw [operand, h.1.1]
      simp only [hd m (by omega), Option.map_some]
    exact ⟨fun h => by simp [Tree.level] at h, fun _ => this, this.expr⟩
  | .bin op l r, h => by
    obtain ⟨h1, h2, h3, h4, h5⟩ := h
    have hop : cls op = .operator := prec_operator h1
    have hnc : ¬ Continues op := by rintro (h | h) <;> rw [hop] at h <;> cases h
    have hle := prec_le op
    refine ⟨fun h => ?_, fun h => ?_, fun p rest hp hb hr => ?_⟩
    · have h : prec op = 7 := h
      omega
    · have h : 6 ≤ prec op := h
      omega
    · have hp : p ≤ prec op := hp
      have hr : ∀ t ∈ rest.head?, prec t ≤ prec op := hr
      obtain ⟨k1, d1, e1⟩ := (reads_tree l h2).2.2 p (op :: (r.toks ++ rest)) (by omega) (by intro t ht; cases ht; exact hnc) (by intro t ht; cases ht; exact h4)
      obtain ⟨d2, e2⟩ := ((reads_tree r h3).2.2).all (p := prec op + 1) (rest := rest) h5 hb (fun t ht => by have := hr t ht; omega) (fun t ht => by have := hr t ht; omega)
      refine ⟨1 + k1, d1 + d2, fun n hn => ?_⟩
      have e : (Tree.bin op l r).toks ++ rest = l.toks ++ op :: (r.toks ++ rest) := by simp [Tree.toks]
      rw [e, ← Nat.add_assoc, e1 (n + 1) (by omega), loop, if_pos hp, e2 n (by omega)]
  | .app e o s, h => by
    obtain ⟨h1, h2, h3, h4⟩ := h
    have : ReadsPrimary (.app e o s) := fun rest => by
      obtain ⟨k, d1, e1⟩ := (reads_tree e h2).1 h3 (o :: (s.toks ++ closer o :: rest))
      obtain ⟨d2, e2⟩ := reads_items s h4 (closer o :: rest) (by intro t ht; cases ht; exact closer_closing o) (closer_stops o rest)
      refine ⟨1 + k, d1 + d2, fun n hn => ?_⟩
      have e : (Tree.app e o s).toks ++ rest = e.toks ++ o :: (s.toks ++ closer o :: rest) := by simp [Tree.toks]
      rw [e, ← Nat.add_assoc, e1 (n + 1) (by omega), suffix_open h1, e2 n (by omega)]
    exact ⟨fun _ => this, fun _ => this.operand, this.operand.expr⟩
  | .dot e f, h => by
    obtain ⟨_, h2, h3⟩ := h
    have : ReadsPrimary (.dot e f) := fun rest => by
      obtain ⟨k, d1, e1⟩ := (reads_tree e h2).1 h3 (t!"." :: f :: rest)
      refine ⟨1 + k, d1, fun n hn => ?_⟩
      have e : (Tree.dot e f).toks ++ rest = e.toks ++ t!"." :: f :: rest := by simp [Tree.toks]
      rw [e, ← Nat.add_assoc, e1 (n + 1) (by omega)]
      rfl
    exact ⟨fun _ => this, fun _ => this.operand, this.operand.expr⟩
theorem reads_items : ∀ s : Items, s.Grouped → ReadsItems s
  | .done, _ => fun rest hc _ => ⟨1, fun n hn => by
      obtain ⟨m, rfl⟩ : ∃ m, n = m + 1 := ⟨n - 1, by omega⟩
      show items (m + 1) rest = _
      cases rest with
      | nil => rfl
      | cons t ts => rw [items, hc t rfl]⟩
  | .sep t s, h => fun rest hc hs => by
    obtain ⟨d, hd⟩ := reads_items s h.2 rest hc hs
    refine ⟨d + 1, fun n hn => ?_⟩
    obtain ⟨m, rfl⟩ : ∃ m, n = m + 1 := ⟨n - 1, by omega⟩
    show items (m + 1) (t :: (s.toks ++ rest)) = _
    rw [items, h.1]
    simp only [hd m (by omega), Option.map_some]
  | .item g s, h => fun rest hc hs => by
    obtain ⟨h1, h2, h3⟩ := h
    obtain ⟨d1, e1⟩ := reads_items s h2 rest hc hs
    have hst : Stops (s.toks ++ rest) := by
      cases e : s.toks with
      | nil => exact hs
      | cons t ts => rw [e] at h3; exact h3
    have hl : 1 ≤ g.level := by
      cases g with
      | bin op l r => exact Nat.one_le_iff_ne_zero.2 h1.1
      | _ => simp [Tree.level]
    obtain ⟨d2, e2⟩ := ((reads_tree g h1).2.2).all (p := 1) (rest := s.toks ++ rest) hl (fun t ht => (hst t ht).2) (fun t ht => by have := (hst t ht).1; omega)
      (fun t ht => by have := (hst t ht).1; omega)
    refine ⟨d1 + d2 + 1, fun n hn => ?_⟩
    obtain ⟨m, rfl⟩ : ∃ m, n = m + 1 := ⟨n - 1, by omega⟩
    obtain ⟨t, ts, et, ht⟩ := head_toks g h1
    have e : (Items.item g s).toks ++ rest = g.toks ++ (s.toks ++ rest) := by simp [Items.toks]
    have e2 := e2 m (by omega)
    rw [e, et] at *
    show items (m + 1) (t :: (ts ++ (s.toks ++ rest))) = _
    have e2 : GoExpr.expr m 1 (t :: (ts ++ (s.toks ++ rest))) = some (g, s.toks ++ rest) := e2
    rw [items]
    rcases ht with ht | ht | ht <;> simp only [ht, e2, e1 m (by omega), Option.map_some]
end

mutual
def decTree : (g : Tree) → Decidable g.Grouped
  | .atom t => inferInstanceAs (Decidable (cls t = .atom))
  | .group o s => have := decItems s; inferInstanceAs (Decidable (cls o = .opening ∧ s.Grouped))
  | .pre op e => have := decTree e; inferInstanceAs (Decidable (Unary op ∧ e.Grouped ∧ 6 ≤ e.level))
  | .bin op l r =>
    have := decTree l; have := decTree r
    inferInstanceAs (Decidable (prec op ≠ 0 ∧ l.Grouped ∧ r.Grouped ∧ prec op ≤ l.level ∧ prec op < r.level))
  | .app e o s =>
    have := decTree e; have := decItems s
    inferInstanceAs (Decidable (cls o = .opening ∧ e.Grouped ∧ e.level = 7 ∧ s.Grouped))
  | .dot e f => have := decTree e; inferInstanceAs (Decidable (cls f = .atom ∧ e.Grouped ∧ e.level = 7))
def decItems : (s : Items) → Decidable s.Grouped
  | .done => inferInstanceAs (Decidable True)
  | .sep t rest => have := decItems rest; inferInstanceAs (Decidable (cls t = .separator ∧ rest.Grouped))
  | .item e rest => have := decTree e; have := decItems rest; inferInstanceAs (Decidable (e.Grouped ∧ rest.Grouped ∧ Stops rest.toks))
end

instance (g : Tree) : Decidable g.Grouped := decTree g
instance (s : Items) : Decidable s.Grouped := decItems s

/-- The same for several expressions. -/
theorem unambiguous_items {s s' : Items} (h : s.Grouped) (h' : s'.Grouped) (e : s.toks = s'.toks) : s = s' := by
  have key : ∀ s : Items, s.Grouped → ∃ d, ∀ n, d ≤ n → items n (s.toks ++ []) = some (s, []) := fun s hs =>
    reads_items s hs [] (by intro t ht; cases ht) (by intro t ht; cases ht)
  obtain ⟨d, h1⟩ := key s h
  obtain ⟨d', h2⟩ := key s' h'
  have h1 := h1 (d + d') (by omega)
  have h2 := h2 (d + d') (by omega)
  rw [e, h2] at h1
  cases h1
  rfl

/-- Tokens can be read in at most one way. -/
theorem unambiguous {g g' : Tree} (h : g.Grouped) (h' : g'.Grouped) (e : g.toks = g'.toks) : g = g' := by
  have key : ∀ g : Tree, g.Grouped → ∃ d, ∀ n, d ≤ n → expr n 1 (g.toks ++ []) = some (g, []) := fun g hg => by
    have hl : 1 ≤ g.level := by
      cases g with
      | bin op l r => exact Nat.one_le_iff_ne_zero.2 hg.1
      | _ => simp [Tree.level]
    exact ((reads_tree g hg).2.2).all hl (by intro t ht; cases ht) (by intro t ht; cases ht) (by intro t ht; cases ht)
  obtain ⟨d, h1⟩ := key g h
  obtain ⟨d', h2⟩ := key g' h'
  have h1 := h1 (d + d') (by omega)
  have h2 := h2 (d + d') (by omega)
  rw [e, h2] at h1
  cases h1
  rfl

end Zeropb.GoExpr
