import Verif.Conc.Sem
/-!
# Alone, the access-by-access interpreter computes what `GoSrc/Sem` says
-/

set_option linter.constructorNameAsVariable false

namespace Zeropb.GoSrc.Conc
open Zeropb.GoSrc.G

/-- From some number on. -/
def Ev (P : Nat → Prop) : Prop := ∃ n, ∀ m, n ≤ m → P m

theorem Ev.of {P : Nat → Prop} (h : ∀ m, P m) : Ev P := ⟨0, fun m _ => h m⟩
theorem Ev.mono {P Q : Nat → Prop} (h : Ev P) (f : ∀ m, P m → Q m) : Ev Q := h.imp fun _ h m hm => f m (h m hm)
theorem Ev.and {P Q : Nat → Prop} (h : Ev P) (h' : Ev Q) : Ev fun m => P m ∧ Q m := by
  obtain ⟨n, hn⟩ := h
  obtain ⟨n', hn'⟩ := h'
  exact ⟨max n n', fun m hm => ⟨hn m (by omega), hn' m (by omega)⟩⟩

/-- A new heap. -/
def withH (s : GSt) (h : Heap) : GSt := { s with h := h }

@[simp] theorem withH_self (s : GSt) : withH s s.h = s := rfl
@[simp] theorem withH_h (s : GSt) (h : Heap) : (withH s h).h = h := rfl
@[simp] theorem withH_withH (s : GSt) (h h' : Heap) : withH (withH s h) h' = withH s h' := rfl

/-- The program ends with `a` and heap `h`. -/
def Ends {α : Type} (p : Prog α) (s : GSt) (a : α) (h : Heap) : Prop := p.run s = .ok (a, withH s h)

theorem Ends.bind {α β : Type} {p : Prog α} {f : α → Prog β} {s : GSt} {a : α} {h : Heap} {b : β} {h' : Heap} (h1 : Ends p s a h) (h2 : Ends (f a) (withH s h) b h') :
    Ends (p >>= f) s b h' := by
  unfold Ends at *
  rw [Prog.run_bind, h1]
  show (f a).run (withH s h) = _
  rw [h2, withH_withH]

theorem ends_done {α : Type} (a : α) (s : GSt) : Ends (.done a) s a s.h := rfl

theorem ends_done' {α : Type} (a : α) (s : GSt) (h : Heap) : Ends (.done a) (withH s h) a h := rfl

theorem ends_lift {α : Type} {x : M α} {a : α} (hx : x = .ok a) (s : GSt) : Ends (lift x) s a s.h := by subst hx; rfl

theorem bindOk {α β ε : Type} {x : Except ε α} {f : α → Except ε β} {b : β} (h : (x >>= f) = .ok b) : ∃ a, x = .ok a ∧ f a = .ok b := by
  cases x with
  | error e => cases h
  | ok a => exact ⟨a, rfl, h⟩

theorem okPair {α β ε : Type} {a c : α} {b d : β} (h : (Except.ok (a, b) : Except ε (α × β)) = .ok (c, d)) : a = c ∧ b = d := by
  injection h with h; injection h with h1 h2; exact ⟨h1, h2⟩

/-! ## Bytes -/

theorem ends_readFrom (a q n : Nat) (s : GSt) : Ends (readFrom a q n) s (((s.h.w.arr a).drop q).take n) s.h := by
  induction n generalizing q with
  | zero => simp only [readFrom, List.take_zero]; exact ends_done _ _
  | succ n ih =>
    simp only [readFrom]
    have : ((s.h.w.arr a).drop q).take (n + 1) = (s.h.w.cell a q).toList ++ ((s.h.w.arr a).drop (q + 1)).take n := by
      unfold World.cell
      rcases Nat.lt_or_ge q (s.h.w.arr a).length with h | h
      · rw [List.drop_eq_getElem_cons h, List.getElem?_eq_getElem h]; rfl
      · rw [List.drop_eq_nil_of_le h, List.drop_eq_nil_of_le (by omega), List.getElem?_eq_none h]; simp
    rw [this]
    exact (ih (q + 1)).bind (ends_done _ _)

theorem ends_readSlice (t : HSlice) (s : GSt) : Ends (readSlice t) s (s.h.w.slice t).data s.h := by
  have := ends_readFrom t.arr t.off (min t.len t.cap) s
  rw [show (s.h.w.slice t).data = ((s.h.w.arr t.arr).drop t.off).take (min t.len t.cap) by
    simp only [World.slice, World.full, List.take_take]]
  exact this

theorem ends_readSrc (x : Src) (s : GSt) : Ends (readSrc x) s (s.h.w.src x) s.h := by
  cases x with
  | lit bs => exact ends_done _ _
  | mem t => exact ends_readSlice t s

/-- The bytes up to the first one below 0x80. -/
def varintRun : List Byte → List Byte
  | [] => []
  | b :: bs => if b.toNat < 0x80 then [b] else b :: varintRun bs

theorem uvarint_run (bs : List Byte) : uvarint (varintRun bs) = uvarint bs := by
  have : ∀ i x s, uvarintAux (varintRun bs) i x s = uvarintAux bs i x s := by
    induction bs with
    | nil => intro i x s; rfl
    | cons b bs ih =>
      intro i x s
      by_cases hb : b.toNat < 0x80
      · simp only [varintRun, if_pos hb, uvarintAux]
      · simp only [varintRun, if_neg hb, uvarintAux]; exact ih _ _ _
  exact this _ _ _

theorem varint_run (bs : List Byte) : varint (varintRun bs) = varint bs := by unfold varint; rw [uvarint_run]

theorem ends_readRun (a q n : Nat) (s : GSt) : Ends (readRun a q n) s (varintRun (((s.h.w.arr a).drop q).take n)) s.h := by
  induction n generalizing q with
  | zero => simp only [readRun, List.take_zero]; exact ends_done _ _
  | succ n ih =>
    show Ends (afterByte (readRun a (q + 1) n) (s.h.w.cell a q)) s _ _
    unfold World.cell
    rcases Nat.lt_or_ge q (s.h.w.arr a).length with h | h
    · rw [List.drop_eq_getElem_cons h, List.getElem?_eq_getElem h, List.take_succ_cons]
      by_cases hb : ((s.h.w.arr a)[q]).toNat < 0x80
      · simp only [varintRun, afterByte, if_pos hb]; exact ends_done _ _
      · simp only [varintRun, afterByte, if_neg hb]; exact (ih (q + 1)).bind (ends_done _ _)
    · rw [List.drop_eq_nil_of_le h, List.getElem?_eq_none h]
      exact ends_done _ _

theorem ends_readVarint (x : Src) (s : GSt) : ∃ bs, Ends (readVarint x) s bs s.h ∧ uvarint bs = uvarint (s.h.w.src x) ∧ varint bs = varint (s.h.w.src x) := by
  cases x with
  | lit bs => exact ⟨bs, ends_done _ _, rfl, rfl⟩
  | mem t =>
    have := ends_readRun t.arr t.off (min t.len t.cap) s
    rw [show ((s.h.w.arr t.arr).drop t.off).take (min t.len t.cap) = (s.h.w.slice t).data by
      simp only [World.slice, World.full, List.take_take]] at this
    exact ⟨_, this, uvarint_run _, varint_run _⟩

theorem write_nil (w : World) (a q : Nat) : w.write a q [] = w := by
  unfold World.write
  have : overwriteAt (w.arr a) q [] = w.arr a := by unfold overwriteAt; simp
  rw [this]
  have : w.arrs.set a (w.arr a) = w.arrs := by
    apply List.ext_getElem?
    intro i
    rw [List.getElem?_set]
    split
    · next e =>
      subst e
      unfold World.arr
      split
      · next h => rw [List.getD_eq_getElem?_getD, List.getElem?_eq_getElem h]; rfl
      · next h => rw [List.getElem?_eq_none (by omega)]
    · rfl
  rw [this]

theorem overwrite_cons (xs : List Byte) (q : Nat) (b : Byte) (bs : List Byte) : overwriteAt xs q (b :: bs) = overwriteAt (xs.set q b) (q + 1) bs := by
  apply List.ext_getElem?
  intro i
  unfold overwriteAt
  simp only [List.length_set, List.length_cons]
  rcases Nat.lt_or_ge q xs.length with h | h
  · have e : min (bs.length + 1) (xs.length - q) = min bs.length (xs.length - (q + 1)) + 1 := by omega
    rw [e, List.take_succ_cons]
    have e2 : (xs.set q b).take (q + 1) = xs.take q ++ [b] := by
      rw [List.set_eq_take_append_cons_drop, if_pos h, List.take_append]
      have : (xs.take q).length = q := by simp; omega
      rw [this]
      simp [List.take_take]
    have e3 : (xs.set q b).drop (q + 1 + min bs.length (xs.length - (q + 1))) = xs.drop (q + (min bs.length (xs.length - (q + 1)) + 1)) := by
      rw [List.drop_set_of_lt (by omega)]
      congr 1; omega
    rw [e2, e3]
    simp [List.append_assoc]
  · have e : min (bs.length + 1) (xs.length - q) = 0 := by omega
    have e' : min bs.length (xs.length - (q + 1)) = 0 := by omega
    rw [e, e', List.set_eq_of_length_le h]
    simp

theorem write_cons (w : World) (a q : Nat) (b : Byte) (bs : List Byte) : (w.write a q [b]).write a (q + 1) bs = w.write a q (b :: bs) := by
  have h1 := arr_write w a q b a
  rw [if_pos rfl] at h1
  unfold World.write at *
  rw [h1, ← overwrite_cons]
  simp

theorem ends_writeTo (a q : Nat) (bs : List Byte) (s : GSt) : Ends (writeTo a q bs) s () { s.h with w := s.h.w.write a q bs } := by
  induction bs generalizing q s with
  | nil => simp only [writeTo]; rw [write_nil]; exact ends_done _ _
  | cons b bs ih =>
    have := ih (q + 1) (Write.apply (.cell a q b) s)
    simp only [Write.apply, withW] at this
    rw [write_cons] at this
    exact this

theorem ends_contents {v : Val} {s : GSt} {bs : List Byte} (h : v.contents s.h.w = .ok bs) : Ends (contents v) s bs s.h := by
  unfold Val.contents at h
  split at h
  · injection h with h; subst h; exact ends_readSrc _ s
  · injection h with h; subst h; exact ends_done _ _
  · cases h

theorem ends_append {rt : Rt} {t : HSlice} {xs : List Byte} {s : GSt} {r : HSlice × World} (h : GoSrc.lift (s.h.w.append rt t xs) = .ok r) :
    Ends (append rt t xs) s r.1 { s.h with w := r.2 } := by
  unfold World.append at h
  unfold append
  split at h
  · next h1 =>
    rw [if_pos h1]
    split at h
    · next h2 =>
      rw [if_pos h2]
      simp only [GoSrc.lift, Except.ok.injEq] at h
      subst h
      exact (ends_writeTo _ _ _ _).bind (ends_done' _ _ _)
    · next h2 =>
      rw [if_neg h2]
      simp only [GoSrc.lift, Except.ok.injEq] at h
      subst h
      refine (ends_readSlice t s).bind ?_
      rfl
  · cases h

theorem ends_indexOf {v k x : Val} {s : GSt} (h : GoSrc.indexOf s.h v k = .ok x) : Ends (indexOf v k) s x s.h := by
  unfold GoSrc.indexOf at h
  unfold indexOf
  split at h
  · obtain ⟨n, h1, h2⟩ := bindOk h
    refine (ends_lift h1 s).bind ?_
    simp only [withH_self]
    split at h2
    · next h3 =>
      rw [if_pos h3]
      split at h2
      · next h4 =>
        injection h2 with h2; subst h2
        simp only [Ends, Prog.run, read, h4]
        rfl
      · cases h2
    · cases h2
  · obtain ⟨n, h1, h2⟩ := bindOk h
    refine (ends_lift h1 s).bind ?_
    simp only [withH_self]
    split at h2
    · injection h2 with h2; subst h2; rfl
    · injection h2 with h2; subst h2; rfl
  · obtain ⟨n, h1, h2⟩ := bindOk h
    refine (ends_lift h1 s).bind ?_
    injection h2 with h2; subst h2; rfl
  · cases h

theorem ends_libApply {f : Lib} {vs : List Val} {s : GSt} {r : Val × Heap} (h : f.apply s.h vs = .ok r) : Ends (libApply f vs) s r.1 r.2 := by
  unfold Lib.apply at h
  unfold libApply
  split at h
  · obtain ⟨n, h1, h2⟩ := bindOk h
    injection h2 with h2; subst h2
    exact (ends_lift h1 s).bind (ends_done _ _)
  · obtain ⟨n, h1, h2⟩ := bindOk h
    injection h2 with h2; subst h2
    exact (ends_contents h1).bind ((ends_writeTo _ _ _ _).bind (ends_done' _ _ _))
  · obtain ⟨n, h1, h2⟩ := bindOk h
    refine (ends_lift h1 s).bind ?_
    split at h2
    · injection h2 with h2; subst h2; rfl
    · injection h2 with h2; subst h2; rfl
  · next x =>
    injection h with h; subst h
    obtain ⟨bs, h1, h2, h3⟩ := ends_readVarint x s
    rw [← h2]
    exact h1.bind (ends_done _ _)
  · next x =>
    injection h with h; subst h
    obtain ⟨bs, h1, h2, h3⟩ := ends_readVarint x s
    rw [← h3]
    exact h1.bind (ends_done _ _)
  · obtain ⟨n, h1, h2⟩ := bindOk h
    injection h2 with h2; subst h2
    exact (ends_readSrc _ s).bind ((ends_lift h1 _).bind (ends_done _ _))
  · obtain ⟨n, h1, h2⟩ := bindOk h
    injection h2 with h2; subst h2
    exact (ends_readSrc _ s).bind ((ends_lift h1 _).bind (ends_done _ _))
  · injection h with h; subst h; rfl
  · injection h with h; subst h; rfl
  · injection h with h; subst h; rfl
  · injection h with h; subst h; rfl
  · cases h

theorem ends_deref {v x : Val} {s : GSt} (h : GoSrc.deref s.h v = .ok x) : Ends (deref v) s x s.h := by
  unfold GoSrc.deref at h
  unfold deref
  split at h
  · injection h with h; subst h; rfl
  · injection h with h; subst h; rfl
  · cases h

/-! ## Expressions -/

/-- Calls end as they do in `GoSrc/Sem`, if the number of rounds of a loop is limited by a number that is large enough. -/
def CallsEnd (cp : Nat → Calls) (call : GoSrc.Calls) : Prop :=
  ∀ f args s r h, call f args s.h = .ok (r, h) → Ev fun m => Ends (cp m f args) s r h

section
variable {rt : Rt} {cp : Nat → Calls} {call : GoSrc.Calls}

theorem ends_eval (hc : CallsEnd cp call) (e : Expr) : ∀ {env : Vars} {s : GSt} {v : Val} {t : St}, GoSrc.eval rt call e ⟨s.h, env⟩ = .ok (v, t) →
    Ev fun m => Ends (eval rt (cp m) e env) s (v, t.env) t.h := by
  induction e with
  | id x =>
    intro env s v t h
    refine .of fun m => ?_
    simp only [GoSrc.eval] at h
    simp only [eval]
    split at h
    · next h1 => obtain ⟨rfl, rfl⟩ := okPair h; rw [h1]; rfl
    · next h1 =>
      rw [h1]
      split at h
      · next h2 => obtain ⟨rfl, rfl⟩ := okPair h; simp only [h2]; rfl
      · cases h
  | num n =>
    intro env s v t h
    simp only [GoSrc.eval] at h
    obtain ⟨rfl, rfl⟩ := okPair h
    exact .of fun m => rfl
  | hex n =>
    intro env s v t h
    simp only [GoSrc.eval] at h
    obtain ⟨rfl, rfl⟩ := okPair h
    exact .of fun m => rfl
  | const k =>
    intro env s v t h
    simp only [GoSrc.eval] at h
    obtain ⟨rfl, rfl⟩ := okPair h
    exact .of fun m => rfl
  | true_ =>
    intro env s v t h
    simp only [GoSrc.eval] at h
    obtain ⟨rfl, rfl⟩ := okPair h
    exact .of fun m => rfl
  | false_ =>
    intro env s v t h
    simp only [GoSrc.eval] at h
    obtain ⟨rfl, rfl⟩ := okPair h
    exact .of fun m => rfl
  | nil =>
    intro env s v t h
    simp only [GoSrc.eval] at h
    obtain ⟨rfl, rfl⟩ := okPair h
    exact .of fun m => rfl
  | emptyStr =>
    intro env s v t h
    simp only [GoSrc.eval] at h
    obtain ⟨rfl, rfl⟩ := okPair h
    exact .of fun m => rfl
  | eof =>
    intro env s v t h
    simp only [GoSrc.eval] at h
    obtain ⟨rfl, rfl⟩ := okPair h
    exact .of fun m => rfl
  | noArgs =>
    intro env s v t h
    simp only [GoSrc.eval] at h
    obtain ⟨rfl, rfl⟩ := okPair h
    exact .of fun m => rfl
  | sel e f ih =>
    intro env s v t h
    simp only [GoSrc.eval] at h
    obtain ⟨⟨a, s1⟩, h1, h⟩ := bindOk h
    obtain ⟨b, h2, h⟩ := bindOk h
    obtain ⟨rfl, rfl⟩ := okPair h
    exact (ih h1).mono fun m e1 => e1.bind ((ends_lift h2 _).bind (ends_done' _ _ _))
  | selLen e ih =>
    intro env s v t h
    simp only [GoSrc.eval] at h
    obtain ⟨⟨a, s1⟩, h1, h⟩ := bindOk h
    simp only at h
    split at h
    · obtain ⟨rfl, rfl⟩ := okPair h
      exact (ih h1).mono fun m e1 => e1.bind (ends_done' _ _ _)
    · cases h
  | selData e ih =>
    intro env s v t h
    simp only [GoSrc.eval] at h
    obtain ⟨⟨a, s1⟩, h1, h⟩ := bindOk h
    simp only at h
    split at h
    · obtain ⟨rfl, rfl⟩ := okPair h
      exact (ih h1).mono fun m e1 => e1.bind (ends_done' _ _ _)
    · cases h
  | paren e ih =>
    intro env s v t h
    simp only [GoSrc.eval] at h
    simp only [eval]
    exact ih h
  | star e ih =>
    intro env s v t h
    simp only [GoSrc.eval] at h
    obtain ⟨⟨a, s1⟩, h1, h⟩ := bindOk h
    obtain ⟨b, h2, h⟩ := bindOk h
    obtain ⟨rfl, rfl⟩ := okPair h
    exact (ih h1).mono fun m e1 => e1.bind ((ends_deref (s := withH s s1.h) h2).bind (ends_done' _ _ _))
  | not e ih =>
    intro env s v t h
    simp only [GoSrc.eval] at h
    obtain ⟨⟨a, s1⟩, h1, h⟩ := bindOk h
    simp only at h
    split at h
    · obtain ⟨rfl, rfl⟩ := okPair h
      exact (ih h1).mono fun m e1 => e1.bind (ends_done' _ _ _)
    · cases h
  | bin op l r ihl ihr =>
    intro env s v t h
    simp only [GoSrc.eval] at h
    obtain ⟨⟨a, s1⟩, h1, h⟩ := bindOk h
    simp only at h
    split at h
    · next ho =>
      simp only [eval, if_pos ho]
      split at h
      · obtain ⟨rfl, rfl⟩ := okPair h
        exact (ihl h1).mono fun m e1 => e1.bind (ends_done' _ _ _)
      · exact ((ihl h1).and (ihr (s := withH s s1.h) h)).mono fun m e => e.1.bind e.2
      · cases h
    · next ho =>
      simp only [eval, if_neg ho]
      obtain ⟨⟨b, s2⟩, h2, h⟩ := bindOk h
      obtain ⟨z, h3, h⟩ := bindOk h
      obtain ⟨rfl, rfl⟩ := okPair h
      exact ((ihl h1).and (ihr (s := withH s s1.h) h2)).mono fun m e => e.1.bind (e.2.bind ((ends_lift h3 _).bind (ends_done' _ _ _)))
  | index e i ihl ihr =>
    intro env s v t h
    simp only [GoSrc.eval] at h
    obtain ⟨⟨a, s1⟩, h1, h⟩ := bindOk h
    obtain ⟨⟨b, s2⟩, h2, h⟩ := bindOk h
    obtain ⟨z, h3, h⟩ := bindOk h
    obtain ⟨rfl, rfl⟩ := okPair h
    exact ((ihl h1).and (ihr (s := withH s s1.h) h2)).mono fun m e => e.1.bind (e.2.bind ((ends_indexOf (s := withH s s2.h) h3).bind (ends_done' _ _ _)))
  | slice e ih =>
    intro env s v t h
    simp only [GoSrc.eval] at h
    obtain ⟨⟨a, s1⟩, h1, h⟩ := bindOk h
    simp only at h
    split at h
    · obtain ⟨rfl, rfl⟩ := okPair h
      exact (ih h1).mono fun m e1 => e1.bind (ends_done' _ _ _)
    · cases h
  | sliceFrom e lo ihl ihr =>
    intro env s v t h
    simp only [GoSrc.eval] at h
    obtain ⟨⟨a, s1⟩, h1, h⟩ := bindOk h
    obtain ⟨⟨b, s2⟩, h2, h⟩ := bindOk h
    obtain ⟨z, h3, h⟩ := bindOk h
    obtain ⟨y, h4, h⟩ := bindOk h
    obtain ⟨rfl, rfl⟩ := okPair h
    exact ((ihl h1).and (ihr (s := withH s s1.h) h2)).mono fun m e => e.1.bind (e.2.bind ((ends_lift h3 _).bind ((ends_lift h4 _).bind (ends_done' _ _ _))))
  | sliceTo e hi ihl ihr =>
    intro env s v t h
    simp only [GoSrc.eval] at h
    obtain ⟨⟨a, s1⟩, h1, h⟩ := bindOk h
    obtain ⟨⟨b, s2⟩, h2, h⟩ := bindOk h
    obtain ⟨z, h3, h⟩ := bindOk h
    obtain ⟨y, h4, h⟩ := bindOk h
    obtain ⟨rfl, rfl⟩ := okPair h
    exact ((ihl h1).and (ihr (s := withH s s1.h) h2)).mono fun m e => e.1.bind (e.2.bind ((ends_lift h3 _).bind ((ends_lift h4 _).bind (ends_done' _ _ _))))
  | sliceRange e lo hi ih1 ih2 ih3 =>
    intro env s v t h
    simp only [GoSrc.eval] at h
    obtain ⟨⟨a, s1⟩, h1, h⟩ := bindOk h
    obtain ⟨⟨b, s2⟩, h2, h⟩ := bindOk h
    obtain ⟨⟨c, s3⟩, h3, h⟩ := bindOk h
    obtain ⟨z, h4, h⟩ := bindOk h
    obtain ⟨y, h5, h⟩ := bindOk h
    obtain ⟨x, h6, h⟩ := bindOk h
    obtain ⟨rfl, rfl⟩ := okPair h
    exact ((ih1 h1).and ((ih2 (s := withH s s1.h) h2).and (ih3 (s := withH s s2.h) h3))).mono fun m e =>
      e.1.bind (e.2.1.bind (e.2.2.bind ((ends_lift h4 _).bind ((ends_lift h5 _).bind ((ends_lift h6 _).bind (ends_done' _ _ _))))))
  | conv t e ih =>
    intro env s v t h
    simp only [GoSrc.eval] at h
    obtain ⟨⟨a, s1⟩, h1, h⟩ := bindOk h
    obtain ⟨b, h2, h⟩ := bindOk h
    obtain ⟨rfl, rfl⟩ := okPair h
    exact (ih h1).mono fun m e1 => e1.bind ((ends_lift h2 _).bind (ends_done' _ _ _))
  | lib f es ih =>
    intro env s v t h
    simp only [GoSrc.eval] at h
    obtain ⟨⟨a, s1⟩, h1, h⟩ := bindOk h
    obtain ⟨⟨b, h'⟩, h2, h⟩ := bindOk h
    obtain ⟨rfl, rfl⟩ := okPair h
    exact (ih h1).mono fun m e1 => e1.bind ((ends_libApply (s := withH s s1.h) h2).bind (ends_done' _ _ _))
  | append e es ihl ihr =>
    intro env s v t h
    simp only [GoSrc.eval] at h
    obtain ⟨⟨a, s1⟩, h1, h⟩ := bindOk h
    obtain ⟨⟨b, s2⟩, h2, h⟩ := bindOk h
    obtain ⟨bs, h3, h⟩ := bindOk h
    simp only at h
    split at h
    · obtain ⟨r, h4, h⟩ := bindOk h
      obtain ⟨rfl, rfl⟩ := okPair h
      exact ((ihl h1).and (ihr (s := withH s s1.h) h2)).mono fun m e => e.1.bind (e.2.bind ((ends_contents (s := withH s s2.h) h3).bind
        ((ends_append (s := withH s s2.h) h4).bind (ends_done' _ _ _))))
    · cases h
  | put p x e ih =>
    intro env s v t h
    simp only [GoSrc.eval] at h
    obtain ⟨⟨a, s1⟩, h1, h⟩ := bindOk h
    simp only at h
    split at h
    · next bs hl =>
      obtain ⟨⟨n, y⟩, h2, h⟩ := bindOk h
      simp only at h
      split at h
      · next env' hu =>
        obtain ⟨rfl, rfl⟩ := okPair h
        refine (ih h1).mono fun m e1 => e1.bind ?_
        simp only [hl]
        refine (ends_lift h2 _).bind ?_
        simp only [hu]
        exact ends_done' _ _ _
      · cases h
    · cases h
  | call f es ih =>
    intro env s v t h
    simp only [GoSrc.eval] at h
    obtain ⟨⟨a, s1⟩, h1, h⟩ := bindOk h
    obtain ⟨⟨rs, h'⟩, h2, h⟩ := bindOk h
    obtain ⟨rfl, rfl⟩ := okPair h
    exact ((ih h1).and (hc f a.flat (withH s s1.h) rs h' h2)).mono fun m e => e.1.bind (e.2.bind (ends_done' _ _ _))
  | method e f es ihl ihr =>
    intro env s v t h
    simp only [GoSrc.eval] at h
    obtain ⟨⟨a, s1⟩, h1, h⟩ := bindOk h
    obtain ⟨⟨b, s2⟩, h2, h⟩ := bindOk h
    obtain ⟨⟨rs, h'⟩, h3, h⟩ := bindOk h
    obtain ⟨rfl, rfl⟩ := okPair h
    exact ((ihl h1).and ((ihr (s := withH s s1.h) h2).and (hc f (a :: b.flat) (withH s s2.h) rs h' h3))).mono fun m e => e.1.bind (e.2.1.bind (e.2.2.bind (ends_done' _ _ _)))
  | cast ty x =>
    intro env s v t h
    simp only [GoSrc.eval] at h
    simp only [eval]
    split at h
    · next u hl =>
      obtain ⟨b, h2, h⟩ := bindOk h
      obtain ⟨rfl, rfl⟩ := okPair h
      exact .of fun m => by simp only [hl]; exact (ends_lift h2 _).bind (ends_done' _ _ _)
    · cases h
  | sliceOf d l k ih1 ih2 ih3 =>
    intro env s v t h
    simp only [GoSrc.eval] at h
    obtain ⟨⟨a, s1⟩, h1, h⟩ := bindOk h
    obtain ⟨⟨b, s2⟩, h2, h⟩ := bindOk h
    obtain ⟨⟨c, s3⟩, h3, h⟩ := bindOk h
    obtain ⟨z, h4, h⟩ := bindOk h
    obtain ⟨rfl, rfl⟩ := okPair h
    exact ((ih1 h1).and ((ih2 (s := withH s s1.h) h2).and (ih3 (s := withH s s2.h) h3))).mono fun m e =>
      e.1.bind (e.2.1.bind (e.2.2.bind ((ends_lift h4 _).bind (ends_done' _ _ _))))
  | offsetsLit a k ihl ihr =>
    intro env s v t h
    simp only [GoSrc.eval] at h
    obtain ⟨⟨a, s1⟩, h1, h⟩ := bindOk h
    obtain ⟨⟨b, s2⟩, h2, h⟩ := bindOk h
    simp only at h
    split at h
    · split at h
      · next hij =>
        obtain ⟨rfl, rfl⟩ := okPair h
        refine ((ihl h1).and (ihr (s := withH s s1.h) h2)).mono fun m e => e.1.bind (e.2.bind ?_)
        simp only [if_pos hij]
        exact ends_done' _ _ _
      · cases h
    · cases h
  | makeMap n ih =>
    intro env s v t h
    simp only [GoSrc.eval] at h
    obtain ⟨⟨a, s1⟩, h1, h⟩ := bindOk h
    obtain ⟨rfl, rfl⟩ := okPair h
    exact (ih h1).mono fun m e1 => e1.bind rfl
  | arg e ih =>
    intro env s v t h
    simp only [GoSrc.eval] at h
    obtain ⟨⟨a, s1⟩, h1, h⟩ := bindOk h
    obtain ⟨rfl, rfl⟩ := okPair h
    exact (ih h1).mono fun m e1 => e1.bind (ends_done' _ _ _)
  | args e es ihl ihr =>
    intro env s v t h
    simp only [GoSrc.eval] at h
    obtain ⟨⟨a, s1⟩, h1, h⟩ := bindOk h
    obtain ⟨⟨b, s2⟩, h2, h⟩ := bindOk h
    obtain ⟨rfl, rfl⟩ := okPair h
    exact ((ihl h1).and (ihr (s := withH s s1.h) h2)).mono fun m e => e.1.bind (e.2.bind (ends_done' _ _ _))

/-! ## Statements -/

theorem ends_store (hc : CallsEnd cp call) (e : Expr) : ∀ {u : Val} {env : Vars} {s : GSt} {t : St}, GoSrc.store rt call e u ⟨s.h, env⟩ = .ok t →
    Ev fun m => Ends (store rt (cp m) e u env) s t.env t.h := by
  induction e with
  | id x =>
    intro u env s t h
    simp only [GoSrc.store] at h
    split at h
    · next old h1 =>
      split at h
      · next env' h2 =>
        injection h with h; subst h
        exact .of fun m => by simp only [store, h1, h2]; rfl
      · cases h
    · cases h
  | paren e ih =>
    intro u env s t h
    simp only [GoSrc.store] at h
    simp only [store]
    exact ih h
  | star e _ =>
    intro u env s t h
    simp only [GoSrc.store] at h
    obtain ⟨⟨a, s1⟩, h1, h⟩ := bindOk h
    simp only at h
    split at h
    · injection h with h; subst h
      exact (ends_eval hc e h1).mono fun m e1 => e1.bind rfl
    · injection h with h; subst h
      exact (ends_eval hc e h1).mono fun m e1 => e1.bind rfl
    · cases h
  | index e k _ _ =>
    intro u env s t h
    simp only [GoSrc.store] at h
    obtain ⟨⟨a, s1⟩, h1, h⟩ := bindOk h
    obtain ⟨⟨b, s2⟩, h2, h⟩ := bindOk h
    have ev := (ends_eval hc e h1).and (ends_eval hc k (s := withH s s1.h) h2)
    simp only at h
    split at h
    · obtain ⟨n, h3, h⟩ := bindOk h
      split at h
      · next hn =>
        split at h
        · injection h with h; subst h
          refine ev.mono fun m e => e.1.bind (e.2.bind ((ends_lift h3 _).bind ?_))
          exact congrArg (fun p => Prog.run p (withH s s2.h)) (if_pos hn)
        · cases h
      · cases h
    · obtain ⟨n, h3, h⟩ := bindOk h
      split at h
      · injection h with h; subst h
        refine ev.mono fun m e => e.1.bind (e.2.bind ((ends_lift h3 _).bind ?_))
        rfl
      · cases h
    · obtain ⟨n, h3, h⟩ := bindOk h
      split at h
      · next hn =>
        split at h
        · split at h
          · next hu =>
            injection h with h; subst h
            refine ev.mono fun m e => e.1.bind (e.2.bind ((ends_lift h3 _).bind ?_))
            simp only [if_pos hn, hu]
            rfl
          · cases h
        · cases h
      · cases h
    · cases h
  | _ => intro u env s t h; simp only [GoSrc.store] at h; cases h

theorem ends_inScope {f : St → M (Out × St)} {fp : Nat → Vars → Prog (Out × Vars)} {env : Vars} {s : GSt} {o : Out} {t : St}
    (hf : ∀ {o : Out} {t : St}, f ⟨s.h, env⟩ = .ok (o, t) → Ev fun m => Ends (fp m env) s (o, t.env) t.h) (h : GoSrc.inScope f ⟨s.h, env⟩ = .ok (o, t)) :
    Ev fun m => Ends (inScope (fp m) env) s (o, t.env) t.h := by
  simp only [GoSrc.inScope] at h
  obtain ⟨⟨a, s1⟩, h1, h⟩ := bindOk h
  obtain ⟨rfl, rfl⟩ := okPair h
  exact (hf h1).mono fun m e1 => e1.bind (ends_done' _ _ _)

theorem ends_forEach {f : Nat → St → M (Out × St)} {fp : Nat → Nat → Vars → Prog (Out × Vars)}
    (hf : ∀ {k : Nat} {env : Vars} {s : GSt} {o : Out} {t : St}, f k ⟨s.h, env⟩ = .ok (o, t) → Ev fun m => Ends (fp m k env) s (o, t.env) t.h) (ks : List Nat) :
    ∀ {env : Vars} {s : GSt} {o : Out} {t : St}, GoSrc.forEach f ks ⟨s.h, env⟩ = .ok (o, t) → Ev fun m => Ends (forEach (fp m) ks env) s (o, t.env) t.h := by
  induction ks with
  | nil =>
    intro env s o t h
    obtain ⟨rfl, rfl⟩ := okPair h
    exact .of fun m => rfl
  | cons k ks ih =>
    intro env s o t h
    simp only [GoSrc.forEach] at h
    obtain ⟨⟨a, s1⟩, h1, h⟩ := bindOk h
    simp only at h
    split at h
    · exact ((hf h1).and (ih (s := withH s s1.h) h)).mono fun m e => e.1.bind e.2
    · obtain ⟨rfl, rfl⟩ := okPair h
      exact (hf h1).mono fun m e => e.bind (ends_done' _ _ _)

theorem iterateM_ok {σ α : Type} {step : σ → M (σ ⊕ α)} {s : σ} {a : α} (h : iterateM step s = .ok a) :
    ∃ n, Zeropb.run (fun s => flatStep (step s)) n s = some (.ok (some a)) := by
  unfold iterateM at h
  have h : iterate (fun s => flatStep (step s)) s = .ok (some a) := by
    unfold unflat at h
    split at h
    · next e => injection h with h; rw [e, h]
    · cases h
    · cases h
  unfold iterate at h
  split at h
  · next hex =>
    obtain ⟨n, hn⟩ := Classical.choose_spec hex
    exact ⟨n, by rw [hn, h]⟩
  · cases h

theorem flatStep_inl {σ α : Type} {x : M (σ ⊕ α)} {t : σ} (h : flatStep x = .ok (.inl t)) : x = .ok (.inl t) := by
  unfold flatStep at h
  split at h
  · injection h with h; injection h with h; rw [h]
  · injection h with h; cases h
  · cases h
  · injection h with h; cases h

theorem flatStep_inr {σ α : Type} {x : M (σ ⊕ α)} {a : α} (h : flatStep x = .ok (.inr (some a))) : x = .ok (.inr a) := by
  unfold flatStep at h
  split at h
  · injection h with h; cases h
  · injection h with h; injection h with h; injection h with h; rw [h]
  · cases h
  · injection h with h; injection h with h; cases h

theorem ends_loopWhile {cond : St → M (Val × St)} {body : St → M (Out × St)} {condP : Nat → Vars → Prog (Val × Vars)} {bodyP : Nat → Vars → Prog (Out × Vars)}
    (hcond : ∀ {env : Vars} {s : GSt} {v : Val} {t : St}, cond ⟨s.h, env⟩ = .ok (v, t) → Ev fun m => Ends (condP m env) s (v, t.env) t.h)
    (hbody : ∀ {env : Vars} {s : GSt} {o : Out} {t : St}, body ⟨s.h, env⟩ = .ok (o, t) → Ev fun m => Ends (bodyP m env) s (o, t.env) t.h)
    {env : Vars} {s : GSt} {o : Out} {t : St} (h : GoSrc.loopWhile cond body ⟨s.h, env⟩ = .ok (o, t)) : Ev fun m => Ends (loopWhile (condP m) (bodyP m) m env) s (o, t.env) t.h := by
  obtain ⟨n, hn⟩ := iterateM_ok h
  have key : ∀ n env s, Zeropb.run (fun s => flatStep ((fun s => do
      let (v, s) ← cond s
      match v with
      | .bool false => .ok (.inr (.next, s))
      | .bool true => do
        let (o, s) ← GoSrc.inScope body s
        match o with
        | .next => .ok (.inl s)
        | .ret vs => .ok (.inr (.ret vs, s))
      | _ => .error .stuck : St → M (St ⊕ (Out × St))) s)) n ⟨GSt.h s, env⟩ = some (.ok (some (o, t))) →
      Ev fun m => ∀ fuel, n ≤ fuel → Ends (loopWhile (condP m) (bodyP m) fuel env) s (o, t.env) t.h := by
    intro n
    induction n with
    | zero => intro env s hn; cases hn
    | succ n ih =>
      intro env s hn
      simp only [Zeropb.run] at hn
      split at hn
      · injection hn with hn; cases hn
      · next a hs =>
        injection hn with hn; injection hn with hn; subst hn
        obtain ⟨⟨v, s1⟩, h1, h2⟩ := bindOk (flatStep_inr hs)
        simp only at h2
        split at h2
        · injection h2 with h2; injection h2 with h2; injection h2 with h2 h3; subst h2; subst h3
          refine (hcond h1).mono fun m e1 fuel hf => ?_
          obtain ⟨k, rfl⟩ := Nat.exists_eq_add_of_le hf
          rw [show n + 1 + k = n + k + 1 by omega]
          simp only [loopWhile]
          exact e1.bind (ends_done' _ _ _)
        · obtain ⟨⟨o2, s2⟩, h3, h4⟩ := bindOk h2
          simp only at h4
          split at h4
          · injection h4 with h4; cases h4
          · injection h4 with h4; injection h4 with h4; injection h4 with h4 h5; subst h4; subst h5
            refine ((hcond h1).and (ends_inScope (s := withH s s1.h) hbody h3)).mono fun m e fuel hf => ?_
            obtain ⟨k, rfl⟩ := Nat.exists_eq_add_of_le hf
            rw [show n + 1 + k = n + k + 1 by omega]
            simp only [loopWhile]
            exact e.1.bind (e.2.bind (ends_done' _ _ _))
        · cases h2
      · next s' hs =>
        obtain ⟨⟨v, s1⟩, h1, h2⟩ := bindOk (flatStep_inl hs)
        simp only at h2
        split at h2
        · injection h2 with h2; cases h2
        · obtain ⟨⟨o2, s2⟩, h3, h4⟩ := bindOk h2
          simp only at h4
          split at h4
          · injection h4 with h4; injection h4 with h4; subst h4
            refine ((hcond h1).and ((ends_inScope (s := withH s s1.h) hbody h3).and (ih s2.env (withH s s2.h) hn))).mono fun m e fuel hf => ?_
            obtain ⟨k, rfl⟩ := Nat.exists_eq_add_of_le hf
            rw [show n + 1 + k = n + k + 1 by omega]
            simp only [loopWhile]
            exact e.1.bind (e.2.1.bind (e.2.2 _ (by omega)))
          · injection h4 with h4; cases h4
        · cases h2
  obtain ⟨k, hk⟩ := key n env s hn
  exact ⟨max n k, fun m hm => hk m (by omega) m (by omega)⟩

theorem ends_exec (hc : CallsEnd cp call) (st : Stmt) :
    (∀ {env : Vars} {s : GSt} {o : Out} {t : St}, GoSrc.exec rt call st ⟨s.h, env⟩ = .ok (o, t) → Ev fun m => Ends (exec rt (cp m) m st env) s (o, t.env) t.h) ∧
    (∀ {u : Val} {env : Vars} {s : GSt} {o : Out} {t : St}, GoSrc.execCases rt call u st ⟨s.h, env⟩ = .ok (o, t) →
      Ev fun m => Ends (execCases rt (cp m) m u st env) s (o, t.env) t.h) := by
  induction st with
  | skip =>
    refine ⟨?_, ?_⟩
    · intro env s o t h
      simp only [GoSrc.exec] at h
      simp only [exec]
      obtain ⟨rfl, rfl⟩ := okPair h
      exact .of fun m => rfl
    · intro u env s o t h
      simp only [GoSrc.execCases] at h
      obtain ⟨rfl, rfl⟩ := okPair h
      exact .of fun m => by simp only [execCases]; rfl
  | ret =>
    refine ⟨?_, ?_⟩
    · intro env s o t h
      simp only [GoSrc.exec] at h
      simp only [exec]
      obtain ⟨rfl, rfl⟩ := okPair h
      exact .of fun m => rfl
    · intro u env s o t h
      simp only [GoSrc.execCases] at h
      obtain ⟨rfl, rfl⟩ := okPair h
      exact .of fun m => by simp only [execCases]; rfl
  | seq a b iha ihb =>
    refine ⟨?_, ?_⟩
    · intro env s o t h
      simp only [GoSrc.exec] at h
      simp only [exec]
      obtain ⟨⟨x, s1⟩, h1, h⟩ := bindOk h
      simp only at h
      split at h
      · exact ((iha.1 h1).and (ihb.1 (s := withH s s1.h) h)).mono fun m e => e.1.bind e.2
      · obtain ⟨rfl, rfl⟩ := okPair h
        exact (iha.1 h1).mono fun m e => e.bind (ends_done' _ _ _)
    · intro u env s o t h
      simp only [GoSrc.execCases] at h
      obtain ⟨rfl, rfl⟩ := okPair h
      exact .of fun m => by simp only [execCases]; rfl
  | define xs e =>
    refine ⟨?_, ?_⟩
    · intro env s o t h
      simp only [GoSrc.exec] at h
      simp only [exec]
      obtain ⟨⟨x, s1⟩, h1, h⟩ := bindOk h
      obtain ⟨env', h2, h⟩ := bindOk h
      obtain ⟨rfl, rfl⟩ := okPair h
      exact (ends_eval hc _ h1).mono fun m e => e.bind ((ends_lift h2 _).bind (ends_done' _ _ _))
    · intro u env s o t h
      simp only [GoSrc.execCases] at h
      obtain ⟨rfl, rfl⟩ := okPair h
      exact .of fun m => by simp only [execCases]; rfl
  | varBytes x y e =>
    refine ⟨?_, ?_⟩
    · intro env s o t h
      simp only [GoSrc.exec] at h
      simp only [exec]
      obtain ⟨⟨x, s1⟩, h1, h⟩ := bindOk h
      obtain ⟨env', h2, h⟩ := bindOk h
      obtain ⟨rfl, rfl⟩ := okPair h
      exact (ends_eval hc _ h1).mono fun m e => e.bind ((ends_lift h2 _).bind (ends_done' _ _ _))
    · intro u env s o t h
      simp only [GoSrc.execCases] at h
      obtain ⟨rfl, rfl⟩ := okPair h
      exact .of fun m => by simp only [execCases]; rfl
  | varArray x n =>
    refine ⟨?_, ?_⟩
    · intro env s o t h
      simp only [GoSrc.exec] at h
      simp only [exec]
      obtain ⟨⟨x, s1⟩, h1, h⟩ := bindOk h
      simp only at h
      split at h
      · obtain ⟨rfl, rfl⟩ := okPair h
        exact (ends_eval hc _ h1).mono fun m e => e.bind (ends_done' _ _ _)
      · cases h
    · intro u env s o t h
      simp only [GoSrc.execCases] at h
      obtain ⟨rfl, rfl⟩ := okPair h
      exact .of fun m => by simp only [execCases]; rfl
  | var x ty =>
    refine ⟨?_, ?_⟩
    · intro env s o t h
      simp only [GoSrc.exec] at h
      simp only [exec]
      split at h
      · obtain ⟨rfl, rfl⟩ := okPair h
        exact .of fun m => rfl
      · cases h
    · intro u env s o t h
      simp only [GoSrc.execCases] at h
      obtain ⟨rfl, rfl⟩ := okPair h
      exact .of fun m => by simp only [execCases]; rfl
  | assign l e =>
    refine ⟨?_, ?_⟩
    · intro env s o t h
      simp only [GoSrc.exec] at h
      simp only [exec]
      obtain ⟨⟨x, s1⟩, h1, h⟩ := bindOk h
      obtain ⟨s2, h2, h⟩ := bindOk h
      obtain ⟨rfl, rfl⟩ := okPair h
      exact ((ends_eval hc _ h1).and (ends_store hc l (s := withH s s1.h) h2)).mono fun m e => e.1.bind (e.2.bind (ends_done' _ _ _))
    · intro u env s o t h
      simp only [GoSrc.execCases] at h
      obtain ⟨rfl, rfl⟩ := okPair h
      exact .of fun m => by simp only [execCases]; rfl
  | assignSnd y e =>
    refine ⟨?_, ?_⟩
    · intro env s o t h
      simp only [GoSrc.exec] at h
      simp only [exec]
      obtain ⟨⟨x, s1⟩, h1, h⟩ := bindOk h
      simp only at h
      split at h
      · next v1 v2 hx =>
        obtain ⟨s2, h2, h⟩ := bindOk h
        obtain ⟨rfl, rfl⟩ := okPair h
        refine ((ends_eval hc _ h1).and (ends_store hc (.id y) (s := withH s s1.h) h2)).mono fun m e => e.1.bind ?_
        simp only [hx]
        exact e.2.bind (ends_done' _ _ _)
      · cases h
    · intro u env s o t h
      simp only [GoSrc.execCases] at h
      obtain ⟨rfl, rfl⟩ := okPair h
      exact .of fun m => by simp only [execCases]; rfl
  | addAssign y e =>
    refine ⟨?_, ?_⟩
    · intro env s o t h
      simp only [GoSrc.exec] at h
      simp only [exec]
      obtain ⟨⟨x, s1⟩, h1, h⟩ := bindOk h
      obtain ⟨⟨z, s2⟩, h2, h⟩ := bindOk h
      obtain ⟨w, h3, h⟩ := bindOk h
      obtain ⟨s4, h4, h⟩ := bindOk h
      obtain ⟨rfl, rfl⟩ := okPair h
      exact ((ends_eval hc _ h1).and ((ends_eval hc _ (s := withH s s1.h) h2).and (ends_store hc (.id y) (s := withH s s2.h) h4))).mono fun m e =>
        e.1.bind (e.2.1.bind ((ends_lift h3 _).bind (e.2.2.bind (ends_done' _ _ _))))
    · intro u env s o t h
      simp only [GoSrc.execCases] at h
      obtain ⟨rfl, rfl⟩ := okPair h
      exact .of fun m => by simp only [execCases]; rfl
  | expr e =>
    refine ⟨?_, ?_⟩
    · intro env s o t h
      simp only [GoSrc.exec] at h
      simp only [exec]
      obtain ⟨⟨x, s1⟩, h1, h⟩ := bindOk h
      obtain ⟨rfl, rfl⟩ := okPair h
      exact (ends_eval hc _ h1).mono fun m e => e.bind (ends_done' _ _ _)
    · intro u env s o t h
      simp only [GoSrc.execCases] at h
      obtain ⟨rfl, rfl⟩ := okPair h
      exact .of fun m => by simp only [execCases]; rfl
  | retVal e =>
    refine ⟨?_, ?_⟩
    · intro env s o t h
      simp only [GoSrc.exec] at h
      simp only [exec]
      obtain ⟨⟨x, s1⟩, h1, h⟩ := bindOk h
      obtain ⟨rfl, rfl⟩ := okPair h
      exact (ends_eval hc _ h1).mono fun m e => e.bind (ends_done' _ _ _)
    · intro u env s o t h
      simp only [GoSrc.execCases] at h
      obtain ⟨rfl, rfl⟩ := okPair h
      exact .of fun m => by simp only [execCases]; rfl
  | panicType e =>
    refine ⟨?_, ?_⟩
    · intro env s o t h
      simp only [GoSrc.exec] at h
      simp only [exec]
      cases h
    · intro u env s o t h
      simp only [GoSrc.execCases] at h
      obtain ⟨rfl, rfl⟩ := okPair h
      exact .of fun m => by simp only [execCases]; rfl
  | panicErrorf e =>
    refine ⟨?_, ?_⟩
    · intro env s o t h
      simp only [GoSrc.exec] at h
      simp only [exec]
      cases h
    · intro u env s o t h
      simp only [GoSrc.execCases] at h
      obtain ⟨rfl, rfl⟩ := okPair h
      exact .of fun m => by simp only [execCases]; rfl
  | ite k a b iha ihb =>
    refine ⟨?_, ?_⟩
    · intro env s o t h
      simp only [GoSrc.exec] at h
      simp only [exec]
      obtain ⟨⟨x, s1⟩, h1, h⟩ := bindOk h
      simp only at h
      split at h
      · exact ((ends_eval hc _ h1).and (ends_inScope (s := withH s s1.h) iha.1 h)).mono fun m e => e.1.bind e.2
      · exact ((ends_eval hc _ h1).and (ends_inScope (s := withH s s1.h) ihb.1 h)).mono fun m e => e.1.bind e.2
      · cases h
    · intro u env s o t h
      simp only [GoSrc.execCases] at h
      obtain ⟨rfl, rfl⟩ := okPair h
      exact .of fun m => by simp only [execCases]; rfl
  | iteInit i k a b ihi iha ihb =>
    refine ⟨?_, ?_⟩
    · intro env s o t h
      simp only [GoSrc.exec] at h
      simp only [exec]
      refine ends_inScope (fp := fun m env => _) ?_ h
      intro o t h
      obtain ⟨⟨y, s0⟩, h0, h⟩ := bindOk h
      obtain ⟨⟨x, s1⟩, h1, h⟩ := bindOk h
      simp only at h
      split at h
      · exact ((ihi.1 h0).and ((ends_eval hc _ (s := withH s s0.h) h1).and (ends_inScope (s := withH s s1.h) iha.1 h))).mono fun m e => e.1.bind (e.2.1.bind e.2.2)
      · exact ((ihi.1 h0).and ((ends_eval hc _ (s := withH s s0.h) h1).and (ends_inScope (s := withH s s1.h) ihb.1 h))).mono fun m e => e.1.bind (e.2.1.bind e.2.2)
      · cases h
    · intro u env s o t h
      simp only [GoSrc.execCases] at h
      obtain ⟨rfl, rfl⟩ := okPair h
      exact .of fun m => by simp only [execCases]; rfl
  | switch e cs ih =>
    refine ⟨?_, ?_⟩
    · intro env s o t h
      simp only [GoSrc.exec] at h
      simp only [exec]
      obtain ⟨⟨x, s1⟩, h1, h⟩ := bindOk h
      exact ((ends_eval hc _ h1).and (ih.2 (s := withH s s1.h) h)).mono fun m e => e.1.bind e.2
    · intro u env s o t h
      simp only [GoSrc.execCases] at h
      obtain ⟨rfl, rfl⟩ := okPair h
      exact .of fun m => by simp only [execCases]; rfl
  | case k b rest ihb ihr =>
    refine ⟨?_, ?_⟩
    · intro env s o t h
      simp only [GoSrc.exec] at h
      simp only [exec]
      cases h
    · intro u env s o t h
      simp only [GoSrc.execCases] at h
      simp only [execCases]
      obtain ⟨⟨x, s1⟩, h1, h⟩ := bindOk h
      obtain ⟨z, h2, h⟩ := bindOk h
      split at h
      · exact ((ends_eval hc _ h1).and (ends_inScope (s := withH s s1.h) ihb.1 h)).mono fun m e => e.1.bind ((ends_lift h2 _).bind e.2)
      · exact ((ends_eval hc _ h1).and (ihr.2 (s := withH s s1.h) h)).mono fun m e => e.1.bind ((ends_lift h2 _).bind e.2)
      · cases h
  | default b ih =>
    refine ⟨?_, ?_⟩
    · intro env s o t h
      simp only [GoSrc.exec] at h
      simp only [exec]
      cases h
    · intro u env s o t h
      simp only [GoSrc.execCases] at h
      simp only [execCases]
      exact ends_inScope ih.1 h
  | loop i k b ihi ihb =>
    refine ⟨?_, ?_⟩
    · intro env s o t h
      simp only [GoSrc.exec] at h
      simp only [exec]
      refine ends_inScope (fp := fun m env => _) ?_ h
      intro o t h
      obtain ⟨⟨y, s0⟩, h0, h⟩ := bindOk h
      cases k with
      | none =>
        refine ((ihi.1 h0).and (ends_loopWhile (s := withH s s0.h) (condP := fun m env => .done (.bool true, env)) ?_ ihb.1 h)).mono fun m e => e.1.bind e.2
        intro env s v t h
        obtain ⟨rfl, rfl⟩ := okPair h
        exact .of fun m => rfl
      | some k =>
        refine ((ihi.1 h0).and (ends_loopWhile (s := withH s s0.h) (condP := fun m env => eval rt (cp m) k env) ?_ ihb.1 h)).mono fun m e => e.1.bind e.2
        intro env s v t h
        exact ends_eval hc k h
    · intro u env s o t h
      simp only [GoSrc.execCases] at h
      obtain ⟨rfl, rfl⟩ := okPair h
      exact .of fun m => by simp only [execCases]; rfl
  | range k v e b ih =>
    refine ⟨?_, ?_⟩
    · intro env s o t h
      simp only [GoSrc.exec] at h
      simp only [exec]
      obtain ⟨⟨x, s1⟩, h1, h⟩ := bindOk h
      simp only at h
      split at h
      · next i =>
        have : Ev fun m => Ends (rangeArr (exec rt (cp m) m b) k v i s1.env) (withH s s1.h) (o, t.env) t.h := by
          unfold GoSrc.rangeArr at h
          refine (ends_forEach (s := withH s s1.h) (fp := fun m n env => .load (.slot i n) fun (x : Option U16) => match x with
            | some x => inScope (fun env => exec rt (cp m) m b (bindSnd v (.u16 x) ((k, .int n) :: env))) env
            | none => .stop .stuck) ?_ _ h).mono fun m e => e
          intro n env s o t h
          split at h
          · next x hx =>
            refine (ends_inScope (fp := fun m env => exec rt (cp m) m b (bindSnd v (.u16 x) ((k, .int n) :: env))) (fun h => ih.1 h) h).mono fun m e => ?_
            simp only [Ends, Prog.run, read, hx]
            exact e
          · cases h
        exact ((ends_eval hc _ h1).and this).mono fun m e => e.1.bind e.2
      · obtain ⟨rfl, rfl⟩ := okPair h
        exact (ends_eval hc _ h1).mono fun m e => e.bind (ends_done' _ _ _)
      · next id =>
        have : Ev fun m => Ends (rangeMap rt (exec rt (cp m) m b) k v id s1.env) (withH s s1.h) (o, t.env) t.h := by
          unfold GoSrc.rangeMap at h
          refine (ends_forEach (s := withH s s1.h) (fp := fun m n env => .load (.map id) fun (mp : GoMap) => match mp.find n with
            | some x => inScope (fun env => exec rt (cp m) m b (bindSnd v (.u64 x) ((k, .int n) :: env))) env
            | none => .done (.next, env)) ?_ _ h).mono fun m e => e
          intro n env s o t h
          split at h
          · next x hx =>
            refine (ends_inScope (fp := fun m env => exec rt (cp m) m b (bindSnd v (.u64 x) ((k, .int n) :: env))) (fun h => ih.1 h) h).mono fun m e => ?_
            simp only [Ends, Prog.run, read, hx]
            exact e
          · next hx =>
            obtain ⟨rfl, rfl⟩ := okPair h
            refine .of fun m => ?_
            simp only [Ends, Prog.run, read, hx]
            rfl
        exact ((ends_eval hc _ h1).and this).mono fun m e => e.1.bind e.2
      · cases h
    · intro u env s o t h
      simp only [GoSrc.execCases] at h
      obtain ⟨rfl, rfl⟩ := okPair h
      exact .of fun m => by simp only [execCases]; rfl

theorem ends_invoke (hc : CallsEnd cp call) (f : Func) (args : List Val) (s : GSt) (r : List Val) (h' : Heap) (h : GoSrc.invoke rt call f args s.h = .ok (r, h')) :
    Ev fun m => Ends (invoke rt (cp m) m f args) s r h' := by
  unfold GoSrc.invoke at h
  unfold invoke
  obtain ⟨env, h1, h⟩ := bindOk h
  obtain ⟨⟨o, s1⟩, h2, h⟩ := bindOk h
  refine ((ends_exec hc f.body).1 h2).mono fun m e => (ends_lift h1 _).bind (e.bind ?_)
  simp only at h
  split at h
  · split at h
    · next hr => obtain ⟨rfl, rfl⟩ := okPair h; simp only [hr]; rfl
    · cases h
  · obtain ⟨rs, h3, h⟩ := bindOk h
    obtain ⟨rfl, rfl⟩ := okPair h
    exact ends_lift h3 _

/-- Alone, a call of a function of offsets.go or zeropb.go does what `GoSrc/Sem` says. -/
theorem ends_goCall (rt : Rt) (d : Nat) : CallsEnd (fun m => goCall rt m d) (GoSrc.goCall rt d) := by
  induction d with
  | zero => intro f args s r h' h; cases h
  | succ d ih =>
    intro f args s r h' h
    simp only [GoSrc.goCall] at h
    simp only [goCall]
    split at h
    · next g hg => simp only [hg]; exact ends_invoke ih g args s r h' h
    · cases h

end
end Zeropb.GoSrc.Conc
