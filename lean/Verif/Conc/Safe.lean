import Verif.Conc.Sem
import Verif.Conc.Halt
/-!
# What the functions of offsets.go and zeropb.go access

A check of the syntax: `append` and `copy` write only to slices of `*buf`; the functions that are not setters (`readers`) write nothing. Go code gets at memory only
through the values it has, so this bounds what a call can access: `safe_goCall`.
-/

set_option linter.constructorNameAsVariable false

namespace Zeropb.GoSrc.Conc
open Zeropb.GoSrc.G

/-! ## The check -/

/-- An expression whose value, if it is a slice, is a part of `*p` for a pointer `p`, or newly allocated. -/
def rooted : Expr → Bool
  | .star _ => true
  | .append _ _ => true
  | .paren e => rooted e
  | .sliceFrom e _ => rooted e
  | .sliceTo e _ => rooted e
  | _ => false

/-- The functions that write no memory. -/
def readers : List Id := [.WrapOffsets, .Get, .FindNextField, .GetRepeatedNonPacked, .fieldDataSize,
  .GetBool, .GetInt32, .GetInt64, .GetUint32, .GetUint64, .GetZigZagInt32, .GetZigZagInt64, .GetFixedUint32, .GetFixedUint64,
  .GetFixedInt32, .GetFixedInt64, .GetFloat32, .GetFloat64, .GetString, .GetBytes]

/-- The functions that write offsets, but no bytes. -/
def fillers : List Id := [.Clear, .Set, .Decode]

/-- What a function may do: read (0), also write offsets (1), also write bytes and change the buffer (2). -/
def callable (lv : Nat) (f : Id) : Bool := decide (2 ≤ lv) || (decide (1 ≤ lv) && fillers.contains f) || readers.contains f

/-- The first of several arguments. -/
def rootedArg : Expr → Bool
  | .args e _ => rooted e
  | _ => false

/-- Expressions that write, where that is allowed, only to slices of `*p`. -/
def okE (lv : Nat) : Expr → Bool
  | .id _ | .num _ | .hex _ | .const _ | .true_ | .false_ | .nil | .emptyStr | .eof | .cast _ _ | .noArgs => true
  | .sel e _ | .selLen e | .selData e | .paren e | .star e | .not e | .slice e | .conv _ e | .put _ _ e | .arg e => okE lv e
  | .bin _ a b | .index a b | .sliceFrom a b | .sliceTo a b | .offsetsLit a b | .args a b => okE lv a && okE lv b
  | .sliceRange a b c | .sliceOf a b c => okE lv a && okE lv b && okE lv c
  | .lib f es => okE lv es && (match f with
    | .copy => decide (2 ≤ lv) && rootedArg es
    | .delete => decide (1 ≤ lv)
    | _ => true)
  | .append e es => decide (2 ≤ lv) && rooted e && okE lv e && okE lv es
  | .call f es => callable lv f && okE lv es
  | .method e f es => callable lv f && okE lv e && okE lv es
  | .makeMap n => decide (1 ≤ lv) && okE lv n

/-- `make(map…)`. -/
def isMake : Expr → Bool
  | .makeMap _ => true
  | _ => false

/-- Assignments of `e`. -/
def okL (lv : Nat) (e : Expr) : Expr → Bool
  | .id _ => true
  | .paren l => okL lv e l
  | .star p => okE lv p && ((decide (2 ≤ lv) && rooted e) || (decide (1 ≤ lv) && isMake e))
  | .index p k => decide (1 ≤ lv) && okE lv p && okE lv k
  | _ => false

/-- Statements. -/
def okS (lv : Nat) : Stmt → Bool
  | .skip | .ret | .var _ _ | .panicType _ | .panicErrorf _ => true
  | .seq a b => okS lv a && okS lv b
  | .define _ e | .varArray _ e | .varBytes _ _ e | .assignSnd _ e | .addAssign _ e | .expr e | .retVal e => okE lv e
  | .assign l e => okE lv e && okL lv e l
  | .ite k a b => okE lv k && okS lv a && okS lv b
  | .iteInit i k a b => okS lv i && okE lv k && okS lv a && okS lv b
  | .switch e cs => okE lv e && okS lv cs
  | .case k b rest => okE lv k && okS lv b && okS lv rest
  | .default b => okS lv b
  | .loop i k b => okS lv i && (match k with | none => true | some k => okE lv k) && okS lv b
  | .range _ _ e b => okE lv e && okS lv b

/-- The functions of the two files. -/
def allFuncs : List Func := (offsetsFile ++ zeropbFile).filterMap (fun t => match t with | .func g => some g | _ => none)

/-- The committed source passes the check. -/
theorem checked : allFuncs.all (fun g => okS 2 g.body && (!fillers.contains g.name || okS 1 g.body) && (!readers.contains g.name || okS 0 g.body)) = true := by decide +kernel

theorem callable_mono {a b : Nat} (h : a ≤ b) {f : Id} (hf : callable a f = true) : callable b f = true := by
  simp only [callable, Bool.or_eq_true, Bool.and_eq_true, decide_eq_true_eq] at hf ⊢
  rcases hf with (hf | hf) | hf
  · exact Or.inl (Or.inl (by omega))
  · exact Or.inl (Or.inr ⟨by omega, hf.2⟩)
  · exact Or.inr hf

theorem okE_mono {a b : Nat} (h : a ≤ b) (e : Expr) (he : okE a e = true) : okE b e = true := by
  induction e <;> simp only [okE, Bool.and_eq_true, decide_eq_true_eq] at he ⊢ <;> simp_all
  case lib f es ih =>
    cases f <;> simp_all <;> omega
  case append => omega
  case call => exact callable_mono h he.1
  case method => exact callable_mono h he.1.1
  case makeMap => omega

theorem okL_mono {a b : Nat} (h : a ≤ b) (e l : Expr) (hl : okL a e l = true) : okL b e l = true := by
  induction l <;> simp only [okL, Bool.and_eq_true, Bool.or_eq_true, decide_eq_true_eq] at hl ⊢ <;> (try simp_all; done)
  case star p _ =>
    refine ⟨okE_mono h _ hl.1, ?_⟩
    rcases hl.2 with k | k
    · exact Or.inl ⟨by omega, k.2⟩
    · exact Or.inr ⟨by omega, k.2⟩
  case index p k _ _ => exact ⟨⟨by omega, okE_mono h _ hl.1.2⟩, okE_mono h _ hl.2⟩

theorem okS_mono (a b : Nat) (h : a ≤ b) {st : Stmt} (hs : okS a st = true) : okS b st = true := by
  induction st <;> simp only [okS, Bool.and_eq_true] at hs ⊢ <;> (try simp_all [okE_mono h, okL_mono h]; done)
  case loop i k b ih1 ih2 =>
    refine ⟨⟨ih1 hs.1.1, ?_⟩, ih2 hs.2⟩
    cases k with
    | none => rfl
    | some k => exact okE_mono h _ hs.1.2

/-! ## What it means -/

/-- What a call may access. -/
structure Perm where
  /-- what may be done: see `callable` -/
  lv : Nat
  /-- the structs that may be accessed -/
  S : Nat → Prop
  R : Loc → Prop
  W : Loc → Prop
  /-- arrays and maps from here on are allocated by the program itself -/
  arrs : Nat
  maps : Nat
  /-- maps that the structs referred to before -/
  had : Nat → Prop

/-- All bytes a slice can reach are in `X`. -/
def Reaches (X : Loc → Prop) (s : HSlice) : Prop := ∀ q, s.off ≤ q → q < s.off + max s.len s.cap → X (.cell s.arr q)

/-- The map may be accessed. -/
def Perm.Map (P : Perm) (id : Nat) : Prop := P.R (.map id) ∧ (1 ≤ P.lv → P.W (.map id))

/-- The locations of the structs, and what is allocated by the program, may be accessed. -/
structure Perm.Ok (P : Perm) : Prop where
  top : P.lv ≤ 2
  buf : ∀ i, P.S i → P.R (.buf i)
  slot : ∀ i k, P.S i → P.R (.slot i k)
  slots : ∀ i, P.S i → P.R (.slots i)
  ref : ∀ i, P.S i → P.R (.ref i)
  wbuf : ∀ i, P.S i → 2 ≤ P.lv → P.W (.buf i)
  wslot : ∀ i k, P.S i → 1 ≤ P.lv → P.W (.slot i k)
  wref : ∀ i, P.S i → 1 ≤ P.lv → P.W (.ref i)
  newR : ∀ a q, P.arrs ≤ a → P.R (.cell a q)
  newW : ∀ a q, P.arrs ≤ a → P.W (.cell a q)
  newMap : ∀ id, P.maps ≤ id → P.Map id

/-- The structs refer to memory that may be accessed. -/
structure Perm.Inv (P : Perm) (s : GSt) : Prop where
  buf : ∀ i, P.S i → Reaches P.R (s.h.ms i).buf
  wbuf : ∀ i, P.S i → 2 ≤ P.lv → Reaches P.W (s.h.ms i).buf
  ref : ∀ i id, P.S i → (s.h.ms i).m = some id → P.Map id
  arrs : P.arrs ≤ s.h.w.arrs.length
  maps : P.maps ≤ s.h.w.maps.length
  live : ∀ i id, P.S i → (s.h.ms i).m = some id → P.had id ∨ id < s.h.w.maps.length

/-- Values without references. -/
def plain : Val → Bool
  | .const _ | .bool _ | .int _ | .u64 _ | .i64 _ | .f64 _ | .u32 _ | .i32 _ | .f32 _ | .u16 _ | .nil | .eof | .array _ | .mapRef none | .reps _ => true
  | .bytes (.lit _) | .str (.lit _) | .hdr (.lit _) | .data (.lit _) => true
  | _ => false

/-- Values that refer only to what may be accessed. -/
inductive Perm.Val (P : Perm) : GoSrc.Val → Prop
  | plain {v} : Conc.plain v = true → Perm.Val P v
  | bytes {t} : Reaches P.R t → Perm.Val P (.bytes (.mem t))
  | str {t} : Reaches P.R t → Perm.Val P (.str (.mem t))
  | hdr {t} : Reaches P.R t → Perm.Val P (.hdr (.mem t))
  | data {t} : Reaches P.R t → Perm.Val P (.data (.mem t))
  | bufPtr {i} : P.S i → Perm.Val P (.bufPtr i)
  | offs {i} : P.S i → Perm.Val P (.offs i)
  | arrOf {i} : P.S i → Perm.Val P (.arrOf i)
  | mapPtr {i} : P.S i → Perm.Val P (.mapPtr i)
  | mapRef {id} : P.Map id → Perm.Val P (.mapRef (some id))
  | many {vs} : (∀ v ∈ vs, Perm.Val P v) → Perm.Val P (.many vs)

/-- The variables. -/
def Perm.Env (P : Perm) (env : Vars) : Prop := ∀ x ∈ env, P.Val x.2

section
variable {P : Perm} {rt : Rt}

theorem Perm.Val.bytes_inv {t : HSlice} (h : P.Val (.bytes (.mem t))) : Reaches P.R t := by
  cases h with
  | plain h => cases h
  | bytes h => exact h
theorem Perm.Val.arrOf_inv {i : Nat} (h : P.Val (.arrOf i)) : P.S i := by
  cases h with
  | plain h => cases h
  | arrOf h => exact h
theorem Perm.Val.bufPtr_inv {i : Nat} (h : P.Val (.bufPtr i)) : P.S i := by
  cases h with
  | plain h => cases h
  | bufPtr h => exact h
theorem Perm.Val.mapPtr_inv {i : Nat} (h : P.Val (.mapPtr i)) : P.S i := by
  cases h with
  | plain h => cases h
  | mapPtr h => exact h
theorem Perm.Val.offs_inv {i : Nat} (h : P.Val (.offs i)) : P.S i := by
  cases h with
  | plain h => cases h
  | offs h => exact h
theorem Perm.Val.mapRef_inv {id : Nat} (h : P.Val (.mapRef (some id))) : P.Map id := by
  cases h with
  | plain h => cases h
  | mapRef h => exact h

theorem Perm.Val.src {x : Src} (h : P.Val (.bytes x)) : P.Val (.str x) ∧ P.Val (.hdr x) ∧ P.Val (.data x) := by
  cases h with
  | plain h => cases x with
    | lit bs => exact ⟨.plain rfl, .plain rfl, .plain rfl⟩
    | mem t => cases h
  | bytes h => exact ⟨.str h, .hdr h, .data h⟩

theorem Perm.Val.flat {v : GoSrc.Val} (h : P.Val v) : ∀ x ∈ v.flat, P.Val x := by
  unfold GoSrc.Val.flat
  split
  · cases h with
    | plain h => cases h
    | many h => exact h
  · intro x hx
    rw [List.mem_singleton] at hx
    subst hx; exact h

theorem Perm.Env.lookup {env : Vars} (h : P.Env env) {x : Id} {v : GoSrc.Val} (hl : lookup x env = some v) : P.Val v := by
  induction env with
  | nil => cases hl
  | cons y env ih =>
    obtain ⟨y, u⟩ := y
    simp only [GoSrc.lookup] at hl
    split at hl
    · injection hl with hl; subst hl; exact h (y, u) (List.mem_cons_self ..)
    · exact ih (fun z hz => h z (List.mem_cons_of_mem _ hz)) hl

theorem Perm.Env.cons {env : Vars} (h : P.Env env) {x : Id} {v : GoSrc.Val} (hv : P.Val v) : P.Env ((x, v) :: env) := by
  intro z hz
  rcases List.mem_cons.1 hz with rfl | hz
  · exact hv
  · exact h z hz

theorem Perm.Env.update {env env' : Vars} (h : P.Env env) {x : Id} {v : GoSrc.Val} (hv : P.Val v) (hu : update x v env = some env') : P.Env env' := by
  induction env generalizing env' with
  | nil => cases hu
  | cons y env ih =>
    obtain ⟨y, u⟩ := y
    have ht : P.Env env := fun z hz => h z (List.mem_cons_of_mem _ hz)
    simp only [GoSrc.update] at hu
    split at hu
    · injection hu with hu; subst hu; exact ht.cons hv
    · simp only [Option.map_eq_some_iff] at hu
      obtain ⟨e1, h1, rfl⟩ := hu
      exact (ih ht h1).cons (h (y, u) (List.mem_cons_self ..))

theorem Perm.Val.coerce {v : GoSrc.Val} (h : P.Val v) (t : Ty) : P.Val (v.coerce t) := by
  unfold GoSrc.Val.coerce
  split
  · cases t <;> (try exact .plain rfl) <;> (simp only []; split <;> exact .plain rfl)
  · exact h

theorem Perm.Env.declare {xs : List (Option Id)} {vs : List GoSrc.Val} {env env' : Vars} (h : P.Env env) (hv : ∀ v ∈ vs, P.Val v) (hd : declare xs vs env = .ok env') : P.Env env' := by
  induction xs generalizing vs env with
  | nil =>
    cases vs with
    | nil => injection hd with hd; subst hd; exact h
    | cons v vs => cases hd
  | cons x xs ih =>
    cases vs with
    | nil => cases x <;> cases hd
    | cons v vs =>
      have ht : ∀ v ∈ vs, P.Val v := fun z hz => hv z (List.mem_cons_of_mem _ hz)
      cases x with
      | none => exact ih h ht hd
      | some x => exact ih (h.cons ((hv v (List.mem_cons_self ..)).coerce _)) ht hd

theorem Perm.Env.drop {env : Vars} (h : P.Env env) (n : Nat) : P.Env (env.drop n) := fun z hz => h z (List.mem_of_mem_drop hz)

theorem plain_val {v : GoSrc.Val} (h : plain v = true) : P.Val v := .plain h

theorem convert_val {t : Ty} {v u : GoSrc.Val} (h : convert t v = .ok u) : P.Val u := by
  unfold convert at h
  split at h <;> first | (injection h with h; subst h; exact .plain rfl) | cases h

theorem arith_val {op : Op} {a b u : GoSrc.Val} (h : arith op a b = .ok u) : P.Val u := by
  unfold arith at h
  split at h <;> first
    | (injection h with h; subst h; exact .plain rfl)
    | (split at h <;> first | (injection h with h; subst h; exact .plain rfl) | cases h)
    | cases h

theorem binop_val {op : Op} {a b u : GoSrc.Val} (h : binop op a b = .ok u) : P.Val u := by
  unfold binop at h
  split at h <;> exact arith_val h

theorem pkgConst_val {x : Id} {v : GoSrc.Val} (h : pkgConst x = some v) : P.Val v := by
  unfold pkgConst at h
  split at h <;> first | (injection h with h; subst h; exact .plain rfl) | cases h

theorem Reaches.dropFrom {X : Loc → Prop} {s t : HSlice} {i : Int} (h : Reaches X s) (hd : s.dropFrom i = .ok t) : Reaches X t := by
  unfold HSlice.dropFrom at hd
  split at hd
  · injection hd with hd; subst hd
    intro q h1 h2
    simp only at h1 h2
    exact h q (by omega) (by omega)
  · cases hd

theorem Reaches.range {X : Loc → Prop} {s t : HSlice} {i j : Int} (h : Reaches X s) (hd : s.range i j = .ok t) : Reaches X t := by
  unfold HSlice.range at hd
  split at hd
  · injection hd with hd; subst hd
    intro q h1 h2
    simp only at h1 h2
    exact h q (by omega) (by omega)
  · cases hd

theorem liftOk {α : Type} {x : Res α} {a : α} (h : GoSrc.lift x = .ok a) : x = .ok a := by
  cases x with
  | error e => cases h
  | ok b => simp only [GoSrc.lift] at h; injection h with h; rw [h]

theorem bindOk2 {α β ε : Type} {x : Except ε α} {f : α → Except ε β} {b : β} (h : (x >>= f) = .ok b) : ∃ a, x = .ok a ∧ f a = .ok b := by
  cases x with
  | error e => cases h
  | ok a => exact ⟨a, rfl, h⟩

/-- What holds of the value of an expression. -/
structure Perm.Post (P : Perm) (e : Expr) (r : GoSrc.Val × Vars) (s : GSt) : Prop where
  inv : P.Inv s
  val : P.Val r.1
  env : P.Env r.2
  root : 2 ≤ P.lv → rooted e = true → ∀ t, r.1 = .bytes (.mem t) → Reaches P.W t
  arg : 2 ≤ P.lv → rootedArg e = true → ∀ t vs, r.1 = .many (.bytes (.mem t) :: vs) → Reaches P.W t
  make : isMake e = true → ∀ t, r.1 ≠ .bytes (.mem t)
  ref : (rooted e || isMake e) = true → ∀ id, r.1 = .mapRef (some id) → P.had id ∨ id < s.h.w.maps.length

theorem Perm.Post.easy {e : Expr} {r : GoSrc.Val × Vars} {s : GSt} (hi : P.Inv s) (hv : P.Val r.1) (he : P.Env r.2) (h1 : rooted e = false) (h2 : rootedArg e = false) (h3 : isMake e = false := by rfl) :
    P.Post e r s := ⟨hi, hv, he, fun _ h => (by rw [h1] at h; cases h), fun _ h => (by rw [h2] at h; cases h), fun h => (by rw [h3] at h; cases h), fun h => (by rw [h1, h3] at h; cases h)⟩

/-! ## Accesses -/

/-- What is known of the memory. -/
macro "inv" : tactic => `(tactic| first
  | assumption
  | exact Perm.Post.inv (by assumption)
  | exact And.left (by assumption)
  | trivial)

theorem safez_lift {α : Type} {x : M α} {Z : GSt → Prop} {R W : Loc → Prop} {Q : α → GSt → Prop} {s : GSt} (h : ∀ a, x = .ok a → Q a s) (hz : Z s := by inv) : (lift x).SafeZ Z R W Q s := by
  cases x with
  | error e => exact hz
  | ok a => exact h a rfl

theorem safe_lift {α : Type} {x : M α} {R W : Loc → Prop} {Q : α → GSt → Prop} {s : GSt} (h : ∀ a, x = .ok a → Q a s) : (lift x).Safe R W Q s := by
  cases x with
  | error e => trivial
  | ok a => exact h a rfl

theorem safe_readFrom {Z : GSt → Prop} {R W : Loc → Prop} (a q n : Nat) (s : GSt) (h : ∀ k, q ≤ k → k < q + n → R (.cell a k)) : (readFrom a q n).SafeZ Z R W (fun _ s' => s' = s) s := by
  induction n generalizing q with
  | zero => exact rfl
  | succ n ih =>
    refine ⟨h q (by omega) (by omega), ?_⟩
    refine Prog.safez_bind ((ih (q + 1) (fun k h1 h2 => h k (by omega) (by omega))).imp ?_)
    intro _ s' e; exact e

theorem safe_readSlice {Z : GSt → Prop} {R W : Loc → Prop} {t : HSlice} (h : Reaches R t) (s : GSt) : (readSlice t).SafeZ Z R W (fun _ s' => s' = s) s :=
  safe_readFrom _ _ _ _ fun k h1 h2 => h k h1 (by omega)

theorem safe_readSrc {x : Src} {s : GSt} (h : P.Val (.bytes x)) : (readSrc x).SafeZ P.Inv P.R P.W (fun _ s' => s' = s) s := by
  cases x with
  | lit bs => exact rfl
  | mem t => exact safe_readSlice h.bytes_inv s

theorem safe_readRun {Z : GSt → Prop} {R W : Loc → Prop} (a q n : Nat) (s : GSt) (h : ∀ k, q ≤ k → k < q + n → R (.cell a k)) : (readRun a q n).SafeZ Z R W (fun _ s' => s' = s) s := by
  induction n generalizing q with
  | zero => exact rfl
  | succ n ih =>
    refine ⟨h q (by omega) (by omega), ?_⟩
    show Prog.SafeZ Z R W _ (afterByte _ (s.h.w.cell a q)) s
    unfold afterByte
    split
    · split
      · exact rfl
      · refine Prog.safez_bind ((ih (q + 1) (fun k h1 h2 => h k (by omega) (by omega))).imp ?_)
        intro _ s' e; exact e
    · exact rfl

theorem safe_readVarint {x : Src} {s : GSt} (h : P.Val (.bytes x)) : (readVarint x).SafeZ P.Inv P.R P.W (fun _ s' => s' = s) s := by
  cases x with
  | lit bs => exact rfl
  | mem t => exact safe_readRun _ _ _ _ fun k h1 h2 => h.bytes_inv k h1 (by omega)

/-- A write of a byte keeps the structs and the sizes. -/
theorem Perm.Inv.cells {s s' : GSt} (h : P.Inv s) (h1 : s'.h.ms = s.h.ms) (h2 : s.h.w.arrs.length ≤ s'.h.w.arrs.length) (h3 : s.h.w.maps.length ≤ s'.h.w.maps.length) : P.Inv s' := by
  refine ⟨?_, ?_, ?_, Nat.le_trans h.arrs h2, Nat.le_trans h.maps h3, ?_⟩
  · intro i; rw [h1]; exact h.buf i
  · intro i; rw [h1]; exact h.wbuf i
  · intro i id; rw [h1]; exact h.ref i id
  · intro i id hi hm; rw [h1] at hm; exact (h.live i id hi hm).imp_right fun h => Nat.lt_of_lt_of_le h h3

/-- A program that does not end in these states is not seen to end: what is needed below of the writes of bytes. -/
theorem safe_writeTo (a q : Nat) (bs : List Byte) (s : GSt) (hs : P.Inv s) (h : ∀ k, q ≤ k → k < q + bs.length → P.W (.cell a k)) :
    (writeTo a q bs).SafeZ P.Inv P.R P.W (fun _ s' => P.Inv s') s := by
  induction bs generalizing q s with
  | nil => exact hs
  | cons b bs ih =>
    simp only [List.length_cons] at h
    refine ⟨h q (by omega) (by omega), ih (q + 1) _ ?_ (fun k h1 h2 => h k (by omega) (by omega))⟩
    have z := (Write.cell a q b).sameSize s
    exact hs.cells rfl (by rw [z.arrs]; exact Nat.le_refl _) (by rw [z.maps]; exact Nat.le_refl _)

theorem safe_contents {v : GoSrc.Val} {s : GSt} (hs : P.Inv s) (h : P.Val v) : (contents v).SafeZ P.Inv P.R P.W (fun _ s' => s' = s) s := by
  unfold contents
  split
  · exact safe_readSrc h
  · exact rfl
  · inv

theorem safe_append (hP : P.Ok) {t : HSlice} (xs : List Byte) {s : GSt} (hs : P.Inv s) (hr : Reaches P.R t) (hw : Reaches P.W t) :
    (append rt t xs).SafeZ P.Inv P.R P.W (fun r s' => P.Inv s' ∧ Reaches P.R r ∧ Reaches P.W r) s := by
  unfold append
  split
  · split
    · next h2 =>
      refine Prog.safez_bind ((safe_writeTo _ _ _ s hs (fun k h3 h4 => hw k (by omega) (by omega))).imp ?_)
      intro _ s' hs'
      exact ⟨hs', fun q h3 h4 => hr q h3 (by simp only at h4; omega), fun q h3 h4 => hw q h3 (by simp only at h4; omega)⟩
    · refine Prog.safez_bind ((safe_readSlice hr s).imp ?_)
      rintro old s' rfl
      show (_ : Prop)
      refine ⟨hs.cells rfl ?_ (Nat.le_refl _), ?_, ?_⟩
      · simp [newArr, withW]
      · intro q _ _; exact hP.newR _ _ hs.arrs
      · intro q _ _; exact hP.newW _ _ hs.arrs
  · inv

theorem safe_indexOf (hP : P.Ok) {v k : GoSrc.Val} {s : GSt} (hs : P.Inv s) (hv : P.Val v) : (indexOf v k).SafeZ P.Inv P.R P.W (fun r s' => s' = s ∧ P.Val r) s := by
  unfold indexOf
  split
  · refine Prog.safez_bind (safez_lift ?_)
    intro n _
    split
    · refine ⟨hP.slot _ _ hv.arrOf_inv, ?_⟩
      generalize read _ s = x
      cases x with
      | some x => exact ⟨rfl, .plain rfl⟩
      | none => inv
    · inv
  · rename_i r
    refine Prog.safez_bind (safez_lift ?_)
    intro n _
    cases r with
    | none => exact ⟨rfl, .plain rfl⟩
    | some id => exact ⟨hv.mapRef_inv.1, rfl, .plain rfl⟩
  · refine Prog.safez_bind (safez_lift ?_)
    intro n _
    refine ⟨rfl, .many ?_⟩
    intro v hv
    simp only [List.mem_cons, List.not_mem_nil, or_false] at hv
    rcases hv with rfl | rfl <;> exact .plain rfl
  · inv

theorem safe_deref (hP : P.Ok) {v : GoSrc.Val} {s : GSt} (hs : P.Inv s) (hv : P.Val v) :
    (deref v).SafeZ P.Inv P.R P.W (fun r s' => s' = s ∧ P.Val r ∧ (2 ≤ P.lv → ∀ t, r = .bytes (.mem t) → Reaches P.W t) ∧ ∀ id, r = .mapRef (some id) → P.had id ∨ id < s.h.w.maps.length) s := by
  unfold deref
  split
  · next i =>
    refine ⟨hP.buf i hv.bufPtr_inv, rfl, .bytes (hs.buf i hv.bufPtr_inv), ?_, nofun⟩
    intro hw t ht
    injection ht with ht; injection ht with ht; subst ht
    exact hs.wbuf i hv.bufPtr_inv hw
  · next i =>
    refine ⟨hP.ref i hv.mapPtr_inv, rfl, ?_, ?_, ?_⟩
    · show P.Val (.mapRef (s.h.ms i).m)
      cases h : (s.h.ms i).m with
      | none => exact .plain rfl
      | some id => exact .mapRef (hs.ref i id hv.mapPtr_inv h)
    · intro _ t ht; cases ht
    · intro id hid; injection hid with hid; exact hs.live i id hv.mapPtr_inv hid
  · inv

theorem vals2 {a b : GoSrc.Val} (ha : plain a = true) (hb : plain b = true) : P.Val (.many [a, b]) := by
  refine .many ?_
  intro v hv
  simp only [List.mem_cons, List.not_mem_nil, or_false] at hv
  rcases hv with rfl | rfl
  · exact .plain ha
  · exact .plain hb

theorem safe_libApply {f : Lib} {vs : List GoSrc.Val} {s : GSt} (hs : P.Inv s) (hv : ∀ v ∈ vs, P.Val v)
    (hc : f = .copy → 2 ≤ P.lv ∧ ∀ t v, vs = [.bytes (.mem t), v] → Reaches P.W t) (hd : f = .delete → 1 ≤ P.lv) :
    (libApply f vs).SafeZ P.Inv P.R P.W (fun r s' => P.Inv s' ∧ P.Val r) s := by
  unfold libApply
  split
  · refine Prog.safez_bind (safez_lift ?_)
    intro n _
    exact ⟨hs, .plain rfl⟩
  · next d v =>
    refine Prog.safez_bind ((safe_contents hs (hv v (by simp))).imp ?_)
    rintro bs s' rfl
    have hw := (hc rfl).2 _ _ rfl
    refine Prog.safez_bind ((safe_writeTo _ _ _ _ hs ?_).imp fun _ s' hs' => ⟨hs', .plain rfl⟩)
    intro k h1 h2
    simp only [List.length_take] at h2
    exact hw k h1 (by omega)
  · next r k =>
    refine Prog.safez_bind (safez_lift ?_)
    intro n _
    cases r with
    | none => exact ⟨hs, .many nofun⟩
    | some id =>
      have h1 := (hv (.mapRef (some id)) (by simp)).mapRef_inv
      refine ⟨h1.1, h1.2 (hd rfl), ?_, .many nofun⟩
      exact hs.cells rfl (Nat.le_refl _) (by simp [Write.apply, withW])
  · next x =>
    refine Prog.safez_bind ((safe_readVarint (hv _ (by simp))).imp ?_)
    rintro bs s' rfl
    exact ⟨hs, vals2 rfl rfl⟩
  · refine Prog.safez_bind ((safe_readVarint (hv _ (by simp))).imp ?_)
    rintro bs s' rfl
    exact ⟨hs, vals2 rfl rfl⟩
  · refine Prog.safez_bind ((safe_readSrc (hv _ (by simp))).imp ?_)
    rintro bs s' rfl
    exact Prog.safez_bind (safez_lift fun a _ => ⟨hs, .plain rfl⟩)
  · refine Prog.safez_bind ((safe_readSrc (hv _ (by simp))).imp ?_)
    rintro bs s' rfl
    exact Prog.safez_bind (safez_lift fun a _ => ⟨hs, .plain rfl⟩)
  · exact ⟨hs, .plain rfl⟩
  · exact ⟨hs, .plain rfl⟩
  · exact ⟨hs, .plain rfl⟩
  · exact ⟨hs, .plain rfl⟩
  · inv

theorem sliceFrom_val {v r : GoSrc.Val} {i : Int} (hv : P.Val v) (h : sliceFrom v i = .ok r) :
    P.Val r ∧ (∀ X : Loc → Prop, (∀ t, v = .bytes (.mem t) → Reaches X t) → ∀ t, r = .bytes (.mem t) → Reaches X t) ∧ ∀ id, r ≠ .mapRef id := by
  unfold sliceFrom at h
  split at h
  · next t _ =>
    obtain ⟨u, h1, h2⟩ := bindOk2 h
    injection h2 with h2; subst h2
    have h1 := liftOk h1
    refine ⟨.bytes (hv.bytes_inv.dropFrom h1), ?_, nofun⟩
    intro X hX t ht
    injection ht with ht; injection ht with ht; subst ht
    exact (hX _ rfl).dropFrom h1
  · cases h

theorem sliceRange_val {v r : GoSrc.Val} {i j : Int} (hv : P.Val v) (h : sliceRange v i j = .ok r) :
    P.Val r ∧ (∀ X : Loc → Prop, (∀ t, v = .bytes (.mem t) → Reaches X t) → ∀ t, r = .bytes (.mem t) → Reaches X t) ∧ ∀ id, r ≠ .mapRef id := by
  unfold sliceRange at h
  split at h
  · next t _ _ =>
    obtain ⟨u, h1, h2⟩ := bindOk2 h
    injection h2 with h2; subst h2
    have h1 := liftOk h1
    refine ⟨.bytes (hv.bytes_inv.range h1), ?_, nofun⟩
    intro X hX t ht
    injection ht with ht; injection ht with ht; subst ht
    exact (hX _ rfl).range h1
  · split at h
    · injection h with h; subst h
      exact ⟨.plain rfl, fun _ _ _ ht => (by injection ht with ht; cases ht), nofun⟩
    · cases h
  · cases h

theorem fieldOf_val {v r : GoSrc.Val} {f : Id} (hv : P.Val v) (h : fieldOf v f = .ok r) : P.Val r := by
  unfold fieldOf at h
  split at h
  · injection h with h; subst h; exact .arrOf hv.offs_inv
  · injection h with h; subst h; exact .mapPtr hv.offs_inv
  · cases h

theorem castTo_val {v r : GoSrc.Val} {t : Ty} (hv : P.Val v) (h : castTo t v = .ok r) : P.Val r := by
  unfold castTo at h
  split at h
  · injection h with h; subst h; exact hv.src.1
  · injection h with h; subst h
    cases hv with
    | plain h =>
      rename_i x
      cases x with
      | lit bs => exact .plain rfl
      | mem t => cases h
    | str h => exact .hdr h
  · cases h

theorem headerOf_val {d l k r : GoSrc.Val} (hv : P.Val d) (h : headerOf d l k = .ok r) : P.Val r := by
  unfold headerOf at h
  split at h
  · split at h
    · injection h with h; subst h
      cases hv with
      | plain h =>
        rename_i x _ _ _
        cases x with
        | lit bs => exact .plain rfl
        | mem t => cases h
      | data h => exact .bytes h
    · cases h
  · cases h

theorem putApply_val {p : Put} {n : Nat} {v : GoSrc.Val} {r : List Byte × GoSrc.Val} (h : p.apply n v = .ok r) : P.Val r.2 := by
  unfold Put.apply at h
  split at h
  · obtain ⟨bs, _, h⟩ := bindOk2 h; injection h with h; subst h; exact .plain rfl
  · obtain ⟨bs, _, h⟩ := bindOk2 h; injection h with h; subst h; exact .plain rfl
  · split at h
    · injection h with h; subst h; exact .many nofun
    · cases h
  · split at h
    · injection h with h; subst h; exact .many nofun
    · cases h
  · cases h

theorem Perm.Val.results (rs : List GoSrc.Val) : (∀ r ∈ rs, P.Val r) → P.Val (match rs with | [r] => r | _ => .many rs) := by
  split
  · intro h; exact h _ (by simp)
  · intro h; exact .many h

/-! ## Expressions -/

/-- Calls access only what they may. -/
def Perm.Calls (P : Perm) (call : Conc.Calls) : Prop :=
  ∀ f args s, callable P.lv f = true → P.Inv s → (∀ v ∈ args, P.Val v) → (call f args).SafeZ P.Inv P.R P.W (fun rs s' => P.Inv s' ∧ ∀ r ∈ rs, P.Val r) s

theorem safe_eval (hP : P.Ok) {call : Conc.Calls} (hc : P.Calls call) (e : Expr) :
    ∀ (env : Vars) (s : GSt), okE P.lv e = true → P.Inv s → P.Env env → (eval rt call e env).SafeZ P.Inv P.R P.W (P.Post e) s := by
  induction e with
  | id x =>
    intro env s _ hs he
    simp only [eval]
    split
    · next v hl => exact .easy hs (he.lookup hl) he rfl rfl
    · split
      · next v hl => exact .easy hs (pkgConst_val hl) he rfl rfl
      · inv
  | num | hex | const | true_ | false_ | nil | emptyStr | eof =>
    intro env s _ hs he
    exact .easy hs (.plain rfl) he rfl rfl
  | noArgs => intro env s _ hs he; exact .easy hs (.many nofun) he rfl rfl
  | sel e f ih =>
    intro env s ho hs he
    refine Prog.safez_bind ((ih env s ho hs he).imp fun r s' h => ?_)
    refine Prog.safez_bind (safez_lift fun v hv => ?_)
    exact .easy h.inv (fieldOf_val h.val hv) h.env rfl rfl
  | selLen e ih =>
    intro env s ho hs he
    refine Prog.safez_bind ((ih env s ho hs he).imp fun r s' h => ?_)
    split
    · exact .easy h.inv (.plain rfl) h.env rfl rfl
    · inv
  | selData e ih =>
    intro env s ho hs he
    refine Prog.safez_bind ((ih env s ho hs he).imp fun r s' h => ?_)
    split
    · next x hx =>
      have hv := h.val
      rw [hx] at hv
      refine .easy h.inv ?_ h.env rfl rfl
      cases hv with
      | plain h =>
        cases x with
        | lit bs => exact .plain rfl
        | mem t => cases h
      | hdr h => exact .data h
    · inv
  | paren e ih =>
    intro env s ho hs he
    exact (ih env s ho hs he).imp fun r s' h => ⟨h.inv, h.val, h.env, h.root, fun _ hr => (by cases hr), nofun, fun hr => h.ref (by simpa [rooted, isMake] using Or.inl hr)⟩
  | star e ih =>
    intro env s ho hs he
    refine Prog.safez_bind ((ih env s ho hs he).imp fun r s' h => ?_)
    refine Prog.safez_bind ((safe_deref hP h.inv h.val).imp fun v s'' hv => ?_)
    obtain ⟨rfl, h1, h2, h3⟩ := hv
    exact ⟨h.inv, h1, h.env, fun hw _ => h2 hw, fun _ hr => (by cases hr), nofun, fun _ => h3⟩
  | not e ih =>
    intro env s ho hs he
    refine Prog.safez_bind ((ih env s ho hs he).imp fun r s' h => ?_)
    split
    · exact .easy h.inv (.plain rfl) h.env rfl rfl
    · inv
  | bin op l r ih1 ih2 =>
    intro env s ho hs he
    simp only [okE, Bool.and_eq_true] at ho
    refine Prog.safez_bind ((ih1 env s ho.1 hs he).imp fun x s' h => ?_)
    split
    · split
      · exact .easy h.inv (.plain rfl) h.env rfl rfl
      · exact (ih2 _ _ ho.2 h.inv h.env).imp fun y s'' h' => .easy h'.inv h'.val h'.env rfl rfl
      · inv
    · refine Prog.safez_bind ((ih2 _ _ ho.2 h.inv h.env).imp fun y s'' h' => ?_)
      refine Prog.safez_bind (safez_lift fun z hz => ?_)
      exact .easy h'.inv (binop_val hz) h'.env rfl rfl
  | index e i ih1 ih2 =>
    intro env s ho hs he
    simp only [okE, Bool.and_eq_true] at ho
    refine Prog.safez_bind ((ih1 env s ho.1 hs he).imp fun x s' h => ?_)
    refine Prog.safez_bind ((ih2 _ _ ho.2 h.inv h.env).imp fun y s'' h' => ?_)
    refine Prog.safez_bind ((safe_indexOf hP h'.inv h.val).imp fun v s3 h3 => ?_)
    obtain ⟨rfl, h3⟩ := h3
    exact .easy h'.inv h3 h'.env rfl rfl
  | slice e ih =>
    intro env s ho hs he
    refine Prog.safez_bind ((ih env s ho hs he).imp fun r s' h => ?_)
    split
    · exact .easy h.inv (.plain rfl) h.env rfl rfl
    · inv
  | sliceFrom e lo ih1 ih2 =>
    intro env s ho hs he
    simp only [okE, Bool.and_eq_true] at ho
    refine Prog.safez_bind ((ih1 env s ho.1 hs he).imp fun x s' h => ?_)
    refine Prog.safez_bind ((ih2 _ _ ho.2 h.inv h.env).imp fun y s'' h' => ?_)
    refine Prog.safez_bind (safez_lift fun i _ => ?_)
    refine Prog.safez_bind (safez_lift fun r hr => ?_)
    have hv := sliceFrom_val h.val hr
    exact ⟨h'.inv, hv.1, h'.env, fun hw hro => hv.2.1 _ (h.root hw hro), fun _ hr => (by cases hr), nofun, fun _ id hid => absurd hid (hv.2.2 id)⟩
  | sliceTo e hi ih1 ih2 =>
    intro env s ho hs he
    simp only [okE, Bool.and_eq_true] at ho
    refine Prog.safez_bind ((ih1 env s ho.1 hs he).imp fun x s' h => ?_)
    refine Prog.safez_bind ((ih2 _ _ ho.2 h.inv h.env).imp fun y s'' h' => ?_)
    refine Prog.safez_bind (safez_lift fun i _ => ?_)
    refine Prog.safez_bind (safez_lift fun r hr => ?_)
    have hv := sliceRange_val h.val hr
    exact ⟨h'.inv, hv.1, h'.env, fun hw hro => hv.2.1 _ (h.root hw hro), fun _ hr => (by cases hr), nofun, fun _ id hid => absurd hid (hv.2.2 id)⟩
  | sliceRange e lo hi ih1 ih2 ih3 =>
    intro env s ho hs he
    simp only [okE, Bool.and_eq_true] at ho
    refine Prog.safez_bind ((ih1 env s ho.1.1 hs he).imp fun x s' h => ?_)
    refine Prog.safez_bind ((ih2 _ _ ho.1.2 h.inv h.env).imp fun y s'' h' => ?_)
    refine Prog.safez_bind ((ih3 _ _ ho.2 h'.inv h'.env).imp fun z s3 h3 => ?_)
    refine Prog.safez_bind (safez_lift fun i _ => ?_)
    refine Prog.safez_bind (safez_lift fun j _ => ?_)
    refine Prog.safez_bind (safez_lift fun r hr => ?_)
    exact .easy h3.inv (sliceRange_val h.val hr).1 h3.env rfl rfl
  | conv t e ih =>
    intro env s ho hs he
    refine Prog.safez_bind ((ih env s ho hs he).imp fun r s' h => ?_)
    refine Prog.safez_bind (safez_lift fun v hv => ?_)
    exact .easy h.inv (convert_val hv) h.env rfl rfl
  | lib f es ih =>
    intro env s ho hs he
    simp only [okE, Bool.and_eq_true] at ho
    refine Prog.safez_bind ((ih env s ho.1 hs he).imp fun x s' h => ?_)
    refine Prog.safez_bind ((safe_libApply h.inv h.val.flat ?_ ?_).imp fun v s'' hv => .easy hv.1 hv.2 h.env rfl rfl)
    · rintro rfl
      have ho := ho.2
      simp only [Bool.and_eq_true, decide_eq_true_eq] at ho
      refine ⟨ho.1, ?_⟩
      intro t v hf
      refine h.arg ho.1 ho.2 t [v] ?_
      unfold GoSrc.Val.flat at hf
      split at hf
      · next vs hx => rw [hx, hf]
      · simp at hf
    · rintro rfl; exact of_decide_eq_true ho.2
  | append e es ih1 ih2 =>
    intro env s ho hs he
    simp only [okE, Bool.and_eq_true, decide_eq_true_eq] at ho
    obtain ⟨⟨⟨hw, hr⟩, ho1⟩, ho2⟩ := ho
    refine Prog.safez_bind ((ih1 env s ho1 hs he).imp fun x s' h => ?_)
    refine Prog.safez_bind ((ih2 _ _ ho2 h.inv h.env).imp fun y s'' h' => ?_)
    refine Prog.safez_bind ((safe_contents h'.inv h'.val).imp fun bs s3 h3 => ?_)
    subst h3
    split
    · next b hb =>
      have hv := h.val
      rw [hb] at hv
      refine Prog.safez_bind ((safe_append hP bs h'.inv hv.bytes_inv (h.root hw hr b hb)).imp fun r s4 h4 => ?_)
      refine ⟨h4.1, .bytes h4.2.1, h'.env, ?_, fun _ hr => (by cases hr), nofun, nofun⟩
      intro _ _ t ht
      injection ht with ht; injection ht with ht; subst ht
      exact h4.2.2
    · inv
  | put p x e ih =>
    intro env s ho hs he
    refine Prog.safez_bind ((ih env s ho hs he).imp fun v s' h => ?_)
    split
    · refine Prog.safez_bind (safez_lift fun n hn => ?_)
      split
      · next env' hu => exact .easy h.inv (putApply_val hn) (h.env.update (.plain rfl) hu) rfl rfl
      · inv
    · inv
  | call f es ih =>
    intro env s ho hs he
    simp only [okE, Bool.and_eq_true] at ho
    refine Prog.safez_bind ((ih env s ho.2 hs he).imp fun x s' h => ?_)
    refine Prog.safez_bind ((hc f _ _ ho.1 h.inv h.val.flat).imp fun rs s'' hr => ?_)
    exact .easy hr.1 (Perm.Val.results _ hr.2) h.env rfl rfl
  | method e f es ih1 ih2 =>
    intro env s ho hs he
    simp only [okE, Bool.and_eq_true] at ho
    refine Prog.safez_bind ((ih1 env s ho.1.2 hs he).imp fun x s' h => ?_)
    refine Prog.safez_bind ((ih2 _ _ ho.2 h.inv h.env).imp fun y s'' h' => ?_)
    refine Prog.safez_bind ((hc f _ _ ho.1.1 h'.inv ?_).imp fun rs s'' hr => ?_)
    · intro v hv
      rcases List.mem_cons.1 hv with rfl | hv
      · exact h.val
      · exact h'.val.flat v hv
    · exact .easy hr.1 (Perm.Val.results _ hr.2) h'.env rfl rfl
  | cast t x =>
    intro env s _ hs he
    simp only [eval]
    split
    · next v hl =>
      refine Prog.safez_bind (safez_lift fun r hr => ?_)
      exact .easy hs (castTo_val (he.lookup hl) hr) he rfl rfl
    · inv
  | sliceOf d l k ih1 ih2 ih3 =>
    intro env s ho hs he
    simp only [okE, Bool.and_eq_true] at ho
    refine Prog.safez_bind ((ih1 env s ho.1.1 hs he).imp fun x s' h => ?_)
    refine Prog.safez_bind ((ih2 _ _ ho.1.2 h.inv h.env).imp fun y s'' h' => ?_)
    refine Prog.safez_bind ((ih3 _ _ ho.2 h'.inv h'.env).imp fun z s3 h3 => ?_)
    refine Prog.safez_bind (safez_lift fun r hr => ?_)
    exact .easy h3.inv (headerOf_val h.val hr) h3.env rfl rfl
  | offsetsLit a m ih1 ih2 =>
    intro env s ho hs he
    simp only [okE, Bool.and_eq_true] at ho
    refine Prog.safez_bind ((ih1 env s ho.1 hs he).imp fun x s' h => ?_)
    refine Prog.safez_bind ((ih2 _ _ ho.2 h.inv h.env).imp fun y s'' h' => ?_)
    split
    · next i j hx hy =>
      split
      · have hv := h.val
        rw [hx] at hv
        exact .easy h'.inv (.offs hv.arrOf_inv) h'.env rfl rfl
      · inv
    · inv
  | makeMap n ih =>
    intro env s ho hs he
    simp only [okE, Bool.and_eq_true] at ho
    refine Prog.safez_bind ((ih env s ho.2 hs he).imp fun x s' h => ?_)
    show P.Post _ _ _
    refine ⟨h.inv.cells rfl (Nat.le_refl _) ?_, .mapRef (hP.newMap _ h.inv.maps), h.env, fun _ hr => (by cases hr), fun _ hr => (by cases hr), ?_, ?_⟩
    · simp [newMap, withW]
    · intro _ t ht; cases ht
    · intro _ id hid
      injection hid with hid; injection hid with hid
      subst hid
      right; simp [newMap, withW]
  | arg e ih =>
    intro env s ho hs he
    refine Prog.safez_bind ((ih env s ho hs he).imp fun x s' h => ?_)
    refine .easy h.inv (.many ?_) h.env rfl rfl
    intro v hv
    rw [List.mem_singleton] at hv
    subst hv; exact h.val
  | args e es ih1 ih2 =>
    intro env s ho hs he
    simp only [okE, Bool.and_eq_true] at ho
    refine Prog.safez_bind ((ih1 env s ho.1 hs he).imp fun x s' h => ?_)
    refine Prog.safez_bind ((ih2 _ _ ho.2 h.inv h.env).imp fun y s'' h' => ?_)
    refine ⟨h'.inv, .many ?_, h'.env, fun _ hr => (by cases hr), ?_, nofun, nofun⟩
    · intro v hv
      rcases List.mem_cons.1 hv with rfl | hv
      · exact h.val
      · exact h'.val.flat v hv
    · intro hw hr t vs ht
      injection ht with ht; injection ht with ht _
      exact h.root hw hr t ht

/-! ## Statements -/

theorem assignTo_val {old v : GoSrc.Val} (h : P.Val v) : P.Val (old.assignTo v) := by
  unfold GoSrc.Val.assignTo
  split
  · unfold GoSrc.Val.like
    split <;> exact .plain rfl
  · exact h

theorem Perm.Inv.withBuf {s : GSt} (h : P.Inv s) {i : Nat} {b : HSlice} (h1 : Reaches P.R b) (h2 : Reaches P.W b) : P.Inv ((Write.buf i b).apply s) := by
  refine ⟨?_, ?_, ?_, h.arrs, h.maps, ?_⟩
  · intro j hj
    simp only [Write.apply, Heap.put]
    split
    · exact h1
    · exact h.buf j hj
  · intro j hj hw
    simp only [Write.apply, Heap.put]
    split
    · exact h2
    · exact h.wbuf j hj hw
  · intro j id hj hm
    simp only [Write.apply, Heap.put] at hm
    split at hm
    · next e => subst e; exact h.ref j id hj hm
    · exact h.ref j id hj hm
  · intro j id hj hm
    simp only [Write.apply, Heap.put] at hm
    split at hm
    · next e => subst e; exact h.live j id hj hm
    · exact h.live j id hj hm

theorem Perm.Inv.withRef {s : GSt} (h : P.Inv s) {i : Nat} {r : Option Nat} (h1 : ∀ id, r = some id → P.Map id) (h2 : ∀ id, r = some id → P.had id ∨ id < s.h.w.maps.length) : P.Inv ((Write.ref i r).apply s) := by
  refine ⟨?_, ?_, ?_, h.arrs, h.maps, ?_⟩
  · intro j hj
    simp only [Write.apply, Heap.put]
    split
    · next e => subst e; exact h.buf j hj
    · exact h.buf j hj
  · intro j hj hw
    simp only [Write.apply, Heap.put]
    split
    · next e => subst e; exact h.wbuf j hj hw
    · exact h.wbuf j hj hw
  · intro j id hj hm
    simp only [Write.apply, Heap.put] at hm
    split at hm
    · exact h1 _ hm
    · exact h.ref j id hj hm
  · intro j id hj hm
    simp only [Write.apply, Heap.put] at hm
    split at hm
    · exact h2 _ hm
    · exact h.live j id hj hm

theorem Perm.Inv.withSlot {s : GSt} (h : P.Inv s) {i k : Nat} {x : U16} : P.Inv ((Write.slot i k x).apply s) := by
  refine ⟨?_, ?_, ?_, h.arrs, h.maps, ?_⟩
  · intro j hj
    simp only [Write.apply, Heap.put]
    split
    · next e => subst e; exact h.buf j hj
    · exact h.buf j hj
  · intro j hj hw
    simp only [Write.apply, Heap.put]
    split
    · next e => subst e; exact h.wbuf j hj hw
    · exact h.wbuf j hj hw
  · intro j id hj hm
    simp only [Write.apply, Heap.put] at hm
    split at hm
    · next e => subst e; exact h.ref j id hj hm
    · exact h.ref j id hj hm
  · intro j id hj hm
    simp only [Write.apply, Heap.put] at hm
    split at hm
    · next e => subst e; exact h.live j id hj hm
    · exact h.live j id hj hm

theorem safe_store (hP : P.Ok) {call : Conc.Calls} (hc : P.Calls call) (e : Expr) (v : GoSrc.Val) (hv : P.Val v)
    (hb : 2 ≤ P.lv → rooted e = true → ∀ t, v = .bytes (.mem t) → Reaches P.W t) (hk : isMake e = true → ∀ t, v ≠ .bytes (.mem t)) (l : Expr) :
    ∀ (env : Vars) (s : GSt), okL P.lv e l = true → ((rooted e || isMake e) = true → ∀ id, v = .mapRef (some id) → P.had id ∨ id < s.h.w.maps.length) → P.Inv s → P.Env env → (store rt call l v env).SafeZ P.Inv P.R P.W (fun env s' => P.Inv s' ∧ P.Env env) s := by
  induction l with
  | id x =>
    intro env s _ _ hs he
    simp only [store]
    split
    · next old _ =>
      split
      · next env' hu => exact ⟨hs, he.update (assignTo_val hv) hu⟩
      · inv
    · inv
  | paren l ih => intro env s ho hm hs he; exact ih env s ho hm hs he
  | star p _ =>
    intro env s ho hm hs he
    simp only [okL, Bool.and_eq_true, Bool.or_eq_true, decide_eq_true_eq] at ho
    refine Prog.safez_bind ((safe_eval hP hc p env s ho.1 hs he).grow.imp fun r s' hg => ?_)
    obtain ⟨h, hg⟩ := hg
    split
    · next i b hr _ =>
      have h1 := h.val
      rw [hr] at h1
      rcases ho.2 with ⟨k1, k2⟩ | ⟨_, k2⟩
      · exact ⟨hP.wbuf i h1.bufPtr_inv k1, h.inv.withBuf hv.bytes_inv (hb k1 k2 b rfl), h.env⟩
      · exact (hk k2 b rfl).elim
    · next i r hr _ =>
      have h1 := h.val
      rw [hr] at h1
      refine ⟨hP.wref i h1.mapPtr_inv (by omega), h.inv.withRef ?_ ?_, h.env⟩
      · rintro id rfl
        exact hv.mapRef_inv
      · rintro id rfl
        refine (hm ?_ id rfl).imp_right fun h => Nat.lt_of_lt_of_le h hg
        rcases ho.2 with ⟨_, k2⟩ | ⟨_, k2⟩ <;> simp [k2]
    · inv
  | index p k _ _ =>
    intro env s ho hm hs he
    simp only [okL, Bool.and_eq_true, decide_eq_true_eq] at ho
    refine Prog.safez_bind ((safe_eval hP hc p env s ho.1.2 hs he).imp fun r s' h => ?_)
    refine Prog.safez_bind ((safe_eval hP hc k _ _ ho.2 h.inv h.env).imp fun q s' h' => ?_)
    split
    · next i hr =>
      have h1 := h.val
      rw [hr] at h1
      refine Prog.safez_bind (safez_lift fun n _ => ⟨hP.slots i h1.arrOf_inv, ?_⟩)
      generalize (read (.slots i) s' : Nat) = m
      show Prog.SafeZ _ _ _ _ (ite _ _ _) _
      split
      · split
        · exact ⟨hP.wslot i _ h1.arrOf_inv ho.1.1, h'.inv.withSlot, h'.env⟩
        · inv
      · inv
    · next id hr =>
      have h1 := h.val
      rw [hr] at h1
      refine Prog.safez_bind (safez_lift fun n _ => ?_)
      split
      · refine ⟨h1.mapRef_inv.1, h1.mapRef_inv.2 ho.1.1, ?_, h'.env⟩
        exact h'.inv.cells rfl (Nat.le_refl _) (by simp [Write.apply, withW])
      · inv
    · refine Prog.safez_bind (safez_lift fun n _ => ?_)
      split
      · split
        · split
          · next env' hu => exact ⟨h'.inv, h'.env.update (.plain rfl) hu⟩
          · inv
        · inv
      · inv
    · inv
  | _ => intros; rename_i ho _ _ _; cases ho

/-- What holds after a statement. -/
def Perm.After (P : Perm) (r : Out × Vars) (s : GSt) : Prop := P.Inv s ∧ P.Env r.2 ∧ ∀ vs, r.1 = .ret vs → ∀ v ∈ vs, P.Val v

theorem Perm.After.next {s : GSt} {env : Vars} (h : P.Inv s) (he : P.Env env) : P.After (.next, env) s := ⟨h, he, fun _ e => by cases e⟩

/-- Something is done that accesses only what it may. -/
def Perm.Does (P : Perm) (f : Vars → Prog (Out × Vars)) : Prop := ∀ env s, P.Inv s → P.Env env → (f env).SafeZ P.Inv P.R P.W P.After s

theorem safe_inScope {f : Vars → Prog (Out × Vars)} (h : P.Does f) : P.Does (inScope f) := by
  intro env s hs he
  refine Prog.safez_bind ((h env s hs he).imp fun r s' h => ?_)
  exact ⟨h.1, h.2.1.drop _, h.2.2⟩

theorem safe_forEach {body : Nat → Vars → Prog (Out × Vars)} (h : ∀ k, P.Does (body k)) (ks : List Nat) : P.Does (forEach body ks) := by
  induction ks with
  | nil => intro env s hs he; exact .next hs he
  | cons k ks ih =>
    intro env s hs he
    refine Prog.safez_bind ((h k env s hs he).imp fun r s' h' => ?_)
    split
    · exact ih _ _ h'.1 h'.2.1
    · next vs hv => exact ⟨h'.1, h'.2.1, fun ws e => by injection e with e; subst e; exact h'.2.2 _ hv⟩

theorem bindSnd_env {v : Option Id} {x : GoSrc.Val} {env : Vars} (hx : P.Val x) (he : P.Env env) : P.Env (bindSnd v x env) := by
  cases v with
  | none => exact he
  | some y => exact he.cons hx

theorem safe_rangeArr (hP : P.Ok) {body : Vars → Prog (Out × Vars)} (h : P.Does body) (k : Id) (v : Option Id) {i : Nat} (hi : P.S i) : P.Does (rangeArr body k v i) := by
  intro env s hs he
  refine ⟨hP.slots i hi, safe_forEach (fun n => ?_) _ env s hs he⟩
  intro env s hs he
  refine ⟨hP.slot i n hi, ?_⟩
  generalize read _ s = x
  cases x with
  | none => inv
  | some x => exact safe_inScope (fun env s hs he => h _ _ hs (bindSnd_env (.plain rfl) (he.cons (.plain rfl)))) env s hs he

theorem safe_rangeMap {body : Vars → Prog (Out × Vars)} (h : P.Does body) (k : Id) (v : Option Id) {id : Nat} (hi : P.Map id) : P.Does (rangeMap rt body k v id) := by
  intro env s hs he
  refine ⟨hi.1, safe_forEach (fun n => ?_) _ env s hs he⟩
  intro env s hs he
  refine ⟨hi.1, ?_⟩
  generalize (read (.map id) s : GoMap) = m
  show Prog.SafeZ _ _ _ _ (match m.find n with | some x => _ | none => _) s
  split
  · exact safe_inScope (fun env s hs he => h _ _ hs (bindSnd_env (.plain rfl) (he.cons (.plain rfl)))) env s hs he
  · exact .next hs he

theorem safe_loopWhile {cond : Vars → Prog (GoSrc.Val × Vars)} {body : Vars → Prog (Out × Vars)}
    (hk : ∀ env s, P.Inv s → P.Env env → (cond env).SafeZ P.Inv P.R P.W (fun r s' => P.Inv s' ∧ P.Env r.2) s) (h : P.Does body) (n : Nat) : P.Does (loopWhile cond body n) := by
  induction n with
  | zero => intro env s hs he; inv
  | succ n ih =>
    intro env s hs he
    refine Prog.safez_bind ((hk env s hs he).imp fun x s' h1 => ?_)
    split
    · exact .next h1.1 h1.2
    · refine Prog.safez_bind ((safe_inScope h _ _ h1.1 h1.2).imp fun r s'' h2 => ?_)
      split
      · exact ih _ _ h2.1 h2.2.1
      · next vs hv => exact ⟨h2.1, h2.2.1, fun ws e => by injection e with e; subst e; exact h2.2.2 _ hv⟩
    · inv

theorem safe_exec (hP : P.Ok) {call : Conc.Calls} (hc : P.Calls call) (fuel : Nat) (st : Stmt) :
    okS P.lv st = true → P.Does (exec rt call fuel st) ∧ ∀ v, P.Does (execCases rt call fuel v st) := by
  have E := fun e => safe_eval (rt := rt) hP hc e
  induction st with
  | skip => intro _; exact ⟨fun env s hs he => .next hs he, fun v env s hs he => .next hs he⟩
  | seq a b iha ihb =>
    intro ho
    simp only [okS, Bool.and_eq_true] at ho
    refine ⟨?_, fun v env s hs he => .next hs he⟩
    intro env s hs he
    refine Prog.safez_bind (((iha ho.1).1 env s hs he).imp fun r s' h => ?_)
    split
    · exact (ihb ho.2).1 _ _ h.1 h.2.1
    · next vs hv => exact ⟨h.1, h.2.1, fun ws e => by injection e with e; subst e; exact h.2.2 _ hv⟩
  | define xs e =>
    intro ho
    refine ⟨?_, fun v env s hs he => .next hs he⟩
    intro env s hs he
    refine Prog.safez_bind ((E e env s ho hs he).imp fun r s' h => ?_)
    refine Prog.safez_bind (safez_lift fun env' hd => ?_)
    exact .next h.inv (h.env.declare h.val.flat hd)
  | varArray x n =>
    intro ho
    refine ⟨?_, fun v env s hs he => .next hs he⟩
    intro env s hs he
    refine Prog.safez_bind ((E n env s ho hs he).imp fun r s' h => ?_)
    split
    · exact .next h.inv (h.env.cons (.plain rfl))
    · inv
  | var x t =>
    intro ho
    refine ⟨?_, fun v env s hs he => .next hs he⟩
    intro env s hs he
    cases t <;> first | exact .next hs (he.cons (.plain rfl)) | inv
  | varBytes x y es =>
    intro ho
    refine ⟨?_, fun v env s hs he => .next hs he⟩
    intro env s hs he
    refine Prog.safez_bind ((E es env s ho hs he).imp fun r s' h => ?_)
    refine Prog.safez_bind (safez_lift fun env' hd => ?_)
    exact .next h.inv (h.env.declare h.val.flat hd)
  | assign l e =>
    intro ho
    simp only [okS, Bool.and_eq_true] at ho
    refine ⟨?_, fun v env s hs he => .next hs he⟩
    intro env s hs he
    refine Prog.safez_bind ((E e env s ho.1 hs he).imp fun r s' h => ?_)
    refine Prog.safez_bind ((safe_store hP hc e r.1 h.val h.root h.make l _ _ ho.2 h.ref h.inv h.env).imp fun env' s'' h' => .next h'.1 h'.2)
  | assignSnd x e =>
    intro ho
    refine ⟨?_, fun v env s hs he => .next hs he⟩
    intro env s hs he
    refine Prog.safez_bind ((E e env s ho hs he).imp fun r s' h => ?_)
    split
    · next v hv =>
      refine Prog.safez_bind ((safe_store hP hc (.id x) v (h.val.flat v (by rw [hv]; simp)) nofun nofun (.id x) _ _ rfl nofun h.inv h.env).imp
        fun env' s'' h' => .next h'.1 h'.2)
    · inv
  | addAssign x e =>
    intro ho
    refine ⟨?_, fun v env s hs he => .next hs he⟩
    intro env s hs he
    refine Prog.safez_bind ((E (.id x) env s rfl hs he).imp fun r s' h => ?_)
    refine Prog.safez_bind ((E e _ _ ho h.inv h.env).imp fun u s'' h' => ?_)
    refine Prog.safez_bind (safez_lift fun z hz => ?_)
    refine Prog.safez_bind ((safe_store hP hc (.id x) z (binop_val hz) nofun nofun (.id x) _ _ rfl nofun h'.inv h'.env).imp
      fun env' s'' h' => .next h'.1 h'.2)
  | expr e =>
    intro ho
    refine ⟨?_, fun v env s hs he => .next hs he⟩
    intro env s hs he
    exact Prog.safez_bind ((E e env s ho hs he).imp fun r s' h => .next h.inv h.env)
  | ret => intro _; exact ⟨fun env s hs he => ⟨hs, he, fun vs e => by injection e with e; subst e; exact nofun⟩, fun v env s hs he => .next hs he⟩
  | retVal es =>
    intro ho
    refine ⟨?_, fun v env s hs he => .next hs he⟩
    intro env s hs he
    refine Prog.safez_bind ((E es env s ho hs he).imp fun r s' h => ?_)
    exact ⟨h.inv, h.env, fun vs e => by injection e with e; subst e; exact h.val.flat⟩
  | panicType | panicErrorf => intro _; exact ⟨fun env s hs he => hs, fun v env s hs he => .next hs he⟩
  | ite k t e iht ihe =>
    intro ho
    simp only [okS, Bool.and_eq_true] at ho
    refine ⟨?_, fun v env s hs he => .next hs he⟩
    intro env s hs he
    refine Prog.safez_bind ((E k env s ho.1.1 hs he).imp fun r s' h => ?_)
    split
    · exact safe_inScope (iht ho.1.2).1 _ _ h.inv h.env
    · exact safe_inScope (ihe ho.2).1 _ _ h.inv h.env
    · inv
  | iteInit i k t e ihi iht ihe =>
    intro ho
    simp only [okS, Bool.and_eq_true] at ho
    refine ⟨?_, fun v env s hs he => .next hs he⟩
    refine safe_inScope ?_
    intro env s hs he
    refine Prog.safez_bind (((ihi ho.1.1.1).1 env s hs he).imp fun r s' h => ?_)
    refine Prog.safez_bind ((E k _ _ ho.1.1.2 h.1 h.2.1).imp fun v s'' h => ?_)
    split
    · exact safe_inScope (iht ho.1.2).1 _ _ h.inv h.env
    · exact safe_inScope (ihe ho.2).1 _ _ h.inv h.env
    · inv
  | switch e cs ih =>
    intro ho
    simp only [okS, Bool.and_eq_true] at ho
    refine ⟨?_, fun v env s hs he => .next hs he⟩
    intro env s hs he
    exact Prog.safez_bind ((E e env s ho.1 hs he).imp fun r s' h => (ih ho.2).2 _ _ _ h.inv h.env)
  | case k b rest ihb ihr =>
    intro ho
    simp only [okS, Bool.and_eq_true] at ho
    refine ⟨fun env s hs he => hs, ?_⟩
    intro v env s hs he
    refine Prog.safez_bind ((E k env s ho.1.1 hs he).imp fun r s' h => ?_)
    refine Prog.safez_bind (safez_lift fun z _ => ?_)
    split
    · exact safe_inScope (ihb ho.1.2).1 _ _ h.inv h.env
    · exact (ihr ho.2).2 _ _ _ h.inv h.env
    · inv
  | default b ih => intro ho; exact ⟨fun env s hs he => hs, fun v => safe_inScope (ih ho).1⟩
  | loop i k b ihi ihb =>
    intro ho
    simp only [okS, Bool.and_eq_true] at ho
    refine ⟨?_, fun v env s hs he => .next hs he⟩
    refine safe_inScope ?_
    intro env s hs he
    refine Prog.safez_bind (((ihi ho.1.1).1 env s hs he).imp fun r s' h => ?_)
    cases k with
    | none => exact safe_loopWhile (P := P) (cond := fun env => .done (.bool true, env)) (fun env s hs he => And.intro hs he) (ihb ho.2).1 fuel _ _ h.1 h.2.1
    | some k => exact safe_loopWhile (fun env s hs he => (E k env s ho.1.2 hs he).imp fun r s' h => ⟨h.inv, h.env⟩) (ihb ho.2).1 fuel _ _ h.1 h.2.1
  | range k v e b ih =>
    intro ho
    simp only [okS, Bool.and_eq_true] at ho
    refine ⟨?_, fun v env s hs he => .next hs he⟩
    intro env s hs he
    refine Prog.safez_bind ((E e env s ho.1 hs he).imp fun r s' h => ?_)
    have hv := h.val
    split
    · next i hr => rw [hr] at hv; exact safe_rangeArr hP (ih ho.2).1 _ _ hv.arrOf_inv _ _ h.inv h.env
    · exact .next h.inv h.env
    · next id hr => rw [hr] at hv; exact safe_rangeMap (ih ho.2).1 _ _ hv.mapRef_inv _ _ h.inv h.env
    · inv

theorem bindArgs_env {ps : List (Id × Ty)} {vs : List GoSrc.Val} {env : Vars} (hv : ∀ v ∈ vs, P.Val v) (h : bindArgs ps vs = .ok env) : P.Env env := by
  induction ps generalizing vs env with
  | nil =>
    cases vs with
    | nil => injection h with h; subst h; exact nofun
    | cons => cases h
  | cons p ps ih =>
    cases vs with
    | nil => cases h
    | cons v vs =>
      obtain ⟨e1, h1, h2⟩ := bindOk2 h
      injection h2 with h2; subst h2
      exact (ih (fun z hz => hv z (List.mem_cons_of_mem _ hz)) h1).cons ((hv v (List.mem_cons_self ..)).coerce _)

theorem results_val {ts : List Ty} {vs rs : List GoSrc.Val} (hv : ∀ v ∈ vs, P.Val v) (h : results ts vs = .ok rs) : ∀ r ∈ rs, P.Val r := by
  induction ts generalizing vs rs with
  | nil =>
    cases vs with
    | nil => injection h with h; subst h; exact nofun
    | cons => cases h
  | cons t ts ih =>
    cases vs with
    | nil => cases h
    | cons v vs =>
      obtain ⟨e1, h1, h2⟩ := bindOk2 h
      injection h2 with h2; subst h2
      intro r hr
      rcases List.mem_cons.1 hr with rfl | hr
      · exact (hv v (List.mem_cons_self ..)).coerce _
      · exact ih (fun z hz => hv z (List.mem_cons_of_mem _ hz)) h1 r hr

theorem funcOf_mem {f : Id} {g : Func} (h : funcOf f = some g) : g ∈ allFuncs ∧ g.name = f := by
  unfold funcOf at h
  obtain ⟨t, ht, h⟩ := List.exists_of_findSome?_eq_some h
  cases t with
  | func g' =>
    simp only at h
    split at h
    · next hn =>
      injection h with h; subst h
      exact ⟨List.mem_filterMap.2 ⟨_, ht, rfl⟩, hn⟩
    · cases h
  | _ => cases h

/-- A call accesses only the structs it may, the memory they refer to and its arguments; it writes nothing if writing is not allowed. -/
theorem safe_goCall (hP : P.Ok) (fuel d : Nat) : P.Calls (goCall rt fuel d) := by
  induction d with
  | zero => intro f args s _ _ _; inv
  | succ d ih =>
    intro f args s hf hs hv
    simp only [goCall]
    split
    · next g hg =>
      obtain ⟨hm, rfl⟩ := funcOf_mem hg
      have hk := List.all_eq_true.1 checked g hm
      simp only [Bool.and_eq_true, Bool.or_eq_true, Bool.not_eq_true'] at hk
      have ho : okS P.lv g.body = true := by
        have top := hP.top
        simp only [callable, Bool.or_eq_true, Bool.and_eq_true, decide_eq_true_eq] at hf
        rcases hf with (hf | ⟨hf1, hf2⟩) | hf
        · rw [show P.lv = 2 by omega]; exact hk.1.1
        · rcases Nat.lt_or_ge P.lv 2 with h2 | h2
          · rw [show P.lv = 1 by omega]
            rcases hk.1.2 with h | h
            · rw [hf2] at h; cases h
            · exact h
          · rw [show P.lv = 2 by omega]; exact hk.1.1
        · rcases Nat.lt_or_ge P.lv 2 with h2 | h2
          · rcases hk.2 with h | h
            · rw [hf] at h; cases h
            · exact okS_mono _ _ (Nat.zero_le _) h
          · rw [show P.lv = 2 by omega]; exact hk.1.1
      refine Prog.safez_bind (safez_lift fun env he => ?_)
      refine Prog.safez_bind (((safe_exec hP ih fuel g.body ho).1 env s hs (bindArgs_env hv he)).imp fun r s' h => ?_)
      split
      · split
        · exact ⟨h.1, nofun⟩
        · inv
      · next vs hr => exact safez_lift fun rs hrs => ⟨h.1, results_val (h.2.2 vs hr) hrs⟩
    · inv

end

end Zeropb.GoSrc.Conc
