import Verif.GoSrc.StrSem
import Verif.GoSrc.StrText
import Verif.Props.SourceHistory
/-!
# Running `WriteText`

Interpreted, string.go writes what its model (`Model/Text`) says, and leaves memory as it was.
-/

set_option linter.constructorNameAsVariable false
set_option linter.unusedSimpArgs false

namespace Zeropb.GoSrc.X
open Zeropb.Gen (Text asciiUnicode fileDecls messageDecls testFile Decl)
open G (GVal GSt Program testPackage testPackage_ok)

/-! ## Computations -/

section
variable {α β : Type}

theorem bind_ok {x : E α} {f : α → E β} {s s' : XSt} {a : α} (h : x s = .ok (.ok a, s')) : (x >>= f) s = f a s' := by
  show E.bind x f s = _
  unfold E.bind
  rw [h]

theorem bind_panic {x : E α} {f : α → E β} {s s' : XSt} {v : XVal} (h : x s = .ok (.error v, s')) : (x >>= f) s = .ok (.error v, s') := by
  show E.bind x f s = _
  unfold E.bind
  rw [h]

theorem bind_fail {x : E α} {f : α → E β} {s : XSt} {e : Stop} (h : x s = .error e) : (x >>= f) s = .error e := by
  show E.bind x f s = _
  unfold E.bind
  rw [h]

@[simp] theorem pure_bind' {a : α} {f : α → E β} : ((pure a : E α) >>= f) = f a := rfl
@[simp] theorem state_bind {f : XSt → E β} {s : XSt} : (state >>= f) s = f s s := rfl
@[simp] theorem setState_bind {t : XSt} {f : Unit → E β} {s : XSt} : (setState t >>= f) s = f () t := rfl
@[simp] theorem known_ok_bind {a : α} {f : α → E β} : (known (.ok a) >>= f) = f a := rfl
@[simp] theorem known_error_bind {e : Stop} {f : α → E β} {s : XSt} : (known (.error e) >>= f) s = .error e := rfl
@[simp] theorem known_ok {a : α} {s : XSt} : known (.ok a) s = .ok (.ok a, s) := rfl
@[simp] theorem known_error {e : Stop} {s : XSt} : (known (.error e) : E α) s = .error e := rfl
theorem pure_apply {a : α} {s : XSt} : (pure a : E α) s = .ok (.ok a, s) := rfl
theorem bind_assoc' {γ : Type} {x : E α} {f : α → E β} {g : β → E γ} : (x >>= f) >>= g = x >>= fun a => f a >>= g := by
  funext s
  show E.bind (E.bind x f) g s = E.bind x (fun a => E.bind (f a) g) s
  unfold E.bind
  cases x s with
  | error e => rfl
  | ok r => obtain ⟨r, t⟩ := r; cases r <;> rfl

end

/-! ## Formatting -/

theorem asc_append (a b : Text) : asc (a ++ b) = asc a ++ asc b := List.map_append ..

theorem sprintf_plain (F : Fmt) (w : World) (vs : List XVal) {bs rest : List Byte} (h : ∀ b ∈ bs, b ≠ 37#8) (hr : rest ≠ []) {t : List Byte}
    (ht : sprintf F w rest vs = .ok t) : sprintf F w (bs ++ rest) vs = .ok (bs ++ t) := by
  induction bs with
  | nil => exact ht
  | cons b bs ih =>
    have hb := h b (List.mem_cons_self ..)
    have ih := ih (fun x hx => h x (List.mem_cons_of_mem _ hx))
    cases hl : bs ++ rest with
    | nil => exact absurd (List.append_eq_nil_iff.1 hl).2 hr
    | cons v u =>
      rw [List.cons_append, hl]
      unfold sprintf
      rw [if_neg hb, ← hl, ih]
      rfl

theorem sprintf_verb (F : Fmt) (w : World) (v : XVal) (l : Byte) {t : List Byte} (h : verb F w l v = .ok t) :
    sprintf F w [37#8, l, 32#8] [v] = .ok (t ++ [32#8]) := by
  simp only [sprintf, if_pos, h]
  rfl

/-- The verb string.go uses for each type. -/
def letter : Kind → Char
  | .bool => 't'
  | .float | .double => 'v'
  | .string | .bytes => 's'
  | _ => 'd'

/-! ## The package -/

/-- The hand-written files of package testzeropb. -/
def testSources : List Top := stringGo ++ testInternalsGo

/-- The declarations of the generated file of package testzeropb. -/
abbrev testDecls : List Decl := [testFile].flatMap (fileDecls asciiUnicode)

/-- What string.go shows of each scalar field: number, name in the text, type, getter. -/
def shown : List (Nat × Text × Kind × Text) :=
  [(1, t!"bool", .bool, t!"Bool"), (2, t!"int32", .int32, t!"Int32"), (3, t!"int64", .int64, t!"Int64"), (4, t!"uint32", .uint32, t!"Uint32"),
   (5, t!"uint64", .uint64, t!"Uint64"), (6, t!"sint32", .sint32, t!"Sint32"), (7, t!"sint64", .sint64, t!"Sint64"),
   (8, t!"fixed32", .fixed32, t!"Fixed32"), (9, t!"fixed64", .fixed64, t!"Fixed64"), (10, t!"sfixed32", .sfixed32, t!"Sfixed32"),
   (11, t!"sfixed64", .sfixed64, t!"Sfixed64"), (12, t!"double", .double, t!"Double"), (13, t!"float", .float, t!"Float"),
   (14, t!"string", .string, t!"String"), (15, t!"byte_array", .bytes, t!"ByteArray"), (16, t!"enum", .uint32, t!"Enum")]

/-- The value shown. -/
def valueOf (k : Kind) (name : Text) : Expr := match k with
  | .bytes => .pkg t!"strconv" t!"Quote" (args [.toString (getter name)])
  | _ => getter name

/-- The statement that shows a field. -/
def showOf (x : Nat × Text × Kind × Text) : Stmt := showField x.1 (x.2.1 ++ t!"=%" ++ [letter x.2.2.1] ++ t!" ") (valueOf x.2.2.1 x.2.2.2)

theorem showFields_eq : showFields = shown.map showOf := rfl
theorem textFields_eq : textFields = shown.map (fun x => (x.1, x.2.1, x.2.2.1)) := rfl

theorem shown_decls : ∀ x ∈ shown, Decl.get t!"TestMessage" x.2.2.2 (Gen.Kind.goType x.2.2.1) (Gen.Kind.fn x.2.2.1) x.1 ∈ testDecls := by decide +kernel
theorem shown_names : ∀ x ∈ shown, ∀ b ∈ asc (x.2.1 ++ t!"="), b ≠ 37#8 := by decide +kernel
theorem shown_methods : ∀ x ∈ shown, (method testSources t!"TestMessage" x.2.2.2).isNone := by decide +kernel
theorem shown_types : ∀ x ∈ shown, G.isBytesType testPackage (Gen.Kind.goType x.2.2.1) = false := by decide +kernel

/-! ## Expressions -/

theorem args3 (a b e : Expr) : args [a, b, e] = .args a (.args b (.arg e)) := rfl
theorem args2 (a b : Expr) : args [a, b] = .args a (.arg b) := rfl
theorem args1 (a : Expr) : args [a] = .arg a := rfl

section
variable {F : Fmt} {rt : Rt} {d : Nat} {meth : Meths} {env : Env} {i kw : Nat} {s : XSt}

local notation "ev" => eval F testPackage testSources (goCall rt (d + 3)) (G.run testPackage rt d) meth
local notation "ex" => exec F testPackage testSources (goCall rt (d + 3)) (G.run testPackage rt d) meth

theorem eval_id {x : Text} {v : XVal} (h : get x env = some v) : ev env (.id x) s = .ok (.ok [v], s) := by
  rw [eval, h]
  rfl

/-- `zeropb.WrapOffsets(m.offsets.a[:], &m.offsets.m)` -/
theorem eval_wrap {t : Text} (h : get t!"m" env = some (.g (.struct t i))) :
    ev env (.pkg t!"zeropb" t!"WrapOffsets" (args wrapArgs)) s = .ok (.ok [.g (.val (.offs i))], s) := by
  have h1 : ev env (args wrapArgs) s = .ok (.ok [.g (.val (.arrOf i)), .g (.val (.mapPtr i))], s) := by
    simp only [wrapArgs, args, eval, place, h]
    rfl
  rw [eval, bind_ok h1]
  simp only [library, state_bind]
  rw [if_neg (by decide), if_neg (by decide), if_neg (by decide), if_pos (by decide)]
  simp only [go_WrapOffsets, known_ok_bind, setState_bind]
  rfl

/-- `offsets.Get(f)` -/
theorem eval_Get (h : get t!"offsets" env = some (.g (.val (.offs i)))) (f : Nat) :
    ev env (.method (.id t!"offsets") t!"Get" (args [.num f])) s =
    match (s.g.h.w.offs (s.g.h.ms i)).get f with
    | .error e => .error (.fail e)
    | .ok (o, b) => .ok (.ok [.g (.val (.u64 o)), .g (.val (.bool b))], s) := by
  have h2 : ev env (args [.num f]) s = .ok (.ok [.g (.val (.const f))], s) := rfl
  rw [eval, bind_ok (eval_id h), bind_ok h2]
  simp only [if_pos, state_bind]
  rw [show goCall rt (d + 3) .Get [.offs i, .const f] s.g.h = goCall rt (d + 2 + 1) .Get [.offs i, .int f] s.g.h from rfl, go_Get]
  cases (s.g.h.w.offs (s.g.h.ms i)).get f with
  | error e => rfl
  | ok r => obtain ⟨o, b⟩ := r; rfl

theorem single_results {t f : Text} {g : G.Func} (hm : G.method testPackage t f = some g) {v : Val}
    (ht : ∀ it, g.results = [.name it] → G.isBytesType testPackage it = false) : results testPackage t f [.val v] = .ok [.g (.val v)] := by
  unfold results
  rw [hm]
  obtain ⟨a, b, c, r, e⟩ := g
  match r, ht with
  | [], _ => rfl
  | [.name it], ht => dsimp only; rw [ht it rfl]; rfl
  | [.ptr it], _ => rfl
  | [.bytes], _ => rfl
  | .name _ :: _ :: _, _ => rfl
  | .ptr _ :: _ :: _, _ => rfl
  | .bytes :: _ :: _, _ => rfl

/-- `m.name()` -/
theorem eval_getter {f : Nat} {k : Kind} {name : Text} (h : get t!"m" env = some (.g (.struct t!"TestMessage" i)))
    (hd : Decl.get t!"TestMessage" name (Gen.Kind.goType k) (Gen.Kind.fn k) f ∈ testDecls) (hm : (method testSources t!"TestMessage" name).isNone)
    (ht : G.isBytesType testPackage (Gen.Kind.goType k) = false) (hb : s.g.h.w.WFs (s.g.h.ms i).buf) :
    match (s.g.h.w.msg (s.g.h.ms i)).get k f with
    | .error e => ev env (getter name) s = .error (.fail e)
    | .ok x => ∃ v, ev env (getter name) s = .ok (.ok [.g (.val v)], s) ∧ IsVal s.g.h.w k x v := by
  have h2 : ev env .noArgs s = .ok (.ok [], s) := rfl
  have hr := G.C63_get testPackage_ok rt d s.g hd hb
  have hmeth : G.method testPackage t!"TestMessage" name = some (G.srcGet t!"TestMessage" name (Gen.Kind.goType k) (Gen.Kind.fn k) f) := testPackage_ok.method hd rfl
  have key : ev env (getter name) s = generated testPackage (G.run testPackage rt d) t!"TestMessage" name (.ptr t!"TestMessage" i) [] s := by
    unfold getter
    rw [eval, bind_ok (eval_id h), bind_ok h2]
    dsimp only
    rw [Option.isNone_iff_eq_none.1 hm]
  have hres : ∀ v, results testPackage t!"TestMessage" name [.val v] = .ok [.g (.val v)] := by
    intro v
    refine single_results hmeth ?_
    intro it hit
    simp only [G.srcGet, G.scalarTy] at hit
    split at hit
    · cases hit
    · cases hit; exact ht
  cases hg : (s.g.h.w.msg (s.g.h.ms i)).get k f with
  | error e =>
    rw [hg] at hr
    rw [key]
    simp only [generated, state_bind, gvals, known_ok_bind]
    rw [show G.run testPackage rt d t!"TestMessage" name [.ptr t!"TestMessage" i] s.g = .error (.fail e) from hr]
    rfl
  | ok x =>
    rw [hg] at hr
    obtain ⟨v, hr, hv⟩ := hr
    refine ⟨v, ?_, hv⟩
    rw [key]
    simp only [generated, state_bind, gvals, known_ok_bind, hr, setState_bind, hres]
    rfl

/-- The value shown of a field, and how it is formatted. -/
theorem eval_value {x : Nat × Text × Kind × Text} (hx : x ∈ shown) (h : get t!"m" env = some (.g (.struct t!"TestMessage" i)))
    (hb : s.g.h.w.WFs (s.g.h.ms i).buf) :
    match (s.g.h.w.msg (s.g.h.ms i)).get x.2.2.1 x.1 with
    | .error e => ev env (valueOf x.2.2.1 x.2.2.2) s = .error (.fail e)
    | .ok y => ∃ v, ev env (valueOf x.2.2.1 x.2.2.2) s = .ok (.ok [v], s) ∧
        verb F s.g.h.w (BitVec.ofNat 8 (letter x.2.2.1).toNat) v = .ok (F.val x.2.2.1 y) := by
  have hg := eval_getter (F := F) (rt := rt) (d := d) (meth := meth) (s := s) h (shown_decls x hx) (shown_methods x hx) (shown_types x hx) hb
  obtain ⟨f, nm, k, name⟩ := x
  dsimp only at hg ⊢
  by_cases hk : k = .bytes
  · subst hk
    have hq : ∀ (t : List Byte) (s : XSt), library F (goCall rt (d + 3)) t!"strconv" t!"Quote" [.g (.val (.str (.lit t)))] s =
        .ok (.ok [.g (.val (.str (.lit (F.quote t))))], s) := by
      intro t s
      simp only [library, state_bind]
      rw [if_neg (by decide), if_neg (by decide), if_pos (by decide)]
      rfl
    have hv : ev env (valueOf .bytes name) s = (ev env (.toString (getter name)) >>= library F (goCall rt (d + 3)) t!"strconv" t!"Quote") s := by
      unfold valueOf
      dsimp only
      rw [eval]
      rfl
    rw [hv]
    cases hgv : (s.g.h.w.msg (s.g.h.ms i)).get .bytes f with
    | error e =>
      rw [hgv] at hg
      dsimp only at hg ⊢
      rw [bind_fail]
      rw [eval, bind_fail hg]
    | ok y =>
      rw [hgv] at hg
      obtain ⟨v, hg, hv⟩ := hg
      refine ⟨.g (.val (.str (.lit (F.quote y)))), ?_, rfl⟩
      rcases hv with ⟨rfl, rfl⟩ | ⟨src, rfl, rfl⟩
      · have h1 : ev env (.toString (getter name)) s = .ok (.ok [.g (.val (.str (.lit [])))], s) := by
          rw [eval, bind_ok hg]; rfl
        rw [bind_ok h1, hq]
      · have h1 : ev env (.toString (getter name)) s = .ok (.ok [.g (.val (.str (.lit (s.g.h.w.src src))))], s) := by
          rw [eval, bind_ok hg]; rfl
        rw [bind_ok h1, hq]
  · have hv : valueOf k name = getter name := by cases k <;> first | rfl | exact absurd rfl hk
    rw [hv]
    cases hgv : (s.g.h.w.msg (s.g.h.ms i)).get k f with
    | error e => rw [hgv] at hg; exact hg
    | ok y =>
      rw [hgv] at hg
      obtain ⟨v, hg, hv⟩ := hg
      refine ⟨.g (.val v), hg, ?_⟩
      cases k <;> simp only [IsVal] at hv
      case bytes => exact absurd rfl hk
      case string => obtain ⟨src, rfl, rfl⟩ := hv; rfl
      all_goals (subst hv; rfl)

/-! ## The scalar fields -/

theorem get_ok {x : Text} {v : XVal} (hx : x ≠ t!"ok") : get x ((t!"ok", v) :: env) = get x env := by
  rw [get, if_neg (fun h => hx h.symm)]

theorem leave_cons {y : Text × XVal} : leave env.length (.next (y :: env)) = .next env := by
  simp [leave]

/-- `fmt.Fprintf` with one operand. -/
theorem library_fprintf {k : Kind} {name : Text} {v : XVal} {t : List Byte} (hn : ∀ b ∈ asc (name ++ t!"="), b ≠ 37#8)
    (hv : verb F s.g.h.w (BitVec.ofNat 8 (letter k).toNat) v = .ok t) :
    library F (goCall rt (d + 3)) t!"fmt" t!"Fprintf" [.writer kw, .g (.val (.str (.lit (asc (name ++ t!"=%" ++ [letter k] ++ t!" "))))), v] s =
    .ok (.ok [], writeTo kw (asc name ++ asc t!"=" ++ t ++ asc t!" ") s) := by
  have hs : asc (name ++ t!"=%" ++ [letter k] ++ t!" ") = asc (name ++ t!"=") ++ [37#8, BitVec.ofNat 8 (letter k).toNat, 32#8] := by
    rw [asc_append, asc_append, asc_append, asc_append, List.append_assoc, List.append_assoc, List.append_assoc]
    rfl
  have hf : sprintf F s.g.h.w (asc (name ++ t!"=%" ++ [letter k] ++ t!" ")) [v] = .ok (asc name ++ asc t!"=" ++ t ++ asc t!" ") := by
    rw [hs, sprintf_plain F s.g.h.w [v] hn (by simp) (sprintf_verb F s.g.h.w v _ hv), asc_append, List.append_assoc, List.append_assoc, List.append_assoc]
    rfl
  simp only [library, state_bind]
  rw [if_pos (by decide)]
  dsimp only [World.src]
  rw [hf]
  rfl

theorem exec_showField {x : Nat × Text × Kind × Text} (hx : x ∈ shown) (hm : get t!"m" env = some (.g (.struct t!"TestMessage" i)))
    (ho : get t!"offsets" env = some (.g (.val (.offs i)))) (hw : get t!"w" env = some (.writer kw)) (hb : s.g.h.w.WFs (s.g.h.ms i).buf) :
    match (s.g.h.w.msg (s.g.h.ms i)).off.get x.1 with
    | .error e => ex (showOf x) env s = .error (.fail e)
    | .ok (_, false) => ex (showOf x) env s = .ok (.ok (.next env), s)
    | .ok (_, true) => match (s.g.h.w.msg (s.g.h.ms i)).get x.2.2.1 x.1 with
      | .error e => ex (showOf x) env s = .error (.fail e)
      | .ok y => ex (showOf x) env s = .ok (.ok (.next env), writeTo kw (asc x.2.1 ++ asc t!"=" ++ F.val x.2.2.1 y ++ asc t!" ") s) := by
  have hg := eval_Get (F := F) (rt := rt) (d := d) (meth := meth) (s := s) ho x.1
  have h0 : ex (showOf x) env s = (ev env (.method (.id t!"offsets") t!"Get" (args [.num x.1])) >>= fun l => match l with
      | [v1, v2] => do
        let env2 := bindVar t!"ok" v2 (bindVar t!"_" v1 env)
        let b ← condition (← ev env2 (.id t!"ok"))
        let o ← if b then ex (block [.expr (.pkg t!"fmt" t!"Fprintf" (args [.id t!"w", .raw (x.2.1 ++ t!"=%" ++ [letter x.2.2.1] ++ t!" "), valueOf x.2.2.1 x.2.2.2]))]) env2
          else ex .skip env2
        pure (leave env.length o)
      | _ => stuck) s := by
    unfold showOf showField
    rw [exec]
    rfl
  rw [h0]
  change match (s.g.h.w.offs (s.g.h.ms i)).get x.1 with | .error e => _ | .ok (_, false) => _ | .ok (_, true) => _
  cases hgv : (s.g.h.w.offs (s.g.h.ms i)).get x.1 with
  | error e => rw [hgv] at hg; exact bind_fail hg
  | ok r =>
    obtain ⟨o, b⟩ := r
    rw [hgv] at hg
    have hid : ∀ v, ev ((t!"ok", v) :: env) (.id t!"ok") s = .ok (.ok [v], s) := fun v => eval_id (by rw [get, if_pos rfl])
    have hb2 : ∀ v1 v2, bindVar t!"ok" v2 (bindVar t!"_" v1 env) = (t!"ok", v2) :: env := fun v1 v2 => by
      rw [bindVar, if_neg (by decide), bindVar, if_pos rfl]
    cases b with
    | false =>
      dsimp only
      rw [bind_ok hg]
      dsimp only
      rw [hb2, bind_ok (hid _)]
      simp only [condition, pure_bind', Bool.false_eq_true, if_false, exec, leave_cons]
      rfl
    | true =>
      have hv := eval_value (F := F) (rt := rt) (d := d) (meth := meth) (env := (t!"ok", .g (.val (.bool true))) :: env) (i := i) (s := s) hx
        (by rw [get_ok (by decide)]; exact hm) hb
      have hw2 : ev ((t!"ok", .g (.val (.bool true))) :: env) (.id t!"w") s = .ok (.ok [.writer kw], s) := eval_id (by rw [get_ok (by decide)]; exact hw)
      have hr : ev ((t!"ok", .g (.val (.bool true))) :: env) (.raw (x.2.1 ++ t!"=%" ++ [letter x.2.2.1] ++ t!" ")) s =
        .ok (.ok [.g (.val (.str (.lit (asc (x.2.1 ++ t!"=%" ++ [letter x.2.2.1] ++ t!" ")))))], s) := by rw [eval]; rfl
      dsimp only
      rw [bind_ok hg]
      dsimp only
      rw [hb2, bind_ok (hid _)]
      simp only [condition, pure_bind', if_true, block]
      cases hgf : (s.g.h.w.msg (s.g.h.ms i)).get x.2.2.1 x.1 with
      | error e =>
        rw [hgf] at hv
        dsimp only at hv ⊢
        refine bind_fail ?_
        rw [exec]
        refine bind_fail ?_
        rw [exec]
        refine bind_fail ?_
        rw [eval]
        refine bind_fail ?_
        rw [args3, eval, bind_ok hw2]
        refine bind_fail ?_
        rw [eval, bind_ok hr]
        refine bind_fail ?_
        rw [eval]
        exact hv
      | ok y =>
        rw [hgf] at hv
        obtain ⟨v, hv, hvb⟩ := hv
        dsimp only
        have ha : ev ((t!"ok", .g (.val (.bool true))) :: env) (args [.id t!"w", .raw (x.2.1 ++ t!"=%" ++ [letter x.2.2.1] ++ t!" "), valueOf x.2.2.1 x.2.2.2]) s =
            .ok (.ok [.writer kw, .g (.val (.str (.lit (asc (x.2.1 ++ t!"=%" ++ [letter x.2.2.1] ++ t!" "))))), v], s) := by
          rw [args3, eval, bind_ok hw2, bind_ok (s' := s) (a := [.g (.val (.str (.lit (asc (x.2.1 ++ t!"=%" ++ [letter x.2.2.1] ++ t!" "))))), v])]
          · rfl
          · rw [eval, bind_ok hr, bind_ok (s' := s) (a := [v])]
            · rfl
            · rw [eval]; exact hv
        have hl := library_fprintf (F := F) (rt := rt) (d := d) (kw := kw) (k := x.2.2.1) (shown_names x hx) hvb
        have he : ex (.expr (.pkg t!"fmt" t!"Fprintf" (args [.id t!"w", .raw (x.2.1 ++ t!"=%" ++ [letter x.2.2.1] ++ t!" "), valueOf x.2.2.1 x.2.2.2])))
            ((t!"ok", .g (.val (.bool true))) :: env) s =
            .ok (.ok (.next ((t!"ok", .g (.val (.bool true))) :: env)), writeTo kw (asc x.2.1 ++ asc t!"=" ++ F.val x.2.2.1 y ++ asc t!" ") s) := by
          rw [exec, bind_ok]
          · rfl
          · rw [eval, bind_ok ha]
            exact hl
        have hs : ex (.seq (.expr (.pkg t!"fmt" t!"Fprintf" (args [.id t!"w", .raw (x.2.1 ++ t!"=%" ++ [letter x.2.2.1] ++ t!" "), valueOf x.2.2.1 x.2.2.2]))) .skip)
            ((t!"ok", .g (.val (.bool true))) :: env) s =
            .ok (.ok (.next ((t!"ok", .g (.val (.bool true))) :: env)), writeTo kw (asc x.2.1 ++ asc t!"=" ++ F.val x.2.2.1 y ++ asc t!" ") s) := by
          rw [exec, bind_ok he]
          dsimp only
          rw [exec]
          rfl
        rw [bind_ok hs, leave_cons]
        rfl

end

end Zeropb.GoSrc.X
