import Verif.Props.Gen
import Verif.Gen.Main
set_option linter.unusedSimpArgs false
/-!
# The compiler plugin as a process (C57)
-/

namespace Zeropb.Gen

/-- The contract of `io.Writer`: a write that is cut short reports an error. -/
def Sys.WriteContract {ε : Type} (s : Sys ε) : Prop := ∀ b, (s.write b).2 = none → (s.write b).1 = b.length

/-- The request asks for a file with a field of a type that has no Go type (groups, and numbers that are no type). -/
def HasUnsupported (req : Request) : Prop :=
  ∃ f ∈ req.requested, ∃ m, some m ∈ f.messageType ∧ ∃ fd, some fd ∈ m.field ∧
    (getLabel (some fd) = 1 ∨ getLabel (some fd) = 2) ∧ (getType (some fd) < 1 ∨ getType (some fd) = 10 ∨ 18 < getType (some fd))

/-- The files the generator makes of a request: one for each requested file, in the order of the request. -/
def filesOf (U : Unicode) (req : Request) : List OutFile :=
  req.requested.map (fun f => ⟨replaceAll t!".proto" t!".zeropb.go" f.getName, fileText f.getPackage (fileDecls U f)⟩)

theorem generate_ok (U : Unicode) {req : Request} (h : ¬ HasUnsupported req) : generate U req = .ok (filesOf U req) := by
  cases hg : generate U req with
  | error p => exact absurd ((C45_panics U req).1.1 ⟨p, hg⟩) h
  | ok out => rw [C43_files U req out hg]; rfl

theorem generate_error (U : Unicode) {req : Request} (h : HasUnsupported req) : ∃ p, generate U req = .error p :=
  (C45_panics U req).1.2 h

/-- C57: if the request can be read and decoded, has no unsupported field, and the response can be encoded and written, the
plugin writes exactly the encoded response, nothing to standard error, and exits with status 0. -/
theorem C57_success {ε : Type} (s : Sys ε) {req : Request} {res : List Byte} (h1 : s.stdin.2 = none)
    (h2 : s.unmarshal s.stdin.1 = .ok req) (h3 : ¬ HasUnsupported req) (h4 : s.marshal (filesOf s.unicode req) = .ok res)
    (h5 : s.write res = (res.length, none)) : mainPlugin s = ⟨res, [], 0⟩ := by
  rcases hs : s.stdin with ⟨b, e⟩
  rw [hs] at h1 h2
  simp only at h1 h2
  subst h1
  simp only [mainPlugin, runPlugin, hs, h2, generate_ok s.unicode h3, h4, h5, List.take_length]

/-- C57: whatever goes wrong, standard output holds a prefix of the response to the request on standard input, and nothing
unless the request could be read and decoded and the whole response generated and encoded. -/
theorem C57_stdout {ε : Type} (s : Sys ε) : (mainPlugin s).stdout = [] ∨
    ∃ req res, s.stdin.2 = none ∧ s.unmarshal s.stdin.1 = .ok req ∧ ¬ HasUnsupported req ∧
      s.marshal (filesOf s.unicode req) = .ok res ∧ (mainPlugin s).stdout <+: res := by
  rcases hs : s.stdin with ⟨b, e⟩
  cases e with
  | some e => left; simp [mainPlugin, runPlugin, hs]
  | none =>
    cases hu : s.unmarshal b with
    | error e => left; simp [mainPlugin, runPlugin, hs, hu]
    | ok req =>
      by_cases hb : HasUnsupported req
      · obtain ⟨p, hp⟩ := generate_error s.unicode hb
        left; simp [mainPlugin, runPlugin, hs, hu, hp]
      · have hg := generate_ok s.unicode hb
        cases hm : s.marshal (filesOf s.unicode req) with
        | error e => left; simp [mainPlugin, runPlugin, hs, hu, hg, hm]
        | ok res =>
          right
          refine ⟨req, res, rfl, rfl, hb, hm, ?_⟩
          rcases hw : s.write res with ⟨n, e⟩
          cases e <;> simp [mainPlugin, runPlugin, hs, hu, hg, hm, hw, List.take_prefix]

/-- C57: if the plugin prints nothing to standard error it has written the whole response. (Printed errors and panics are
not empty: they end in a newline.) -/
theorem C57_silent {ε : Type} (s : Sys ε) (hc : s.WriteContract) (he : ∀ e, s.errText e ≠ []) (hp : ∀ p, s.panicText p ≠ [])
    (h : (mainPlugin s).stderr = []) :
    ∃ req, s.stdin.2 = none ∧ s.unmarshal s.stdin.1 = .ok req ∧ ¬ HasUnsupported req ∧
      s.marshal (filesOf s.unicode req) = .ok (mainPlugin s).stdout ∧ (mainPlugin s).status = 0 := by
  rcases hs : s.stdin with ⟨b, e⟩
  cases e with
  | some e => simp [mainPlugin, runPlugin, hs, he] at h
  | none =>
    cases hu : s.unmarshal b with
    | error e => simp [mainPlugin, runPlugin, hs, hu, he] at h
    | ok req =>
      by_cases hb : HasUnsupported req
      · obtain ⟨p, hpp⟩ := generate_error s.unicode hb
        simp [mainPlugin, runPlugin, hs, hu, hpp, hp] at h
      · have hg := generate_ok s.unicode hb
        cases hm : s.marshal (filesOf s.unicode req) with
        | error e => simp [mainPlugin, runPlugin, hs, hu, hg, hm, he] at h
        | ok res =>
          rcases hw : s.write res with ⟨n, e⟩
          cases e with
          | some e => simp [mainPlugin, runPlugin, hs, hu, hg, hm, hw, he] at h
          | none =>
            have hn := hc res (by rw [hw])
            rw [hw] at hn
            simp only at hn
            refine ⟨req, rfl, rfl, hb, ?_, ?_⟩
            · rw [hm]; simp [mainPlugin, runPlugin, hs, hu, hg, hm, hw, hn]
            · simp [mainPlugin, runPlugin, hs, hu, hg, hm, hw]

/-- C57: the exit status is 2 exactly if the request is readable and has an unsupported field, and 0 otherwise. -/
theorem C57_status {ε : Type} (s : Sys ε) :
    ((mainPlugin s).status = 0 ∨ (mainPlugin s).status = 2) ∧
    ((mainPlugin s).status = 2 ↔ ∃ req, s.stdin.2 = none ∧ s.unmarshal s.stdin.1 = .ok req ∧ HasUnsupported req) := by
  rcases hs : s.stdin with ⟨b, e⟩
  cases e with
  | some e => simp [mainPlugin, runPlugin, hs]
  | none =>
    cases hu : s.unmarshal b with
    | error e => simp [mainPlugin, runPlugin, hs, hu]
    | ok req =>
      by_cases hb : HasUnsupported req
      · obtain ⟨p, hp⟩ := generate_error s.unicode hb
        simp [mainPlugin, runPlugin, hs, hu, hp, hb]
      · have hg := generate_ok s.unicode hb
        cases hm : s.marshal (filesOf s.unicode req) with
        | error e => simp [mainPlugin, runPlugin, hs, hu, hg, hm, hb]
        | ok res =>
          rcases hw : s.write res with ⟨n, e⟩
          cases e <;> simp [mainPlugin, runPlugin, hs, hu, hg, hm, hw, hb]

/-- A failure does not show in the exit status: a plugin that cannot read, decode, encode or write exits with status 0. If it
cannot read, decode or encode, its standard output is empty, which protoc takes for a response without files. -/
theorem C57_false_failure {ε : Type} (s : Sys ε) (e : ε)
    (h : s.stdin.2 = some e ∨ (s.stdin.2 = none ∧ s.unmarshal s.stdin.1 = .error e) ∨
      ∃ req, s.stdin.2 = none ∧ s.unmarshal s.stdin.1 = .ok req ∧ ¬ HasUnsupported req ∧ s.marshal (filesOf s.unicode req) = .error e) :
    mainPlugin s = ⟨[], s.errText e, 0⟩ := by
  rcases hs : s.stdin with ⟨b, o⟩
  rw [hs] at h
  rcases h with h | ⟨h1, h2⟩ | ⟨req, h1, h2, h3, h4⟩
  · simp only at h; subst h; simp [mainPlugin, runPlugin, hs]
  · simp only at h1 h2; subst h1; simp [mainPlugin, runPlugin, hs, h2]
  · simp only at h1 h2; subst h1; simp [mainPlugin, runPlugin, hs, h2, generate_ok s.unicode h3, h4]

/-- C57: protoc-gen-text never writes to standard output, so protoc creates no file. -/
theorem C57_text {ε : Type} (s : Sys ε) : (mainText s).stdout = [] ∧ (mainText s).status = 0 := by
  unfold mainText
  split <;> exact ⟨rfl, rfl⟩

/-- A system in which everything works; the request asks for a file without messages. -/
def okSys : Sys Unit where
  stdin := ([0x01#8], none)
  unmarshal := fun b => if b = [0x01#8] then .ok ⟨[t!"x.proto"], [some { name := some t!"x.proto", package := some t!"x" }]⟩ else .error ()
  marshal := fun fs => .ok (fs.map (fun f => BitVec.ofNat 8 f.content.length))
  write := fun b => (b.length, none)
  marshalText := fun _ => ([], none)
  errText := fun _ => [0x0a#8]
  panicText := fun _ => [0x0a#8]
  unicode := ⟨fun _ => true, fun _ => false, id⟩

example : ∃ req res, okSys.stdin.2 = none ∧ okSys.unmarshal okSys.stdin.1 = .ok req ∧ ¬ HasUnsupported req ∧
    okSys.marshal (filesOf okSys.unicode req) = .ok res ∧ okSys.write res = (res.length, none) ∧ res ≠ [] ∧ okSys.WriteContract ∧
    (mainPlugin okSys).stderr = [] := by
  refine ⟨_, _, rfl, rfl, ?_, rfl, rfl, ?_, fun b _ => rfl, rfl⟩
  · rintro ⟨f, hf, m, hm, _⟩
    have : f = { name := some t!"x.proto", package := some t!"x" } := by
      have := (List.mem_filter.1 hf).1
      simpa using this
    subst this
    simp at hm
  · decide +kernel

/-- The same with an input that is no request. -/
example : mainPlugin { okSys with stdin := ([0x02#8], none) } = ⟨[], [0x0a#8], 0⟩ :=
  C57_false_failure _ () (Or.inr (Or.inl ⟨rfl, rfl⟩))

/-- C57: what protoc-gen-text prints: the text of the request as far as it was written, then the error, if there was one. -/
theorem C57_stderr {ε : Type} (s : Sys ε) :
    (∀ e, s.stdin.2 = some e → (mainText s).stderr = s.errText e) ∧
    (s.stdin.2 = none → ∀ e, s.unmarshal s.stdin.1 = .error e → (mainText s).stderr = s.errText e) ∧
    (s.stdin.2 = none → ∀ req, s.unmarshal s.stdin.1 = .ok req → ∀ txt,
      (s.marshalText req = (txt, none) → (mainText s).stderr = txt) ∧
      (∀ e, s.marshalText req = (txt, some e) → (mainText s).stderr = txt ++ s.errText e)) := by
  rcases hs : s.stdin with ⟨b, o⟩
  refine ⟨fun e h => ?_, fun h e h1 => ?_, fun h req h1 txt => ⟨fun h2 => ?_, fun e h2 => ?_⟩⟩ <;> simp only at h <;> subst h <;>
    simp_all [mainText, runText]

/-- A request that cannot be written as text to the end: what was written stays, the error follows. -/
example : (mainText { okSys with marshalText := fun _ => ([0x31#8], some ()) }).stderr = [0x31#8, 0x0a#8] :=
  ((C57_stderr _).2.2 rfl _ rfl [0x31#8]).2 () rfl

/-- C57: what the plugin prints to standard error: one error or one panic, or nothing. -/
theorem C57_pluginErr {ε : Type} (s : Sys ε) :
    (∀ e, s.stdin.2 = some e → (mainPlugin s).stderr = s.errText e) ∧
    (s.stdin.2 = none → ∀ e, s.unmarshal s.stdin.1 = .error e → (mainPlugin s).stderr = s.errText e) ∧
    (s.stdin.2 = none → ∀ req, s.unmarshal s.stdin.1 = .ok req →
      (HasUnsupported req → ∃ p, generate s.unicode req = .error p ∧ (mainPlugin s).stderr = s.panicText p) ∧
      (¬ HasUnsupported req →
        (∀ e, s.marshal (filesOf s.unicode req) = .error e → (mainPlugin s).stderr = s.errText e) ∧
        (∀ res n o, s.marshal (filesOf s.unicode req) = .ok res → s.write res = (n, o) →
          (mainPlugin s).stdout = res.take n ∧ (mainPlugin s).stderr = (match o with | some e => s.errText e | none => [])))) := by
  rcases hs : s.stdin with ⟨b, o⟩
  refine ⟨fun e h => ?_, fun h e h1 => ?_, fun h req h1 => ⟨fun hu => ?_, fun hu => ⟨fun e h2 => ?_, fun res n o h2 h3 => ?_⟩⟩⟩ <;>
    simp only at h <;> subst h
  · simp [mainPlugin, runPlugin, hs]
  · simp [mainPlugin, runPlugin, hs, h1]
  · obtain ⟨p, hp⟩ := generate_error s.unicode hu
    exact ⟨p, hp, by simp [mainPlugin, runPlugin, hs, h1, hp]⟩
  · simp [mainPlugin, runPlugin, hs, h1, generate_ok s.unicode hu, h2]
  · cases o <;> simp [mainPlugin, runPlugin, hs, h1, generate_ok s.unicode hu, h2, h3]

end Zeropb.Gen
