import Verif.Spec.PySession
import Verif.Props.PyText
import Verif.Props.Tidy
/-!
# Sessions in Python (C125)
-/

namespace Qasm

open Spec Sem

attribute [local irreducible] defaultInstrs defaultFns defaultVars

variable {F : Type} {fo : FloatOps F} {an : Antlr F} {ρ : Type} {ser : Option (SProgram F) → Bytes} {de : Bytes → ρ}

namespace PySessions

open PyTexts

/-- What a call that analyses analyses. -/
theorem on_text (a : Analyzer F) (s file : Str) : Py.Event.on fo an ser de a (.text (pyStr s) (pyStr file)) =
    (Py.call (Syn.analyzeString fo an a (noMark s) (Api.optionalName file))).bind fun r => .ok (r.1, some (pyOutcome de ser r.2)) := by
  rw [Py.Event.on, C124_analyze]
  cases Py.call (Syn.analyzeString fo an a (noMark s) (Api.optionalName file)) with
  | ok r => rfl
  | err e => exact e.elim
  | exn c => rfl
  | ub => rfl

theorem on_file (a : Analyzer F) {data : Bytes} {s : Str} (h : IsTextOf data s) (path : Str) :
    Py.Event.on fo an ser de a (.file (some data) (pyStr path)) =
      (Py.call (Syn.analyzeString fo an a s none)).bind fun r => .ok (r.1, some (pyOutcome de ser r.2)) := by
  have : ((Input.parseFile an (some data) path none).bind fun pr => (Sem.analyzeParse fo a pr).mapErr Empty.elim) =
      Syn.analyzeString fo an a s none := by
    rw [Input.parseFile, (C82_utf8_partial an h none).1]; rfl
  simp only [Py.Event.on, Py.analyzeFile, argument_str, Res.bind_ok, this, outcome_eq]
  cases Py.call (Syn.analyzeString fo an a s none) with
  | ok r => rfl
  | err e => exact e.elim
  | exn c => rfl
  | ub => rfl

theorem on_missing (a : Analyzer F) (path : Str) :
    Py.Event.on fo an ser de a (.file none (pyStr path)) = .exn c!"RuntimeError" := by
  simp only [Py.Event.on, Py.analyzeFile, argument_str, Res.bind_ok]
  rfl

theorem on_bytes (a : Analyzer F) {data : Bytes} (h : ¬∃ s, IsTextOf data s) (path : Str) :
    Py.Event.on fo an ser de a (.file (some data) (pyStr path)) = .exn c!"SystemError" := by
  have hl : Input.load data = none := by
    cases hl : Input.load data with
    | none => rfl
    | some t => exact absurd ⟨t, (C82_load data t).1 hl⟩ h
  simp only [Py.Event.on, Py.analyzeFile, argument_str, Res.bind_ok, Input.parseFile, Input.parseString, hl]
  rfl

/-- Every call raises for what it is given, or analyses a text. -/
theorem kinds (a : Analyzer F) (e : Py.Event) :
    (∃ c, e.on fo an ser de a = .exn c ∧ PyRaises e c ∧ ∀ c', PyRaises e c' → c' = c) ∨
    (∀ c, ¬ PyRaises e c) ∧ ∃ s file, ∀ b : Analyzer F, e.on fo an ser de b =
      (Py.call (Syn.analyzeString fo an b s file)).bind fun r => .ok (r.1, some (pyOutcome de ser r.2)) := by
  cases e with
  | register name ps =>
    refine .inl ?_
    rcases either name with hn | ⟨n, rfl⟩
    · refine ⟨_, by simp only [Py.Event.on, Py.registerInstruction, argument_surrogate hn]; rfl, .name hn, fun c' h => ?_⟩
      cases h with
      | name => rfl
      | types => rfl
      | noTypes h => exact absurd hn h
    · cases ps with
      | none =>
        refine ⟨_, by simp only [Py.Event.on, Py.registerInstruction, argument_str]; rfl, .noTypes (not_both n), fun c' h => ?_⟩
        cases h with
        | name h => exact absurd h (not_both n)
        | noTypes => rfl
      | some p =>
        refine ⟨_, by simp only [Py.Event.on, Py.registerInstruction, argument_str]; rfl, .types, fun c' h => ?_⟩
        cases h <;> rfl
  | text t file =>
    rcases either t with ht | ⟨s, rfl⟩
    · refine .inl ⟨_, by rw [Py.Event.on, Py.analyzeString, argument_surrogate ht]; rfl, .data ht, fun c' h => ?_⟩
      cases h <;> rfl
    · rcases either file with hf | ⟨f, rfl⟩
      · refine .inl ⟨_, by rw [Py.Event.on, Py.analyzeString, argument_str, Res.bind_ok, argument_surrogate hf]; rfl, .fileName hf,
          fun c' h => ?_⟩
        cases h <;> rfl
      · refine .inr ⟨fun c h => ?_, _, _, fun b => on_text b s f⟩
        cases h with
        | data h => exact not_both s h
        | fileName h => exact not_both f h
  | file content path =>
    rcases either path with hp | ⟨p, rfl⟩
    · refine .inl ⟨_, by rw [Py.Event.on, Py.analyzeFile, argument_surrogate hp]; rfl, .path hp, fun c' h => ?_⟩
      cases h with
      | path => rfl
      | missing h => exact absurd hp h
      | notUtf8 h => exact absurd hp h
    · cases content with
      | none =>
        refine .inl ⟨_, on_missing a p, .missing (not_both p), fun c' h => ?_⟩
        cases h with
        | path h => exact absurd h (not_both p)
        | missing => rfl
      | some data =>
        by_cases hd : ∃ s, IsTextOf data s
        · obtain ⟨s, hs⟩ := hd
          refine .inr ⟨fun c h => ?_, s, none, fun b => on_file b hs p⟩
          cases h with
          | path h => exact not_both p h
          | notUtf8 _ h => exact h ⟨s, hs⟩
        · refine .inl ⟨_, on_bytes a hd p, .notUtf8 (not_both p) hd, fun c' h => ?_⟩
          cases h with
          | path h => exact absurd h (not_both p)
          | notUtf8 => rfl

theorem call_ok {α β : Type} {x : Res Err α} {f : α → β} {y : β} (h : ((Py.call x).bind fun r => .ok (f r)) = .ok y) :
    ∃ r, x = .ok r ∧ f r = y := by
  cases x with
  | ok r => cases h; exact ⟨r, rfl, rfl⟩
  | err e => cases h
  | exn c => cases h
  | ub => cases h

theorem call_exn {α β : Type} {x : Res Err α} {f : α → β} {c : Str} (h : ((Py.call x).bind fun r => .ok (f r)) = .exn c) :
    (∃ e, x = .err e) ∨ ∃ c', x = .exn c' := by
  cases x with
  | ok r => cases h
  | err e => exact .inl ⟨e, rfl⟩
  | exn c => exact .inr ⟨c, rfl⟩
  | ub => cases h

/-- The state of a new analyser, of either kind. -/
theorem keeps_made {t : Py.Text} {w : Bool} {a : Analyzer F} (h : Py.newAnalyzer fo t w = .ok a) :
    ∃ v m, Keeps v a m ∧ m.frames.length ≤ 1 ∧ Tidy m ∧ MildLevels m.levels := by
  rcases PyTexts.either t with ht | ⟨s, rfl⟩
  · rw [Py.newAnalyzer, argument_surrogate ht] at h; cases h
  have h := ((C124_new fo w).2.1 s a).1 h
  obtain ⟨v, hv⟩ := newV3x_means h
  have mild : ∀ is, MildLevels [(⟨(standardLevel fo).vars, (standardLevel fo).functions, is⟩ : Level F)] := fun is l hl => by
    cases List.mem_singleton.1 hl
    exact ⟨fun x hx => (Milding.standard_vars fo x hx).2, fun f hf => (Milding.standard_functions fo f hf).2⟩
  cases w with
  | false =>
    rw [newV3x_default hv] at h
    cases h
    exact ⟨v, ⟨[⟨standardLevel fo, [], []⟩], 0⟩, ⟨rfl, rfl, .cons ⟨holds_standard fo, rfl, rfl⟩ .nil⟩, Nat.le_refl _,
      Tidying.tidy_default fo, mild _⟩
  | true =>
    rw [newV3x_state hv] at h
    cases h
    refine ⟨v, ⟨[⟨⟨(standardLevel fo).vars, (standardLevel fo).functions, []⟩, [], []⟩], 0⟩,
      ⟨rfl, rfl, .cons ⟨⟨(holds_standard fo).1, (holds_standard fo).2.1, rfl⟩, rfl, rfl⟩ .nil⟩, Nat.le_refl _, ?_, mild _⟩
    intro f fs h
    cases h
    refine ⟨fun l hl => ?_, ⟨fun t ht => (by cases ht), fun x hx => (by cases hx)⟩⟩
    cases List.mem_singleton.1 hl
    exact ⟨fun x hx => (Milding.standard_vars fo x hx).1, fun f hf => (Milding.standard_functions fo f hf).1⟩

end PySessions

open PySessions

/-- C125 is false: no instruction can be registered from Python, in no analyser, with whatever name and types; the call always raises. -/
theorem C125_refuted (a : Analyzer F) (name : Py.Text) (types : Option Py.Text) :
    ∃ c, Py.registerInstruction a name types = .exn c ∧ (c = c!"TypeError" ∨ c = c!"ValueError") := by
  simp only [Py.registerInstruction]
  rcases PyTexts.either name with hn | ⟨n, rfl⟩
  · exact ⟨_, by rw [PyTexts.argument_surrogate hn]; rfl, .inl rfl⟩
  · rw [PyTexts.argument_str, Res.bind_ok]
    cases types with
    | none => exact ⟨_, rfl, .inr rfl⟩
    | some t => exact ⟨_, rfl, .inl rfl⟩

/-- The example of the documentation, on an analyser without instructions. -/
example : Py.registerInstruction (⟨[3, 0], [.empty], 0⟩ : Analyzer Int) (pyStr c!"H") (some (pyStr c!"Q")) = .exn c!"TypeError" := by
  rfl

/-- C125, as far as it holds: a session in Python is one of analyses of texts; every theorem about such sessions (C118, C119, C122) is one
about Python. What is missing is the registration of instructions. -/
theorem C125_session_partial {es : List Py.Event} {a b : Analyzer F} {os : List (Option (Py.Outcome ρ) ⊕ Str)}
    (h : PyRuns fo an ser de es a os b) :
    ∃ ts rs, TextAnswers fo an ts a rs b ∧ (∀ e ∈ ts, ∃ s file, e = .text s file) ∧
      os.filterMap (fun o => o.getLeft?.join) = rs.map (pyOutcome de ser) := by
  induction h with
  | nil => exact ⟨[], [], .nil, fun e he => (by cases he), rfl⟩
  | @returned e es a o b os d h1 _ ih =>
    obtain ⟨ts, rs, h2, h3, h4⟩ := ih
    rcases kinds (fo := fo) (an := an) (ser := ser) (de := de) a e with ⟨c, h5, _⟩ | ⟨_, s, file, h5⟩
    · rw [h5] at h1; cases h1
    · rw [h5 a] at h1
      obtain ⟨⟨b', r⟩, h6, h7⟩ := call_ok h1
      cases h7
      refine ⟨.text s file :: ts, r :: rs, .text h6 h2, fun e he => ?_, ?_⟩
      · rcases List.mem_cons.1 he with rfl | he
        · exact ⟨s, file, rfl⟩
        · exact h3 e he
      · simpa using h4
  | raised _ _ ih =>
    obtain ⟨ts, rs, h2, h3, h4⟩ := ih
    exact ⟨ts, rs, h2, h3, h4⟩

/-- C125. Over a whole session in Python with an analyser of either kind, a call raises an exception exactly if it is a registration, one
of its strings has a surrogate, or the file is missing or not UTF-8. All other calls return, unless their behaviour is undefined. -/
theorem C125_raises {t : Py.Text} {w : Bool} {a b : Analyzer F} (ha : Py.newAnalyzer fo t w = .ok a) {es : List Py.Event}
    {os : List (Option (Py.Outcome ρ) ⊕ Str)} (h : PyRuns fo an ser de es a os b) (e : Py.Event) :
    (∀ c, e.on fo an ser de b = .exn c ↔ PyRaises e c) ∧
    ((∀ c, ¬ PyRaises e c) → (∃ d o, e.on fo an ser de b = .ok (d, some o)) ∨ e.on fo an ser de b = .ub) := by
  rcases kinds (fo := fo) (an := an) (ser := ser) (de := de) b e with ⟨c, h1, h2, h3⟩ | ⟨hn, s, file, h1⟩
  · refine ⟨fun c' => ⟨fun h => ?_, fun h => ?_⟩, fun h => absurd h2 (h c)⟩
    · rw [h1] at h; cases h; exact h2
    · rw [h3 c' h]; exact h1
  · obtain ⟨v, m0, k1, k2, k3, k4⟩ := keeps_made ha
    obtain ⟨ts, rs, g1, g2, -⟩ := C125_session_partial h
    obtain ⟨m, m1, m2⟩ := keeps_texts g1 k1
    have ht := (Tidying.session m1 (fun e he => by obtain ⟨s, f, rfl⟩ := g2 e he; trivial) k2 k3).1
    have hm := Milding.session m1 (fun e he => by obtain ⟨s, f, rfl⟩ := g2 e he; trivial) k4
    have key : (∃ x, Syn.analyzeString fo an b s file = .ok x) ∨ Syn.analyzeString fo an b s file = .ub := by
      rcases Stop.cases (Syn.analyzeString fo an b s file) with ⟨x, h5⟩ | ⟨e, h5⟩ | ⟨o, h5⟩
      · exact .inl ⟨x, h5⟩
      · rcases text_outcome (fo := fo) (an := an) b s file with ⟨p, _, _, _, h6⟩ | ⟨_, e', _, h6⟩
        · rw [h5] at h6
          generalize analyze fo b p = y at h6
          rcases y with _ | y | _ | _ <;> first | exact y.elim | cases h6
        · rw [h5] at h6; cases h6
      · obtain ⟨p, hp, h6⟩ := (text_stop m2).1 h5
        obtain ⟨hs, hpl⟩ := C48_shaped _ _ _ _ (hasAst_iff.1 hp)
        rcases (C122_stops ht hs hpl o).1 h6 with ⟨f, fs, h7, h8⟩ | ⟨_, rfl⟩
        · cases C122_mild hm h7 h8
          exact .inr h5
        · exact .inr h5
    rw [h1 b]
    refine ⟨fun c => ⟨fun h => ?_, fun h => absurd h (hn c)⟩, fun _ => ?_⟩
    · rcases call_exn h with ⟨e, h⟩ | ⟨c', h⟩ <;> rcases key with ⟨x, hx⟩ | hx <;> rw [h] at hx <;> cases hx
    · rcases key with ⟨x, hx⟩ | hx
      · exact .inl ⟨x.1, pyOutcome de ser x.2, by rw [hx]; rfl⟩
      · exact .inr (by rw [hx]; rfl)

/-- C125. So an analyser that is made in Python without the default instructions can never be given any: at any time of a session it
reports errors for every text with a gate or another instruction. -/
theorem C125_without_defaults {t : Py.Text} {a b d : Analyzer F} (ha : Py.newAnalyzer fo t true = .ok a) {es : List Py.Event}
    {os : List (Option (Py.Outcome ρ) ⊕ Str)} (h : PyRuns fo an ser de es a os b) {s file : Str} {p : ProgramAst F}
    (hp : HasAst an (Api.optionalName file) (noMark s) p) {st : Stmt F} (hm : st ∈ p.block.statements) (hs : NeedsInstruction st)
    {o : Option (Py.Outcome ρ)} (ho : Py.Event.on fo an ser de b (.text (pyStr s) (pyStr file)) = .ok (d, o)) :
    ∃ m ms, o = some (.errors (m :: ms)) := by
  obtain ⟨ts, rs, g1, g2, -⟩ := C125_session_partial h
  have hu : Used fo a b := by
    have : ∀ {x : Analyzer F}, Used fo a x → TextAnswers fo an ts x rs b → Used fo a b := by
      intro x hx hx'
      clear g1 h ho
      induction hx' with
      | nil => exact hx
      | ok _ _ _ => obtain ⟨s, f, h⟩ := g2 _ (List.mem_cons_self ..); cases h
      | error _ _ _ => obtain ⟨s, f, h⟩ := g2 _ (List.mem_cons_self ..); cases h
      | @text t file es a' b' r rs d h1 _ ih =>
        refine ih (fun e he => g2 e (List.mem_cons_of_mem _ he)) ?_
        rcases text_outcome (fo := fo) (an := an) a' t file with ⟨p, _, _, _, h6⟩ | ⟨_, e', _, h6⟩
        · rw [h1] at h6
          cases hy : analyze fo a' p with
          | ok y => rw [hy] at h6; cases h6; exact .again hx hy
          | err e => exact e.elim
          | exn c => rw [hy] at h6; cases h6
          | ub => rw [hy] at h6; cases h6
        · rw [h1] at h6; cases h6; exact hx
    exact this .new g1
  rcases PyTexts.either t with ht | ⟨n, rfl⟩
  · rw [Py.newAnalyzer, PyTexts.argument_surrogate ht] at ha; cases ha
  have ha := ((C124_new fo true).2.1 n a).1 ha
  rw [on_text] at ho
  obtain ⟨⟨b', r⟩, h1, h2⟩ := call_ok ho
  cases h2
  rcases text_outcome (fo := fo) (an := an) b (noMark s) (Api.optionalName file) with ⟨q, hq, _, _, h6⟩ | ⟨hn, _⟩
  · cases hasAst_unique hp hq
    rw [h1] at h6
    cases hy : analyze fo b p with
    | ok y =>
      rw [hy] at h6
      cases h6
      have := C66_rejects fo n a b _ ha hu p st hm hs _ hy
      cases hr : r.errors with
      | nil => exact absurd hr this
      | cons e es => exact ⟨_, _, by simp only [pyOutcome, hr]; rfl⟩
    | err e => exact e.elim
    | exn c => rw [hy] at h6; cases h6
    | ub => rw [hy] at h6; cases h6
  · exact absurd ⟨p, hp⟩ hn

/-! ## Examples -/

section Examples

/-- What the calls of a session return or raise: `none` for a tree, the number of messages, or the class of the exception. -/
private def session (w : Bool) (es : List Py.Event) : List (Option Nat ⊕ Str) :=
  let rec go : List Py.Event → Analyzer Int → List (Option Nat ⊕ Str)
    | [], _ => []
    | e :: es, a =>
      match e.on Sample.fo Sample.antlr (fun _ => [0xFF]) id a with
      | .ok (b, some (.tree _)) => .inl none :: go es b
      | .ok (b, some (.errors ms)) => .inl (some ms.length) :: go es b
      | .ok (b, none) => go es b
      | .exn c => .inr c :: go es a
      | _ => []
  match Py.newAnalyzer Sample.fo (pyStr c!"3.0") w with
  | .ok a => go es a
  | _ => []

/-- C125: a variable is known in the next text; calls that raise change nothing. -/
example : session false [.text (pyStr c!"version 3; qubit q") [], .text [.surrogate 0xDC80] [], .file none (pyStr c!"a.cq"), .file (some [0xFF]) [],
    .file (some (utf8 c!"version 3; X q")) []] =
    [.inl none, .inr c!"TypeError", .inr c!"RuntimeError", .inr c!"SystemError", .inl none] := by decide +kernel

/-- C125: without the default instructions none can be used, even after registering it as the documentation says. -/
example : session true [.register (pyStr c!"H") (some (pyStr c!"Q")), .text (pyStr c!"version 3; qubit q; H q") [], .register (pyStr c!"H") none,
    .text (pyStr c!"version 3; qubit r") []] = [.inr c!"TypeError", .inl (some 1), .inr c!"ValueError", .inl none] := by decide +kernel

end Examples

end Qasm
