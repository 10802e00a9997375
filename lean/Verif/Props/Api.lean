import Verif.Model.Api
import Verif.Props.Syntactic
import Verif.Props.Undefined
import Verif.Props.Version
import Verif.Props.Declare
import Verif.Props.Location
import Verif.Props.Session
/-!
# Properties C64 to C66: the entry points

The free functions `analyze_string` and `analyze_file`, and the classes behind the Python module.
-/

namespace Qasm

open Spec Sem Parser Syn

attribute [local irreducible] defaultInstrs defaultFns defaultVars

variable {F : Type} {fo : FloatOps F} {a : Analyzer F}

/-- The text is one of the language and has the AST `p`. -/
def HasAst (an : Antlr F) (file : Option Str) (text : Str) (p : ProgramAst F) : Prop :=
  ∃ ts pr, Lexer.lex text = .ok ts ∧ Program Chosen ts pr ∧ ProgramTree an.stod file pr p

/-- The version string means 3.0. -/
def Means30 (s : Str) (v : Version) : Prop := Version.ofString s = .ok v ∧ VersionSame v [3, 0]

theorem hasAst_iff {an : Antlr F} {file : Option Str} {text : Str} {p : ProgramAst F} :
    HasAst an file text p ↔ parseString an text file = .ok ⟨some p, []⟩ := by
  rw [C48_ast]
  constructor
  · rintro ⟨ts, pr, h1, h2, h3⟩; exact ⟨ts, pr, h1, h2, h3⟩
  · rintro ⟨ts, pr, h1, h2, h3⟩; exact ⟨ts, pr, h1, h2, h3⟩

/-- C64. Which API versions there are: the strings that mean 3.0, such as `3`, `3.0` and `3.0.0`. -/
theorem C64_api_version (fo : FloatOps F) (s : Str) :
    ((∃ a, Api.defaultAnalyzer fo s = .ok a) ↔ ∃ v, Means30 s v) ∧
    ((¬ ∃ v, Means30 s v) → ∃ c, Api.defaultAnalyzer fo s = .exn c) := by
  unfold Api.defaultAnalyzer Api.version
  cases h : Version.ofString s with
  | ok v =>
    simp only [Res.mapErr_ok, Res.bind_ok, (C59_default fo v).1]
    constructor
    · exact ⟨fun hv => ⟨v, h, hv⟩, fun ⟨w, hw, hv⟩ => by rw [h] at hw; cases hw; exact hv⟩
    · exact fun hn => ⟨_, (C59_default fo v).2 fun hv => hn ⟨v, h, hv⟩⟩
  | err e => exact e.elim
  | exn c => simp [Means30, h]
  | ub =>
    exfalso
    unfold Version.ofString at h
    have ns : ∀ s, Version.stoi s ≠ .ub := by
      intro s; unfold Version.stoi; dsimp only; split
      · simp
      · split <;> split <;> simp
    have nss : ∀ l, Version.stois l ≠ .ub := by
      intro l
      induction l with
      | nil => nofun
      | cons x l ih =>
        intro hc
        simp only [Version.stois, Res.bind_eq, Res.bind_eq_ub] at hc
        rcases hc with hc | ⟨i, -, hc | ⟨_, -, hc⟩⟩
        · exact ns _ hc
        · exact ih hc
        · cases hc
    split at h
    · cases h
    · simp only [Res.bind_eq, Res.bind_eq_ub] at h
      rcases h with h | ⟨v, -, h⟩
      · exact nss _ h
      · split at h <;> cases h

example : Means30 c!"3" [3] ∧ Means30 c!"3.0" [3, 0] ∧ Means30 c!"3.0.0" [3, 0, 0] := by
  refine ⟨⟨rfl, ?_⟩, ⟨rfl, ?_⟩, rfl, ?_⟩ <;> intro i <;> rcases i with _ | _ | _ | i <;> rfl

theorem defaultAnalyzer_eq {s : Str} {v : Version} (h : Means30 s v) : Api.defaultAnalyzer fo s = Analyzer.default fo v := by
  simp [Api.defaultAnalyzer, Api.version, h.1]

/-- How the analysis of a text by a default analyser ends. -/
theorem text_cases {v : Version} (ha : Analyzer.default fo v = .ok a) (an : Antlr F) (text : Str) (file : Option Str) :
    (∃ e, parseString an text file = .ok ⟨none, [e]⟩ ∧ (∀ p, ¬ HasAst an file text p)) ∨
    (∃ p, parseString an text file = .ok ⟨some p, []⟩ ∧ HasAst an file text p ∧ analyze fo a p = .ub ∧
      UndefStmts fo [] 0 p.block.statements ∧ ¬ ∃ vs ts, Valid fo v p vs ts) ∨
    (∃ p a' r e es, parseString an text file = .ok ⟨some p, []⟩ ∧ HasAst an file text p ∧
      analyze fo a p = .ok (a', ⟨some r, e :: es⟩) ∧
      ¬ UndefStmts fo [] 0 p.block.statements ∧ ¬ ∃ vs ts, Valid fo v p vs ts) ∨
    (∃ p a' vs ts loc, parseString an text file = .ok ⟨some p, []⟩ ∧ HasAst an file text p ∧
      analyze fo a p = .ok (a', ⟨some ⟨v, ⟨p.version.items, p.version.loc⟩, ⟨ts, loc⟩, vs⟩, []⟩) ∧
      ¬ UndefStmts fo [] 0 p.block.statements ∧ Valid fo v p vs ts) := by
  rcases C48_outcome an text file with ⟨p, hp⟩ | ⟨e, he⟩
  · obtain ⟨hs, hpl⟩ := C48_shaped an text file p hp
    have hx := C21_exactly_partial (fo := fo) ha hs hpl
    have hv := C01_valid_iff fo v a ha p hs
    by_cases hu : UndefStmts fo [] 0 p.block.statements
    · refine .inr (.inl ⟨p, hp, hasAst_iff.2 hp, hx.2 hu, hu, fun h => ?_⟩)
      obtain ⟨a', r, h1, -⟩ := hv.2 h
      rw [hx.2 hu] at h1; cases h1
    · obtain ⟨a', r, errs, h1⟩ := C21_returns_partial (fo := fo) ha hs hpl hu
      cases errs with
      | cons e es =>
        refine .inr (.inr (.inl ⟨p, a', r, e, es, hp, hasAst_iff.2 hp, h1, hu, fun h => ?_⟩))
        obtain ⟨a'', r', h2, h3⟩ := hv.2 h
        rw [h1] at h2; cases h2; cases h3
      | nil =>
        obtain ⟨vs, ts, h2⟩ := hv.1 ⟨a', _, h1, rfl⟩
        obtain ⟨loc, ⟨a'', h3⟩, -⟩ := C01_result fo v a ha p hs vs ts h2
        exact .inr (.inr (.inr ⟨p, a'', vs, ts, loc, hp, hasAst_iff.2 hp, h3, hu, h2⟩))
  · refine .inl ⟨e, he, fun p hp => ?_⟩
    have := hasAst_iff.1 hp
    rw [he] at this; cases this

theorem hasAst_unique {an : Antlr F} {file : Option Str} {text : Str} {p q : ProgramAst F} (h : HasAst an file text p)
    (h' : HasAst an file text q) : p = q := by
  have h := hasAst_iff.1 h
  rw [hasAst_iff.1 h'] at h
  cases h; rfl

/-- C64. `analyze_string` returns a program exactly if the text is a valid program; nothing is then written to stderr,
and what it returns are the variables and instructions the rules of the language give. -/
theorem C64_returns (fo : FloatOps F) (an : Antlr F) (text : Str) (file : Option Str) (api : Str) (v : Version) (hv : Means30 api v) :
    (∀ out root, Api.analyzeString fo an text file api = (out, .ok root) → out = [] ∧ ∃ p vs ts loc,
        root = some ⟨v, ⟨p.version.items, p.version.loc⟩, ⟨ts, loc⟩, vs⟩ ∧ HasAst an file text p ∧ Valid fo v p vs ts) ∧
    (∀ p vs ts, HasAst an file text p → Valid fo v p vs ts → ∃ loc,
        Api.analyzeString fo an text file api = ([], .ok (some ⟨v, ⟨p.version.items, p.version.loc⟩, ⟨ts, loc⟩, vs⟩))) := by
  obtain ⟨a, ha⟩ := (C59_default fo v).1.2 hv.2
  have hd := (defaultAnalyzer_eq (fo := fo) hv).trans ha
  rcases text_cases ha an text file with ⟨e, h1, h2⟩ | ⟨p, h1, h2, h3, h4, h5⟩ | ⟨p, a', r, e, es, h1, h2, h3, h4, h5⟩ |
      ⟨p, a', vs, ts, loc, h1, h2, h3, h4, h5⟩
  · have he : Api.analyzeString fo an text file api = (joinStr c!"\n" [e.what], .exn c!"AnalysisFailed") := by
      simp [Api.analyzeString, h1, hd, analyzeParse, Api.unwrapped, Result.unwrap]
    rw [he]
    exact ⟨nofun, fun p _ _ hp => absurd hp (h2 p)⟩
  · have he : Api.analyzeString fo an text file api = ([], .ub) := by
      simp [Api.analyzeString, h1, hd, analyzeParse, h3, Api.unwrapped]
    rw [he]
    exact ⟨nofun, fun q vs ts hq hv => absurd ⟨vs, ts, hasAst_unique hq h2 ▸ hv⟩ h5⟩
  · have he : Api.analyzeString fo an text file api = (joinStr c!"\n" ((e :: es).map Err.what), .exn c!"AnalysisFailed") := by
      simp [Api.analyzeString, h1, hd, analyzeParse, h3, Api.unwrapped, Result.unwrap]
    rw [he]
    exact ⟨nofun, fun q vs ts hq hv => absurd ⟨vs, ts, hasAst_unique hq h2 ▸ hv⟩ h5⟩
  · have he : Api.analyzeString fo an text file api
        = ([], .ok (some ⟨v, ⟨p.version.items, p.version.loc⟩, ⟨ts, loc⟩, vs⟩)) := by
      simp [Api.analyzeString, h1, hd, analyzeParse, h3, Api.unwrapped, Result.unwrap]
    rw [he]
    refine ⟨fun out root h => ?_, fun q vs' ts' hq hv => ?_⟩
    · cases h; exact ⟨rfl, p, vs, ts, loc, rfl, h2, h5⟩
    · cases hasAst_unique hq h2
      obtain ⟨rfl, rfl⟩ := C01_unique fo v p vs vs' ts ts' h5 hv
      exact ⟨loc, rfl⟩

/-- C64. Otherwise, unless the program has undefined behaviour (C21), it writes the messages to stderr that a fresh default
analyser reports for the text, one per line, at least one, and throws `AnalysisFailed`. -/
theorem C64_throws (fo : FloatOps F) (an : Antlr F) (text : Str) (file : Option Str) (api : Str) (v : Version) (hv : Means30 api v)
    (a : Analyzer F) (ha : Analyzer.default fo v = .ok a)
    (hn : ∀ p, HasAst an file text p → (¬ ∃ vs ts, Valid fo v p vs ts) ∧ ¬ UndefStmts fo [] 0 p.block.statements) :
    ∃ a' root e es, Syn.analyzeString fo an a text file = .ok (a', ⟨root, e :: es⟩) ∧
      Api.analyzeString fo an text file api = (e.what ++ es.flatMap (fun e => '\n' :: e.what), .exn c!"AnalysisFailed") := by
  have hd := (defaultAnalyzer_eq (fo := fo) hv).trans ha
  rcases text_cases ha an text file with ⟨e, h1, h2⟩ | ⟨p, h1, h2, h3, h4, h5⟩ | ⟨p, a', r, e, es, h1, h2, h3, h4, h5⟩ |
      ⟨p, a', vs, ts, loc, h1, h2, h3, h4, h5⟩
  · refine ⟨a, none, e, [], by simp [Syn.analyzeString, h1, analyzeParse], ?_⟩
    simp [Api.analyzeString, h1, hd, analyzeParse, Api.unwrapped, Result.unwrap, joinStr]
  · exact absurd h4 (hn p h2).2
  · refine ⟨a', some r, e, es, by simp [Syn.analyzeString, h1, analyzeParse, h3], ?_⟩
    have hu := C05_unwrap_text (some r) e es
    simp only [Api.analyzeString, h1, hd, analyzeParse, h3, Api.unwrapped, Res.bind_ok, List.isEmpty_nil, Bool.not_true,
      Bool.false_eq_true, if_false, Res.mapErr_ok, hu]
    simp [Result.unwrap]
  · exact absurd ⟨vs, ts, h5⟩ (hn p h2).1

/-- C64. With another API version it throws, whatever the text. -/
theorem C64_bad_version (fo : FloatOps F) (an : Antlr F) (text : Str) (file : Option Str) (api : Str) (hv : ¬ ∃ v, Means30 api v) :
    ∃ c, Api.analyzeString fo an text file api = ([], .exn c) := by
  obtain ⟨c, hc⟩ := (C64_api_version fo api).2 hv
  rcases C48_outcome an text file with ⟨p, hp⟩ | ⟨e, hp⟩ <;> exact ⟨c, by simp [Api.analyzeString, hp, hc, Api.unwrapped]⟩

/-- C64. Which exception that is: if the string is a version, but not 3.0, `std::invalid_argument`; otherwise the one of reading the
string (C09). -/
theorem C64_exception (fo : FloatOps F) (an : Antlr F) (text : Str) (file : Option Str) (api : Str) :
    (∀ v, Version.ofString api = .ok v → ¬ VersionSame v [3, 0] →
      Api.analyzeString fo an text file api = ([], .exn c!"std::invalid_argument")) ∧
    (∀ c, Version.ofString api = .exn c → Api.analyzeString fo an text file api = ([], .exn c)) := by
  constructor
  · intro v h hv
    have hc : Api.defaultAnalyzer fo api = .exn c!"std::invalid_argument" := by
      simp only [Api.defaultAnalyzer, Api.version, h, Res.mapErr_ok, Res.bind_ok, (C59_default fo v).2 hv]
    rcases C48_outcome an text file with ⟨p, hp⟩ | ⟨e, hp⟩ <;> simp [Api.analyzeString, hp, hc, Api.unwrapped]
  · intro c h
    have hc : Api.defaultAnalyzer fo api = .exn c := by
      simp only [Api.defaultAnalyzer, Api.version, h]; rfl
    rcases C48_outcome an text file with ⟨p, hp⟩ | ⟨e, hp⟩ <;> simp [Api.analyzeString, hp, hc, Api.unwrapped]

/-- The two cases. -/
example : Version.ofString c!"3.1" = .ok [3, 1] ∧ ¬ VersionSame [3, 1] [3, 0] ∧
    Version.ofString c!"x" = .exn c!"std::invalid_argument" := by
  refine ⟨by decide +kernel, fun h => ?_, by decide +kernel⟩
  have := (C08_eq [3, 1] [3, 0]).2 h
  revert this; decide

/-- C64. `analyze_file` does the same with the content of the file; without the file it throws. -/
theorem C64_file (fo : FloatOps F) (an : Antlr F) (path api text : Str) :
    Api.analyzeFile fo an (some text) path api = Api.analyzeString fo an text none api ∧
    ∃ e, Api.analyzeFile fo an none path api = ([], .err e) :=
  ⟨rfl, _, rfl⟩

/-- The call returns. -/
def Sample.returns (r : Str × Res Err (Option (SProgram Int))) : Bool :=
  match r.2 with
  | .ok _ => true
  | _ => false

/-- A valid text, one with an error and one that is not of the language. -/
example : Sample.returns (Api.analyzeString Sample.fo Sample.antlr c!"version 3.0;qubit q;X q" none c!"3.0") = true ∧
    Sample.returns (Api.analyzeString Sample.fo Sample.antlr c!"version 3.0;qubit q;Y r" none c!"3.0") = false ∧
    Sample.returns (Api.analyzeString Sample.fo Sample.antlr c!"version 3.0;qubit" none c!"3.0") = false := by
  decide +kernel

/-! ## C65: the Python classes -/

/-- C65. Parsing through Python gives the tree if the text is one of the language, and otherwise a list of one message. -/
theorem C65_parse {ρ : Type} (an : Antlr F) (ser : Option (ProgramAst F) → Str) (de : Str → ρ) (text file : Str) :
    (∃ p, HasAst an (Api.optionalName file) text p ∧ Api.pyParse an ser de text file = .ok (.tree (de (ser (some p))))) ∨
    ((∀ p, ¬ HasAst an (Api.optionalName file) text p) ∧
      ∃ e, parseString an text (Api.optionalName file) = .ok ⟨none, [e]⟩ ∧ Api.pyParse an ser de text file = .ok (.errors [e.what])) := by
  rcases C48_outcome an text (Api.optionalName file) with ⟨p, hp⟩ | ⟨e, he⟩
  · exact .inl ⟨p, hasAst_iff.2 hp, by simp [Api.pyParse, Api.parseStrings, hp, Result.toStrings, Api.pyResult]⟩
  · refine .inr ⟨fun p hp => ?_, e, he, by simp [Api.pyParse, Api.parseStrings, he, Result.toStrings, Api.pyResult]⟩
    have := hasAst_iff.1 hp
    rw [he] at this; cases this

/-- C65. Analysis through Python gives the tree or the messages of the result that the C++ analyser gives, and leaves the
analyser in the same state. There are messages exactly if there are errors. -/
theorem C65_analyze {ρ : Type} (an : Antlr F) (ser : Option (SProgram F) → Str) (de : Str → ρ) (a : Analyzer F) (text file : Str) :
    Api.pyAnalyze fo an ser de a text file =
      (Syn.analyzeString fo an a text (Api.optionalName file)).bind fun r => .ok (r.1,
        match r.2.errors with
        | [] => .tree (de (ser r.2.root))
        | e :: es => .errors (e.what :: es.map Err.what)) := by
  unfold Api.pyAnalyze Api.analyzeStrings Syn.analyzeString
  cases parseString an text (Api.optionalName file) with
  | ok pr =>
    simp only [Res.bind_ok]
    cases analyzeParse fo a pr with
    | ok r =>
      obtain ⟨a', root, errs⟩ := r
      cases errs with
      | nil => simp [Result.toStrings, Api.pyResult]
      | cons e es => simp [Result.toStrings, Api.pyResult]
    | err e => exact e.elim
    | exn c => rfl
    | ub => rfl
  | err e => rfl
  | exn c => rfl
  | ub => rfl

/-- C65. A new Python analyser gives the tree of a text exactly if the text is a valid program. -/
theorem C65_valid {ρ : Type} (an : Antlr F) (ser : Option (SProgram F) → Str) (de : Str → ρ) (a : Analyzer F) (text file version : Str)
    (v : Version) (hv : Means30 version v) (ha : Api.newV3x fo version false = .ok a) :
    (∃ a' t, Api.pyAnalyze fo an ser de a text file = .ok (a', .tree t)) ↔
      ∃ p vs ts, HasAst an (Api.optionalName file) text p ∧ Valid fo v p vs ts := by
  have ha : Analyzer.default fo v = .ok a := by
    rw [← defaultAnalyzer_eq hv, ← ha]; rfl
  have key := C01_text fo v a ha an text (Api.optionalName file)
  have : (∃ a' t, Api.pyAnalyze fo an ser de a text file = .ok (a', .tree t)) ↔
      ∃ a' r, Syn.analyzeString fo an a text (Api.optionalName file) = .ok (a', r) ∧ r.errors = [] := by
    rw [C65_analyze]
    constructor
    · rintro ⟨a', t, h⟩
      rw [Res.bind_eq_ok] at h
      obtain ⟨⟨a'', r⟩, h1, h2⟩ := h
      refine ⟨a'', r, h1, ?_⟩
      cases hr : r.errors with
      | nil => rfl
      | cons e es => rw [hr] at h2; cases h2
    · rintro ⟨a', r, h, hr⟩
      exact ⟨a', de (ser r.root), by rw [h]; simp [hr]⟩
  rw [this, key]
  constructor
  · rintro ⟨ts, pr, p, h1, h2, h3, vs, ss, h4⟩; exact ⟨p, vs, ss, ⟨ts, pr, h1, h2, h3⟩, h4⟩
  · rintro ⟨p, vs, ss, ⟨ts, pr, h1, h2, h3⟩, h4⟩; exact ⟨ts, pr, p, h1, h2, h3, vs, ss, h4⟩

/-- C65. An empty file name means no file name. -/
theorem C65_file_name : Api.optionalName [] = none ∧ ∀ c cs, Api.optionalName (c :: cs) = some (c :: cs) := ⟨rfl, fun _ _ => rfl⟩

/-- C65. The JSON of a parse is the dumped AST if the text is one of the language, and otherwise an object whose only key is
`errors`, with one diagnostic. -/
theorem C65_parse_json (an : Antlr F) (dump : Option (ProgramAst F) → Bytes) (text file : Str) :
    (∃ p, HasAst an (Api.optionalName file) text p ∧ Api.parseJson an dump text file = .ok (dump (some p))) ∨
    ((∀ p, ¬ HasAst an (Api.optionalName file) text p) ∧ ∃ e d, parseString an text (Api.optionalName file) = .ok ⟨none, [e]⟩ ∧
      Json.render d = e.toJson ∧
      Api.parseJson an dump text file = .ok (Json.obj [(utf8 c!"errors", .arr [d])]).render) := by
  rcases C48_outcome an text (Api.optionalName file) with ⟨p, hp⟩ | ⟨e, he⟩
  · exact .inl ⟨p, hasAst_iff.2 hp, by simp [Api.parseJson, hp, Result.toJson]⟩
  · obtain ⟨ds, h1, h2⟩ := C05_failure_json ⟨none, [e]⟩ dump (by simp)
    obtain ⟨d, rfl⟩ : ∃ d, ds = [d] := by
      have := congrArg List.length h2
      simp only [List.length_map, List.length_cons, List.length_nil] at this
      exact List.length_eq_one_iff.1 this
    refine .inr ⟨fun p hp => ?_, e, d, he, by simpa using h2, by rw [← h1]; simp [Api.parseJson, he]⟩
    have := hasAst_iff.1 hp
    rw [he] at this; cases this

/-- C65. The JSON of an analysis is the dumped tree exactly if there are no errors, and otherwise an object whose only key is
`errors`, with the diagnostics of the errors in order. -/
theorem C65_analyze_json (an : Antlr F) (dump : Option (SProgram F) → Bytes) (a a' : Analyzer F) (text file : Str)
    (r : Result (SProgram F)) (h : Syn.analyzeString fo an a text (Api.optionalName file) = .ok (a', r)) :
    (r.errors = [] → Api.analyzeJson fo an dump a text file = .ok (a', dump r.root)) ∧
    (r.errors ≠ [] → ∃ ds : List Json, ds.map Json.render = r.errors.map Err.toJson ∧
      Api.analyzeJson fo an dump a text file = .ok (a', (Json.obj [(utf8 c!"errors", .arr ds)]).render)) := by
  have hj : Api.analyzeJson fo an dump a text file = .ok (a', r.toJson dump) := by
    unfold Syn.analyzeString at h
    rw [Res.bind_eq_ok] at h
    obtain ⟨pr, h1, h2⟩ := h
    simp [Api.analyzeJson, h1, h2]
  rw [hj]
  refine ⟨fun hr => by rw [(C05_success r (fun _ => []) dump hr).2.1], fun hr => ?_⟩
  obtain ⟨ds, h1, h2⟩ := C05_failure_json r dump hr
  exact ⟨ds, h2, by rw [h1]⟩

/-- C65. The functions for files do the same with the content of the file, without a file name, and throw if there is no such
file. -/
theorem C65_files {ρ σ : Type} (an : Antlr F) (ser : Option (ProgramAst F) → Str) (ser' : Option (SProgram F) → Str)
    (dump : Option (ProgramAst F) → Bytes) (dump' : Option (SProgram F) → Bytes) (de : Str → ρ) (de' : Str → σ)
    (a : Analyzer F) (text path : Str) :
    Api.pyParseFile an ser de (some text) path = Api.pyParse an ser de text [] ∧
    Api.parseFileJson an dump (some text) path = Api.parseJson an dump text [] ∧
    Api.pyAnalyzeFile fo an ser' de' a (some text) path = Api.pyAnalyze fo an ser' de' a text [] ∧
    Api.analyzeFileJson fo an dump' a (some text) path = Api.analyzeJson fo an dump' a text [] ∧
    (∃ e, Api.pyParseFile an ser de none path = .err e) ∧ (∃ e, Api.parseFileJson an dump none path = .err e) ∧
    (∃ e, Api.pyAnalyzeFile fo an ser' de' a none path = .err e) ∧ (∃ e, Api.analyzeFileJson fo an dump' a none path = .err e) :=
  ⟨rfl, rfl, rfl, rfl, ⟨_, rfl⟩, ⟨_, rfl⟩, ⟨_, rfl⟩, ⟨_, rfl⟩⟩

/-! ## C66: an analyser without the default instructions -/

/-- The statement is a gate or another instruction that has to be registered. -/
def NeedsInstruction : Stmt F → Prop
  | .gate .. => True
  | .nonGate .. => True
  | _ => False

theorem newV3x_state {s : Str} {v : Version} (hv : Means30 s v) :
    Api.newV3x fo s true = .ok ⟨v, [{ defaultScope fo with instructionTable := [] }], 0⟩ := by
  have he : Version.eq v [3, 0] = true := (C08_eq v [3, 0]).2 hv.2
  simp only [Api.newV3x, if_true, Api.version, hv.1, Res.mapErr_ok, Res.bind_ok, Analyzer.new, he,
    registerDefaultConstants_eq]
  unfold Analyzer.registerDefaultFunctions
  rw [foldl_registerFunction _ _ _ rfl (registrations_specs fo), defaultFns_eq]
  rfl

theorem resolveInstruction_empty {sc : Scope F} (h : sc.instructionTable = []) (name : Str) (vs : List (Value F)) :
    ∀ x, Analyzer.resolveInstruction fo [sc] name vs ≠ .ok x := by
  intro x hx
  simp only [Analyzer.resolveInstruction, h, OverloadTable.resolve, OverloadTable.find] at hx
  cases ht : Values.typesOf vs <;> rw [ht] at hx <;> cases hx

theorem newV3x_means {s : Str} {b : Bool} {a : Analyzer F} (h : Api.newV3x fo s b = .ok a) : ∃ v, Means30 s v := by
  cases b with
  | false => exact (C64_api_version fo s).1.1 ⟨a, h⟩
  | true =>
    simp only [Api.newV3x, if_true, Api.version] at h
    cases hs : Version.ofString s with
    | ok v =>
      refine ⟨v, hs, (C08_eq _ _).1 ?_⟩
      rw [hs, Res.mapErr_ok, Res.bind_ok, Analyzer.new] at h
      by_cases he : Version.eq v [3, 0] = true
      · exact he
      · rw [if_neg he] at h; cases h
    | err e => exact e.elim
    | exn c => rw [hs] at h; cases h
    | ub => rw [hs] at h; cases h

theorem newV3x_default {s : Str} {v : Version} (hv : Means30 s v) :
    Api.newV3x fo s false = .ok ⟨v, [defaultScope fo], 0⟩ := by
  rw [← default_eq fo v ((C08_eq v [3, 0]).2 hv.2), ← defaultAnalyzer_eq hv]; rfl

/-- C66. An analyser without the default instructions can be made for the same versions as one with them. -/
theorem C66_versions (fo : FloatOps F) (s : Str) :
    (∃ a, Api.newV3x fo s true = .ok a) ↔ ∃ a, Api.newV3x fo s false = .ok a :=
  ⟨fun ⟨_, h⟩ => have ⟨_, hv⟩ := newV3x_means h; ⟨_, newV3x_default hv⟩,
   fun ⟨_, h⟩ => have ⟨_, hv⟩ := newV3x_means h; ⟨_, newV3x_state hv⟩⟩

/-- C66. For other versions making either of them throws: `std::invalid_argument` if the string is a version, otherwise the exception
of reading the string (C09). -/
theorem C66_exception (fo : FloatOps F) (s : Str) (withoutDefaults : Bool) :
    (∀ v, Version.ofString s = .ok v → ¬ VersionSame v [3, 0] → Api.newV3x fo s withoutDefaults = .exn c!"std::invalid_argument") ∧
    (∀ c, Version.ofString s = .exn c → Api.newV3x fo s withoutDefaults = .exn c) := by
  constructor
  · intro v h hv
    have he : ¬ Version.eq v [3, 0] = true := fun he => hv ((C08_eq _ _).1 he)
    cases withoutDefaults
    · simp only [Api.newV3x, Api.defaultAnalyzer, Api.version, h, Res.mapErr_ok, Res.bind_ok, (C59_default fo v).2 hv, if_false,
        Bool.false_eq_true]
    · simp only [Api.newV3x, Api.version, h, Res.mapErr_ok, Res.bind_ok, Analyzer.new, if_neg he, if_true]
  · intro c h
    cases withoutDefaults <;> simp only [Api.newV3x, Api.defaultAnalyzer, Api.version, h, if_true, if_false, Bool.false_eq_true] <;> rfl

/-- C66. Constants and functions mean the same in both; in the first no instruction has a meaning. -/
theorem C66_names (fo : FloatOps F) (s : Str) (a d : Analyzer F) (ha : Api.newV3x fo s true = .ok a)
    (hd : Api.newV3x fo s false = .ok d) :
    a.apiVersion = d.apiVersion ∧
    (∀ name, Analyzer.resolveVariable a.scopes name = Analyzer.resolveVariable d.scopes name) ∧
    (∀ name args, Analyzer.resolveFunction fo a.scopes name args = Analyzer.resolveFunction fo d.scopes name args) ∧
    (∀ name args x, Analyzer.resolveInstruction fo a.scopes name args ≠ .ok x) := by
  obtain ⟨v, hv⟩ := newV3x_means ha
  rw [newV3x_state hv] at ha
  rw [newV3x_default hv] at hd
  cases ha; cases hd
  exact ⟨rfl, fun _ => rfl, fun _ _ => rfl, fun _ _ => resolveInstruction_empty rfl _ _⟩

theorem needs_errors {v : Version} {sc : Scope F} (hsc : sc.instructionTable = []) {u : Nat} {s : Stmt F}
    (hs : NeedsInstruction s) {errs : List Err} {a' : Analyzer F}
    (h : visitStatement fo ⟨v, [sc], u⟩ s = .ok (errs, a')) : errs ≠ [] := by
  rintro rfl
  cases s with
  | var => exact hs
  | asm => exact hs
  | gate l as g es =>
    simp only [visitStatement, visitGateInstruction] at h
    rw [Res.bind_eq_ok] at h
    obtain ⟨⟨e1, g'⟩, h1, h2⟩ := h
    obtain ⟨rfl, h2⟩ := after_nil_inv h2
    cases g' with
    | error e => cases h2
    | ok g =>
      dsimp only at h2
      split at h2
      · cases h2
      · cases h2
      · cases h2
      · next hi =>
        rw [Res.bind_eq_ok] at hi
        obtain ⟨ops, -, hi⟩ := hi
        rw [Res.bind_eq_ok] at hi
        obtain ⟨x, hx, -⟩ := hi
        exact resolveInstruction_empty hsc _ _ _ hx
  | nonGate l as n es ps =>
    simp only [visitStatement, visitNonGateInstruction] at h
    split at h
    · cases h
    · cases h
    · cases h
    · next hi =>
      rw [Res.bind_eq_ok] at hi
      obtain ⟨ops, -, hi⟩ := hi
      rw [Res.bind_eq_ok] at hi
      obtain ⟨x, hx, -⟩ := hi
      exact resolveInstruction_empty hsc _ _ _ hx

theorem block_needs_errors {v : Version} (ss : List (Stmt F)) (s : Stmt F) (hm : s ∈ ss) (hs : NeedsInstruction s) :
    ∀ {sc : Scope F} {u : Nat} {errs : List Err} {a' : Analyzer F}, sc.instructionTable = [] →
    visitBlock fo ⟨v, [sc], u⟩ ss = .ok (errs, a') → errs ≠ [] := by
  induction ss with
  | nil => cases hm
  | cons t ss ih =>
    rintro sc u errs a' hsc h rfl
    rw [visitBlock, Res.bind_eq_ok] at h
    obtain ⟨⟨e1, a1⟩, h1, h2⟩ := h
    obtain ⟨rfl, h2⟩ := after_nil_inv h2
    rcases List.mem_cons.1 hm with rfl | hm
    · exact needs_errors hsc hs h1 rfl
    · obtain ⟨sc1, u1, rfl, -, k2, -⟩ := visitStatement_keeps h1
      exact ih hm (k2.trans hsc) h2 rfl

/-- What an analyser becomes when it is used for any number of programs. -/
inductive Used (fo : FloatOps F) (a : Analyzer F) : Analyzer F → Prop where
  | new : Used fo a a
  | again {b c : Analyzer F} {p : ProgramAst F} {r : Result (SProgram F)} :
      Used fo a b → analyze fo b p = .ok (c, r) → Used fo a c

/-- C66. However long it has been used, it reports an error for every program with a gate or another instruction. -/
theorem C66_rejects (fo : FloatOps F) (s : Str) (a b c : Analyzer F) (ha : Api.newV3x fo s true = .ok a)
    (hb : Used fo a b) (p : ProgramAst F) (st : Stmt F) (hm : st ∈ p.block.statements) (hs : NeedsInstruction st)
    (r : Result (SProgram F)) (h : analyze fo b p = .ok (c, r)) : r.errors ≠ [] := by
  obtain ⟨v, hv⟩ := newV3x_means ha
  rw [newV3x_state hv] at ha
  have key : ∃ sc, b.scopes = [sc] ∧ sc.instructionTable = [] := by
    clear h
    induction hb with
    | new => cases ha; exact ⟨_, rfl, rfl⟩
    | again _ h1 ih =>
      obtain ⟨sc, k1, k2⟩ := ih
      obtain ⟨-, sc', j1, -, j2, -⟩ := analyze_keeps k1 h1
      exact ⟨sc', j1, j2.trans k2⟩
  obtain ⟨sc, k1, k2⟩ := key
  obtain ⟨errs, _, _, g1, _, rfl⟩ := analyze_parts h
  obtain ⟨w, scs, u⟩ := b
  cases k1
  have := block_needs_errors _ st hm hs k2 g1
  simp [this]

/-- The analyser with other instructions. -/
def withInstructions (t : OverloadTable Instruction) (a : Analyzer F) : Analyzer F :=
  { a with scopes := a.scopes.map fun s => { s with instructionTable := t } }

theorem visitStatement_withInstructions (t : OverloadTable Instruction) (v : Version) (sc : Scope F) (u : Nat) (s : Stmt F)
    (hs : ¬ NeedsInstruction s) :
    visitStatement fo (withInstructions t ⟨v, [sc], u⟩) s =
      (visitStatement fo ⟨v, [sc], u⟩ s).bind fun r => .ok (r.1, withInstructions t r.2) := by
  have hw : withInstructions t ⟨v, [sc], u⟩ = ⟨v, [{ sc with instructionTable := t }], u⟩ := rfl
  rw [hw]
  have hann := visitAnnotations_tables fo (s := { sc with instructionTable := t }) (s' := sc) rfl rfl
  cases s with
  | gate => exact absurd trivial hs
  | nonGate => exact absurd trivial hs
  | asm l as n c =>
    simp only [visitStatement, visitAsmDeclaration, hann]
    cases visitAnnotations fo [sc] as with
    | err e => cases e
    | exn => rfl
    | ub => rfl
    | ok r => rfl
  | var l as name typ =>
    simp only [visitStatement, visitVariable, hann]
    cases buildSemanticType typ with
    | err e => rfl
    | exn => rfl
    | ub => rfl
    | ok ty =>
      dsimp only
      cases visitAnnotations fo [sc] as with
      | err e => cases e
      | exn => rfl
      | ub => rfl
      | ok r =>
        simp only [Res.bind_ok, Analyzer.addVariable, Analyzer.modifyCurrent, Analyzer.registerVariable]
        cases sc.variableTable.add name.name ⟨.variableRef (SVariable.link ⟨u, name.name, ty, r.2, name.loc⟩), none⟩ <;> rfl

theorem visitBlock_withInstructions (t : OverloadTable Instruction) (v : Version) (ss : List (Stmt F))
    (hs : ∀ s ∈ ss, ¬ NeedsInstruction s) : ∀ (sc : Scope F) (u : Nat),
    visitBlock fo (withInstructions t ⟨v, [sc], u⟩) ss =
      (visitBlock fo ⟨v, [sc], u⟩ ss).bind fun r => .ok (r.1, withInstructions t r.2) := by
  induction ss with
  | nil => intro sc u; rfl
  | cons s ss ih =>
    intro sc u
    rw [visitBlock, visitBlock, visitStatement_withInstructions t v sc u s (hs s (List.mem_cons_self ..))]
    cases h1 : visitStatement fo ⟨v, [sc], u⟩ s with
    | err e => cases e
    | exn => rfl
    | ub => rfl
    | ok r =>
      obtain ⟨es, a1⟩ := r
      obtain ⟨sc1, u1, rfl, -⟩ := visitStatement_keeps h1
      simp only [Res.bind_ok]
      rw [ih (fun s hs' => hs s (List.mem_cons_of_mem _ hs'))]
      cases visitBlock fo ⟨v, [sc1], u1⟩ ss with
      | err e => cases e
      | exn => rfl
      | ub => rfl
      | ok r => rfl

/-- C66. For a program without instructions the analysis ends as with the default analyser. -/
theorem C66_same (fo : FloatOps F) (s : Str) (a d : Analyzer F) (ha : Api.newV3x fo s true = .ok a)
    (hd : Api.newV3x fo s false = .ok d) (p : ProgramAst F) (hp : ∀ st ∈ p.block.statements, ¬ NeedsInstruction st) :
    ((analyze fo a p).bind fun r => .ok r.2) = (analyze fo d p).bind fun r => .ok r.2 := by
  obtain ⟨v, hv⟩ := newV3x_means ha
  rw [newV3x_state hv] at ha
  rw [newV3x_default hv] at hd
  cases ha; cases hd
  have hb := visitBlock_withInstructions (fo := fo) [] v p.block.statements hp (defaultScope fo) 0
  have hw : withInstructions [] (⟨v, [defaultScope fo], 0⟩ : Analyzer F) =
    ⟨v, [{ defaultScope fo with instructionTable := [] }], 0⟩ := rfl
  rw [hw] at hb
  unfold analyze visitProgram
  rw [hb]
  cases h1 : visitBlock fo ⟨v, [defaultScope fo], 0⟩ p.block.statements with
  | err e => cases e
  | exn => rfl
  | ub => rfl
  | ok r =>
    obtain ⟨es, a1⟩ := r
    obtain ⟨sc1, u1, rfl, -⟩ := visitBlock_keeps _ h1
    simp only [Res.bind_ok, withInstructions, List.map_cons]
    split <;> rfl

/-- C66. Registering the standard instructions one by one makes it the default analyser. -/
theorem C66_register_all (fo : FloatOps F) (s : Str) (a d : Analyzer F) (ha : Api.newV3x fo s true = .ok a)
    (hd : Api.newV3x fo s false = .ok d) :
    InstructionSet.registrations.foldl (fun r e => Res.bind r fun a => Api.registerInstruction a e.1 (some e.2)) (Res.ok a) = .ok d := by
  obtain ⟨v, hv⟩ := newV3x_means ha
  rw [newV3x_state hv] at ha
  rw [newV3x_default hv] at hd
  cases ha; cases hd
  have := foldl_registerInstruction InstructionSet.registrations
    (⟨v, [{ defaultScope fo with instructionTable := [] }], 0⟩ : Analyzer F) _ rfl instr_registrations_specs
  unfold Api.registerInstruction
  rw [this, defaultInstrs_eq]
  rfl

/-- The number of errors a new analyser reports for a text. -/
def Sample.errors (withoutDefaults : Bool) (text : Str) : Option Nat :=
  match Api.newV3x Sample.fo c!"3.0" withoutDefaults with
  | .ok a =>
    match Syn.analyzeString Sample.fo Sample.antlr a text none with
    | .ok (_, r) => some r.errors.length
    | _ => none
  | _ => none

/-- A program with an instruction, which is accepted only by the default analyser, and one without, which both accept. -/
example : Sample.errors true c!"version 3.0;qubit q;X q" = some 1 ∧ Sample.errors false c!"version 3.0;qubit q;X q" = some 0 ∧
    Sample.errors true c!"version 3.0;qubit q" = some 0 ∧ Sample.errors false c!"version 3.0;qubit q" = some 0 := by
  decide +kernel

end Qasm
