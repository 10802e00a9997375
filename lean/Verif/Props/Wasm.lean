import Verif.Model.Wasm
import Verif.Props.Messages
/-!
# Property C73: the WebAssembly interface
-/

namespace Qasm

open Spec Sem Syn

variable {F : Type} {fo : FloatOps F}

attribute [local irreducible] defaultInstrs defaultFns defaultVars

theorem means30 : Means30 c!"3.0" [3, 0] := ⟨by decide +kernel, fun _ => rfl⟩

theorem wasm_eq (an : Antlr F) (dump : Option (SProgram F) → Bytes) (text file : Str) {a : Analyzer F}
    (ha : Analyzer.default fo [3, 0] = .ok a) :
    Wasm.analyzeStringToJson fo an dump text file =
      (Syn.analyzeString fo an a text (Api.optionalName file)).bind fun r => .ok (r.2.toJson dump) := by
  have h1 : Api.newV3x fo c!"3.0" false = .ok a := by
    rw [← ha, ← defaultAnalyzer_eq means30]; rfl
  unfold Wasm.analyzeStringToJson
  rw [h1]
  unfold Api.analyzeJson Syn.analyzeString
  cases parseString an text (Api.optionalName file) with
  | ok pr =>
    simp only [Res.bind_ok]
    cases analyzeParse fo a pr with
    | ok r => rfl
    | err e => exact e.elim
    | exn c => rfl
    | ub => rfl
  | err e => rfl
  | exn c => rfl
  | ub => rfl

/-- C73. Parsing: the dumped AST of a text of the language, otherwise an object with one diagnostic. -/
theorem C73_parse (an : Antlr F) (dump : Option (ProgramAst F) → Bytes) (text file : Str) :
    (∀ p, HasAst an (Api.optionalName file) text p → Wasm.parseStringToJson an dump text file = .ok (dump (some p))) ∧
    ((∀ p, ¬ HasAst an (Api.optionalName file) text p) → ∃ e d, parseString an text (Api.optionalName file) = .ok ⟨none, [e]⟩ ∧
      Json.render d = e.toJson ∧ Wasm.parseStringToJson an dump text file = .ok (Json.obj [(utf8 c!"errors", .arr [d])]).render) := by
  rcases C65_parse_json an dump text file with ⟨p, h1, h2⟩ | ⟨h1, h2⟩
  · exact ⟨fun q hq => hasAst_unique hq h1 ▸ h2, fun h => absurd h1 (h p)⟩
  · exact ⟨fun q hq => absurd hq (h1 q), fun _ => h2⟩

/-- C73. Analysis of a valid program: the dump of the tree with the variables and instructions the rules of the language
give. -/
theorem C73_valid (an : Antlr F) (dump : Option (SProgram F) → Bytes) (text file : Str) (p : ProgramAst F)
    (h : HasAst an (Api.optionalName file) text p) (vs : List (SVariable F)) (ts : List (SStatement F))
    (hv : Valid fo [3, 0] p vs ts) :
    ∃ loc, Wasm.analyzeStringToJson fo an dump text file =
      .ok (dump (some ⟨[3, 0], ⟨p.version.items, p.version.loc⟩, ⟨ts, loc⟩, vs⟩)) := by
  obtain ⟨a, ha⟩ := (C59_default fo [3, 0]).1.2 means30.2
  obtain ⟨hs, -⟩ := C48_shaped an text (Api.optionalName file) p (hasAst_iff.1 h)
  obtain ⟨loc, ⟨a', h1⟩, -⟩ := C01_result fo [3, 0] a ha p hs vs ts hv
  refine ⟨loc, ?_⟩
  rw [wasm_eq an dump text file ha]
  simp [Syn.analyzeString, hasAst_iff.1 h, analyzeParse, h1, Result.toJson]

/-- C73. Analysis of a program with errors: an object whose only key is `errors`, with the diagnostics of the errors the
specification gives for the program, in order. -/
theorem C73_errors (an : Antlr F) (dump : Option (SProgram F) → Bytes) (text file : Str) (p : ProgramAst F)
    (h : HasAst an (Api.optionalName file) text p) (es : List Err) (he : ProgramErrors fo [3, 0] p es) (hne : es ≠ []) :
    ∃ ds : List Json, ds.map Json.render = es.map Err.toJson ∧
      Wasm.analyzeStringToJson fo an dump text file = .ok (Json.obj [(utf8 c!"errors", .arr ds)]).render := by
  obtain ⟨a, ha⟩ := (C59_default fo [3, 0]).1.2 means30.2
  obtain ⟨a', root, h1⟩ := (C72_text ha an text (Api.optionalName file) p h es).mpr he
  obtain ⟨ds, h2, h3⟩ := C05_failure_json (⟨root, es⟩ : Result (SProgram F)) dump hne
  exact ⟨ds, h3, by rw [wasm_eq an dump text file ha, h1, Res.bind_ok, h2]⟩

/-- C73. Analysis of a text that is not of the language: one diagnostic, the same as for parsing. -/
theorem C73_syntax (an : Antlr F) (dump : Option (SProgram F) → Bytes) (dump' : Option (ProgramAst F) → Bytes) (text file : Str)
    (h : ∀ p, ¬ HasAst an (Api.optionalName file) text p) :
    Wasm.analyzeStringToJson fo an dump text file = Wasm.parseStringToJson an dump' text file := by
  obtain ⟨a, ha⟩ := (C59_default fo [3, 0]).1.2 means30.2
  obtain ⟨e, _, h1, -, -⟩ := (C73_parse an dump' text file).2 h
  rw [wasm_eq an dump text file ha]
  simp [Wasm.parseStringToJson, Api.parseJson, Syn.analyzeString, h1, analyzeParse, Result.toJson]

/-- C73. It always returns a string, unless the program has undefined behaviour (C21). -/
theorem C73_total (an : Antlr F) (dump : Option (SProgram F) → Bytes) (text file : Str)
    (h : ∀ p, HasAst an (Api.optionalName file) text p → ¬ UndefStmts fo [] 0 p.block.statements) :
    ∃ s, Wasm.analyzeStringToJson fo an dump text file = .ok s := by
  obtain ⟨a, ha⟩ := (C59_default fo [3, 0]).1.2 means30.2
  by_cases hp : ∃ p, HasAst an (Api.optionalName file) text p
  · obtain ⟨p, hp⟩ := hp
    obtain ⟨hs, hpl⟩ := C48_shaped an text (Api.optionalName file) p (hasAst_iff.1 hp)
    obtain ⟨es, he⟩ := (C72_total (fo := fo) (v := [3, 0]) means30.2 hs hpl).mpr (h p hp)
    obtain ⟨a', root, h1⟩ := (C72_text ha an text (Api.optionalName file) p hp es).mpr he
    exact ⟨_, by rw [wasm_eq an dump text file ha, h1]; rfl⟩
  · obtain ⟨e, d, -, -, h2⟩ := (C73_parse an (fun _ => []) text file).2 fun p hpp => hp ⟨p, hpp⟩
    exact ⟨_, by rw [C73_syntax an dump (fun _ => []) text file fun p hpp => hp ⟨p, hpp⟩, h2]⟩

/-- The number of variables of the tree, or `none`. -/
def Sample.dump : Option (SProgram Int) → Bytes
  | some p => [UInt8.ofNat p.variables.length]
  | none => []

/-- The string returned, if any. -/
def Sample.outcome : Res Err Bytes → Option Bytes
  | .ok s => some s
  | _ => none

/-- A valid program, analysed; one that is rejected; one that is not of the language. -/
example : Sample.outcome (Wasm.analyzeStringToJson Sample.fo Sample.antlr Sample.dump c!"version 3.0;qubit q;X q" []) = some [1] ∧
    Sample.outcome (Wasm.analyzeStringToJson Sample.fo Sample.antlr Sample.dump c!"version 3.0;qubit q;X r" []) =
      some (utf8 c!"{\"errors\":[{\"range\":{\"start\":{\"line\":1,\"character\":23},\"end\":{\"line\":1,\"character\":24}},\"message\":\"failed to resolve variable 'r'\",\"severity\":1}]}") ∧
    Sample.outcome (Wasm.analyzeStringToJson Sample.fo Sample.antlr Sample.dump c!"version 3.0;qubit" []) =
      Sample.outcome (Wasm.parseStringToJson Sample.antlr (fun _ => []) c!"version 3.0;qubit" []) := by
  decide +kernel

end Qasm
