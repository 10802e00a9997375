import Verif.Model.SyntacticAnalyzer
/-!
# Entry points: `src/v3x/cqasm.cpp`, `src/v3x/cqasm_python.cpp`, `python/module/cqasm/v3x/__init__.py`
-/

namespace Qasm

variable {F : Type}

namespace Api

/-- A version string where the code passes a `std::string` to a `const Version&` parameter. -/
def version (s : Str) : Res Err Version := (Version.ofString s).mapErr Empty.elim

/-- `default_analyzer`, src/v3x/cqasm.cpp:42-50. -/
def defaultAnalyzer (fo : FloatOps F) (apiVersion : Str) : Res Err (Analyzer F) :=
  (version apiVersion).bind fun v => Analyzer.default fo v

/-- What a call that ends in `unwrap` writes to stderr, and how it ends. -/
def unwrapped (r : Res Err (Result (SProgram F))) : Str × Res Err (Option (SProgram F)) :=
  match r with
  | .ok r => (r.unwrap.1, r.unwrap.2.mapErr Empty.elim)
  | .err e => ([], .err e)
  | .exn c => ([], .exn c)
  | .ub => ([], .ub)

/-- `analyze_string`, src/v3x/cqasm.cpp:32-37: what is written to stderr, and the returned program or the exception. -/
def analyzeString (fo : FloatOps F) (an : Antlr F) (data : Str) (fileName : Option Str) (apiVersion : Str) :
    Str × Res Err (Option (SProgram F)) :=
  unwrapped <|
    (Syn.parseString an data fileName).bind fun pr =>
    (defaultAnalyzer fo apiVersion).bind fun a =>
    ((Sem.analyzeParse fo a pr).mapErr Empty.elim).bind fun r => .ok r.2

/-- `analyze_file`, src/v3x/cqasm.cpp:21-25. The file name is not used in error messages. `content` is the content of
the file at the path, `none` if there is none. -/
def analyzeFile (fo : FloatOps F) (an : Antlr F) (content : Option Str) (path : Str) (apiVersion : Str) :
    Str × Res Err (Option (SProgram F)) :=
  unwrapped <|
    (Syn.parseFile an content path none).bind fun pr =>
    (defaultAnalyzer fo apiVersion).bind fun a =>
    ((Sem.analyzeParse fo a pr).mapErr Empty.elim).bind fun r => .ok r.2

/-! ## The class behind the Python module -/

/-- `V3xAnalyzer::V3xAnalyzer`, src/v3x/cqasm_python.cpp:26-34. -/
def newV3x (fo : FloatOps F) (maxVersion : Str) (withoutDefaults : Bool) : Res Err (Analyzer F) :=
  if withoutDefaults then
    (version maxVersion).bind fun v =>
      match Analyzer.new v with
      | none => .exn c!"std::invalid_argument"
      | some a => (a.registerDefaultConstants fo).bind fun a => a.registerDefaultFunctions fo
  else defaultAnalyzer fo maxVersion

/-- `V3xAnalyzer::register_instruction`, src/v3x/cqasm_python.cpp:47-49. -/
def registerInstruction (a : Analyzer F) (name : Str) (paramTypes : Option Str) : Res Err (Analyzer F) :=
  a.registerInstructionSpec name paramTypes

/-- The empty file name stands for none, src/v3x/cqasm_python.cpp:84, 101, 142, 161. -/
def optionalName (fileName : Str) : Option Str := if fileName.isEmpty then none else some fileName

/-- `V3xAnalyzer::parse_string`, src/v3x/cqasm_python.cpp:83-87. `ser` is the generated serialiser. -/
def parseStrings (an : Antlr F) (ser : Option (ProgramAst F) → Str) (data fileName : Str) : Res Err (List Str) :=
  (Syn.parseString an data (optionalName fileName)).bind fun pr => .ok (pr.toStrings ser)

/-- `V3xAnalyzer::parse_file`, src/v3x/cqasm_python.cpp:59-62. -/
def parseFileStrings (an : Antlr F) (ser : Option (ProgramAst F) → Str) (content : Option Str) (path : Str) :
    Res Err (List Str) :=
  (Syn.parseFile an content path none).bind fun pr => .ok (pr.toStrings ser)

/-- `V3xAnalyzer::parse_string_to_json`, src/v3x/cqasm_python.cpp:100-104. `dump` is the generated JSON writer. -/
def parseJson (an : Antlr F) (dump : Option (ProgramAst F) → Bytes) (data fileName : Str) : Res Err Bytes :=
  (Syn.parseString an data (optionalName fileName)).bind fun pr => .ok (pr.toJson dump)

/-- `V3xAnalyzer::parse_file_to_json`, src/v3x/cqasm_python.cpp:74-77. -/
def parseFileJson (an : Antlr F) (dump : Option (ProgramAst F) → Bytes) (content : Option Str) (path : Str) :
    Res Err Bytes :=
  (Syn.parseFile an content path none).bind fun pr => .ok (pr.toJson dump)

/-- `V3xAnalyzer::analyze_string`, src/v3x/cqasm_python.cpp:141-146; also the analyser as the call leaves it. -/
def analyzeStrings (fo : FloatOps F) (an : Antlr F) (ser : Option (SProgram F) → Str) (a : Analyzer F)
    (data fileName : Str) : Res Err (Analyzer F × List Str) :=
  (Syn.parseString an data (optionalName fileName)).bind fun pr =>
    ((Sem.analyzeParse fo a pr).mapErr Empty.elim).bind fun r => .ok (r.1, r.2.toStrings ser)

/-- `V3xAnalyzer::analyze_file`, src/v3x/cqasm_python.cpp:115-119. -/
def analyzeFileStrings (fo : FloatOps F) (an : Antlr F) (ser : Option (SProgram F) → Str) (a : Analyzer F)
    (content : Option Str) (path : Str) : Res Err (Analyzer F × List Str) :=
  (Syn.parseFile an content path none).bind fun pr =>
    ((Sem.analyzeParse fo a pr).mapErr Empty.elim).bind fun r => .ok (r.1, r.2.toStrings ser)

/-- `V3xAnalyzer::analyze_string_to_json`, src/v3x/cqasm_python.cpp:159-165. -/
def analyzeJson (fo : FloatOps F) (an : Antlr F) (dump : Option (SProgram F) → Bytes) (a : Analyzer F)
    (data fileName : Str) : Res Err (Analyzer F × Bytes) :=
  (Syn.parseString an data (optionalName fileName)).bind fun pr =>
    ((Sem.analyzeParse fo a pr).mapErr Empty.elim).bind fun r => .ok (r.1, r.2.toJson dump)

/-- `V3xAnalyzer::analyze_file_to_json`, src/v3x/cqasm_python.cpp:131-135. -/
def analyzeFileJson (fo : FloatOps F) (an : Antlr F) (dump : Option (SProgram F) → Bytes) (a : Analyzer F)
    (content : Option Str) (path : Str) : Res Err (Analyzer F × Bytes) :=
  (Syn.parseFile an content path none).bind fun pr =>
    ((Sem.analyzeParse fo a pr).mapErr Empty.elim).bind fun r => .ok (r.1, r.2.toJson dump)

/-! ## The Python class -/

/-- What the Python methods return: a tree or a list of messages. -/
inductive PyResult (ρ : Type) where
  | tree (t : ρ)
  | errors (messages : List Str)

/-- `ret` turned into a tree or a list, python/module/cqasm/v3x/__init__.py:60-65, 76-81, 91-96, 105-110. `de` is the
generated deserialiser. -/
def pyResult {ρ : Type} (de : Str → ρ) (ret : List Str) : PyResult ρ :=
  match ret with
  | [s] => .tree (de s)
  | ret => .errors (ret.drop 1)

/-- `Analyzer.parse_string`, python/module/cqasm/v3x/__init__.py:73-81. -/
def pyParse {ρ : Type} (an : Antlr F) (ser : Option (ProgramAst F) → Str) (de : Str → ρ) (data fileName : Str) :
    Res Err (PyResult ρ) :=
  (parseStrings an ser data fileName).bind fun ret => .ok (pyResult de ret)

/-- `Analyzer.analyze_string`, python/module/cqasm/v3x/__init__.py:102-110. -/
def pyAnalyze {ρ : Type} (fo : FloatOps F) (an : Antlr F) (ser : Option (SProgram F) → Str) (de : Str → ρ)
    (a : Analyzer F) (data fileName : Str) : Res Err (Analyzer F × PyResult ρ) :=
  (analyzeStrings fo an ser a data fileName).bind fun r => .ok (r.1, pyResult de r.2)

/-- `Analyzer.parse_file`, python/module/cqasm/v3x/__init__.py:57-65. -/
def pyParseFile {ρ : Type} (an : Antlr F) (ser : Option (ProgramAst F) → Str) (de : Str → ρ) (content : Option Str)
    (path : Str) : Res Err (PyResult ρ) :=
  (parseFileStrings an ser content path).bind fun ret => .ok (pyResult de ret)

/-- `Analyzer.analyze_file`, python/module/cqasm/v3x/__init__.py:88-96. -/
def pyAnalyzeFile {ρ : Type} (fo : FloatOps F) (an : Antlr F) (ser : Option (SProgram F) → Str) (de : Str → ρ)
    (a : Analyzer F) (content : Option Str) (path : Str) : Res Err (Analyzer F × PyResult ρ) :=
  (analyzeFileStrings fo an ser a content path).bind fun r => .ok (r.1, pyResult de r.2)

end Api

end Qasm
