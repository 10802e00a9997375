import Verif.Model.Api
import Verif.Model.Input
/-!
# Texts and bytes between Python and C++: `python/libqasm.i`, `python/module/cqasm/v3x/__init__.py`

The conversions themselves are those of the code that SWIG generates from `std_string.i` and `std_except.i` (python/libqasm.i:14-18)
and of CPython, neither of which is part of `/repo`:

* a `std::string` becomes a `str` by decoding it as UTF-8 with the error handler `surrogateescape`;
* a `str` becomes a `std::string` by encoding it strictly as UTF-8, and a `TypeError` if that fails.

Simplification: strings are shorter than 2 GiB (longer ones SWIG gives out as pointers).
-/

namespace Qasm.Py

variable {F : Type}

/-- A code point of a Python `str`: a character, or one of the surrogates U+D800 to U+DFFF. Conversions used by
python/module/cqasm/v3x/__init__.py:60-65. -/
inductive Point where
  | char (c : Char)
  | surrogate (n : Nat)
  deriving DecidableEq

/-- A Python `str`, python/module/cqasm/v3x/__init__.py:62. -/
abbrev Text := List Point

/-- Decoding with `surrogateescape`, with fuel for the number of code points. CPython escapes the bytes of an ill-formed
sequence together; the ones after the first are continuation bytes, which cannot start a character, so that escaping one at
a time is the same. Used by python/libqasm.i:17. -/
def decode : Nat → Bytes → Text
  | _, [] => []
  | 0, _ :: _ => []
  | n + 1, b :: bs =>
    match Input.decodeChar (b :: bs) with
    | some (c, rest) => .char c :: decode n rest
    | none => .surrogate (0xDC00 + b.toNat) :: decode n bs

/-- A `std::string` as Python gets it, python/libqasm.i:17. -/
def ofBytes (bs : Bytes) : Text := decode bs.length bs

/-- `.encode(encoding='utf-8', errors="surrogateescape")`, python/module/cqasm/v3x/__init__.py:63, 79, 94, 108. -/
def encode : Text → Res Empty Bytes
  | [] => .ok []
  | .char c :: r => (encode r).bind fun bs => .ok (String.utf8EncodeChar c ++ bs)
  | .surrogate n :: r =>
    if 0xDC80 ≤ n ∧ n ≤ 0xDCFF then (encode r).bind fun bs => .ok (UInt8.ofNat (n - 0xDC00) :: bs)
    else .exn c!"UnicodeEncodeError"

/-- A `str` passed for a `std::string`, python/libqasm.i:17: its characters. -/
def argument : Text → Res Empty Str
  | [] => .ok []
  | .char c :: r => (argument r).bind fun s => .ok (c :: s)
  | .surrogate _ :: _ => .exn c!"TypeError"

/-- The Python exception for a C++ one, `SWIG_CATCH_STDEXCEPT` in python/libqasm.i:28-37. The exceptions of ANTLR derive from
`std::exception`. -/
def pyClass (c : Str) : Str :=
  if c = c!"std::invalid_argument" then c!"ValueError"
  else if c = c!"std::out_of_range" then c!"IndexError"
  else if c = c!"std::runtime_error" then c!"RuntimeError"
  else c!"SystemError"

/-- A call of C++ from Python, python/libqasm.i:28-37. `error::Error` is a `std::runtime_error`,
include/libqasm/error.hpp:33. -/
def call {α : Type} : Res Err α → Res Empty α
  | .ok x => .ok x
  | .err _ => .exn c!"RuntimeError"
  | .exn c => .exn (pyClass c)
  | .ub => .ub

/-- `result::to_strings`, include/libqasm/result.hpp:22-34, as bytes. `ser` is the generated serialiser. -/
def toStrings {ρ : Type} (ser : Option ρ → Bytes) (r : Result ρ) : List Bytes :=
  if r.errors.isEmpty then [ser r.root] else [] :: r.errors.map fun e => utf8 e.what

/-- What the methods return: a tree, or a list of messages. -/
inductive Outcome (ρ : Type) where
  | tree (t : ρ)
  | errors (messages : List Text)
  deriving DecidableEq

/-- `ret` turned into a tree or a list, python/module/cqasm/v3x/__init__.py:60-65, 76-81, 91-96, 105-110. `de` is the generated
deserialiser. -/
def outcome {ρ : Type} (de : Bytes → ρ) (ret : List Bytes) : Res Empty (Outcome ρ) :=
  match ret.map ofBytes with
  | [s] => (encode s).bind fun bs => .ok (.tree (de bs))
  | ts => .ok (.errors (ts.drop 1))

/-- `Analyzer(max_version, without_defaults)`: the constructor of `V3xAnalyzer`, src/v3x/cqasm_python.cpp:26-34, called through
python/libqasm.i:28-39. -/
def newAnalyzer (fo : FloatOps F) (maxVersion : Text) (withoutDefaults : Bool) : Res Empty (Analyzer F) :=
  (argument maxVersion).bind fun s => call (Api.newV3x fo s withoutDefaults)

/-- `register_instruction(name, param_types)`, src/v3x/cqasm_python.cpp:47-49, called through python/libqasm.i:28-39. The second
parameter has the type `const std::optional<std::string>&` (include/libqasm/v3x/cqasm_python.hpp:120). python/libqasm.i:14-18 includes
no conversion for `std::optional`, and nothing that is wrapped makes one, so SWIG wants a pointer to an object that Python cannot have: a
`str` is none (`TypeError`), and `None` is the null pointer, which a reference must not be (`ValueError`). Simplification: `param_types`
is a `str` or `None`; anything else is a `TypeError`, too. -/
def registerInstruction (_ : Analyzer F) (name : Text) (paramTypes : Option Text) : Res Empty (Analyzer F) :=
  (argument name).bind fun _ =>
    match paramTypes with
    | none => .exn c!"ValueError"
    | some _ => .exn c!"TypeError"

/-- `Analyzer.parse_string`, python/module/cqasm/v3x/__init__.py:73-81. -/
def parseString {ρ : Type} (an : Antlr F) (ser : Option (ProgramAst F) → Bytes) (de : Bytes → ρ) (data file : Text) :
    Res Empty (Outcome ρ) :=
  (argument data).bind fun d => (argument file).bind fun f =>
    (call (Input.parseString an (utf8 d) (Api.optionalName f))).bind fun r => outcome de (toStrings ser r)

/-- `Analyzer.parse_string_to_json`, python/module/cqasm/v3x/__init__.py:83-86. `dump` is the generated JSON writer. -/
def parseJson (an : Antlr F) (dump : Option (ProgramAst F) → Bytes) (data file : Text) : Res Empty Text :=
  (argument data).bind fun d => (argument file).bind fun f =>
    (call (Input.parseString an (utf8 d) (Api.optionalName f))).bind fun r => .ok (ofBytes (r.toJson dump))

/-- `Analyzer.parse_file`, python/module/cqasm/v3x/__init__.py:57-65; `content` is what the file at the path contains. -/
def parseFile {ρ : Type} (an : Antlr F) (ser : Option (ProgramAst F) → Bytes) (de : Bytes → ρ) (content : Option Bytes)
    (path : Text) : Res Empty (Outcome ρ) :=
  (argument path).bind fun p =>
    (call (Input.parseFile an content p none)).bind fun r => outcome de (toStrings ser r)

/-- `Analyzer.analyze_string`, python/module/cqasm/v3x/__init__.py:102-110; also the analyser as the call leaves it. -/
def analyzeString {ρ : Type} (fo : FloatOps F) (an : Antlr F) (ser : Option (SProgram F) → Bytes) (de : Bytes → ρ) (a : Analyzer F)
    (data file : Text) : Res Empty (Analyzer F × Outcome ρ) :=
  (argument data).bind fun d => (argument file).bind fun f =>
    (call (Input.analyzeString fo an a (utf8 d) (Api.optionalName f))).bind fun r =>
      (outcome de (toStrings ser r.2)).bind fun o => .ok (r.1, o)

/-- `Analyzer.analyze_file`, python/module/cqasm/v3x/__init__.py:88-96 and src/v3x/cqasm_python.cpp:115-119; also the analyser as the call
leaves it. -/
def analyzeFile {ρ : Type} (fo : FloatOps F) (an : Antlr F) (ser : Option (SProgram F) → Bytes) (de : Bytes → ρ) (a : Analyzer F)
    (content : Option Bytes) (path : Text) : Res Empty (Analyzer F × Outcome ρ) :=
  (argument path).bind fun p =>
    (call ((Input.parseFile an content p none).bind fun pr => (Sem.analyzeParse fo a pr).mapErr Empty.elim)).bind fun r =>
      (outcome de (toStrings ser r.2)).bind fun o => .ok (r.1, o)

/-- What can be called on an `Analyzer` in Python and uses or changes its state, python/module/cqasm/v3x/__init__.py:88-110 and
include/libqasm/v3x/cqasm_python.hpp:120. -/
inductive Event where
  | register (name : Text) (paramTypes : Option Text)
  | text (data file : Text)
  | file (content : Option Bytes) (path : Text)

/-- The call, python/module/cqasm/v3x/__init__.py:88-110: the analyser after it, and what is returned. -/
def Event.on {ρ : Type} (fo : FloatOps F) (an : Antlr F) (ser : Option (SProgram F) → Bytes) (de : Bytes → ρ) (a : Analyzer F) :
    Event → Res Empty (Analyzer F × Option (Outcome ρ))
  | .register name ps => (registerInstruction a name ps).bind fun a => .ok (a, none)
  | .text data name => (analyzeString fo an ser de a data name).bind fun r => .ok (r.1, some r.2)
  | .file content path => (analyzeFile fo an ser de a content path).bind fun r => .ok (r.1, some r.2)

end Qasm.Py
