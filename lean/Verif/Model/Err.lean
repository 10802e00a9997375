import Verif.Model.Location
import Verif.Model.Text
/-!
# Errors and results: `src/error.cpp`, `include/libqasm/result.hpp`, `src/v3x/analysis_result.cpp`
-/

namespace Qasm

/-- `error::Error` (= `ParseError` = `AnalysisError`), include/libqasm/error.hpp:33-87.
The cached `what_message_` is not a field: it is recomputed by every `what()`. -/
structure Err where
  message : Str
  location : Option Loc
  deriving Repr, DecidableEq

namespace Err

/-- `unknown_error_message`, include/libqasm/error.hpp:28. -/
def unknownErrorMessage : Str := c!"<unknown error message>"

/-- The message normalisation of all three constructors, src/error.cpp:17-40. -/
def normMsg (m : Str) : Str := if m.isEmpty then unknownErrorMessage else m

/-- `Error::context`, src/error.cpp:47-53; the argument is the location annotation of the node, if any. -/
def context (e : Err) (nodeLoc : Option Loc) : Err :=
  match e.location with
  | none => { e with location := nodeLoc }
  | some _ => e

/-- `Error::Error(message, node)`, src/error.cpp:17-23; `none` also covers a null node. -/
def mkNode (message : Str) (nodeLoc : Option Loc) : Err := context ⟨normMsg message, none⟩ nodeLoc

/-- `Error::Error(message)`, the default argument `node = nullptr`, src/error.cpp:17-23. -/
def mk0 (message : Str) : Err := mkNode message none

/-- `Error::Error(message, file_name, range)`, src/error.cpp:36-40. -/
def mkRange (message : Str) (fileName : Option Str) (r : Range) : Err :=
  ⟨normMsg message, some (Loc.mk' fileName r)⟩

/-- `Error::what`, src/error.cpp:58-63, before the conversion to a C string. -/
def whatMessage (e : Err) : Str :=
  c!"Error" ++ (match e.location with | some l => c!" at " ++ l.print | none => []) ++ c!": " ++ normMsg e.message

/-- `Error::what` returns a `const char*`, so readers see the text up to the first NUL. -/
def what (e : Err) : Str := e.whatMessage.takeWhile (· != Char.ofNat 0)

/-- The `relatedInformation` part of `Error::to_json`, src/error.cpp:79-99. -/
def relatedInformation (e : Err) : Bytes :=
  match e.location with
  | some ⟨some file, _⟩ =>
      utf8 c!",\"relatedInformation\":[{\"location\":{\"uri\":\"file:///"
      ++ Text.urlEncode (utf8 file)
      ++ utf8 c!"\",\"range\":{\"start\":{\"line\":0,\"character\":0},\"end\":{\"line\":0,\"character\":0}}},\"message\":\""
      ++ Text.jsonEncode (utf8 unknownErrorMessage)
      ++ utf8 c!"\"}]"
  | _ => []

/-- `Error::to_json`, src/error.cpp:78-122. -/
def toJson (e : Err) : Bytes :=
  let r : Range := match e.location with
    | some l => l.range
    | none => ⟨⟨0, 0⟩, ⟨0, 0⟩⟩
  utf8 (c!"{\"range\":{\"start\":{\"line\":" ++ decNat r.first.line
    ++ c!",\"character\":" ++ decNat r.first.column
    ++ c!"},\"end\":{\"line\":" ++ decNat r.last.line
    ++ c!",\"character\":" ++ decNat r.last.column
    ++ c!"}},\"message\":\"")
  ++ Text.jsonEncode (utf8 e.message)
  ++ utf8 c!"\",\"severity\":1"
  ++ relatedInformation e
  ++ utf8 c!"}"

end Err

/-- `AnalysisResult` and `ParseResult`: a possibly empty root and a list of errors
(include/libqasm/v3x/analysis_result.hpp:47-63). -/
structure Result (ρ : Type) where
  root : Option ρ
  errors : List Err
  deriving Repr

namespace Result

/-- `result::to_strings`, include/libqasm/result.hpp:22-34. `ser` is the generated CBOR serialiser of
the tree (not modelled). The error strings are made from `error.what()`, a C string. -/
def toStrings {ρ : Type} (ser : Option ρ → Str) (r : Result ρ) : List Str :=
  if r.errors.isEmpty then [ser r.root] else [] :: r.errors.map Err.what

/-- Joins byte strings with a separator, as `fmt::join` does. -/
def joinBytes (sep : Bytes) : List Bytes → Bytes
  | [] => []
  | [x] => x
  | x :: y :: xs => x ++ sep ++ joinBytes sep (y :: xs)

/-- `result::errors_to_json`, include/libqasm/result.hpp:36-40. -/
def errorsToJson (es : List Err) : Bytes :=
  utf8 c!"{\"errors\":[" ++ joinBytes (utf8 c!",") (es.map Err.toJson) ++ utf8 c!"]}"

/-- `result::to_json`, include/libqasm/result.hpp:52-55. `dump` is the generated JSON dumper of the tree. -/
def toJson {ρ : Type} (dump : Option ρ → Bytes) (r : Result ρ) : Bytes :=
  if r.errors.isEmpty then dump r.root else errorsToJson r.errors

/-- `AnalysisResult::unwrap`, src/v3x/analysis_result.cpp:14-20: the text written to the stream and
either the root or the exception `AnalysisFailed`. -/
def unwrap {ρ : Type} (r : Result ρ) : Str × Res Empty (Option ρ) :=
  if r.errors.isEmpty then ([], .ok r.root)
  else (joinStr c!"\n" (r.errors.map Err.what), .exn c!"AnalysisFailed")

end Result
end Qasm
