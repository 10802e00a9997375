import Verif.Model.Api
/-!
# The WebAssembly interface: `emscripten/emscripten_wrapper.cpp`
-/

namespace Qasm.Wasm

variable {F : Type}

/-- `EmscriptenWrapper::parse_string_to_json`, emscripten/emscripten_wrapper.cpp:24-26. -/
def parseStringToJson (an : Antlr F) (dump : Option (ProgramAst F) → Bytes) (data fileName : Str) : Res Err Bytes :=
  Api.parseJson an dump data fileName

/-- `EmscriptenWrapper::analyze_string_to_json`, emscripten/emscripten_wrapper.cpp:39-41: a new `V3xAnalyzer` with the
defaults of include/libqasm/v3x/cqasm_python.hpp for every call. -/
def analyzeStringToJson (fo : FloatOps F) (an : Antlr F) (dump : Option (SProgram F) → Bytes) (data fileName : Str) :
    Res Err Bytes :=
  (Api.newV3x fo c!"3.0" false).bind fun a =>
    (Api.analyzeJson fo an dump a data fileName).bind fun r => .ok r.2

end Qasm.Wasm
