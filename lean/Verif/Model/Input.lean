import Verif.Model.SyntacticAnalyzer
/-!
# Bytes in: from the bytes of a string or file to the characters the lexer sees

The decoding is that of the ANTLR runtime, version 4.13.1 (conanfile.py:115), which is not part of `/repo`:
`antlr4::ANTLRInputStream::load` drops a byte order mark and decodes strictly. It is modelled by what UTF-8 is defined to be
(Unicode, table 3-7: no overlong forms, no surrogates, nothing above U+10FFFF).
-/

namespace Qasm.Input

variable {F : Type}

/-- The payload of a continuation byte `10xxxxxx`. Decoding in the ANTLR runtime, used by src/v3x/antlr_scanner.cpp:58-62, 73-76. -/
def cont (b : UInt8) : Option Nat := if 0x80 ≤ b.toNat ∧ b.toNat < 0xC0 then some (b.toNat - 0x80) else none

/-- The character with the given number, if it needs at least the given number and is not a surrogate. Decoding in the ANTLR
runtime, used by src/v3x/antlr_scanner.cpp:58-62, 73-76. -/
def scalar (least n : Nat) : Option Char :=
  if least ≤ n ∧ (n < 0xD800 ∨ 0xDFFF < n) ∧ n < 0x110000 then some (Char.ofNat n) else none

/-- The first character and the remaining bytes. Decoding in the ANTLR runtime, used by src/v3x/antlr_scanner.cpp:58-62, 73-76. -/
def decodeChar : Bytes → Option (Char × Bytes)
  | [] => none
  | a :: bs =>
    if a.toNat < 0x80 then (scalar 0 a.toNat).map (·, bs)
    else if 0xC0 ≤ a.toNat ∧ a.toNat < 0xE0 then
      match bs with
      | b :: bs => do
        let y ← cont b
        (scalar 0x80 ((a.toNat - 0xC0) * 64 + y)).map (·, bs)
      | _ => none
    else if 0xE0 ≤ a.toNat ∧ a.toNat < 0xF0 then
      match bs with
      | b :: c :: bs => do
        let y ← cont b
        let z ← cont c
        (scalar 0x800 (((a.toNat - 0xE0) * 64 + y) * 64 + z)).map (·, bs)
      | _ => none
    else if 0xF0 ≤ a.toNat ∧ a.toNat < 0xF8 then
      match bs with
      | b :: c :: d :: bs => do
        let y ← cont b
        let z ← cont c
        let w ← cont d
        (scalar 0x10000 ((((a.toNat - 0xF0) * 64 + y) * 64 + z) * 64 + w)).map (·, bs)
      | _ => none
    else none

/-- Decodes all bytes, with fuel for the number of characters. Decoding in the ANTLR runtime, used by
src/v3x/antlr_scanner.cpp:58-62, 73-76. -/
def decodeAll : Nat → Bytes → Option Str
  | _, [] => some []
  | 0, _ :: _ => none
  | n + 1, b :: bs => do
    let (c, rest) ← decodeChar (b :: bs)
    (decodeAll n rest).map (c :: ·)

/-- `ANTLRInputStream::load` in the ANTLR runtime, used by src/v3x/antlr_scanner.cpp:58-62, 73-76. `none` is the exception
`antlr4::IllegalArgumentException`. -/
def load (data : Bytes) : Option Str :=
  match data with
  | 0xEF :: 0xBB :: 0xBF :: rest => decodeAll rest.length rest
  | _ => decodeAll data.length data

/-- `parse_string` on bytes, src/v3x/parse_helper.cpp:34-66. The handlers of `ParseHelper::parse` are for `AnalysisError` and
`std::runtime_error`; exceptions of ANTLR derive from `std::exception` directly and pass. -/
def parseString (an : Antlr F) (data : Bytes) (file : Option Str) : Res Err (Result (ProgramAst F)) :=
  match load data with
  | some text => Syn.parseString an text file
  | none => .exn c!"antlr4::IllegalArgumentException"

/-- `parse_file` on the bytes of a file, `none` if there is no such regular file, src/v3x/parse_helper.cpp:20-28 and
src/v3x/antlr_scanner.cpp:47-62. -/
def parseFile (an : Antlr F) (content : Option Bytes) (path : Str) (name : Option Str) : Res Err (Result (ProgramAst F)) :=
  match content with
  | none => Syn.parseFile an none path name
  | some data => parseString an data name

/-- `Analyzer::analyze_string` on bytes, src/v3x/analyzer.cpp:126-128. -/
def analyzeString (fo : FloatOps F) (an : Antlr F) (a : Analyzer F) (data : Bytes) (file : Option Str) :
    Res Err (Analyzer F × Result (SProgram F)) :=
  (parseString an data file).bind fun pr => (Sem.analyzeParse fo a pr).mapErr Empty.elim

/-- `Analyzer::analyze_file` on the bytes of a file, src/v3x/analyzer.cpp:118-120. -/
def analyzeFile (fo : FloatOps F) (an : Antlr F) (a : Analyzer F) (content : Option Bytes) (path : Str) :
    Res Err (Analyzer F × Result (SProgram F)) :=
  (parseFile an content path (some path)).bind fun pr => (Sem.analyzeParse fo a pr).mapErr Empty.elim

end Qasm.Input
