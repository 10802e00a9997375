import Verif.Model.Location
/-!
# Independent notions for source positions and diagnostics

The structures `Index`, `Range`, `Loc` are plain records of the model; the notions below do not use
any model function.
-/

namespace Qasm.Spec

/-- Text order of positions: earlier line, or same line and not a later column. -/
def PosLe (a b : Index) : Prop := a.line < b.line ∨ (a.line = b.line ∧ a.column ≤ b.column)

/-- The range covers the position. -/
def Covers (r : Range) (i : Index) : Prop := PosLe r.first i ∧ PosLe i r.last

/-- The outer range includes the inner one. -/
def Includes (outer inner : Range) : Prop := PosLe outer.first inner.first ∧ PosLe inner.last outer.last

/-- A JSON value; `str` holds the text between the quotes. -/
inductive Json where
  | num (n : Nat)
  | str (raw : Bytes)
  | arr (items : List Json)
  | obj (fields : List (Bytes × Json))

mutual
/-- Compact JSON text. -/
def Json.render : Json → Bytes
  | .num n => utf8 (Nat.toDigits 10 n)
  | .str raw => utf8 ['"'] ++ raw ++ utf8 ['"']
  | .arr items => utf8 ['['] ++ renderItems items ++ utf8 [']']
  | .obj fields => utf8 ['{'] ++ renderFields fields ++ utf8 ['}']
/-- Array items separated by commas. -/
def renderItems : List Json → Bytes
  | [] => []
  | [x] => x.render
  | x :: y :: ys => x.render ++ utf8 [','] ++ renderItems (y :: ys)
/-- Object fields separated by commas. -/
def renderFields : List (Bytes × Json) → Bytes
  | [] => []
  | [(k, x)] => utf8 ['"'] ++ k ++ utf8 ['"', ':'] ++ x.render
  | (k, x) :: y :: ys => utf8 ['"'] ++ k ++ utf8 ['"', ':'] ++ x.render ++ utf8 [','] ++ renderFields (y :: ys)
end

/-- LSP `Position`. -/
def jsonPos (i : Index) : Json := .obj [(utf8 c!"line", .num i.line), (utf8 c!"character", .num i.column)]

/-- LSP `Range`. -/
def jsonRange (r : Range) : Json := .obj [(utf8 c!"start", jsonPos r.first), (utf8 c!"end", jsonPos r.last)]

/-- LSP `DiagnosticRelatedInformation` naming only the file, given the percent-encoded file name. -/
def jsonRelated (uriPath : Bytes) : Json :=
  .obj [(utf8 c!"location", .obj [(utf8 c!"uri", .str (utf8 c!"file:///" ++ uriPath)),
          (utf8 c!"range", jsonRange ⟨⟨0, 0⟩, ⟨0, 0⟩⟩)]),
        (utf8 c!"message", .str (utf8 c!"<unknown error message>"))]

/-- LSP `Diagnostic` with severity 1. `related` is the percent-encoded file name, if known. -/
def jsonDiagnostic (r : Range) (rawMessage : Bytes) (related : Option Bytes) : Json :=
  .obj ([(utf8 c!"range", jsonRange r), (utf8 c!"message", .str rawMessage), (utf8 c!"severity", .num 1)]
    ++ match related with
       | some p => [(utf8 c!"relatedInformation", .arr [jsonRelated p])]
       | none => [])

end Qasm.Spec
