import Verif.Props.Place
import Verif.Props.Api
/-!
# The name of the file is only used for error messages (C104)
-/

namespace Qasm

open Spec Sem Syn

variable {F : Type} {fo : FloatOps F}

attribute [local irreducible] defaultInstrs defaultFns defaultVars

/-- The name that is shown: the empty name is no name. -/
def Spec.nameOf : Option Str → Option Str
  | some [] => none
  | file => file

/-- The same place in a file of another name. -/
def Spec.inFile (file : Option Str) (l : Loc) : Loc := ⟨nameOf file, l.range⟩

namespace FileName

theorem nameOf_eq (file : Option Str) : nameOf file = fileNameOf file := by
  rcases file with _ | _ | ⟨c, cs⟩ <;> rfl

theorem shift_eq (file : Option Str) : (Shift.inserted [] []).loc (fileNameOf file) = inFile file := by
  have hi : ∀ i : Index, (Shift.inserted [] []).index i = i := by
    intro ⟨l, c⟩
    simp [Shift.inserted, Shift.index, columnAfter, lastLine]
  funext l
  simp only [Shift.loc, hi, inFile, nameOf_eq]

theorem listener_eq (file file' : Option Str) (d : Diagnosis) :
    listenerError (fileNameOf file') d = placeErr (inFile file') (listenerError (fileNameOf file) d) := by
  simp only [listenerError, Err.mkRange, placeErr, Loc.mk', Option.map_some, inFile, nameOf_eq]
  rw [if_neg (Place.fileNameOf_ne file')]

end FileName

open FileName

/-- C104. Parsing a text, also one that is not of the language, under another file name: the same tree or the same message, with the
other name in the places. -/
theorem C104_parse (an : Antlr F) (text : Str) (file file' : Option Str) :
    parseString an text file' = (parseString an text file).bind fun r =>
      .ok (placeResult (inFile file') (placeProgram (inFile file')) r) := by
  by_cases hp : Parses text
  · have h := C92_parse (a := []) (w := []) (b := text) an (C92_lines hp text).1 (.last (.nil _)) hp file file'
    rwa [shift_eq] at h
  · have e : ∀ f, parseString an text f = .ok ⟨none, [listenerError (fileNameOf f) (an.diagnosis text)]⟩ := by
      intro f
      unfold parseString scan
      cases hl : Lexer.lex text with
      | error _ => rfl
      | ok ts =>
        cases hq : Parser.parse ts with
        | none => simp [hq]
        | some p => exact absurd ⟨ts, p, hl, hq⟩ hp
    rw [e, e, listener_eq file file']
    rfl

/-- C104. The same for the analysis by a default analyser: the same result and the same messages, with the other name in the
places. -/
theorem C104_analysis {v : Version} {a : Analyzer F} (ha : Analyzer.default fo v = .ok a) (an : Antlr F) (text : Str)
    (file file' : Option Str) :
    (analyzeString fo an a text file').bind (fun x => .ok x.2)
      = (analyzeString fo an a text file).bind fun x =>
        .ok (placeResult (inFile file') (placeSProgram (inFile file')) x.2) := by
  unfold analyzeString
  rw [C104_parse an text file file']
  rcases C48_outcome an text file with ⟨p, h⟩ | ⟨e, h⟩
  · have := C92_analysis ha (Place.inserted_order [] []) (fileNameOf file') p
    rw [shift_eq] at this
    rw [h]
    simp only [Res.bind_ok, placeResult, Option.map_some, List.map_nil, analyzeParse] at this ⊢
    revert this
    cases analyze fo a p <;> cases analyze fo a (placeProgram (inFile file') p) <;> simp [Res.mapErr]
    rename_i x _
    exact x.elim
  · rw [h]
    rfl

/-- C104. An analyser that has been used before gives, under another file name, the same messages in the same order and the same
program. -/
theorem C104_used {a : Analyzer F} (ha : Reached fo a) (an : Antlr F) (text : Str) (file file' : Option Str) :
    SameOutcome (analyzeString fo an a text file) (analyzeString fo an a text file') := by
  have hq := C104_parse an text file file'
  unfold analyzeString
  rcases C48_outcome an text file with ⟨p, h⟩ | ⟨e, h⟩
  · have hl : ∃ us, seen text = some us := by
      unfold seen
      unfold parseString scan at h
      cases hl : Lexer.lex text with
      | error _ => simp [hl] at h
      | ok ts => exact ⟨_, rfl⟩
    obtain ⟨us, hus⟩ := hl
    obtain ⟨p', h', hs⟩ := (C47_same_statements an text text file file' hus hus rfl).1 p h
    rw [h, h']
    exact sameOutcome_mapErr (C67_positions ha hs.symm)
  · rw [hq, h]
    exact ⟨by simp [placeResult, placeErr], rfl⟩

/-- C104. What is printed for an error: the name, or `<unknown file name>`, after `Error at ` if the error has a place; everything
else is the same under every name. -/
theorem C104_printed (e : Err) : ∃ rest, ∀ file,
    (placeErr (inFile file) e).whatMessage =
      if e.location.isSome then c!"Error at " ++ ((nameOf file).getD c!"<unknown file name>" ++ rest) else rest := by
  obtain ⟨m, _ | ⟨f, ⟨⟨l1, c1⟩, ⟨l2, c2⟩⟩⟩⟩ := e
  · exact ⟨_, fun file => by simp only [placeErr, Option.map_none, Option.isSome_none]; rfl⟩
  · refine ⟨(Loc.print ⟨some [], ⟨⟨l1, c1⟩, ⟨l2, c2⟩⟩⟩) ++ (c!": " ++ Err.normMsg m), fun file => ?_⟩
    simp only [placeErr, Err.whatMessage, Option.map_some, Option.isSome_some, if_true, inFile, Loc.print, Option.getD_some,
      Loc.unknownFileName]
    generalize (nameOf file).getD _ = n
    split
    · simp [List.append_assoc]
    · split
      · split <;> simp [List.append_assoc]
      · split
        · split <;> simp [List.append_assoc]
        · split <;> simp [List.append_assoc]

/-- C104. The JSON of an error: the name, percent-encoded, as the URI in an entry `relatedInformation` if there is a name and the error
has a place; everything else is the same under every name. -/
theorem C104_json (e : Err) : ∃ pre post, ∀ file,
    (placeErr (inFile file) e).toJson = pre ++ (match nameOf file, e.location with
      | some name, some _ =>
        utf8 c!",\"relatedInformation\":[{\"location\":{\"uri\":\"file:///" ++ Text.urlEncode (utf8 name) ++
          utf8 c!"\",\"range\":{\"start\":{\"line\":0,\"character\":0},\"end\":{\"line\":0,\"character\":0}}},\"message\":\"<unknown error message>\"}]"
      | _, _ => []) ++ post := by
  have h : ∃ pre, ∀ l, l.isSome = e.location.isSome → (∀ x ∈ l, ∀ y ∈ e.location, x.range = y.range) →
      (Err.mk e.message l).toJson = pre ++ (Err.mk e.message l).relatedInformation ++ utf8 c!"}" := by
    obtain ⟨m, _ | k⟩ := e
    · refine ⟨utf8 (c!"{\"range\":{\"start\":{\"line\":" ++ decNat 0 ++ c!",\"character\":" ++ decNat 0
        ++ c!"},\"end\":{\"line\":" ++ decNat 0 ++ c!",\"character\":" ++ decNat 0
        ++ c!"}},\"message\":\"") ++ Text.jsonEncode (utf8 m) ++ utf8 c!"\",\"severity\":1", fun l hl _ => ?_⟩
      cases l with
      | none => rfl
      | some _ => simp at hl
    · refine ⟨utf8 (c!"{\"range\":{\"start\":{\"line\":" ++ decNat k.range.first.line
        ++ c!",\"character\":" ++ decNat k.range.first.column
        ++ c!"},\"end\":{\"line\":" ++ decNat k.range.last.line
        ++ c!",\"character\":" ++ decNat k.range.last.column
        ++ c!"}},\"message\":\"") ++ Text.jsonEncode (utf8 m) ++ utf8 c!"\",\"severity\":1", fun l hl hr => ?_⟩
      cases l with
      | none => simp at hl
      | some x => simp only [Err.toJson, hr x rfl k rfl]
  obtain ⟨pre, h⟩ := h
  refine ⟨pre, utf8 c!"}", fun file => ?_⟩
  obtain ⟨m, l⟩ := e
  rw [placeErr, h]
  · congr 2
    cases l with
    | none => cases nameOf file <;> rfl
    | some k =>
      cases hn : nameOf file with
      | none => simp [Err.relatedInformation, inFile, hn]
      | some name =>
        simp only [Err.relatedInformation, Option.map_some, inFile, hn]
        simp only [List.append_assoc]
        exact congrArg (List.append _) (congrArg (List.append _) (by decide +kernel))
  · simp
  · cases l <;> simp [inFile]

/-- C104. The functions for files: the method of the analyser names the file in places; the free function, and those behind the Python
module and for JSON (C65), do not name it. -/
theorem C104_files (an : Antlr F) (a : Analyzer F) (text path api : Str) :
    analyzeFile fo an a (some text) path = analyzeString fo an a text (some path) ∧
    Api.analyzeFile fo an (some text) path api = Api.analyzeString fo an text none api :=
  ⟨rfl, rfl⟩

/-- The messages a default analyser prints for a text in a file of the given name. -/
def Sample.printed (text : Str) (file : Option Str) : List Str :=
  match Analyzer.default Sample.fo [3, 0] with
  | .ok a =>
    match Syn.analyzeString Sample.fo Sample.antlr a text file with
    | .ok (_, r) => r.errors.map Err.what
    | _ => []
  | _ => []

/-- An error of the analysis and one of the parser. -/
example : Sample.printed c!"version 3.0;qubit q;Y r" none = [c!"Error at <unknown file name>:1:23..24: failed to resolve variable 'r'"] ∧
    Sample.printed c!"version 3.0;qubit q;Y r" (some []) = Sample.printed c!"version 3.0;qubit q;Y r" none ∧
    Sample.printed c!"version 3.0;qubit q;Y r" (some c!"a.cq") = [c!"Error at a.cq:1:23..24: failed to resolve variable 'r'"] ∧
    (Sample.printed c!"version 3.0;qubit" (some c!"a.cq")).map (List.take 14) = [c!"Error at a.cq:"] := by
  decide +kernel

end Qasm
