import Verif.Spec.Input
import Verif.Lemmas.Input
import Verif.Props.Syntactic
import Verif.Spec.Sample
/-!
# Input given as bytes (C82)
-/

namespace Qasm

open Spec

variable {F : Type} {fo : FloatOps F}

theorem load_bom (rest : Bytes) : Input.load (bom ++ rest) = Input.decodeAll rest.length rest := rfl

theorem load_plain {data : Bytes} (h : ¬ ∃ rest, data = bom ++ rest) : Input.load data = Input.decodeAll data.length data := by
  unfold Input.load
  split
  · exact absurd ⟨_, rfl⟩ h
  · rfl

/-- C82. The text the parser sees is the one the bytes encode, without the byte order mark. It is unique, and there is none if
the bytes are not UTF-8. -/
theorem C82_load (data : Bytes) (text : Str) : Input.load data = some text ↔ IsTextOf data text := by
  by_cases h : ∃ rest, data = bom ++ rest
  · obtain ⟨rest, rfl⟩ := h
    rw [load_bom, Input.decodeAll_iff]
    constructor
    · rintro rfl; exact .inl rfl
    · rintro (h | ⟨-, h⟩)
      · exact List.append_cancel_left h
      · exact absurd ⟨rest, rfl⟩ h
  · rw [load_plain h, Input.decodeAll_iff]
    constructor
    · exact fun g => .inr ⟨g, h⟩
    · rintro (g | g)
      · exact absurd ⟨_, g⟩ h
      · exact g.1

/-- `qubit é` in UTF-8, with and without a byte order mark; and in Latin-1, which is not UTF-8. -/
example : IsTextOf [0x71, 0xC3, 0xA9] c!"qé" ∧ IsTextOf [0xEF, 0xBB, 0xBF, 0x71, 0xC3, 0xA9] c!"qé" ∧ ¬ ∃ text, IsTextOf [0x71, 0xE9] text := by
  refine ⟨(C82_load _ _).1 (by decide +kernel), (C82_load _ _).1 (by decide +kernel), ?_⟩
  rintro ⟨text, h⟩
  have := (C82_load _ _).2 h
  rw [show Input.load [0x71, 0xE9] = none by decide +kernel] at this
  cases this

/-- Overlong forms, surrogates, numbers above U+10FFFF, stray and missing continuation bytes are not UTF-8. -/
example : Input.load [0xC0, 0x80] = none ∧ Input.load [0xED, 0xA0, 0x80] = none ∧ Input.load [0xF4, 0x90, 0x80, 0x80] = none ∧
    Input.load [0x80] = none ∧ Input.load [0xE2, 0x82] = none ∧ Input.load [0xE2, 0x82, 0xAC] = some c!"€" := by
  decide +kernel

/-- C82, as far as it holds: bytes that are UTF-8 give an AST without errors, or one error without an AST; what they give is what
their text gives. -/
theorem C82_utf8_partial (an : Antlr F) {data : Bytes} {text : Str} (h : IsTextOf data text) (file : Option Str) :
    Input.parseString an data file = Syn.parseString an text file ∧
    ((∃ p, Input.parseString an data file = .ok ⟨some p, []⟩) ∨ ∃ e, Input.parseString an data file = .ok ⟨none, [e]⟩) := by
  have : Input.parseString an data file = Syn.parseString an text file := by
    rw [Input.parseString, (C82_load data text).2 h]
  rw [this]
  exact ⟨rfl, C48_outcome an text file⟩

/-- C82 is false: bytes that are not UTF-8 make an exception of the ANTLR runtime escape, and only they do. -/
theorem C82_refuted (an : Antlr F) (file : Option Str) :
    (∀ data, (¬ ∃ text, IsTextOf data text) ↔ ∃ c, Input.parseString an data file = .exn c) ∧
    Input.parseString an [0x71, 0xE9] file = .exn c!"antlr4::IllegalArgumentException" := by
  have key : ∀ data, (¬ ∃ text, IsTextOf data text) → Input.load data = none := by
    intro data h
    cases hl : Input.load data with
    | none => rfl
    | some t => exact absurd ⟨t, (C82_load data t).1 hl⟩ h
  refine ⟨fun data => ⟨fun h => ⟨_, by rw [Input.parseString, key data h]⟩, ?_⟩, ?_⟩
  · rintro ⟨c, hc⟩ ⟨text, h⟩
    rcases (C82_utf8_partial an h file).2 with ⟨p, hp⟩ | ⟨e, he⟩
    · rw [hp] at hc; cases hc
    · rw [he] at hc; cases hc
  · rw [Input.parseString, show Input.load [0x71, 0xE9] = none by decide +kernel]

/-- C82. A byte order mark makes no difference. -/
theorem C82_bom (an : Antlr F) {data : Bytes} (h : ¬ ∃ rest, data = bom ++ rest) (file : Option Str) :
    Input.parseString an (bom ++ data) file = Input.parseString an data file := by
  rw [Input.parseString, Input.parseString, load_bom, load_plain h]

example : ¬ ∃ rest, utf8 c!"version 3" = bom ++ rest := by
  rintro ⟨rest, h⟩
  have h1 : (utf8 c!"version 3").head? = some 0xEF := by rw [h]; rfl
  rw [show (utf8 c!"version 3").head? = some 0x76 by decide +kernel] at h1
  cases h1

/-- C82. What holds for texts holds for the bytes that encode them, for all entry points: a string, a file, the analysis of either.
Without a file, the error is the same. -/
theorem C82_entry_points (an : Antlr F) (a : Analyzer F) {data : Bytes} {text : Str} (h : IsTextOf data text) (path : Str)
    (file : Option Str) :
    Input.parseFile an (some data) path file = Syn.parseFile an (some text) path file ∧
    Input.parseFile an none path file = Syn.parseFile an none path file ∧
    Input.analyzeString fo an a data file = Syn.analyzeString fo an a text file ∧
    Input.analyzeFile fo an a (some data) path = Syn.analyzeFile fo an a (some text) path ∧
    Input.analyzeFile fo an a none path = Syn.analyzeFile fo an a none path := by
  have key := fun file => (C82_utf8_partial an h file).1
  refine ⟨key file, rfl, ?_, ?_, rfl⟩
  · rw [Input.analyzeString, key file]; rfl
  · rw [Input.analyzeFile, Input.parseFile, key (some path)]; rfl

/-- C82. Bytes that are not UTF-8 make the exception escape from the analysis, too. -/
theorem C82_analysis_refuted (an : Antlr F) (a : Analyzer F) {data : Bytes} (h : ¬ ∃ text, IsTextOf data text) (path : Str)
    (file : Option Str) :
    Input.analyzeString fo an a data file = .exn c!"antlr4::IllegalArgumentException" ∧
    Input.analyzeFile fo an a (some data) path = .exn c!"antlr4::IllegalArgumentException" := by
  have hl : Input.load data = none := by
    cases hl : Input.load data with
    | none => rfl
    | some t => exact absurd ⟨t, (C82_load data t).1 hl⟩ h
  constructor
  · rw [Input.analyzeString, Input.parseString, hl]; rfl
  · rw [Input.analyzeFile, Input.parseFile, Input.parseString, hl]; rfl

/-- A program in UTF-8 with a comment that is not ASCII: no errors. -/
example : (match Analyzer.default Sample.fo [3, 0] with
    | .ok a => match Input.analyzeString Sample.fo Sample.antlr a (utf8 c!"version 3; qubit q /* θ */; X q") none with
      | .ok (_, r) => r.errors.isEmpty
      | _ => false
    | _ => false) = true := by decide +kernel

end Qasm
