import Verif.Lemmas.Plain
/-!
# C100: which characters a program consists of
# C101: errors are lines of plain text
-/

namespace Qasm

open Spec Sem Syn

attribute [local irreducible] defaultInstrs defaultFns defaultVars

variable {F : Type} {fo : FloatOps F} {v : Version} {a a' : Analyzer F}

theorem PlainText.fixed {k : TokKind} {w : Str} (h : fixedText k = some w) : ∀ c ∈ w, PlainChar c := by
  have hd : ∀ w : Str, (w.all fun c => c.isAlpha || c ∈ ['0', '1', '2', '3', '4', '5', '6', '7', '8', '9'] ||
      c ∈ [' ', '\t', '\r', '\n', ';', ':', ',', '.', '=', '[', ']', '(', ')', '+', '-', '\'', '~', '!', '*', '/',
        '%', '<', '>', '&', '^', '|', '?']) = true → ∀ c ∈ w, PlainChar c := by
    intro w hw c hc
    have := List.all_eq_true.1 hw c hc
    simp only [Bool.or_eq_true, decide_eq_true_eq] at this
    rcases this with (h | h) | h
    · exact .inl (.inl h)
    · exact .inr (.inl h)
    · exact .inr (.inr h)
  cases k <;> first | (cases h; done) | (cases h; exact hd _ (by decide +kernel))

theorem PlainText.text {k : TokKind} {w : Str} (h : Text k w) : FreeText k ∨ ∀ c ∈ w, PlainChar c := by
  have dig : ∀ {w : Str}, (∀ c ∈ w, Digit c) → ∀ c ∈ w, PlainChar c := fun h c hc => .inr (.inl (h c hc))
  have app : ∀ {u w : Str}, (∀ c ∈ u, PlainChar c) → (∀ c ∈ w, PlainChar c) → ∀ c ∈ u ++ w, PlainChar c :=
    fun hu hw c hc => (List.mem_append.1 hc).elim (hu c) (hw c)
  have cons : ∀ {d : Char} {w : Str}, PlainChar d → (∀ c ∈ w, PlainChar c) → ∀ c ∈ d :: w, PlainChar c :=
    fun hd hw c hc => (List.mem_cons.1 hc).elim (fun e => e ▸ hd) (hw c)
  have blank : ∀ {w : Str}, (∀ c ∈ w, c = ' ' ∨ c = '\t') → ∀ c ∈ w, PlainChar c := fun h c hc => by
    rcases h c hc with rfl | rfl <;> exact .inr (.inr (by decide))
  have dot : PlainChar '.' := .inr (.inr (by decide))
  have plain : ∀ {w : Str}, (∀ c ∈ w, c.isAlpha = true) → ∀ c ∈ w, PlainChar c := fun h c hc => .inl (.inl (h c hc))
  cases k
  case whiteSpace => exact .inr (blank h.2)
  case versionWhiteSpace => exact .inr (blank h.2)
  case singleLineComment => exact .inl (.inl rfl)
  case multiLineComment => exact .inl (.inr (.inl rfl))
  case rawTextString => exact .inl (.inr (.inr rfl))
  case newLine =>
    refine .inr fun c hc => .inr (.inr ?_)
    rcases h with rfl | rfl <;> simp at hc
    · subst hc; decide
    · rcases hc with rfl | rfl <;> decide
  case booleanLiteral => rcases h with rfl | rfl <;> exact .inr (plain (by decide))
  case integerLiteral => exact .inr (dig h.2)
  case floatLiteral =>
    obtain ⟨a, b, e, rfl, h1, h2, -, h3⟩ := h
    refine .inr (app (app (dig h1) (cons dot (dig h2))) ?_)
    rcases h3 with rfl | ⟨e, sign, ds, rfl, he, hs, hd⟩
    · simp
    · refine app (cons ?_ ?_) (dig hd.2)
      · rcases he with rfl | rfl <;> exact .inl (.inl (by decide))
      · rcases hs with rfl | rfl | rfl
        · simp
        · exact cons (.inr (.inr (by decide))) (by simp)
        · exact cons (.inr (.inr (by decide))) (by simp)
  case identifier =>
    obtain ⟨c, u, rfl, h1, h2⟩ := h
    exact .inr (cons (.inl h1) fun d hd => (h2 d hd).elim .inl fun h => .inr (.inl h))
  case versionNumber =>
    rcases h with h | ⟨a, b, rfl, h1, h2⟩
    · exact .inr (dig h.2)
    · exact .inr (app (dig h1.2) (cons dot (dig h2.2)))
  all_goals exact .inr (PlainText.fixed h)

theorem PlainText.segments {m m' : Lexer.Mode} {s rest : Str} {segs : List (TokKind × Str)} (h : Cut m s segs m' rest) :
    ∀ x ∈ segs, Text x.1 x.2 := by
  induction h with
  | nil => simp
  | cons hw _ ih =>
    intro x hx
    rcases List.mem_cons.1 hx with rfl | hx
    · exact Lexer.winner_text hw
    · exact ih x hx

/-- C100. A character that no word, number, sign or blank of the language contains is, in a text that is a program, inside a
comment or inside the code of an assembly statement. -/
theorem C100_characters {an : Antlr F} {text : Str} {file : Option Str} {p : ProgramAst F} {es : List Err}
    (h : parseString an text file = .ok ⟨some p, es⟩) {c : Char} (hc : c ∈ text) (hn : ¬ PlainChar c) :
    ∃ before w after, text = before ++ w ++ after ∧ c ∈ w ∧
      (Text .singleLineComment w ∨ Text .multiLineComment w ∨ Text .rawTextString w) := by
  have h0 : es = [] := by
    rcases C48_outcome an text file with ⟨q, hq⟩ | ⟨e, he⟩
    · rw [hq] at h; cases h; rfl
    · rw [he] at h; cases h
  subst h0
  obtain ⟨ts, pr, h1, -⟩ := hasAst_iff.2 h
  obtain ⟨segs, m, hcut, hcov, -⟩ := (C39_tokens text ts).1 h1
  rw [← hcov, covered, List.mem_flatMap] at hc
  obtain ⟨x, hx, hcx⟩ := hc
  obtain ⟨l, r, rfl⟩ := List.append_of_mem hx
  have ht := PlainText.segments hcut x hx
  refine ⟨covered l, x.2, covered r, by rw [← hcov]; simp [covered], hcx, ?_⟩
  rcases PlainText.text ht with hf | hf
  · obtain ⟨k, w⟩ := x
    rcases hf with rfl | rfl | rfl
    · exact .inl ht
    · exact .inr (.inl ht)
    · exact .inr (.inr ht)
  · exact absurd (hf c hcx) hn

/-- C100. A text with such a character and with none of the signs that start a comment or assembly code is not a program. -/
theorem C100_rejected {an : Antlr F} {text : Str} {file : Option Str} {c : Char} (hc : c ∈ text) (hn : ¬ PlainChar c)
    (h1 : ¬ c!"//" <:+: text) (h2 : ¬ c!"/*" <:+: text) (h3 : ¬ c!"'''" <:+: text) :
    ∃ e, parseString an text file = .ok ⟨none, [e]⟩ := by
  rcases C48_outcome an text file with ⟨p, h⟩ | h
  · obtain ⟨before, w, after, rfl, -, ⟨u, rfl, -⟩ | ⟨u, rfl⟩ | ⟨u, rfl⟩⟩ := C100_characters h hc hn
    · exact absurd ⟨before, u ++ after, by simp⟩ h1
    · exact absurd ⟨before, u ++ c!"*/" ++ after, by simp⟩ h2
    · exact absurd ⟨before, u ++ c!"'''" ++ after, by simp⟩ h3
  · exact h

/-- A dollar sign, an `é` and a quotation mark: in comments and assembly code they are accepted, elsewhere they are not. -/
example : ¬ PlainChar '$' ∧ ¬ PlainChar 'é' ∧ ¬ PlainChar '"' ∧
    (∃ p, parseString Sample.antlr c!"version 3 // $\nqubit q /* é */; asm(x) ''' \" '''" none = .ok ⟨some p, []⟩) ∧
    ∃ e, parseString Sample.antlr c!"version 3; qubit $q" none = .ok ⟨none, [e]⟩ := by
  have hd : ¬ PlainChar '$' := by simp [PlainChar, Letter, Digit, Char.isAlpha, Char.isUpper, Char.isLower]
  refine ⟨hd, by simp [PlainChar, Letter, Digit, Char.isAlpha, Char.isUpper, Char.isLower],
    by simp [PlainChar, Letter, Digit, Char.isAlpha, Char.isUpper, Char.isLower], ⟨_, rfl⟩, ?_⟩
  exact C100_rejected (c := '$') (by decide) hd (by decide) (by decide) (by decide)

/-- C101. The message of every error that the analysis of a program reports is not empty and is plain text: visible ASCII
characters and blanks. -/
theorem C101_messages (ha : Analyzer.default fo v = .ok a) {an : Antlr F} {text : Str} {file : Option Str} {p : ProgramAst F}
    (h : parseString an text file = .ok ⟨some p, []⟩) {r : Result (SProgram F)}
    (hr : Syn.analyzeString fo an a text file = .ok (a', r)) : ∀ e ∈ r.errors, PlainAscii e.message ∧ e.message ≠ [] := by
  obtain ⟨root, es⟩ := r
  exact PlainText.program ((C72_text ha an text file p (hasAst_iff.2 h) es).1 ⟨a', root, hr⟩) (PlainText.writable (hasAst_iff.2 h))

/-- C101. What the throwing function prints for a program with errors is one line for each of them, in order, if the name of
the file has no line end (and no NUL) in it. -/
theorem C101_lines {an : Antlr F} {text : Str} {file : Option Str} {api : Str} (hv : Means30 api v)
    {p : ProgramAst F} (h : parseString an text file = .ok ⟨some p, []⟩) {e : Err} {es : List Err}
    (hf : ∀ f, file = some f → '\n' ∉ f ∧ Char.ofNat 0 ∉ f)
    (ha : Analyzer.default fo v = .ok a) {root : Option (SProgram F)} (hr : Syn.analyzeString fo an a text file = .ok (a', ⟨root, e :: es⟩)) :
    ∃ ls, Forall2 (fun (x : Err) l => '\n' ∉ l ∧
        ∃ place, x.location = some place ∧ l = c!"Error at " ++ place.print ++ c!": " ++ x.message) (e :: es) ls ∧
      Api.analyzeString fo an text file api = ((c!"\n").intercalate ls, .exn c!"AnalysisFailed") := by
  have hast := hasAst_iff.2 h
  have hpe := (C72_text ha an text file p hast _).1 ⟨a', root, hr⟩
  have hplain := PlainText.program hpe (PlainText.writable hast)
  have hline : ∀ x ∈ e :: es, '\n' ∉ x.what ∧
      ∃ place, x.location = some place ∧ x.what = c!"Error at " ++ place.print ++ c!": " ++ x.message := by
    intro x hx
    obtain ⟨hm, hne⟩ := hplain x hx
    obtain ⟨hs, hp⟩ := C48_shaped an text file p h
    obtain ⟨a'', root', hr'⟩ := (C72_errors ha hs hp _).2 hpe
    obtain ⟨w, -, _, _, loc, -, hl, hfile, -⟩ := C85_errors ha h hr' x hx
    obtain ⟨u, hu, hpr⟩ := PlainText.print loc
    have noNl : ∀ {w : Str}, PlainAscii w → '\n' ∉ w := fun hw hm => absurd (hw _ hm).1 (by decide)
    have noNul : ∀ {w : Str}, PlainAscii w → Char.ofNat 0 ∉ w := fun hw hm => absurd (hw _ hm).1 (by decide)
    have hname : '\n' ∉ loc.fileName.getD c!"<unknown file name>" ∧ Char.ofNat 0 ∉ loc.fileName.getD c!"<unknown file name>" := by
      rw [hfile]
      split
      · decide
      · cases file with
        | none => decide
        | some f => exact hf f rfl
    have hp1 : '\n' ∉ loc.print := by rw [hpr, List.mem_append]; exact fun h => h.elim hname.1 (noNl hu)
    have hp0 : Char.ofNat 0 ∉ loc.print := by rw [hpr, List.mem_append]; exact fun h => h.elim hname.2 (noNul hu)
    obtain ⟨msg, l⟩ := x
    simp only at hl hm hne
    subst hl
    rw [C54_what_located msg loc hne (noNul hm) hp0]
    refine ⟨?_, loc, rfl, rfl⟩
    simp only [List.mem_append, not_or]
    exact ⟨⟨⟨by decide, hp1⟩, by decide⟩, noNl hm⟩
  refine ⟨(e :: es).map Err.what, ?_, ?_⟩
  · have : ∀ xs : List Err, (∀ x ∈ xs, x ∈ e :: es) → Forall2 (fun (x : Err) l => '\n' ∉ l ∧
        ∃ place, x.location = some place ∧ l = c!"Error at " ++ place.print ++ c!": " ++ x.message) xs (xs.map Err.what) := by
      intro xs
      induction xs with
      | nil => exact fun _ => .nil
      | cons x xs ih => exact fun hx => .cons (hline x (hx x (by simp))) (ih fun y hy => hx y (by simp [hy]))
    exact this _ fun x hx => hx
  · rw [C72_stderr an text file api hv p hast e es hpe]
    congr 1
    have : ∀ (xs : List Err) (w : Str), w ++ xs.flatMap (fun e => '\n' :: e.what) = (c!"\n").intercalate (w :: xs.map Err.what) := by
      intro xs
      induction xs with
      | nil => simp [List.intercalate]
      | cons x xs ih =>
        intro w
        rw [List.flatMap_cons, List.cons_append, ih x.what]
        simp [List.intercalate]
    exact this es e.what

/-- Two errors, two lines. The name of the file is printed as it is: a line end in it is a line end of the output. -/
example : (Api.analyzeString Sample.fo Sample.antlr c!"version 3; qubit q; H x; S y" none c!"3.0").1 =
    c!"Error at <unknown file name>:1:23..24: failed to resolve variable 'x'\nError at <unknown file name>:1:28..29: failed to resolve variable 'y'" ∧
  (Api.analyzeString Sample.fo Sample.antlr c!"version 3; H x" (some c!"a\nb") c!"3.0").1 =
    c!"Error at a\nb:1:14..15: failed to resolve variable 'x'" := by
  constructor <;> decide +kernel

end Qasm
