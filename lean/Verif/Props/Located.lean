import Verif.Lemmas.Located
import Verif.Props.Written
import Verif.Props.ErrorLocation
/-!
# C85: positions are positions in the text
-/

namespace Qasm

open Spec Sem Syn

variable {F : Type}

attribute [local irreducible] defaultInstrs defaultFns defaultVars

/-- C85. Every node of the tree of a text is located at the word of the text that makes it one, and has the content of that
word. -/
theorem C85_tree {an : Antlr F} {text : Str} {file : Option Str} {p : ProgramAst F}
    (h : parseString an text file = .ok ⟨some p, []⟩) : LocatedProgram an.stod text file p := by
  obtain ⟨ts, pr, h1, h2, h3⟩ := hasAst_iff.2 h
  exact locatedProgram_of (program_derives h2) (placed h1) (apart h1) h3

/-- The type of this declaration spans two lines. -/
example : ∃ p l k, parseString Sample.antlr c!"version 3\nqubit [/*\n*/3 ] q" none = .ok ⟨some p, []⟩ ∧
    p.block.statements = [.var (some l) [] ⟨c!"q", none⟩ ⟨c!"qubit", some 3, some k⟩] ∧
    l.range = ⟨⟨3, 7⟩, ⟨3, 8⟩⟩ ∧ k.range = ⟨⟨2, 1⟩, ⟨3, 6⟩⟩ := ⟨_, _, _, rfl, rfl, rfl, rfl⟩

theorem analysis_bad {fo : FloatOps F} {D : List VarLink} {u : Nat} {ss : List (Stmt F)} {vs : List (SVariable F)}
    {ts : List (SStatement F)} {bad : List (Stmt F)} (h : Analysis fo D u ss vs ts bad) :
    ∀ l name code, .asm l [] name code ∉ bad := by
  induction h with
  | nil => simp
  | decl _ _ _ _ ih => exact ih
  | instr _ _ ih => exact ih
  | badType _ _ ih => simpa using ih
  | redeclared _ _ _ _ ih => simpa using ih
  | badInstr _ hn _ _ ih =>
    intro l name code hm
    rcases List.mem_cons.1 hm with rfl | hm
    · exact hn ⟨_, .asm .nil⟩
    · exact ih l name code hm

theorem forall2_mem_right {A B : Type} {R : A → B → Prop} {xs : List A} {ys : List B} (h : Forall2 R xs ys) :
    ∀ y ∈ ys, ∃ x ∈ xs, R x y := by
  induction h with
  | nil => simp
  | cons h _ ih =>
    intro y hy
    rcases List.mem_cons.1 hy with rfl | hy
    · exact ⟨_, List.mem_cons_self .., h⟩
    · obtain ⟨x, hx, hr⟩ := ih y hy
      exact ⟨x, List.mem_cons_of_mem _ hx, hr⟩

/-- C85. Every error of the analysis of a text is located at a word of the text. -/
theorem C85_errors {fo : FloatOps F} {v : Version} {a a' : Analyzer F} (ha : Analyzer.default fo v = .ok a) {an : Antlr F}
    {text : Str} {file : Option Str} {p : ProgramAst F} (h : parseString an text file = .ok ⟨some p, []⟩)
    {r : Result (SProgram F)} (hr : analyze fo a p = .ok (a', r)) :
    ∀ err ∈ r.errors, ∃ w, WordAt text file w err.location := by
  have hloc := C85_tree h
  obtain ⟨hs, hp⟩ := C48_shaped an text file p h
  obtain ⟨root, verrs, errs, bad, _, h2, h3, h4, h5⟩ := C02_one_error_per_statement fo v a ha p hs hp a' r hr
  intro err herr
  rw [h2, List.mem_append] at herr
  rcases herr with herr | herr
  · rcases h3 with ⟨rfl, _⟩ | ⟨e, rfl, h6, _⟩
    · cases herr
    · cases List.mem_singleton.mp herr
      obtain ⟨⟨w, hw, -⟩, -⟩ := hloc
      exact ⟨w, h6 ▸ hw⟩
  · obtain ⟨s, hs', h6, h7⟩ := forall2_mem_right h5 err herr
    have hsub := (C02_counts fo _ _ _ _ _ _ h4).1.subset hs'
    have hl := hloc.2.2.2 s hsub
    rcases locatedStmt_locs hl _ h6 with hn | hw
    · rcases locatedStmt_loc hl with h8 | ⟨l, as, name, code, rfl⟩
      · have := h7 h8; rw [hn] at this; cases this
      · cases hl; exact absurd hs' (analysis_bad h4 _ _ _)
    · exact hw

theorem version_newline {w : Str} (h : Text .versionNumber w) : '\n' ∉ w := by
  have dig : ∀ {v : Str}, Digits v → '\n' ∉ v := fun hv hm => by
    have := hv.2 _ hm
    simp [Digit] at this
  rcases h with h | ⟨a, b, rfl, h1, h2⟩
  · exact dig h
  · simp [dig h1, dig h2]

/-- The errors of the analysis of a text, of each the first and the last line and column. -/
def Sample.places (text : Str) : Option (List (List Nat)) :=
  match Analyzer.default Sample.fo [3, 0], parseString Sample.antlr text (some c!"f") with
  | .ok a, .ok ⟨some p, []⟩ =>
    match analyze Sample.fo a p with
    | .ok r => some (r.2.errors.map fun e => match e.location with
      | some l => [l.range.first.line, l.range.first.column, l.range.last.line, l.range.last.column]
      | none => [])
    | _ => none
  | _, _ => none

/-- The variable on the third line and the gate on the fourth are unknown. -/
example : Sample.places c!"version 3.0\nqubit q\n  H xy // unknown\nHH q" = some [[3, 5, 3, 7], [4, 1, 4, 3]] := by
  decide +kernel

/-- An error for the version number. -/
example : Sample.places c!"version 3.1; qubit q" = some [[1, 9, 1, 12]] := by
  decide +kernel

/-- C85. An error for a literal that has no representable value points to the first character of the literal, or of the
component of the version number. -/
theorem C85_literal {an : Antlr F} {text : Str} {file : Option Str} {e : Err}
    (h : parseString an text file = .ok ⟨none, [e]⟩) (hg : ∃ ts pr, Lexer.lex text = .ok ts ∧ Program DerivesStmt ts pr) :
    ∃ before w after typ loc, text = before ++ w ++ after ∧ w ≠ [] ∧ (maxInt < numeral w ∨ an.stod w = none) ∧
      e = ⟨c!"value '" ++ w ++ c!"' is out of the " ++ typ ++ c!" range", some loc⟩ ∧
      loc.fileName = (if file = some [] then none else file) ∧
      loc.range.first = ⟨lineAfter before, columnAfter before + 1⟩ ∧ loc.range.last = loc.range.first := by
  rcases C48_error an text file e h with ⟨hn, -⟩ | ⟨ts, pr, hl, -, t, ht, off, w, typ, loc, hf, hm, hloc, hfile, h1, h2, h3⟩
  · exact absurd hg hn
  obtain ⟨hlex, hst⟩ := placed hl t ht
  have he : e = ⟨c!"value '" ++ w ++ c!"' is out of the " ++ typ ++ c!" range", some loc⟩ := by
    obtain ⟨m, l⟩ := e
    simp only at hm hloc
    rw [hm, hloc]
  have hk : t.kind ≠ .eof := by
    intro hk
    cases hf <;> simp_all
  rcases hst with hst | ⟨before, after, g1, g2, g3⟩
  · exact absurd hst hk
  have big : ∀ {w : Str}, maxInt < numeral w → w ≠ [] := by rintro _ h rfl; simp [numeral, maxInt] at h
  have first : ∀ x : Str, '\n' ∉ x → x.length = off → loc.range.first = ⟨lineAfter (before ++ x), columnAfter (before ++ x) + 1⟩ := by
    intro x hx hlen
    rw [lineAfter_append hx, columnAfter_append hx, ← g2, ← g3, hlen, ← h1, ← h2]
  cases hf with
  | int hk hb =>
    exact ⟨before, _, after, _, loc, g1, big hb, .inl hb, he, hfile, by simpa using first [] (by simp) rfl, h3⟩
  | float hk hb =>
    exact ⟨before, _, after, _, loc, g1, Lexer.text_ne_nil (lexed_text hlex hk (by decide)), .inr hb, he, hfile,
      by simpa using first [] (by simp) rfl, h3⟩
  | @major w ws hk hc hb =>
    have hpre : ∃ rest, t.text = w ++ rest := by
      have : w = t.text.takeWhile (· ≠ '.') := by
        simp only [components] at hc
        split at hc <;> · simp only [List.cons.injEq] at hc; exact hc.1.symm
      exact ⟨_, by rw [this]; exact (List.takeWhile_append_dropWhile ..).symm⟩
    obtain ⟨rest, hrest⟩ := hpre
    exact ⟨before, w, rest ++ after, _, loc, by rw [g1, hrest]; simp, big hb, .inl hb, he, hfile,
      by simpa using first [] (by simp) rfl, h3⟩
  | @minor v w hk hc hb =>
    have hnl := version_newline (lexed_text hlex hk (by decide))
    have hpre : ∃ x, t.text = x ++ w ∧ x.length = v.length + 1 := by
      simp only [components] at hc
      split at hc
      · next hlt =>
        simp only [List.cons.injEq, and_true] at hc
        rw [hc.1] at hlt
        rw [← hc.2, hc.1]
        exact ⟨_, (List.take_append_drop ..).symm, by rw [List.length_take]; omega⟩
      · simp at hc
    obtain ⟨x, hx, hlen⟩ := hpre
    refine ⟨before ++ x, w, after, _, loc, by rw [g1, hx]; simp, big hb, .inl hb, he, hfile, first x ?_ hlen, h3⟩
    rw [hx] at hnl
    exact fun hm => hnl (List.mem_append_left _ hm)

/-- The minor component of this version number is too large: the error points behind the dot. -/
example : ∃ e loc, parseString Sample.antlr c!"\nversion 3.9223372036854775808" none = .ok ⟨none, [e]⟩ ∧ e.location = some loc ∧
    loc.range.first = ⟨2, 11⟩ := ⟨_, _, rfl, rfl, rfl⟩

/-- C85. Positions do not exceed the size of the text. -/
theorem C85_fits {text : Str} {file : Option Str} {w : Str} {l : Loc} (h : WordAt text file w (some l)) :
    l.range.first.line ≤ text.length + 1 ∧ l.range.first.column ≤ text.length ∧
      l.range.last.line ≤ text.length + 1 ∧ l.range.last.column ≤ text.length + 1 := by
  obtain ⟨hw, before, after, loc, rfl, h1, -, h2, h3⟩ := h
  cases h1
  rw [h2, h3]
  have hc : columnAfter before ≤ before.length := by
    have : (before.reverse.takeWhile (· ≠ '\n')).length ≤ before.reverse.length := (List.takeWhile_prefix _).length_le
    simpa [columnAfter, lastLine] using this
  have hl : before.count '\n' ≤ before.length := List.count_le_length ..
  have := List.length_pos_iff.2 hw
  simp only [lineAfter, List.length_append]
  omega

end Qasm
