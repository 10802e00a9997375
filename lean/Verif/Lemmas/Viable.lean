import Verif.Spec.Viable
import Verif.Lemmas.DiagnoseProgram
import Verif.Lemmas.SyntacticShape
/-!
# Helper lemmas: the token at which a text stops being the start of a program
-/

namespace Qasm

open Spec TokKind

namespace Parser

/-! ## The token types of statements -/

/-- The types of the tokens that no statement has. -/
def alien : List TokKind :=
  [eof, newLine, semicolon, version, versionNumber, tripleQuote, whiteSpace, versionWhiteSpace, singleLineComment, multiLineComment]

/-- The types of the tokens of a statement. -/
def tame (k : TokKind) : Bool := !(alien.contains k)

/-- All tokens may belong to a statement. -/
def Tame (us : List Token) : Prop := ∀ t ∈ us, tame t.kind = true

theorem tame_of {k j : TokKind} (h : k = j) (hj : tame j = true) : tame k = true := h ▸ hj

theorem tame_mem {k : TokKind} {l : List TokKind} (h : k ∈ l) (hl : ∀ j ∈ l, tame j = true) : tame k = true := hl k h

theorem tame_cons {t : Token} {us : List Token} (ht : tame t.kind = true) (hu : Tame us) : Tame (t :: us) := by
  intro u h
  rcases List.mem_cons.1 h with rfl | h
  · exact ht
  · exact hu u h

theorem tame_one {t : Token} (ht : tame t.kind = true) : Tame [t] := tame_cons ht (by simp [Tame])

theorem tame_append {us vs : List Token} (hu : Tame us) (hv : Tame vs) : Tame (us ++ vs) := by
  intro u h
  rcases List.mem_append.1 h with h | h
  · exact hu u h
  · exact hv u h

theorem derives_tame {us : List Token} {x : Phrase} (h : Derives us x) : Tame us := by
  induction h with
  | parens ho _ hc ih => exact tame_cons (tame_of ho rfl) (tame_append ih (tame_one (tame_of hc rfl)))
  | pre ho _ ih => exact tame_cons (tame_mem ho (by decide)) ih
  | bin _ ho _ ih ih' => exact tame_append ih (tame_cons (tame_mem ho (by decide)) ih')
  | tern _ ho _ hc _ ih ih' ih'' =>
    exact tame_append (tame_append ih (tame_cons (tame_of ho rfl) ih')) (tame_cons (tame_of hc rfl) ih'')
  | call0 hn ho hc => exact tame_cons (tame_of hn rfl) (tame_cons (tame_of ho rfl) (tame_one (tame_of hc rfl)))
  | call hn ho _ hc ih =>
    exact tame_cons (tame_of hn rfl) (tame_cons (tame_of ho rfl) (tame_append ih (tame_one (tame_of hc rfl))))
  | index hn ho _ hc ih =>
    exact tame_cons (tame_of hn rfl) (tame_cons (tame_of ho rfl) (tame_append ih (tame_one (tame_of hc rfl))))
  | atom h => exact tame_one (tame_mem h (by decide))
  | expr1 _ ih => exact ih
  | item _ ih => exact ih
  | entry1 _ ih => exact ih
  | exprN _ hc _ ih ih' => exact tame_append ih (tame_cons (tame_of hc rfl) ih')
  | range _ hc _ ih ih' => exact tame_append ih (tame_cons (tame_of hc rfl) ih')
  | entryN _ hc _ ih ih' => exact tame_append ih (tame_cons (tame_of hc rfl) ih')

theorem gate_tame {us : List Token} {g : PGate} (h : DerivesGate us g) : Tame us := by
  induction h with
  | inv hk hd _ ih => exact tame_cons (tame_of hk rfl) (tame_cons (tame_of hd rfl) ih)
  | ctrl hk hd _ ih => exact tame_cons (tame_of hk rfl) (tame_cons (tame_of hd rfl) ih)
  | pow hk ho he hc hd _ ih =>
    exact tame_cons (tame_of hk rfl) (tame_cons (tame_of ho rfl)
      (tame_append (derives_tame he) (tame_cons (tame_of hc rfl) (tame_cons (tame_of hd rfl) ih))))
  | named hn => exact tame_one (tame_of hn rfl)
  | parameters hn ho he hc =>
    exact tame_cons (tame_of hn rfl) (tame_cons (tame_of ho rfl) (tame_append (derives_tame he) (tame_one (tame_of hc rfl))))

theorem stmt_tame {us : List Token} {s : PStmt} (h : DerivesStmt us s) : Tame us := by
  cases h with
  | var hk hn => exact tame_cons (tame_mem hk (by decide)) (tame_one (tame_of hn rfl))
  | array hk ho hn hc hi =>
    exact tame_cons (tame_mem hk (by decide)) (tame_cons (tame_of ho rfl) (tame_cons (tame_of hn rfl)
      (tame_cons (tame_of hc rfl) (tame_one (tame_of hi rfl)))))
  | gate hg he => exact tame_append (gate_tame hg) (derives_tame he)
  | measure hb he hk hq =>
    exact tame_append (derives_tame hb) (tame_cons (tame_of he rfl) (tame_cons (tame_of hk rfl) (derives_tame hq)))
  | measureParameters hb he hk ho hp hc hq =>
    exact tame_append (tame_append (derives_tame hb) (tame_cons (tame_of he rfl) (tame_cons (tame_of hk rfl)
      (tame_cons (tame_of ho rfl) (derives_tame hp))))) (tame_cons (tame_of hc rfl) (derives_tame hq))
  | simple hk he => exact tame_cons (tame_mem hk (by decide)) (derives_tame he)
  | wait hk ho hp hc he =>
    exact tame_append (us := _ :: _ :: _) (tame_cons (tame_of hk rfl) (tame_cons (tame_of ho rfl) (derives_tame hp)))
      (tame_cons (tame_of hc rfl) (derives_tame he))
  | asm hk ho hn hc hr =>
    exact tame_cons (tame_of hk rfl) (tame_cons (tame_of ho rfl) (tame_cons (tame_of hn rfl)
      (tame_cons (tame_of hc rfl) (tame_one (tame_of hr rfl)))))

/-! ## The token types of programs -/

/-- The types after the first argument (is the type before them `version`?): a version number stands after `version` and nowhere
else, the end of the file at the end and nowhere else, and blanks, comments and an open raw string nowhere. -/
def Shape : Bool → List TokKind → Prop
  | _, [] => False
  | b, k :: ks => (b = true ↔ k = versionNumber) ∧ k ∉ [tripleQuote, whiteSpace, versionWhiteSpace, singleLineComment, multiLineComment] ∧
      (if k = eof then ks = [] else Shape (k = version) ks)

theorem shape_cons {k : TokKind} {ks : List TokKind} (hk : tame k = true ∨ k ∈ separatorKinds) (h : Shape false ks) :
    Shape false (k :: ks) := by
  have h1 : k ≠ versionNumber ∧ k ≠ eof ∧ k ≠ version ∧
      k ∉ [tripleQuote, whiteSpace, versionWhiteSpace, singleLineComment, multiLineComment] := by
    revert hk; cases k <;> simp [tame, alien, separatorKinds]
  obtain ⟨h1, h2, h3, h4⟩ := h1
  refine ⟨by simp [h1], h4, ?_⟩
  simpa [h2, h3] using h

theorem shape_append {us : List Token} {ks : List TokKind} (hu : ∀ t ∈ us, tame t.kind = true ∨ t.kind ∈ separatorKinds)
    (h : Shape false ks) : Shape false (us.map (·.kind) ++ ks) := by
  induction us with
  | nil => exact h
  | cons t us ih =>
    exact shape_cons (hu t (by simp)) (ih fun u hu' => hu u (List.mem_cons_of_mem _ hu'))

theorem block_shape {us : List Token} {ss : List PStmt} (h : Block DerivesStmt us ss) : Shape false (us.map (·.kind)) := by
  induction h with
  | nil hs he =>
    rw [List.map_append]
    refine shape_append (fun t ht => .inr (hs t ht)) ?_
    simp [Shape, he]
  | cons hs _ hr _ ih =>
    rw [List.map_append, List.map_append, List.append_assoc]
    exact shape_append (fun t ht => .inr (hs t ht)) (shape_append (fun t ht => .inl (stmt_tame hr t ht)) ih)

theorem program_shape {us : List Token} {p : PProgram} (h : Program DerivesStmt us p) : Shape false (us.map (·.kind)) := by
  cases h with
  | mk hs hv hn hb =>
    rw [List.map_append]
    refine shape_append (fun t ht => .inr (hs t ht)) ?_
    simp only [List.map_cons, Shape, hv, hn, reduceCtorEq, if_false, iff_self, true_and, decide_true, decide_false]
    simpa using block_shape hb

/-- The end of the file is the end. -/
theorem shape_eof {b : Bool} {ks js : List TokKind} (h : Shape b (ks ++ eof :: js)) : js = [] := by
  induction ks generalizing b with
  | nil => simpa using h.2.2
  | cons k ks ih =>
    have h3 := h.2.2
    by_cases hk : k = eof
    · simp [hk] at h3
    · simp only [hk, if_false] at h3
      exact ih h3

theorem shape_blank {b : Bool} {ks js : List TokKind} : ¬ Shape b (ks ++ whiteSpace :: js) := by
  induction ks generalizing b with
  | nil => intro h; have := h.2.1; simp at this
  | cons k ks ih =>
    intro h
    have h3 := h.2.2
    by_cases hk : k = eof
    · simp [hk] at h3
    · simp only [hk, if_false] at h3
      exact ih h3

theorem shape_last {b : Bool} {ks : List TokKind} (h : Shape b ks) : ∃ js, ks = js ++ [eof] ∧ eof ∉ js := by
  induction ks generalizing b with
  | nil => exact absurd h (by simp [Shape])
  | cons k ks ih =>
    have h3 := h.2.2
    by_cases hk : k = eof
    · simp only [hk, if_true] at h3
      exact ⟨[], by simp [hk, h3], by simp⟩
    · simp only [hk, if_false] at h3
      obtain ⟨js, rfl, hj⟩ := ih h3
      exact ⟨k :: js, rfl, by simp [hj, Ne.symm hk]⟩

theorem starts_prefix {us vs : List Token} (h : Starts (us ++ vs)) : Starts us := by
  obtain ⟨ws, pr, h⟩ := h
  exact ⟨vs ++ ws, pr, by rwa [← List.append_assoc]⟩

theorem firstBad_unique {ts : List Token} {t t' : Token} (h : FirstBad ts t) (h' : FirstBad ts t') : t = t' := by
  obtain ⟨p, q, e, h1, h2⟩ := h
  obtain ⟨p', q', e', h1', h2'⟩ := h'
  rcases List.append_eq_append_iff.1 (e.symm.trans e') with ⟨l, rfl, hl⟩ | ⟨l, rfl, hl⟩
  · cases l with
    | nil => exact (List.cons.inj hl).1
    | cons a l =>
      obtain ⟨rfl, -⟩ := List.cons.inj hl
      exact absurd (starts_prefix (vs := l) (by simpa using h1')) h2
  · cases l with
    | nil => exact (List.cons.inj hl).1.symm
    | cons a l =>
      obtain ⟨rfl, -⟩ := List.cons.inj hl
      exact absurd (starts_prefix (vs := l) (by simpa using h1)) h2'

theorem parse_none {ts : List Token} (h : ∀ pr, ¬ Program DerivesStmt ts pr) : parse ts = none := by
  cases hp : parse ts with
  | none => rfl
  | some pr => exact absurd (C45_derivation ts pr hp) (h pr)

/-- What the parser stops at is the first token that cannot continue. -/
theorem stop_first {ts : List Token} (h : parse ts = none) :
    (Starts ts ∧ stop ts = []) ∨ ∃ pre t post, ts = pre ++ t :: post ∧ stop ts = t :: post ∧
      (∃ s pr, Fill s ∧ Program DerivesStmt (pre ++ s) pr) ∧ ¬ Starts (pre ++ [t]) := by
  obtain ⟨pre, h1, ⟨s, pr, hf, h2⟩, h3⟩ := stop_spec h
  cases hs : stop ts with
  | nil =>
    left
    rw [hs, List.append_nil] at h1
    exact ⟨⟨s, pr, h1 ▸ h2⟩, rfl⟩
  | cons t r =>
    right
    rw [hs] at h1
    refine ⟨pre, t, r, h1, rfl, ⟨s, pr, hf, h2⟩, ?_⟩
    rintro ⟨vs, pr', h⟩
    exact h3 t r hs vs pr' (by simpa using h)

/-- Tokens that end with the end of the file and do not form a program do not start one. -/
theorem not_starts_eof {us : List Token} {e : Token} (he : e.kind = eof) (h : ∀ pr, ¬ Program DerivesStmt (us ++ [e]) pr) :
    ¬ Starts (us ++ [e]) := by
  rintro ⟨vs, pr, hp⟩
  have hs := program_shape hp
  simp only [List.map_append, List.map_cons, List.map_nil, he, List.append_assoc, List.cons_append, List.nil_append] at hs
  obtain rfl : vs = [] := by simpa using shape_eof hs
  exact h pr (by simpa using hp)

theorem not_starts_blank {us : List Token} {e : Token} (he : e.kind = whiteSpace) : ¬ Starts (us ++ [e]) := by
  rintro ⟨vs, pr, hp⟩
  have hs := program_shape hp
  simp only [List.map_append, List.map_cons, List.map_nil, he, List.append_assoc, List.cons_append, List.nil_append] at hs
  exact shape_blank hs

end Parser

/-! ## The tokens up to a recognition error -/

namespace Lexer

theorem scan_cut {m m' : Mode} {s rest : Str} {segs : List (TokKind × Str)} (h : Cut m s segs m' rest)
    {before : Str} {fuel : Nat} (hf : s.length ≤ fuel) :
    ∃ fuel', rest.length ≤ fuel' ∧
      scan fuel m (lineAfter before) (columnAfter before) s =
        (tokensOf before segs ++
          (scan fuel' m' (lineAfter (before ++ covered segs)) (columnAfter (before ++ covered segs)) rest).1,
         (scan fuel' m' (lineAfter (before ++ covered segs)) (columnAfter (before ++ covered segs)) rest).2) := by
  induction h generalizing before fuel with
  | nil m s =>
    refine ⟨fuel, hf, ?_⟩
    simp [covered, tokensOf]
  | @cons m m' k w s rest segs hw hc ih =>
    have hne := winner_ne_nil hw
    obtain ⟨r, hb, hr, hk, ht⟩ := winner_best hw
    cases hws : w ++ s with
    | nil => exact absurd (List.append_eq_nil_iff.1 hws).1 hne
    | cons c x =>
      rw [hws] at hf hb ht
      cases fuel with
      | zero => simp at hf
      | succ fuel =>
        have hd : (c :: x).drop w.length = s := by rw [← hws]; simp
        have hlen : s.length ≤ fuel := by
          have : (w ++ s).length ≤ fuel + 1 := by rw [hws]; exact hf
          rw [List.length_append] at this
          have := List.length_pos_iff.2 hne
          omega
        obtain ⟨fuel', hf', he⟩ := ih (before := before ++ w) (fuel := fuel) hlen
        refine ⟨fuel', hf', ?_⟩
        rw [scan, hb]
        dsimp only
        rw [ht, hd, advance_eq, rule_mode m r hr, hk, he]
        have ec : before ++ covered ((k, w) :: segs) = before ++ w ++ covered segs := by
          simp [covered]
        rw [ec]
        have := rule_skip m r hr
        rw [hk] at this
        simp only [tokensOf, this]
        split <;> rfl

theorem scan_nil (fuel : Nat) (m : Mode) (line column : Nat) :
    scan fuel m line column [] = ([⟨.eof, c!"<EOF>", line, column⟩], none) := by
  cases fuel <;> rfl

theorem scan_stuck {fuel : Nat} {m : Mode} {line column : Nat} {s : Str} (hne : s ≠ []) (h : Stuck m s) :
    scan fuel m line column s = ([], some (line, column)) := by
  cases s with
  | nil => exact absurd rfl hne
  | cons c s =>
    cases fuel with
    | zero => rfl
    | succ fuel => rw [scan, best_stuck.2 h]

theorem scan_of_cut {m' : Mode} {s : Str} {segs : List (TokKind × Str)} (h : Cut .default s segs m' []) :
    scanText s = (tokensOf [] segs ++ [eofAfter s], none) := by
  obtain ⟨fuel', _, he⟩ := scan_cut h (before := []) (Nat.le_refl s.length)
  have hs : covered segs = s := by simpa using (cut_covered h).symm
  rw [scan_nil] at he
  simpa [scanText, lineAfter, columnAfter, lastLine, eofAfter, hs] using he

theorem scan_of_stuck {m' : Mode} {s rest : Str} {segs : List (TokKind × Str)} (h : Cut .default s segs m' rest)
    (hne : rest ≠ []) (hs : Stuck m' rest) :
    scanText s = (tokensOf [] segs, some (lineAfter (covered segs), columnAfter (covered segs))) := by
  obtain ⟨fuel', _, he⟩ := scan_cut h (before := []) (Nat.le_refl s.length)
  rw [scan_stuck hne hs] at he
  simpa [scanText, lineAfter, columnAfter, lastLine] using he

end Lexer

/-! ## The offending token -/

/-- A text that is cut into tokens: the first one that cannot continue. -/
theorem offending_token {ahead : Bool} {m' : Lexer.Mode} {s : Str} {segs : List (TokKind × Str)} (h : Cut .default s segs m' [])
    (hp : ∀ pr, ¬ Program DerivesStmt (tokensOf [] segs ++ [Lexer.eofAfter s]) pr) :
    ∃ pre t post, tokensOf [] segs ++ [Lexer.eofAfter s] = pre ++ t :: post ∧ offending ahead s = .ok t ∧
      (∃ f pr, Parser.Fill f ∧ Program DerivesStmt (pre ++ f) pr) ∧ ¬ Starts (pre ++ [t]) := by
  have hn := Parser.not_starts_eof (e := Lexer.eofAfter s) rfl hp
  rcases Parser.stop_first (Parser.parse_none hp) with ⟨h1, -⟩ | ⟨pre, t, post, h1, h2, h3, h4⟩
  · exact absurd h1 hn
  · refine ⟨pre, t, post, h1, ?_, h3, h4⟩
    simp only [offending, Lexer.scan_of_cut h, h2]

/-- A text that is not: the recognition error, unless a token before it cannot continue. -/
theorem offending_recognition {ahead : Bool} {m' : Lexer.Mode} {s rest : Str} {segs : List (TokKind × Str)}
    (h : Cut .default s segs m' rest) (hne : rest ≠ []) (hs : Stuck m' rest) :
    (offending ahead s = .error (lineAfter (covered segs), columnAfter (covered segs)) ∧
        (∃ f pr, Parser.Fill f ∧ Program DerivesStmt (tokensOf [] segs ++ f) pr)) ∨
      ∃ pre t post, tokensOf [] segs = pre ++ t :: post ∧
        offending ahead s = (if ahead then .error (lineAfter (covered segs), columnAfter (covered segs)) else .ok t) ∧
        (∃ f pr, Parser.Fill f ∧ Program DerivesStmt (pre ++ f) pr) ∧ ¬ Starts (pre ++ [t]) := by
  have hn := Parser.not_starts_blank (us := tokensOf [] segs)
    (e := ⟨.whiteSpace, [], lineAfter (covered segs), columnAfter (covered segs)⟩) rfl
  rcases Parser.stop_first (Parser.parse_none fun pr hp => hn ⟨[], pr, by simpa using hp⟩) with
    ⟨h1, -⟩ | ⟨pre, t, post, h1, h2, h3, h4⟩
  · exact absurd h1 hn
  · rcases List.eq_nil_or_concat post with rfl | ⟨post, u, rfl⟩
    · left
      obtain ⟨rfl, -⟩ := List.append_inj' h1 rfl
      refine ⟨?_, h3⟩
      simp only [offending, Lexer.scan_of_stuck h hne hs, h2]
    · right
      have h1' : tokensOf [] segs = pre ++ t :: post := by
        have : tokensOf [] segs ++ [(⟨.whiteSpace, [], lineAfter (covered segs), columnAfter (covered segs)⟩ : Token)] =
            (pre ++ t :: post) ++ [u] := by simpa using h1
        exact (List.append_inj' this rfl).1
      refine ⟨pre, t, post, h1', ?_, h3, h4⟩
      cases post <;> simp only [offending, Lexer.scan_of_stuck h hne hs, h2, List.concat_eq_append, List.nil_append, List.cons_append]

end Qasm
