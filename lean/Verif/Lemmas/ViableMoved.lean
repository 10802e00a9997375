import Verif.Lemmas.ViableText
import Verif.Lemmas.Lines
/-!
# Where a text goes wrong after blank lines are inserted or line ends are changed
-/

namespace Qasm

open Spec TokKind

namespace Parser

theorem starts_kinds {us vs : List Token} (h : us.map (·.kind) = vs.map (·.kind)) (hs : Starts us) : Starts vs := by
  obtain ⟨ws, pr, hp⟩ := hs
  obtain ⟨pr', hp'⟩ := program_kinds (us := us ++ ws) (vs := vs ++ ws) (by simp [h]) hp
  exact ⟨ws, pr', hp'⟩

open Place in
/-- Separators after a separator, or at the beginning, make no difference. -/
theorem program_seps {A N x : List Token} (hA : A = [] ∨ ∃ f n, A = f ++ [n] ∧ isSep n = true) (hN : ∀ t ∈ N, isSep t = true) :
    (∃ pr, Program DerivesStmt (A ++ x) pr) ↔ ∃ pr, Program DerivesStmt (A ++ (N ++ x)) pr := by
  have hx : ∀ M : List Token, (∀ t ∈ M, isSep t = true) → ∀ us e, e.kind = eof → A ++ (M ++ x) = us ++ [e] → ∃ r, x = r ++ [e] ∧ us = A ++ (M ++ r) := by
    intro M hM us e he h
    have hne : ∀ t, isSep t = true → t ≠ e := by
      rintro t ht rfl
      simp [isSep, he, separatorKinds] at ht
    rcases List.eq_nil_or_concat x with rfl | ⟨r, e', rfl⟩
    · rcases List.eq_nil_or_concat M with rfl | ⟨M, y, rfl⟩
      · rcases hA with rfl | ⟨f, n, rfl, hn⟩
        · simp at h
        · have := (List.append_inj' (s₁ := f) (t₁ := [n]) (s₂ := us) (t₂ := [e]) (by simpa using h) rfl).2
          exact absurd (by simpa using this) (hne n hn)
      · have := (List.append_inj' (s₁ := A ++ M) (t₁ := [y]) (s₂ := us) (t₂ := [e]) (by simpa using h) rfl).2
        exact absurd (by simpa using this) (hne y (hM y (by simp)))
    · have h := List.append_inj' (s₁ := A ++ (M ++ r)) (t₁ := [e']) (s₂ := us) (t₂ := [e]) (by simpa using h) rfl
      obtain ⟨rfl, h2⟩ := h
      exact ⟨r, by simpa using h2, rfl⟩
  have hpieces : ∀ r, pieces isSep (A ++ (N ++ r)) = pieces isSep (A ++ r) := by
    intro r
    rcases hA with rfl | ⟨f, n, rfl, hn⟩
    · exact pieces_seps hN
    · simp only [List.append_assoc]
      refine pieces_replace (a := f) (seps := n :: N) (seps' := [n]) ?_ ?_ (by simp) (by simp)
      · intro x hx
        rcases List.mem_cons.1 hx with rfl | hx
        · exact hn
        · exact hN x hx
      · intro x hx
        rw [List.mem_singleton.1 hx]
        exact hn
  constructor
  · rintro ⟨pr, hp⟩
    obtain ⟨us, e, v, h1, h2, h3, h4, xs, h5, h6⟩ := program_pieces (fun _ _ h => h) hp
    obtain ⟨r, rfl, rfl⟩ := hx [] (by simp) us e h2 (by simpa using h1)
    have := pieces_program (us := A ++ (N ++ r)) h2 h3 h4 (by rw [hpieces]; simpa using h5) h6
    exact ⟨_, by simpa using this⟩
  · rintro ⟨pr, hp⟩
    obtain ⟨us, e, v, h1, h2, h3, h4, xs, h5, h6⟩ := program_pieces (fun _ _ h => h) hp
    obtain ⟨r, rfl, rfl⟩ := hx N hN us e h2 (by simpa using h1)
    have := pieces_program (us := A ++ r) h2 h3 h4 (by rw [← hpieces]; exact h5) h6
    exact ⟨_, by simpa using this⟩

open Place in
theorem starts_seps {A N x y : List Token} (hA : A = [] ∨ ∃ f n, A = f ++ [n] ∧ isSep n = true) (hN : ∀ t ∈ N, isSep t = true)
    (hk : x.map (·.kind) = y.map (·.kind)) : Starts (A ++ x) ↔ Starts (A ++ (N ++ y)) := by
  have h1 : Starts (A ++ x) ↔ Starts (A ++ y) := ⟨starts_kinds (by simp [hk]), starts_kinds (by simp [hk])⟩
  rw [h1]
  constructor
  · rintro ⟨vs, pr, hp⟩
    obtain ⟨pr', hp'⟩ := (program_seps (x := y ++ vs) hA hN).1 ⟨pr, by simpa using hp⟩
    exact ⟨vs, pr', by simpa using hp'⟩
  · rintro ⟨vs, pr, hp⟩
    obtain ⟨pr', hp'⟩ := (program_seps (x := y ++ vs) hA hN).2 ⟨pr, by simpa using hp⟩
    exact ⟨vs, pr', by simpa using hp'⟩

open Place in
theorem firstBad_inserted {A N X : List Token} {f : Token → Token} (hf : ∀ t, (f t).kind = t.kind) (hAf : A.map f = A)
    (hA : A = [] ∨ ∃ f n, A = f ++ [n] ∧ isSep n = true) (hN : ∀ t ∈ N, isSep t = true) {t : Token} (h : FirstBad (A ++ X) t) :
    FirstBad (A ++ (N ++ X.map f)) (f t) := by
  obtain ⟨pre, post, e, h1, h2⟩ := h
  rcases List.append_eq_append_iff.1 e with ⟨l, rfl, hl⟩ | ⟨l, hl, hl'⟩
  · subst hl
    refine ⟨A ++ (N ++ l.map f), post.map f, by simp, (starts_seps hA hN (by simp [hf])).1 h1, fun hs => h2 ?_⟩
    have := (starts_seps (x := l ++ [t]) (y := l.map f ++ [f t]) hA hN (by simp [hf])).2 (by simpa using hs)
    simpa using this
  · cases l with
    | nil =>
      simp only [List.append_nil] at hl
      simp only [List.nil_append] at hl'
      subst hl
      rw [← hl']
      refine ⟨A ++ N, post.map f, by simp, ?_, fun hs => h2 ?_⟩
      · have := (starts_seps (x := []) (y := []) hA hN rfl).1 (by simpa using h1)
        simpa using this
      · exact (starts_seps (x := [t]) (y := [f t]) hA hN (by simp [hf])).2 (by simpa using hs)
    | cons y l =>
      simp only [List.cons_append] at hl'
      obtain ⟨rfl, rfl⟩ := List.cons.inj hl'
      have ht : f t = t := by
        have : ∀ x ∈ A, f x = x := by
          intro x hx
          obtain ⟨i, hi, rfl⟩ := List.getElem_of_mem hx
          have := congrArg (fun l => l[i]?) hAf
          simpa [hi] using this
        exact this t (by rw [hl]; simp)
      rw [ht]
      exact ⟨pre, l ++ (N ++ X.map f), by rw [hl]; simp, h1, h2⟩

end Parser

/-- Where a place goes. -/
def Place.spot (s : Shift) : Except (Nat × Nat) Token → Except (Nat × Nat) Token
  | .ok t => .ok (Place.token s t)
  | .error p => .error (s.line p.1, p.2 + s.right p.1)

/-- The place of the syntax error after blank lines are inserted. -/
theorem offending_inserted {a w b : Str} (ha : StartsLine a b) (hw : Blank w b) {x y : Bool}
    (h : ¬ InLanguage (a ++ b)) (hxy : (∃ ts, Lexer.lex (a ++ b) = .ok ts) ∨ x = y) :
    offending y (a ++ (w ++ b)) = Place.spot (Shift.inserted a w) (offending x (a ++ b)) := by
  obtain ⟨segs, segs', m, rest, A, B, N, hA, hB, hf, h1, h2, h3, h4, h5, h6, h7⟩ := Place.cut_inserted ha hw
  rcases hf with rfl | ⟨hne, hst⟩
  · have c1 : covered segs = a ++ b := by have := Lexer.cut_covered hA; simpa using this.symm
    have c2 : covered segs' = a ++ (w ++ b) := by have := Lexer.cut_covered hB; simpa using this.symm
    rw [c1, c2] at h6 h7
    have he : Place.token (Shift.inserted a w) (Lexer.eofAfter (a ++ b)) = Lexer.eofAfter (a ++ (w ++ b)) := by
      simp only [Place.token, Lexer.eofAfter, h6, h7]
    have hn : ∀ pr, ¬ Program DerivesStmt (tokensOf [] segs ++ [Lexer.eofAfter (a ++ b)]) pr :=
      fun pr hp => h ⟨_, pr, Lexer.lex_of_cut hA, hp⟩
    obtain ⟨pre, t, post, g1, g2, ⟨f, pr, -, g3⟩, g4⟩ := offending_token (ahead := x) hA hn
    have hb : FirstBad (tokensOf [] segs ++ [Lexer.eofAfter (a ++ b)]) t := ⟨pre, post, g1, ⟨f, pr, g3⟩, g4⟩
    have hb' : FirstBad (tokensOf [] segs' ++ [Lexer.eofAfter (a ++ (w ++ b))]) (Place.token (Shift.inserted a w) t) := by
      have := Parser.firstBad_inserted (N := N) (X := B ++ [Lexer.eofAfter (a ++ b)]) (f := Place.token (Shift.inserted a w)) (fun _ => rfl)
        h3 h5 h4 (t := t) (by rw [h1] at hb; simpa using hb)
      rw [h2]
      simpa [he] using this
    have hn' : ∀ pr, ¬ Program DerivesStmt (tokensOf [] segs' ++ [Lexer.eofAfter (a ++ (w ++ b))]) pr := by
      rintro pr hp
      obtain ⟨pre, post, e, -, hbad⟩ := hb'
      rw [e] at hp
      exact hbad ⟨post, pr, by simpa using hp⟩
    obtain ⟨pre', t', post', g1', g2', ⟨f', pr', -, g3'⟩, g4'⟩ := offending_token (ahead := y) hB hn'
    have := Parser.firstBad_unique ⟨pre', post', g1', ⟨f', pr', g3'⟩, g4'⟩ hb'
    rw [g2, g2', this]
    rfl
  · have hxy : x = y := by
      rcases hxy with ⟨ts, hl⟩ | h
      · rw [Lexer.lex_of_stuck hA hne hst] at hl; cases hl
      · exact h
    subst hxy
    have hS : Starts (tokensOf [] segs) ↔ Starts (tokensOf [] segs') := by
      rw [h1, h2]
      exact Parser.starts_seps h5 h4 (by simp [Place.token])
    have hpos : (Except.error (lineAfter (covered segs'), columnAfter (covered segs')) : Except (Nat × Nat) Token) =
        Place.spot (Shift.inserted a w) (.error (lineAfter (covered segs), columnAfter (covered segs))) := by
      simp only [Place.spot, h6, h7]
    rcases offending_recognition (ahead := x) hA hne hst with ⟨g1, f, pr, -, g2⟩ | ⟨pre, t, post, g1, g2, ⟨f, pr, -, g3⟩, g4⟩
    · rcases offending_recognition (ahead := x) hB hne hst with ⟨k1, -⟩ | ⟨pre', t', post', k1, k2, ⟨f', pr', -, k3⟩, k4⟩
      · rw [g1, k1, hpos]
      · have hs := hS.1 ⟨f, pr, g2⟩
        rw [k1] at hs
        exact absurd (Parser.starts_prefix (us := pre' ++ [t']) (vs := post') (by simpa using hs)) k4
    · rcases offending_recognition (ahead := x) hB hne hst with ⟨k1, f', pr', -, k2⟩ | ⟨pre', t', post', k1, k2, ⟨f', pr', -, k3⟩, k4⟩
      · have hs := hS.2 ⟨f', pr', k2⟩
        rw [g1] at hs
        exact absurd (Parser.starts_prefix (us := pre ++ [t]) (vs := post) (by simpa using hs)) g4
      · rw [g2, k2]
        split
        · exact hpos
        · have hb : FirstBad (tokensOf [] segs) t := ⟨pre, post, g1, ⟨f, pr, g3⟩, g4⟩
          have hb' : FirstBad (tokensOf [] segs') (Place.token (Shift.inserted a w) t) := by
            rw [h1] at hb
            rw [h2]
            exact Parser.firstBad_inserted (f := Place.token (Shift.inserted a w)) (fun _ => rfl) h3 h5 h4 hb
          rw [Parser.firstBad_unique ⟨pre', post', k1, ⟨f', pr', k3⟩, k4⟩ hb']
          rfl

/-! ## Line ends -/

theorem alike_kinds {ts us : List Token} (h : Forall2 AlikeToken ts us) : ts.map (·.kind) = us.map (·.kind) := by
  induction h with
  | nil => rfl
  | cons h _ ih => rw [List.map_cons, List.map_cons, ih, h.1]

theorem alike_split {pre post : List Token} {t : Token} : ∀ {ts us : List Token}, Forall2 AlikeToken ts us → ts = pre ++ t :: post →
    ∃ pre' t' post', us = pre' ++ t' :: post' ∧ Forall2 AlikeToken pre pre' ∧ AlikeToken t t' := by
  induction pre with
  | nil =>
    intro ts us h e
    subst e
    cases h with
    | cons h1 h2 => exact ⟨[], _, _, rfl, .nil, h1⟩
  | cons p pre ih =>
    intro ts us h e
    subst e
    cases h with
    | cons h1 h2 =>
      obtain ⟨pre', t', post', rfl, g1, g2⟩ := ih h2 rfl
      exact ⟨_ :: pre', t', post', rfl, .cons h1 g1, g2⟩

theorem firstBad_alike {ts us : List Token} (h : Forall2 AlikeToken ts us) {t : Token} (hb : FirstBad ts t) :
    ∃ u, FirstBad us u ∧ AlikeToken t u := by
  obtain ⟨pre, post, e, h1, h2⟩ := hb
  obtain ⟨pre', t', post', rfl, g1, g2⟩ := alike_split h e
  have hk := alike_kinds g1
  refine ⟨t', ⟨pre', post', rfl, Parser.starts_kinds hk h1, fun hs => h2 (Parser.starts_kinds ?_ hs)⟩, g2⟩
  simp [hk, g2.1]

/-- Two places that differ only in line ends. -/
def Lines.AlikeSpot : Except (Nat × Nat) Token → Except (Nat × Nat) Token → Prop
  | .ok t, .ok u => AlikeToken t u
  | .error p, .error q => p = q
  | _, _ => False

/-- The place of the syntax error after line ends are changed. -/
theorem offending_lines {s s' : Str} (he : unix s = unix s') {x y : Bool}
    (h : ¬ InLanguage s) (hxy : (∃ ts, Lexer.lex s = .ok ts) ∨ x = y) :
    Lines.AlikeSpot (offending x s) (offending y s') := by
  obtain ⟨segs, m, rest, hc, hf⟩ := Lexer.cut_exists .default s
  obtain ⟨segs', rest', hc', hs, hr⟩ := Lines.cut_lift hc he
  have hcov := Lines.covered_lift hs
  have htok := Lines.tokens_lift hs (b := []) (b' := []) rfl (by simp [Lines.Whole]) (by simp [Lines.Whole])
  rcases hf with rfl | ⟨hne, hst⟩
  · have : rest' = [] := Lines.unix_eq_nil.1 hr.symm
    subst this
    rcases Lines.lex_lift he with ⟨l, hl, -⟩ | ⟨ts, us, hl, hl', hal⟩
    · rw [Lexer.lex_of_cut hc] at hl; cases hl
    rw [Lexer.lex_of_cut hc] at hl
    rw [Lexer.lex_of_cut hc'] at hl'
    cases hl
    cases hl'
    have hn : ∀ pr, ¬ Program DerivesStmt (tokensOf [] segs ++ [Lexer.eofAfter s]) pr := fun pr hp => h ⟨_, pr, Lexer.lex_of_cut hc, hp⟩
    have hn' : ∀ pr, ¬ Program DerivesStmt (tokensOf [] segs' ++ [Lexer.eofAfter s']) pr := by
      intro pr hp
      obtain ⟨pr', hp'⟩ := Parser.program_kinds (alike_kinds hal).symm hp
      exact hn pr' hp'
    obtain ⟨pre, t, post, g1, g2, ⟨f, pr, -, g3⟩, g4⟩ := offending_token (ahead := x) hc hn
    obtain ⟨pre', t', post', g1', g2', ⟨f', pr', -, g3'⟩, g4'⟩ := offending_token (ahead := y) hc' hn'
    obtain ⟨u, hu, ha⟩ := firstBad_alike hal ⟨pre, post, g1, ⟨f, pr, g3⟩, g4⟩
    obtain rfl := Parser.firstBad_unique ⟨pre', post', g1', ⟨f', pr', g3'⟩, g4'⟩ hu
    rw [g2, g2']
    exact ha
  · have hne' : rest' ≠ [] := by rintro rfl; exact hne (Lines.unix_eq_nil.1 hr)
    have hst' := Lines.stuck_lift hr hst
    have hxy : x = y := by
      rcases hxy with ⟨ts, hl⟩ | h
      · rw [Lexer.lex_of_stuck hc hne hst] at hl; cases hl
      · exact h
    subst hxy
    have hpos : (lineAfter (covered segs), columnAfter (covered segs)) = (lineAfter (covered segs'), columnAfter (covered segs')) := by
      rw [← Lines.line_unix (covered segs), ← Lines.column_unix (covered segs), hcov, Lines.line_unix, Lines.column_unix]
    have hk := alike_kinds htok
    rcases offending_recognition (ahead := x) hc hne hst with ⟨g1, f, pr, -, g2⟩ | ⟨pre, t, post, g1, g2, ⟨f, pr, -, g3⟩, g4⟩
    · rcases offending_recognition (ahead := x) hc' hne' hst' with ⟨k1, -⟩ | ⟨pre', t', post', k1, k2, ⟨f', pr', -, k3⟩, k4⟩
      · rw [g1, k1]; exact hpos
      · have hs := Parser.starts_kinds hk ⟨f, pr, g2⟩
        rw [k1] at hs
        exact absurd (Parser.starts_prefix (us := pre' ++ [t']) (vs := post') (by simpa using hs)) k4
    · rcases offending_recognition (ahead := x) hc' hne' hst' with ⟨k1, f', pr', -, k2⟩ | ⟨pre', t', post', k1, k2, ⟨f', pr', -, k3⟩, k4⟩
      · have hs := Parser.starts_kinds hk.symm ⟨f', pr', k2⟩
        rw [g1] at hs
        exact absurd (Parser.starts_prefix (us := pre ++ [t]) (vs := post) (by simpa using hs)) g4
      · rw [g2, k2]
        split
        · exact hpos
        · obtain ⟨u, hu, ha⟩ := firstBad_alike htok ⟨pre, post, g1, ⟨f, pr, g3⟩, g4⟩
          obtain rfl := Parser.firstBad_unique ⟨pre', post', k1, ⟨f', pr', k3⟩, k4⟩ hu
          exact ha

end Qasm
