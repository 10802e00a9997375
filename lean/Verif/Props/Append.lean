import Verif.Lemmas.AppendText
import Verif.Props.Independent
import Verif.Props.Layout
import Verif.Props.Positions
/-!
# Property C86: text can be appended

What is read and analysed of a text does not change when a new line and more text follow it, and what follows is
read in the same way after any text. No condition is put on the texts but that they are accepted: an accepted text
leaves no comment, raw string or version number open.
-/

namespace Qasm

open Spec TokKind Parser Syn

variable {F : Type}

/-- The statements of a program, as pieces. -/
theorem appended_pieces {t s : Str} {ts : List Token} {pr : PProgram} (hl : Lexer.lex t = .ok ts) (hp : Program Chosen ts pr) :
    ∃ (us : List Token) (e sep v : Token), ∃ xs, ts = us ++ [e] ∧ e.kind = eof ∧ isSep sep = true ∧ v.kind = TokKind.version ∧ pr.version.kind = versionNumber ∧
      pieces isSep us = [v, pr.version] :: xs ∧ Forall2 Chosen xs pr.statements ∧
      (∀ ts', Lexer.lex (t ++ '\n' :: s) = .ok ts' → ∃ segs m, Cut .default s segs m [] ∧
        ∃ e', e'.kind = eof ∧ ts' = us ++ sep :: tokensOf (t ++ ['\n']) segs ++ [e']) ∧
      (∀ segs m, Cut .default s segs m [] →
        ∃ e', e'.kind = eof ∧ Lexer.lex (t ++ '\n' :: s) = .ok (us ++ sep :: tokensOf (t ++ ['\n']) segs ++ [e'])) := by
  obtain ⟨us, e, sep, rfl, he, hs, h1, h2⟩ := lex_feed (s := s) hl (program_mono (fun _ _ h => h.1) hp)
  obtain ⟨us1, e1, v, g1, g2, g3, g4, xs, g5, g6⟩ := program_pieces (fun _ _ h => h.1) hp
  obtain ⟨rfl, -⟩ := List.append_inj' g1 rfl
  refine ⟨us, e, sep, v, xs, rfl, he, isSep_iff.2 (by rw [hs]; decide), g3, g4, g5, g6, ?_, h2⟩
  intro ts' hl'
  obtain ⟨vs, segs, m, hc, rfl, e', he', rfl⟩ := h1 ts' hl'
  exact ⟨segs, m, hc, e', he', rfl⟩

theorem program_of_pieces {us vs : List Token} {sep e v n : Token} {xs : List (List Token)} {ss : List PStmt} (he : e.kind = eof)
    (hs : isSep sep = true) (hv : v.kind = TokKind.version) (hn : n.kind = versionNumber) (hp : pieces isSep us = [v, n] :: xs)
    (hx : Forall2 Chosen xs ss) {ss' : List PStmt} :
    Program Chosen (us ++ sep :: vs ++ [e]) ⟨n, ss ++ ss'⟩ ↔ Forall2 Chosen (pieces isSep vs) ss' := by
  have hpp : pieces isSep (us ++ sep :: vs) = [v, n] :: (xs ++ pieces isSep vs) := by
    rw [pieces_between hs, hp, List.cons_append]
  constructor
  · intro h
    obtain ⟨us1, e1, v1, g1, g2, g3, g4, ys, g5, g6⟩ := program_pieces (fun _ _ h => h.1) h
    obtain ⟨rfl, -⟩ := List.append_inj' g1 rfl
    rw [hpp] at g5
    simp only [List.cons.injEq] at g5
    obtain ⟨-, rfl⟩ := g5
    obtain ⟨a, b, h1, h2, h3⟩ := forall2_append_left g6
    have hl : a.length = ss.length := by rw [← forall2_length h2, ← forall2_length hx]
    obtain ⟨rfl, rfl⟩ := List.append_inj h1.symm hl
    exact h3
  · intro h
    exact pieces_program he hv hn hpp (forall2_append hx h)

theorem programTree_append {stod : Str → Option F} {file : Option Str} {n : Token} {ss ss' : List PStmt} {p : ProgramAst F}
    (hp : ProgramTree stod file ⟨n, ss⟩ p) (r : ProgramAst F) :
    ProgramTree stod file ⟨n, ss ++ ss'⟩ r ↔
      ∃ vs, r = withStatements p (p.block.statements ++ vs) ∧ Forall2 (StmtTree stod file) ss' vs := by
  constructor
  · intro h
    cases h with
    | mk h1 h2 h3 =>
      obtain ⟨a, b, rfl, g1, g2⟩ := forall2_append_left h3
      cases programTree_unique hp (.mk h1 h2 g1)
      exact ⟨b, rfl, g2⟩
  · rintro ⟨vs, rfl, h⟩
    cases hp with
    | mk h1 h2 h3 => exact .mk h1 h2 (forall2_append h3 h)

/-- C86. If a text is accepted, and also when a new line and the text `s` follow it, its statements are the first
statements of the longer text, at the same positions; and after any other accepted text, `s` is accepted
too, with the same statements up to their positions. -/
theorem C86_text (an : Antlr F) {t t' s : Str} {file file' : Option Str} {p p' r : ProgramAst F}
    (h : parseString an t file = .ok ⟨some p, []⟩) (h' : parseString an t' file' = .ok ⟨some p', []⟩)
    (hr : parseString an (t ++ '\n' :: s) file = .ok ⟨some r, []⟩) :
    ∃ ss ss', r = withStatements p (p.block.statements ++ ss) ∧
      parseString an (t' ++ '\n' :: s) file' = .ok ⟨some (withStatements p' (p'.block.statements ++ ss')), []⟩ ∧
      ss'.map stripStmt = ss.map stripStmt := by
  obtain ⟨ts, pr, hl, hc, ht⟩ := (C48_ast an t file p).1 h
  obtain ⟨ts', pr', hl', hc', ht'⟩ := (C48_ast an t' file' p').1 h'
  obtain ⟨tr, qr, hlr, hcr, htr⟩ := (C48_ast an _ file r).1 hr
  obtain ⟨us, e, sep, v, xs, rfl, he, hsep, hv, hn, hp, hx, g1, -⟩ := appended_pieces (s := s) hl hc
  obtain ⟨us', e', sep', v', xs', rfl, he', hsep', hv', hn', hp', hx', -, g2⟩ := appended_pieces (s := s) hl' hc'
  obtain ⟨segs, m, hcut, e1, he1, rfl⟩ := g1 tr hlr
  obtain ⟨e2, he2, hl2⟩ := g2 segs m hcut
  -- the statements of the longer text
  have split : ∃ qs, qr = ⟨pr.version, pr.statements ++ qs⟩ ∧ Forall2 Chosen (pieces isSep (tokensOf (t ++ ['\n']) segs)) qs := by
    obtain ⟨u1, e3, v1, k1, k2, k3, k4, ys, k5, k6⟩ := program_pieces (fun _ _ h => h.1) hcr
    obtain ⟨rfl, -⟩ := List.append_inj' k1 rfl
    rw [pieces_between hsep, hp, List.cons_append] at k5
    simp only [List.cons.injEq, and_true] at k5
    obtain ⟨⟨rfl, hver⟩, rfl⟩ := k5
    obtain ⟨a, qs, k7, k8, k9⟩ := forall2_append_left k6
    have := (program_of_pieces (ss' := qs) he1 hsep hv hn hp hx).2 k9
    exact ⟨qs, C45_unique hcr this, k9⟩
  obtain ⟨qs, rfl, hqs⟩ := split
  obtain ⟨ss, rfl, hss⟩ := (programTree_append (n := pr.version) (ss := pr.statements) ht r).1 htr
  have same : (pieces isSep (tokensOf (t ++ ['\n']) segs)).map (List.map fun x => (x.kind, x.text)) =
      (pieces isSep (tokensOf (t' ++ ['\n']) segs)).map (List.map fun x => (x.kind, x.text)) := by
    rw [← pieces_map (p := isSep) (q := fun p => separatorKinds.contains p.1) (fun a => rfl),
      ← pieces_map (p := isSep) (q := fun p => separatorKinds.contains p.1) (fun a => rfl),
      Lexer.tokensOf_visible, Lexer.tokensOf_visible]
  obtain ⟨qs', hqs', hd⟩ := chosen_same hqs same
  obtain ⟨ss', hss', hst⟩ := (outcomes_stmts (stod := an.stod) (f := file) (f' := file') hd).1 ss hss
  refine ⟨ss, ss', rfl, ?_, hst⟩
  refine (C48_ast an _ file' _).2 ⟨_, ⟨pr'.version, pr'.statements ++ qs'⟩, hl2, ?_, ?_⟩
  · exact (program_of_pieces he2 hsep' hv' hn' hp' hx').2 hqs'
  · exact (programTree_append (n := pr'.version) (ss := pr'.statements) ht' _).2 ⟨ss', rfl, hss'⟩

/-- C86. A program can be cut off at any new line after its version statement that is not in a comment or raw
string: what is left is a program with the first statements, at the same positions. -/
theorem C86_cut (an : Antlr F) {t s : Str} {file : Option Str} {r : ProgramAst F} {segs : List (TokKind × Str)}
    (hcut : Cut .default t segs .default []) (hclosed : Closed segs) (hv : TokKind.version ∈ segs.map (·.1))
    (hr : parseString an (t ++ '\n' :: s) file = .ok ⟨some r, []⟩) :
    ∃ p ss, parseString an t file = .ok ⟨some p, []⟩ ∧ r = withStatements p (p.block.statements ++ ss) := by
  obtain ⟨tr, qr, hlr, hcr, htr⟩ := (C48_ast an _ file r).1 hr
  obtain ⟨sep, hsep, g1, -⟩ := lex_feed_cut (s := s) hcut hclosed
  obtain ⟨vs, segs', m, hcut', rfl, e1, he1, rfl⟩ := g1 tr hlr
  have hsep : isSep sep = true := isSep_iff.2 (by rw [hsep]; decide)
  obtain ⟨u1, e3, v1, k1, k2, k3, k4, ys, k5, k6⟩ := program_pieces (fun _ _ h => h.1) hcr
  obtain ⟨rfl, -⟩ := List.append_inj' k1 rfl
  rw [pieces_between hsep] at k5
  cases hx : pieces isSep (tokensOf [] segs) with
  | nil =>
    exfalso
    obtain ⟨p, hp, hk⟩ := List.mem_map.1 hv
    have hp : p ∈ Lexer.visible segs := List.mem_filter.2 ⟨hp, by rw [hk]; rfl⟩
    rw [← Lexer.tokensOf_visible []] at hp
    obtain ⟨x, hxm, rfl⟩ := List.mem_map.1 hp
    have := isSep_iff.1 (pieces_inv_nil hx x hxm)
    rw [show x.kind = TokKind.version from hk] at this
    revert this; decide
  | cons y xs =>
    rw [hx, List.cons_append] at k5
    simp only [List.cons.injEq] at k5
    obtain ⟨rfl, rfl⟩ := k5
    obtain ⟨a, qs, k7, k8, k9⟩ := forall2_append_left k6
    have hc := pieces_program (e := (⟨eof, c!"<EOF>", lineAfter t, columnAfter t⟩ : Token)) rfl k3 k4 hx k8
    have hver : qr = ⟨qr.version, a ++ qs⟩ := by rw [← k7]
    rw [hver] at htr
    cases htr with
    | mk h1 h2 h3 =>
      obtain ⟨b, ss, rfl, j1, j2⟩ := forall2_append_left h3
      refine ⟨_, ss, (C48_ast an t file _).2 ⟨_, _, Lexer.lex_of_cut hcut, hc, .mk h1 h2 j1⟩, rfl⟩

/-- C86. Whether text can be appended to a text does not depend on that text: it can iff it can be put on a line
of its own after the version statement. -/
theorem C86_accepts (an : Antlr F) {t s : Str} {file : Option Str} {p : ProgramAst F} (h : parseString an t file = .ok ⟨some p, []⟩) :
    (∃ r, parseString an (t ++ '\n' :: s) file = .ok ⟨some r, []⟩) ↔ ∃ q, parseString an (c!"version 3" ++ '\n' :: s) file = .ok ⟨some q, []⟩ := by
  obtain ⟨p0, h0⟩ : ∃ p0, parseString an c!"version 3" file = .ok ⟨some p0, []⟩ := ⟨_, rfl⟩
  constructor
  · rintro ⟨r, hr⟩
    obtain ⟨-, ss', -, h2, -⟩ := C86_text an h h0 hr
    exact ⟨_, h2⟩
  · rintro ⟨q, hq⟩
    obtain ⟨-, ss', -, h2, -⟩ := C86_text an h0 h hq
    exact ⟨_, h2⟩

/-- C86. What an analyser reports for a text it reports first, in the same order and at the same places, when a
new line and more text follow; the variables and statements it has found so far stay the first ones. -/
theorem C86_analysis {fo : FloatOps F} (an : Antlr F) {a a1 a2 : Analyzer F} {t s : Str} {file : Option Str} {s1 s2 : SProgram F} {es1 es2 : List Err}
    (h1 : analyzeString fo an a t file = .ok (a1, ⟨some s1, es1⟩))
    (h2 : analyzeString fo an a (t ++ '\n' :: s) file = .ok (a2, ⟨some s2, es2⟩)) :
    es1 <+: es2 ∧ s1.variables <+: s2.variables ∧ s1.block.statements <+: s2.block.statements ∧
      s2.apiVersion = s1.apiVersion ∧ s2.version = s1.version := by
  have parsed : ∀ {x : Str} {a' : Analyzer F} {sp : SProgram F} {es : List Err}, analyzeString fo an a x file = .ok (a', ⟨some sp, es⟩) →
      ∃ p, parseString an x file = .ok ⟨some p, []⟩ ∧ Sem.analyze fo a p = .ok (a', ⟨some sp, es⟩) := by
    intro x a' sp es h
    unfold analyzeString at h
    rcases C48_outcome an x file with ⟨p, hp⟩ | ⟨e, he⟩
    · refine ⟨p, hp, ?_⟩
      rw [hp, Res.bind_ok] at h
      simp only [Sem.analyzeParse, List.isEmpty_nil, Bool.not_true, Bool.false_eq_true, if_false] at h
      generalize Sem.analyze fo a p = z at h
      cases z with
      | ok z => cases h; rfl
      | err e => cases e
      | _ => cases h
    · rw [he] at h
      simp [Sem.analyzeParse, Res.mapErr] at h
  obtain ⟨p, hp, k1⟩ := parsed h1
  obtain ⟨r, hr, k2⟩ := parsed h2
  obtain ⟨ss, -, rfl, -, -⟩ := C86_text an hp hp hr
  have e : p = withStatements p p.block.statements := rfl
  rw [e] at k1
  obtain ⟨p1, p2, es, vs, ts, g1, g2, g3, g4, g5, g6, g7⟩ := C83_prefix k1 k2
  cases g1
  cases g2
  exact ⟨⟨es, g3.symm⟩, ⟨vs, g4.symm⟩, ⟨ts, g5.symm⟩, g6, g7⟩

/-! ## Examples -/

/-- The number of statements of a text, and the last line that has one, for the examples. -/
def Sample.extent (text : Str) : Option (Nat × Nat) :=
  match parseString Sample.antlr text none with
  | .ok ⟨some p, []⟩ => some (p.block.statements.length, (p.block.statements.filterMap fun s => match s with
      | .gate (some l) .. => some l.range.first.line
      | _ => none).getLast?.getD 0)
  | _ => none

/-- A text that ends in a line comment, the same with two more lines, and those lines after another text. -/
example : Sample.extent c!"version 3\nqubit[2] q /*\n*/; H q // end" = some (2, 3) ∧
    Sample.extent c!"version 3\nqubit[2] q /*\n*/; H q // end\nX q\n asm(a) \'\'\'/*\'\'\'" = some (4, 4) ∧
    Sample.extent c!"version 3\nX q\n asm(a) \'\'\'/*\'\'\'" = some (2, 2) := by
  decide +kernel

/-- With `;` instead of a new line the claim is false, as it is for texts that are not accepted. -/
example : Sample.extent c!"version 3; H q // end" = some (1, 1) ∧ Sample.extent c!"version 3; H q // end;X q" = some (1, 1) ∧
    Sample.extent c!"version 3; H q /" = none ∧ Sample.extent c!"version 3; H q /\n2" = none ∧
    Sample.extent c!"version 3; H q /*" = none ∧ Sample.extent c!"version 3; H q /*\n*/" = some (1, 1) := by
  decide +kernel

/-- A place where a program can be cut off. -/
example : ∃ segs, Cut .default c!"version 3\nH q" segs .default [] ∧ Closed segs ∧ TokKind.version ∈ segs.map (·.1) := by
  obtain ⟨p, hp⟩ : ∃ p, parseString Sample.antlr c!"version 3\nH q" none = .ok ⟨some p, []⟩ := ⟨_, rfl⟩
  obtain ⟨ts, pr, hl, hc, -⟩ := (C48_ast _ _ _ p).1 hp
  obtain ⟨segs, e, h1, h2, h3, rfl, he⟩ := program_cut hl (program_mono (fun _ _ h => h.1) hc)
  refine ⟨segs, h1, h2, ?_⟩
  have hm : (TokKind.version, c!"version") ∈ Lexer.visible segs := by
    have hs := Lexer.seen_of_cut h1 (.inl rfl)
    have hs' : seen c!"version 3\nH q" = some [(TokKind.version, c!"version"), (versionNumber, c!"3"), (newLine, c!"\n"), (identifier, c!"H"),
      (identifier, c!"q"), (eof, c!"<EOF>")] := by decide +kernel
    rw [hs, if_pos rfl, Option.some.injEq] at hs'
    have : (TokKind.version, c!"version") ∈ Lexer.visible segs ++ [(eof, c!"<EOF>")] := by rw [hs']; simp
    simpa using this
  exact List.mem_map.2 ⟨_, (List.mem_filter.1 hm).1, rfl⟩

open Sample in
/-- The errors of a text stay the first ones. -/
example : (report c!"version 3;qubit q;X r").map List.length = some 1 ∧
    (report c!"version 3;qubit q;X r\nqubit q;Y q").map List.length = some 2 ∧
    (report c!"version 3;qubit q;X r\nqubit q;Y q").map (List.take 1) = report c!"version 3;qubit q;X r" := by
  decide +kernel

end Qasm
