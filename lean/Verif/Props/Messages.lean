import Verif.Lemmas.FailsProgram
import Verif.Props.Api
/-!
# Property C72: what is reported and where

`Spec/Fails.lean` lists, for every way in which a statement can be wrong, the message and the position. The theorems here
say that analysis reports exactly that list.
-/

namespace Qasm

open Spec Sem Syn

variable {F : Type} {fo : FloatOps F} {v : Version} {a : Analyzer F}

attribute [local irreducible] defaultInstrs defaultFns defaultVars

/-- C72. The errors a default analyser reports for a program without annotations: exactly those of the specification, with
their messages and positions, in that order. -/
theorem C72_errors (ha : Analyzer.default fo v = .ok a) {p : ProgramAst F} (hs : ShapedProgram p) (hp : PlainProgram p)
    (es : List Err) : (∃ a' root, analyze fo a p = .ok (a', ⟨root, es⟩)) ↔ ProgramErrors fo v p es := by
  have hst := default_state ha
  constructor
  · rintro ⟨a', root, h⟩
    rcases analyze_plain ha hs hp with ⟨errs, vs, ts, bad, D', u', h1, h2, _⟩ | ⟨h1, _⟩
    · rw [h1] at h
      cases h
      refine ⟨_, _, (versionErrors_iff _ _ _).mpr rfl, ?_, rfl⟩
      rw [hst] at h2
      exact visitBlock_errors v _ hs hp [] 0 _ _ _ _ declsOk_nil h2
    · rw [h1] at h; cases h
  · rintro ⟨es1, es2, h1, h2, rfl⟩
    have h1 := (versionErrors_iff _ _ _).mp h1
    subst h1
    obtain ⟨a', h3⟩ := visitBlock_of_errors v h2 hs hp ⟨[], none⟩ [] declsOk_nil
    rw [← hst] at h3
    rcases analyze_plain ha hs hp with ⟨errs, vs, ts, bad, D', u', h4, h5, _⟩ | ⟨_, h5, _⟩
    · rw [h3] at h5
      cases h5
      exact ⟨_, _, h4⟩
    · rw [h3] at h5; cases h5

/-- C72. The specification leaves no choice: a program has one list of errors. -/
theorem C72_unique (hv : VersionSame v [3, 0]) {p : ProgramAst F} (hs : ShapedProgram p) (hp : PlainProgram p)
    {es es' : List Err} (h : ProgramErrors fo v p es) (h' : ProgramErrors fo v p es') : es = es' := by
  obtain ⟨a, ha⟩ := (C59_default fo v).1.2 hv
  obtain ⟨_, _, h1⟩ := (C72_errors ha hs hp es).mpr h
  obtain ⟨_, _, h2⟩ := (C72_errors ha hs hp es').mpr h'
  rw [h1] at h2
  cases h2
  rfl

/-- C72. The specification covers every program whose analysis is defined. -/
theorem C72_total (hv : VersionSame v [3, 0]) {p : ProgramAst F} (hs : ShapedProgram p) (hp : PlainProgram p) :
    (∃ es, ProgramErrors fo v p es) ↔ ¬ UndefStmts fo [] 0 p.block.statements := by
  obtain ⟨a, ha⟩ := (C59_default fo v).1.2 hv
  constructor
  · rintro ⟨es, h⟩ hu
    obtain ⟨_, _, h1⟩ := (C72_errors ha hs hp es).mpr h
    rw [(C21_exactly_partial ha hs hp).2 hu] at h1
    cases h1
  · intro hu
    obtain ⟨a', r, errs, h1⟩ := C21_returns_partial ha hs hp hu
    exact ⟨errs, (C72_errors ha hs hp errs).mp ⟨a', _, h1⟩⟩

/-- C72. For texts: the errors of a text with the AST `p` are those the specification gives for `p`. -/
theorem C72_text (ha : Analyzer.default fo v = .ok a) (an : Antlr F) (text : Str) (file : Option Str) (p : ProgramAst F)
    (h : HasAst an file text p) (es : List Err) :
    (∃ a' root, Syn.analyzeString fo an a text file = .ok (a', ⟨root, es⟩)) ↔ ProgramErrors fo v p es := by
  have h1 := hasAst_iff.1 h
  obtain ⟨hs, hp⟩ := C48_shaped an text file p h1
  rw [← C72_errors ha hs hp es]
  simp only [Syn.analyzeString, h1, Res.bind_ok, analyzeParse, List.isEmpty_nil, Bool.not_true, Bool.false_eq_true, if_false]
  constructor
  · rintro ⟨a', root, h2⟩
    cases h3 : analyze fo a p with
    | ok x => rw [h3] at h2; cases h2; exact ⟨_, _, rfl⟩
    | err x => exact x.elim
    | exn c => rw [h3] at h2; cases h2
    | ub => rw [h3] at h2; cases h2
  · rintro ⟨a', root, h2⟩
    exact ⟨a', root, by rw [h2]; rfl⟩

/-- C72. What `analyze_string` writes to stderr for such a text: these errors, one per line. -/
theorem C72_stderr (an : Antlr F) (text : Str) (file : Option Str) (api : Str) (hv : Means30 api v) (p : ProgramAst F)
    (h : HasAst an file text p) (e : Err) (es : List Err) (he : ProgramErrors fo v p (e :: es)) :
    Api.analyzeString fo an text file api = (e.what ++ es.flatMap (fun e => '\n' :: e.what), .exn c!"AnalysisFailed") := by
  obtain ⟨a, ha⟩ := (C59_default fo v).1.2 hv.2
  obtain ⟨hs, hp⟩ := C48_shaped an text file p (hasAst_iff.1 h)
  have hu := (C72_total (fo := fo) hv.2 hs hp).mp ⟨_, he⟩
  obtain ⟨a', root, h1⟩ := (C72_text ha an text file p h _).mpr he
  obtain ⟨a'', root', e', es', h2, h3⟩ := C64_throws fo an text file api v hv a ha fun q hq => by
    cases hasAst_unique hq h
    refine ⟨fun hval => ?_, hu⟩
    obtain ⟨_, r, h4, h5⟩ := (C01_valid_iff fo v a ha p hs).mpr hval
    obtain ⟨_, _, h6⟩ := (C72_errors ha hs hp _).mpr he
    rw [h4] at h6
    cases h6
    cases h5
  rw [h1] at h2
  cases h2
  exact h3

/-- The errors reported for a text: messages and positions (first line and column, last line and column). -/
def Sample.reported (text : Str) : Option (List (Str × Option (Nat × Nat × Nat × Nat))) :=
  match Analyzer.default Sample.fo [3, 0] with
  | .ok a =>
    match Syn.analyzeString Sample.fo Sample.antlr a text none with
    | .ok r => some (r.2.errors.map fun e => (e.message, e.location.map fun l =>
        (l.range.first.line, l.range.first.column, l.range.last.line, l.range.last.column)))
    | _ => none
  | _ => none

theorem Sample.reported_meets {text : Str} {l : List Str} (h : (Sample.reported text).map (fun l => l.map (·.1)) = some l)
    {p : ProgramAst Int} (hp : HasAst Sample.antlr none text p) :
    ∃ es, ProgramErrors Sample.fo [3, 0] p es ∧ es.map (·.message) = l := by
  obtain ⟨a, ha⟩ := Sample.default30
  unfold Sample.reported at h
  rw [ha] at h
  dsimp only at h
  split at h
  · rename_i r h1
    obtain ⟨a', root, errs⟩ := r
    injection h with h
    refine ⟨errs, (C72_text ha _ _ _ _ hp errs).mp ⟨a', root, h1⟩, ?_⟩
    rw [← h]; dsimp only; rw [List.map_map]
    rfl
  · cases h

example : (Sample.reported c!"version 3.0\nqubit[2] q\nbit[3] b\nX r\nRx(q) q\nX q[0, 5]\nb = measure q" ==
    some [(c!"failed to resolve variable 'r'", some (4, 3, 4, 4)),
      (c!"failed to resolve 'Rx' with parameter type (qubit array)", some (5, 1, 5, 3)),
      (c!"index 5 out of range (size 2)", some (6, 3, 6, 4)),
      (c!"qubit and bit indices have different sizes", some (7, 5, 7, 12))]) = true := by decide +kernel

example : (Sample.reported c!"version 3.0\nqubit[2] q\nbit[3] b\nqubit b\nCNOT q[0], q\npow(2).CNOT q, q\nFoo q" ==
    some [(c!"trying to redeclare variable 'b'", some (4, 7, 4, 8)),
      (c!"qubit operands indices have different sizes", some (5, 1, 5, 5)),
      (c!"trying to apply a gate modifier to a multi-qubit gate", some (6, 1, 6, 4)),
      (c!"couldn't find instruction 'Foo'", some (7, 1, 7, 4))]) = true := by decide +kernel

example : (Sample.reported c!"version 3.0\nqubit[2] q\nbit[3] b\nX b\nX q[1:0]\nRx(sin(1, 2)) q" ==
    some [(c!"failed to resolve instruction 'X' with argument pack (bit array)", some (4, 1, 4, 2)),
      (c!"last index is lower than first index", some (5, 3, 5, 4)),
      (c!"failed to resolve overload for 'sin' with argument pack (int, int)", some (6, 4, 6, 7))]) = true := by decide +kernel

/-- The hypotheses of `C72_text` and `C72_stderr` are met: a text with an AST whose list of errors is not empty. -/
example : ∃ p, HasAst Sample.antlr none c!"version 3.0\nqubit q\nX r" p ∧
    ∃ e es, ProgramErrors Sample.fo [3, 0] p (e :: es) ∧ e.message = c!"failed to resolve variable 'r'" := by
  have hr : (Sample.reported c!"version 3.0\nqubit q\nX r").map (fun l => l.map (·.1)) =
      some [c!"failed to resolve variable 'r'"] := by decide +kernel
  have hok : (match parseString Sample.antlr c!"version 3.0\nqubit q\nX r" none with
    | .ok ⟨some _, []⟩ => true
    | _ => false) = true := by decide +kernel
  split at hok
  · rename_i p h
    have hp := hasAst_iff.2 h
    obtain ⟨es, h1, h2⟩ := Sample.reported_meets hr hp
    refine ⟨p, hp, ?_⟩
    match es, h1, h2 with
    | e :: es, h1, h2 => exact ⟨e, es, h1, by injection h2⟩
  · cases hok

end Qasm
