import Verif.Lemmas.RenameProgram
import Verif.Lemmas.RenameTree
import Verif.Props.Positions
import Verif.Props.Written
/-!
# The names of variables do not influence what a program means (C80)
-/

namespace Qasm

open Spec Sem Syn Parser TokKind

variable {F : Type} {fo : FloatOps F} {r : Str → Str}

attribute [local irreducible] defaultInstrs defaultFns defaultVars

/-- A program with an unknown variable and a variable declared twice. -/
def Sample.twice : ProgramAst Int :=
  ⟨⟨[3, 0], none⟩, ⟨[.var none [] ⟨c!"q", none⟩ ⟨c!"qubit", none, none⟩,
    .gate none [] (.mk none [] c!"X" none []) [.ident none c!"q"],
    .gate none [] (.mk none [] c!"X" none []) [.ident none c!"b"],
    .var none [] ⟨c!"q", none⟩ ⟨c!"bit", none, none⟩], none⟩, none⟩

theorem visitBlock_ren {v : Version} (hr : Inj r) (ss : List (Stmt F)) : ∀ {sc : Scope F} {u : Nat}, BlindNTable r sc.fnTable →
    visitBlock fo (renAnalyzer r ⟨v, [sc], u⟩) (ss.map (renStmt r))
      = (visitBlock fo ⟨v, [sc], u⟩ ss).mapE (renLog r (renAnalyzer r)) := by
  induction ss with
  | nil => intro sc u _; rfl
  | cons s ss ih =>
    intro sc u hb
    have hbs : BlindNScopes r [sc] := by intro s hs; simp at hs; rw [hs]; exact hb
    rw [List.map_cons, visitBlock, visitBlock]
    refine mapE_bind (visitStatement_ren (a := ⟨v, [sc], u⟩) hr hbs s) fun x hx => ?_
    obtain ⟨es, a1⟩ := x
    obtain ⟨sc1, u1, rfl, k1, -⟩ := visitStatement_keeps hx
    exact after_ren (ih (by rw [k1]; exact hb))

theorem analyze_ren {v : Version} (hr : Inj r) {sc : Scope F} {u : Nat} (hb : BlindNTable r sc.fnTable) (p : ProgramAst F) :
    analyze fo (renAnalyzer r ⟨v, [sc], u⟩) (renProgram r p)
      = (analyze fo ⟨v, [sc], u⟩ p).mapE fun x => (renAnalyzer r x.1, renResult r x.2) := by
  unfold analyze
  refine mapE_bind (f := fun x => (renAnalyzer r x.1, renResult r x.2)) ?_ fun x _ => ?_
  · unfold visitProgram
    refine mapE_bind (visitBlock_ren hr _ hb) fun x _ => ?_
    obtain ⟨es, a⟩ := x
    obtain ⟨v', scs, u'⟩ := a
    cases scs with
    | nil => rfl
    | cons s ss =>
      have hv := congrArg Prod.fst (visitVersion_ren (r := r) v p.version)
      simp only [renLog] at hv
      simp only [renLog, renAnalyzer, renProgram, List.map_cons, Res.mapE, renResult, Option.map_some, List.map_append, ← hv]
      rfl
  · obtain ⟨a, root, errs⟩ := x
    have : (Option.map SProgram.wellFormed (Option.map (renSProgram r) root)).getD false
        = (Option.map SProgram.wellFormed root).getD false := by
      cases root <;> simp [wellFormed_ren]
    simp only [renResult, List.isEmpty_map, this]
    split <;> rfl

theorem renAnalyzer_default (hr : Renaming r) (v : Version) :
    renAnalyzer r (⟨v, [defaultScope fo], 0⟩ : Analyzer F) = ⟨v, [defaultScope fo], 0⟩ := by
  have : (defaultVars fo).map (fun e => (r e.1, renValue r e.2)) = defaultVars fo := by
    have h := hr.constants
    simp only [constantNames, List.mem_cons, List.not_mem_nil, or_false] at h
    unfold defaultVars
    simp only [List.map_cons, List.map_nil, h _ (.inl rfl), h _ (.inr (.inl rfl)), h _ (.inr (.inr (.inl rfl))),
      h _ (.inr (.inr (.inr (.inl rfl)))), h _ (.inr (.inr (.inr (.inr rfl))))]
    rfl
  simp only [renAnalyzer, List.map_cons, List.map_nil, renScope, defaultScope, this]

theorem analyze_ren_default {v : Version} {a : Analyzer F} (ha : Analyzer.default fo v = .ok a) (hr : Renaming r) (p : ProgramAst F) :
    analyze fo a (renProgram r p) = (analyze fo a p).mapE fun x => (renAnalyzer r x.1, renResult r x.2) := by
  cases hv : Version.eq v [3, 0] with
  | false => rw [default_none fo v hv] at ha; simp at ha
  | true =>
    rw [default_eq fo v hv] at ha
    cases ha
    have hp := analyze_ren (fo := fo) (v := v) (u := 0) (sc := defaultScope fo) hr.injective (defaultFns_blindN fo) p
    rwa [renAnalyzer_default hr] at hp

/-- C80. A default analyser makes of a program with renamed variables exactly what it makes of the program, with the variables
renamed: the same statements with the same operands, the same types, the same errors in the same order and at the same places.
It does not matter how variables are called, as long as different variables are called differently and not like a constant. -/
theorem C80_renaming {v : Version} {a : Analyzer F} (ha : Analyzer.default fo v = .ok a) (hr : Renaming r) (p : ProgramAst F) :
    Renamed r (analyze fo a p) (analyze fo a (renProgram r p)) := by
  rw [analyze_ren_default ha hr]
  cases analyze fo a p with
  | err e => cases e
  | _ => simp [Res.mapE, Renamed]

theorem C80_swap {x y : Str} (hx : x ∉ constantNames) (hy : y ∉ constantNames) : Renaming (swap x y) := by
  refine ⟨fun m n h => ?_, fun n hn => ?_⟩
  · unfold swap at h
    repeat' split at h
    all_goals simp_all
  · have h1 : n ≠ x := fun e => hx (e ▸ hn)
    have h2 : n ≠ y := fun e => hy (e ▸ hn)
    simp [swap, h1, h2]

/-- A program that declares `q`, uses it and an unknown `b`, and declares `q` again: after calling `q` `b` and `b` `q`, the errors name
the other variable. -/
example : Renaming (swap c!"q" c!"b") ∧
    ∃ a, Analyzer.default Sample.fo [3, 0] = .ok a ∧
      ((analyze Sample.fo a Sample.twice).mapE fun x => x.2.errors.map Err.message)
        = .ok [c!"failed to resolve variable 'b'", c!"trying to redeclare variable 'q'"] ∧
      ((analyze Sample.fo a (renProgram (swap c!"q" c!"b") Sample.twice)).mapE fun x => x.2.errors.map Err.message)
        = .ok [c!"failed to resolve variable 'q'", c!"trying to redeclare variable 'b'"] := by
  refine ⟨C80_swap (by decide) (by decide), _, default_eq Sample.fo [3, 0] rfl, ?_, ?_⟩ <;> decide +kernel

/-! ## Texts -/

theorem same_tokens {ts ts' : List Token} (h : ts.map (fun t => (t.kind, t.text)) = ts'.map fun t => (t.kind, t.text)) {us us' : List Token}
    {e e' : Token} (he : ts = us ++ [e]) (he' : ts' = us' ++ [e']) (hk : e'.kind = eof) {pr : PProgram} (hp : Program Chosen ts pr) :
    ∃ pr', Program Chosen ts' pr' ∧ DressedProgram pr pr' := by
  subst he he'
  rw [List.map_append, List.map_append] at h
  have h := (List.append_inj' h rfl).1
  refine program_same_pieces hk ?_ hp
  have hs (l : List Token) := pieces_map (p := isSep) (q := fun p : TokKind × Str => separatorKinds.contains p.1)
    (f := fun t : Token => (t.kind, t.text)) (fun a => rfl) l
  rw [← hs, ← hs, h]

theorem renToken_seen (ts : List Token) :
    (ts.map (renToken r)).map (fun t => (t.kind, t.text)) = (ts.map fun t => (t.kind, t.text)).map (renSeen r) := by
  rw [List.map_map, List.map_map]
  rfl

theorem representable_ren {stod : Str → Option F} {t t' : Token} (h : (t'.kind, t'.text) = renSeen r (t.kind, t.text)) :
    Representable stod t' ↔ Representable stod t := by
  simp only [renSeen, Prod.mk.injEq] at h
  unfold Representable
  rw [h.1, h.2]
  cases t.kind <;> simp

/-- C80. The text in which identifiers are renamed has an AST if the text has one. If only variables are renamed, it is the AST with
renamed variables, up to positions. -/
theorem C80_text (an : Antlr F) {text text' : Str} (file file' : Option Str) {us : List (TokKind × Str)} (h : seen text = some us)
    (h' : seen text' = some (us.map (renSeen r))) :
    ((∃ p, parseString an text file = .ok ⟨some p, []⟩) ↔ ∃ p', parseString an text' file' = .ok ⟨some p', []⟩) ∧
      ∀ p, parseString an text file = .ok ⟨some p, []⟩ → OnlyVariables r p →
        ∃ p', parseString an text' file' = .ok ⟨some p', []⟩ ∧ stripProgram p' = stripProgram (renProgram r p) := by
  obtain ⟨ts, hl, rfl⟩ := lex_of_seen h
  obtain ⟨ts', hl', hts⟩ := lex_of_seen h'
  obtain ⟨ws, e, hw, he, -⟩ := lex_ends hl
  obtain ⟨ws', e', hw', he', -⟩ := lex_ends hl'
  have hm : (ts.map (renToken r)).map (fun t => (t.kind, t.text)) = ts'.map fun t => (t.kind, t.text) := by
    rw [renToken_seen]; exact hts.symm
  have hw1 : ts.map (renToken r) = ws.map (renToken r) ++ [renToken r e] := by rw [hw, List.map_append]; rfl
  have key : ∀ p, parseString an text file = .ok ⟨some p, []⟩ →
      ∃ p', parseString an text' file' = .ok ⟨some p', []⟩ ∧ (OnlyVariables r p → stripProgram p' = stripProgram (renProgram r p)) := by
    intro p hp
    obtain ⟨ts1, pr, e1, hc, ht⟩ := (C48_ast an text file p).1 hp
    rw [hl] at e1; cases e1
    obtain ⟨q, hq, hqo⟩ := programTree_ren (r := r) (program_mono (fun _ _ h => h.1) hc) ht
    have hc1 : Program Chosen (ts.map (renToken r)) (mapP (renToken r) pr) := by
      rw [← parse_iff, parse_map renToken_kind, (parse_iff ts pr).2 hc]; rfl
    obtain ⟨pr', hc', hd⟩ := same_tokens hm hw1 hw' he' hc1
    obtain ⟨p', h1, h2⟩ := (outcomes_program (stod := an.stod) (f := file) (f' := file') hd).1 q hq
    exact ⟨p', (C48_ast an text' file' p').2 ⟨_, pr', hl', hc', h1⟩, fun ho => h2.trans (hqo ho)⟩
  refine ⟨⟨fun ⟨p, hp⟩ => ?_, fun ⟨p', hp'⟩ => ?_⟩, fun p hp ho => ?_⟩
  · obtain ⟨p', h1, -⟩ := key p hp
    exact ⟨p', h1⟩
  · obtain ⟨ts1, pr', e1, hc', -⟩ := (C48_ast an text' file' p').1 hp'
    rw [hl'] at e1; cases e1
    obtain ⟨pr1, hc1, -⟩ := same_tokens hm.symm hw' hw1 he hc'
    have hpr := parse_map (renToken_kind (r := r)) ts
    rw [(parse_iff _ _).2 hc1] at hpr
    cases hpp : parse ts with
    | none => rw [hpp] at hpr; cases hpr
    | some pr =>
      refine (C43_accepted an text file ts pr hl ((parse_iff ts pr).1 hpp)).2 fun t ht => ?_
      have hr := (C43_accepted an text' file' ts' pr' hl' hc').1 ⟨p', hp'⟩
      have : renSeen r (t.kind, t.text) ∈ ts'.map fun t => (t.kind, t.text) := by
        rw [← hm, renToken_seen]
        exact List.mem_map_of_mem (List.mem_map_of_mem (f := fun t : Token => (t.kind, t.text)) ht)
      obtain ⟨t', ht', hx⟩ := List.mem_map.1 this
      exact (representable_ren hx).1 (hr t' ht')
  · obtain ⟨p', h1, h2⟩ := key p hp
    exact ⟨p', h1, h2 ho⟩

/-- The two texts differ in the name of the variable. The first has an AST in which it is only the name of a variable. -/
example : seen c!"version 3; qubit q; X q" = some [(TokKind.version, c!"version"), (versionNumber, c!"3"), (semicolon, c!";"),
      (qubitType, c!"qubit"), (identifier, c!"q"), (semicolon, c!";"), (identifier, c!"X"), (identifier, c!"q"), (eof, c!"<EOF>")] ∧
    (seen c!"version 3; qubit q; X q").map (List.map (renSeen (swap c!"q" c!"data"))) = seen c!"version 3; qubit data; X data" ∧
    ∃ p, parseString Sample.antlr c!"version 3; qubit q; X q" none = .ok ⟨some p, []⟩ ∧ OnlyVariables (swap c!"q" c!"data") p := by
  refine ⟨by decide +kernel, by decide +kernel, _, rfl, ?_⟩
  intro s hs n hn
  simp only [List.mem_cons, List.not_mem_nil, or_false] at hs
  rcases hs with rfl | rfl
  · simp [otherNames] at hn
  · simp only [otherNames, gateNames, callsList, calls, List.mem_append, List.mem_cons, List.not_mem_nil, or_false] at hn
    subst hn
    decide

theorem renamedElsewhere_of {x y z : Res Empty (Analyzer F × Result (SProgram F))} (h : Renamed r x y) (h' : SameOutcome y z) :
    RenamedElsewhere r (x.mapErr (Empty.elim : Empty → Err)) (z.mapErr Empty.elim) := by
  cases x with
  | ok x =>
    cases y with
    | ok y =>
      cases z with
      | ok z =>
        simp only [Renamed] at h
        simp only [SameOutcome, h] at h'
        exact h'
      | _ => cases h'
    | _ => cases h
  | err e => cases e
  | exn c => cases y <;> cases z <;> simp_all [Renamed, SameOutcome, RenamedElsewhere, Res.mapErr]
  | ub => cases y <;> cases z <;> simp_all [Renamed, SameOutcome, RenamedElsewhere, Res.mapErr]

/-- C80. Renaming the variables in a text renames them in what a default analyser makes of the text, and changes positions at most
beyond that. -/
theorem C80_text_analysis {v : Version} {a : Analyzer F} (ha : Analyzer.default fo v = .ok a) (an : Antlr F) {text text' : Str}
    (file file' : Option Str) {us : List (TokKind × Str)} (h : seen text = some us) (h' : seen text' = some (us.map (renSeen r)))
    (hr : Renaming r) {p : ProgramAst F} (hp : parseString an text file = .ok ⟨some p, []⟩) (ho : OnlyVariables r p) :
    RenamedElsewhere r (analyzeString fo an a text file) (analyzeString fo an a text' file') := by
  obtain ⟨p', h1, h2⟩ := (C80_text an file file' h h').2 p hp ho
  unfold analyzeString
  rw [hp, h1]
  exact renamedElsewhere_of (C80_renaming ha hr p) (C67_positions (.fresh ha) h2.symm)

end Qasm
