import Verif.Lemmas.Lines
import Verif.Lemmas.RenameParser
import Verif.Lemmas.FrameScopes
import Verif.Lemmas.Independent
import Verif.Lemmas.Reach
import Verif.Props.Text
/-!
# Helper lemmas: what the texts of assembly declarations influence
-/

namespace Qasm
namespace Lines

open Spec TokKind Parser

/-! ## Parse trees -/

/-- New lines and, if wanted, raw strings in the form of Unix. -/
def tidy (raw : Bool) (t : Token) : Token :=
  if t.kind = newLine ∨ t.kind = rawTextString ∧ raw = true then { t with text := unix t.text } else t

theorem tidy_kind (raw : Bool) (t : Token) : (tidy raw t).kind = t.kind := by unfold tidy; split <;> rfl

theorem tidy_other {raw : Bool} {t : Token} (h1 : t.kind ≠ newLine) (h2 : t.kind ≠ rawTextString) : tidy raw t = t := by
  simp [tidy, h1, h2]

theorem tidy_is {raw : Bool} {t : Token} {k : TokKind} (h : t.kind = k) (h1 : k ≠ newLine := by decide) (h2 : k ≠ rawTextString := by decide) :
    tidy raw t = t := tidy_other (h ▸ h1) (h ▸ h2)

theorem tidy_mem {raw : Bool} {t : Token} {ks : List TokKind} (h : t.kind ∈ ks) (h1 : newLine ∉ ks := by decide)
    (h2 : rawTextString ∉ ks := by decide) : tidy raw t = t :=
  tidy_other (fun e => h1 (e ▸ h)) (fun e => h2 (e ▸ h))

theorem alike_tidy {t u : Token} (h : AlikeToken t u) : tidy true t = tidy true u := by
  obtain ⟨h1, h2, h3, h4, h5⟩ := h
  obtain ⟨k, w, l, c⟩ := t
  obtain ⟨k', w', l', c'⟩ := u
  simp only at h1 h2 h3 h4 h5
  subst h1 h2 h3
  unfold tidy
  split
  · simp [h4]
  · rename_i hk
    simp only [and_true, not_or] at hk
    rw [h5 hk.1 hk.2]

theorem alike_tidy_false {t u : Token} (h : AlikeToken t u) (hl : t.kind = rawTextString → '\n' ∉ t.text) : tidy false t = tidy false u := by
  obtain ⟨h1, h2, h3, h4, h5⟩ := h
  obtain ⟨k, w, l, c⟩ := t
  obtain ⟨k', w', l', c'⟩ := u
  simp only at h1 h2 h3 h4 h5 hl
  subst h1 h2 h3
  unfold tidy
  split
  · simp [h4]
  · rename_i hk
    simp only [and_false, or_false, Bool.false_eq_true] at hk
    by_cases hr : k = rawTextString
    · rw [same_plain h4 (hl hr)]
    · rw [h5 hk hr]

/-- Phrases do not contain new lines and raw strings. -/
def Same (f : Token → Token) : Phrase → Prop
  | .expr e => mapE f e = e
  | .exprs es => mapEs f es = es
  | .entry i => mapI f i = i
  | .entries is => mapIs f is = is

theorem derives_same {raw : Bool} {us : List Token} {x : Phrase} (h : Derives us x) : Same (tidy raw) x := by
  induction h with
  | parens _ _ _ ih => simp only [Same, mapE] at ih ⊢; rw [ih]
  | pre ho _ ih => simp only [Same, mapE] at ih ⊢; rw [ih, tidy_mem ho]
  | bin _ ho _ ih ih' => simp only [Same, mapE] at ih ih' ⊢; rw [ih, ih', tidy_mem ho]
  | tern _ ho _ _ _ ih ih' ih'' => simp only [Same, mapE] at ih ih' ih'' ⊢; rw [ih, ih', ih'', tidy_is ho]
  | call0 hn _ _ => simp only [Same, mapE, mapEs]; rw [tidy_is hn]
  | call hn _ _ _ ih => simp only [Same, mapE] at ih ⊢; rw [ih, tidy_is hn]
  | index hn _ _ _ ih => simp only [Same, mapE] at ih ⊢; rw [ih, tidy_is hn]
  | atom h => simp only [Same, mapE]; rw [tidy_mem h]
  | expr1 _ ih => simp only [Same, mapEs] at ih ⊢; rw [ih]
  | item _ ih => simp only [Same, mapI] at ih ⊢; rw [ih]
  | entry1 _ ih => simp only [Same, mapIs] at ih ⊢; rw [ih]
  | exprN _ _ _ ih ih' => simp only [Same, mapEs] at ih ih' ⊢; rw [ih, ih']
  | range _ _ _ ih ih' => simp only [Same, mapI] at ih ih' ⊢; rw [ih, ih']
  | entryN _ _ _ ih ih' => simp only [Same, mapIs] at ih ih' ⊢; rw [ih, ih']

theorem gate_same {raw : Bool} {us : List Token} {g : PGate} (h : DerivesGate us g) : mapG (tidy raw) g = g := by
  induction h with
  | inv hk _ _ ih => rw [mapG, ih, tidy_is hk]
  | ctrl hk _ _ ih => rw [mapG, ih, tidy_is hk]
  | pow hk _ he _ _ _ ih => rw [mapG, ih, tidy_is hk, show mapE _ _ = _ from derives_same he]
  | named hn => rw [mapG, tidy_is hn]; rfl
  | parameters hn _ he _ => rw [mapG, tidy_is hn, Option.map_some, show mapEs _ _ = _ from derives_same he]

/-- The statement with the raw string in the form of Unix. -/
def tidyS (raw : Bool) : PStmt → PStmt
  | .asm n t => .asm n (tidy raw t)
  | s => s

theorem stmt_same {raw : Bool} {us : List Token} {s : PStmt} (h : DerivesStmt us s) : mapS (tidy raw) s = tidyS raw s := by
  cases h with
  | var hk hn => simp only [mapS, tidyS, Option.map_none]; rw [tidy_mem hk, tidy_is hn]
  | array hk _ hn hc hi => simp only [mapS, tidyS, Option.map_some]; rw [tidy_mem hk, tidy_is hn, tidy_is hc, tidy_is hi]
  | gate hg he => simp only [mapS, tidyS]; rw [gate_same hg, show mapEs _ _ = _ from derives_same he]
  | measure hb _ hk hq =>
    simp only [mapS, tidyS, Option.map_none]
    rw [tidy_is hk, show mapE _ _ = _ from derives_same hb, show mapE _ _ = _ from derives_same hq]
  | measureParameters hb _ hk _ hp _ hq =>
    simp only [mapS, tidyS, Option.map_some]
    rw [tidy_is hk, show mapE _ _ = _ from derives_same hb, show mapE _ _ = _ from derives_same hq, show mapEs _ _ = _ from derives_same hp]
  | simple hk he => simp only [mapS, tidyS]; rw [tidy_mem hk, show mapE _ _ = _ from derives_same he]
  | wait hk _ hp _ he =>
    simp only [mapS, tidyS]
    rw [tidy_is hk, show mapE _ _ = _ from derives_same hp, show mapE _ _ = _ from derives_same he]
  | asm _ _ hn _ _ => simp only [mapS, tidyS]; rw [tidy_is hn]

theorem block_same {raw : Bool} {us : List Token} {ss : List PStmt} (h : Block DerivesStmt us ss) : ss.map (mapS (tidy raw)) = ss.map (tidyS raw) := by
  induction h with
  | nil => rfl
  | cons _ _ hr _ ih => rw [List.map_cons, List.map_cons, ih, stmt_same hr]

theorem program_same {raw : Bool} {us : List Token} {p : PProgram} (h : Program DerivesStmt us p) :
    mapP (tidy raw) p = ⟨p.version, p.statements.map (tidyS raw)⟩ := by
  cases h with
  | mk _ _ hn hb => simp only [mapP, block_same hb]; rw [tidy_is hn]

theorem tidyS_false (s : PStmt) (h : ∀ n t, s = .asm n t → t.kind ≠ newLine) : tidyS false s = s := by
  cases s with
  | asm n t => simp [tidyS, tidy, h n t rfl]
  | _ => rfl

/-- The raw strings of assembly declarations have their form. -/
def Quoted (s : PStmt) : Prop := ∀ n t, s = .asm n t → t.kind = rawTextString ∧ ∃ u, t.text = c!"'''" ++ u ++ c!"'''"

theorem block_quoted {us : List Token} {ss : List PStmt} (h : Block DerivesStmt us ss)
    (hq : ∀ t ∈ us, t.kind = rawTextString → ∃ u, t.text = c!"'''" ++ u ++ c!"'''") : ∀ s ∈ ss, Quoted s := by
  induction h with
  | nil => simp
  | @cons seps us vs s ss _ _ hr _ ih =>
    intro s' hs'
    rcases List.mem_cons.1 hs' with rfl | hs'
    · rintro n t rfl
      cases hr with
      | asm _ _ _ _ hr => exact ⟨hr, hq t (by simp) hr⟩
    · exact ih (fun t ht => hq t (List.mem_append_right _ ht)) s' hs'

theorem tokens_quoted {s : Str} {ts : List Token} (h : Lexer.lex s = .ok ts) :
    ∀ t ∈ ts, t.kind = rawTextString → ∃ u, t.text = c!"'''" ++ u ++ c!"'''" := by
  have key : ∀ {m m' : Lexer.Mode} {s rest : Str} {segs : List (TokKind × Str)}, Cut m s segs m' rest → ∀ b, ∀ t ∈ tokensOf b segs,
      t.kind = rawTextString → ∃ u, t.text = c!"'''" ++ u ++ c!"'''" := by
    intro m m' s rest segs hc
    induction hc with
    | nil => intro b t ht; simp [tokensOf] at ht
    | @cons m m' k w s rest segs hw _ ih =>
      intro b t ht hk
      rw [tokensOf] at ht
      split at ht
      · exact ih _ t ht hk
      · rcases List.mem_cons.1 ht with rfl | ht
        · have hk : k = rawTextString := hk
          subst hk
          exact Lexer.winner_text hw
        · exact ih _ t ht hk
  obtain ⟨segs, m, rest, hc, hf⟩ := Lexer.cut_exists .default s
  rcases hf with rfl | ⟨hne, hst⟩
  · rw [Lexer.lex_of_cut hc] at h
    cases h
    intro t ht hk
    rcases List.mem_append.1 ht with ht | ht
    · exact key hc [] t ht hk
    · rw [List.mem_singleton.1 ht] at hk
      cases hk
  · rw [Lexer.lex_of_stuck hc hne hst] at h
    cases h

/-! ## Syntax trees -/

variable {F : Type}

/-- The value with a changed tree. -/
def onRes {E α : Type} (g : α → α) (x : Res E α) : Res E α := x.bind fun a => .ok (g a)

theorem stmt_code (an : Antlr F) (file : Option Str) (s : PStmt) (h : Quoted s) :
    Syn.stmt an file (tidyS true s) = onRes (codeStmt unix) (Syn.stmt an file s) := by
  have other : ∀ x : Res Err (Stmt F), (∀ t, x = .ok t → codeStmt unix t = t) → x = onRes (codeStmt unix) x := by
    intro x hx
    cases x with
    | ok t => simp [onRes, hx t rfl]
    | _ => rfl
  cases s with
  | asm n t =>
    obtain ⟨hk, u, hu⟩ := h n t rfl
    have e : (tidy true t).text = c!"'''" ++ unix u ++ c!"'''" := by
      simp only [tidy, hk, and_self, or_true, if_true, hu]
      exact unix_between (by simp [Whole]) (by simp)
    simp only [tidyS, Syn.stmt, e, hu, C53_remove_triple_quotes, Res.mapErr, onRes, Res.bind_ok, codeStmt]
  | var kw size name =>
    refine other _ fun t ht => ?_
    simp only [Syn.stmt] at ht
    obtain ⟨_, _, ht⟩ := Res.bind_eq_ok.1 ht
    cases ht; rfl
  | gate g es =>
    refine other _ fun t ht => ?_
    simp only [Syn.stmt] at ht
    obtain ⟨_, _, ht⟩ := Res.bind_eq_ok.1 ht
    obtain ⟨_, _, ht⟩ := Res.bind_eq_ok.1 ht
    cases ht; rfl
  | measure kw ps b q =>
    refine other _ fun t ht => ?_
    simp only [Syn.stmt] at ht
    obtain ⟨_, _, ht⟩ := Res.bind_eq_ok.1 ht
    obtain ⟨_, _, ht⟩ := Res.bind_eq_ok.1 ht
    obtain ⟨_, _, ht⟩ := Res.bind_eq_ok.1 ht
    cases ht; rfl
  | simple kw e =>
    refine other _ fun t ht => ?_
    simp only [Syn.stmt] at ht
    obtain ⟨_, _, ht⟩ := Res.bind_eq_ok.1 ht
    cases ht; rfl
  | wait kw p e =>
    refine other _ fun t ht => ?_
    simp only [Syn.stmt] at ht
    obtain ⟨_, _, ht⟩ := Res.bind_eq_ok.1 ht
    obtain ⟨_, _, ht⟩ := Res.bind_eq_ok.1 ht
    cases ht; rfl

theorem stmts_code (an : Antlr F) (file : Option Str) (ss : List PStmt) (h : ∀ s ∈ ss, Quoted s) :
    Syn.stmts an file (ss.map (tidyS true)) = onRes (List.map (codeStmt unix)) (Syn.stmts an file ss) := by
  induction ss with
  | nil => rfl
  | cons s ss ih =>
    rw [List.map_cons, Syn.stmts, Syn.stmts, stmt_code an file s (h s (by simp)), ih fun t ht => h t (by simp [ht])]
    cases Syn.stmt an file s with
    | ok v => cases Syn.stmts an file ss <;> rfl
    | _ => rfl

theorem program_code (an : Antlr F) (file : Option Str) (p : PProgram) (h : ∀ s ∈ p.statements, Quoted s) :
    Syn.program an file ⟨p.version, p.statements.map (tidyS true)⟩ = onRes (codeProgram unix) (Syn.program an file p) := by
  rw [Syn.program, Syn.program, stmts_code an file _ h]
  cases Syn.version file p.version with
  | ok v => cases Syn.stmts an file p.statements <;> rfl
  | _ => rfl

theorem wellFormed_code (f : Str → Str) (p : ProgramAst F) : Syn.wellFormed (codeProgram f p) = Syn.wellFormed p := by
  have : ∀ s : Stmt F, Syn.wfStmt (codeStmt f s) = Syn.wfStmt s := by intro s; cases s <;> rfl
  simp only [Syn.wellFormed, codeProgram, List.all_map]
  congr 2
  all_goals (try (funext s; exact this s))

/-! ## The analysis -/

open Sem

variable {fo : FloatOps F}

/-- The scope with the texts of assembly declarations changed. -/
def codeScope (f : Str → Str) (sc : Scope F) : Scope F := { sc with block := codeSBlock f sc.block }

/-- The analyser with the texts of assembly declarations in its current scope changed. -/
def codeAnalyzer (f : Str → Str) (a : Analyzer F) : Analyzer F :=
  match a.scopes with
  | [] => a
  | sc :: rest => { a with scopes := codeScope f sc :: rest }

theorem block_code (f : Str → Str) (b : SBlock F) (ts : List (SStatement F)) :
    codeSBlock f (blockAfter b ts) = blockAfter (codeSBlock f b) (ts.map (codeSStatement f)) := by
  induction ts generalizing b with
  | nil => rfl
  | cons t ts ih =>
    have e : codeSBlock f (addTo b t) = addTo (codeSBlock f b) (codeSStatement f t) := by
      cases t <;> simp [codeSBlock, addTo, codeSStatement, SStatement.loc]
    simp only [blockAfter, List.map_cons, List.foldl_cons] at ih ⊢
    rw [ih, e]

theorem apply_code (f : Str → Str) (x : Effect F) (sc : Scope F) (h : x.statements.map (codeSStatement f) = x.statements) :
    codeScope f (x.apply sc) = x.apply (codeScope f sc) := by
  simp only [codeScope, Effect.apply, block_code, h]

/-- Only assembly declarations add assembly declarations. -/
theorem adds_code (f : Str → Str) {v : Version} {sc : Scope F} {rest : List (Scope F)} {u : Nat} {s : Stmt F} {es : List Err} {a' : Analyzer F}
    (hs : ∀ l as n c, s ≠ .asm l as n c) (h : visitStatement fo ⟨v, sc :: rest, u⟩ s = .ok (es, a')) :
    ∃ sc' ts, a'.scopes = sc' :: rest ∧ sc'.block.statements = sc.block.statements ++ ts ∧ ts.map (codeSStatement f) = ts := by
  cases s with
  | asm => exact absurd rfl (hs _ _ _ _)
  | var l as name typ =>
    simp only [visitStatement, visitVariable] at h
    split at h
    · cases h; exact ⟨sc, [], rfl, by simp, rfl⟩
    · cases h
    · cases h
    · obtain ⟨r, -, h⟩ := bind_ok_iff.1 h
      obtain ⟨es1, h⟩ := after_eq_ok h
      simp only [Analyzer.addVariable, Analyzer.modifyCurrent, Analyzer.registerVariable, catchInto, Res.bind_ok] at h
      cases ht : sc.variableTable.add name.name ⟨.variableRef (SVariable.link (⟨u, name.name, _, r.2, name.loc⟩ : SVariable F)), none⟩ with
      | ok tb => rw [ht] at h; cases h; exact ⟨_, [], rfl, by simp, rfl⟩
      | err e => rw [ht] at h; cases h; exact ⟨_, [], rfl, by simp, rfl⟩
      | exn c => rw [ht] at h; cases h
      | ub => rw [ht] at h; cases h
  | gate l as g ops =>
    simp only [visitStatement, visitGateInstruction, bind_ok_iff] at h
    obtain ⟨r, -, h⟩ := h
    obtain ⟨es1, h⟩ := after_eq_ok h
    split at h
    · cases h; exact ⟨sc, [], rfl, by simp, rfl⟩
    · split at h
      · cases h; exact ⟨sc, [], rfl, by simp, rfl⟩
      · cases h
      · cases h
      · obtain ⟨ra, -, h⟩ := bind_ok_iff.1 h
        obtain ⟨es2, h⟩ := after_eq_ok h
        rw [catch_add] at h
        cases h
        exact ⟨_, [_], rfl, by rw [addOpt_statements]; rfl, rfl⟩
  | nonGate l as n ops ps =>
    simp only [visitStatement, visitNonGateInstruction] at h
    split at h
    · cases h; exact ⟨sc, [], rfl, by simp, rfl⟩
    · cases h
    · cases h
    · obtain ⟨ra, -, h⟩ := bind_ok_iff.1 h
      obtain ⟨es2, h⟩ := after_eq_ok h
      rw [catch_add] at h
      cases h
      exact ⟨_, [_], rfl, by rw [addOpt_statements]; rfl, rfl⟩

theorem bare_code (f : Str → Str) (sc : Scope F) (rest : List (Scope F)) : (codeScope f sc :: rest).map bare = (sc :: rest).map bare := rfl

theorem visitStatement_code (f : Str → Str) (v : Version) (sc : Scope F) (rest : List (Scope F)) (u : Nat) (s : Stmt F) :
    visitStatement fo ⟨v, codeScope f sc :: rest, u⟩ (codeStmt f s)
      = onRes (fun x => (x.1, codeAnalyzer f x.2)) (visitStatement fo ⟨v, sc :: rest, u⟩ s) := by
  by_cases hs : ∀ l as n c, s ≠ .asm l as n c
  · have e : codeStmt f s = s := by
      cases s with
      | asm l as n c => exact absurd rfl (hs l as n c)
      | _ => rfl
    obtain ⟨r, -, hr⟩ := visitStatement_effect fo ((sc :: rest).map bare) u s
    have h1 := hr v sc rest rfl
    rw [e, h1, hr v (codeScope f sc) rest (bare_code f sc rest)]
    cases r with
    | err x => exact x.elim
    | exn c => rfl
    | ub => rfl
    | ok x =>
      rw [Res.bind_ok] at h1
      obtain ⟨sc', ts, g1, g2, g3⟩ := adds_code f hs h1
      simp only [List.cons.injEq, and_true] at g1
      rw [← g1, apply_statements] at g2
      have g2 := List.append_cancel_left g2
      rw [← g2] at g3
      simp only [Res.bind_ok, onRes, codeAnalyzer, apply_code f x.2 sc g3]
  · have : ∃ l as n c, s = .asm l as n c := by
      cases s with
      | asm l as n c => exact ⟨l, as, n, c, rfl⟩
      | _ => exact absurd (by intros; simp) hs
    obtain ⟨l, as, n, c, rfl⟩ := this
    have hv : visitAnnotations fo (codeScope f sc :: rest) as = visitAnnotations fo (sc :: rest) as := by
      rw [← visitAnnotations_bares fo (codeScope f sc :: rest), bare_code, visitAnnotations_bares]
    simp only [visitStatement, codeStmt, visitAsmDeclaration, hv]
    cases visitAnnotations fo (sc :: rest) as with
    | err x => exact x.elim
    | exn c => rfl
    | ub => rfl
    | ok ra =>
      simp only [Res.bind_ok, Analyzer.addStatement, Analyzer.modifyCurrent, catchInto, after_ok, onRes, codeAnalyzer, codeScope]
      simp [codeSBlock, codeSStatement, SStatement.loc]

theorem visitBlock_code (f : Str → Str) (v : Version) (ss : List (Stmt F)) : ∀ (sc : Scope F) (rest : List (Scope F)) (u : Nat),
    visitBlock fo ⟨v, codeScope f sc :: rest, u⟩ (ss.map (codeStmt f))
      = onRes (fun x => (x.1, codeAnalyzer f x.2)) (visitBlock fo ⟨v, sc :: rest, u⟩ ss) := by
  induction ss with
  | nil => intro sc rest u; rfl
  | cons s ss ih =>
    intro sc rest u
    rw [List.map_cons, visitBlock, visitBlock, visitStatement_code]
    obtain ⟨r, -, hr⟩ := visitStatement_effect fo ((sc :: rest).map bare) u s
    rw [hr v sc rest rfl]
    cases r with
    | err x => exact x.elim
    | exn c => rfl
    | ub => rfl
    | ok x =>
      simp only [Res.bind_ok, onRes, codeAnalyzer]
      rw [ih]
      cases visitBlock fo ⟨v, x.2.apply sc :: rest, x.2.nextUid⟩ ss with
      | err y => exact y.elim
      | _ => rfl

/-- The result and the analyser, with changed texts of assembly declarations. -/
def both (f : Str → Str) (x : Analyzer F × Result (SProgram F)) : Analyzer F × Result (SProgram F) :=
  (codeAnalyzer f x.1, onTree (codeSProgram f) x.2)

theorem analyze_code (f : Str → Str) (v : Version) (sc : Scope F) (rest : List (Scope F)) (u : Nat) (p : ProgramAst F) :
    analyze fo ⟨v, codeScope f sc :: rest, u⟩ (codeProgram f p) = onRes (both f) (analyze fo ⟨v, sc :: rest, u⟩ p) := by
  have wf : ∀ r : SProgram F, (codeSProgram f r).wellFormed = r.wellFormed := by
    intro r
    have hv : ∀ t : SStatement F, SProgram.statementValues (codeSStatement f t) = SProgram.statementValues t := by
      intro t; cases t <;> rfl
    simp only [SProgram.wellFormed, SProgram.values, codeSProgram, codeSBlock, List.flatMap_map, hv]
  unfold analyze visitProgram
  simp only [codeProgram, visitBlock_code]
  cases visitBlock fo ⟨v, sc :: rest, u⟩ p.block.statements with
  | err y => exact y.elim
  | exn c => rfl
  | ub => rfl
  | ok x =>
    obtain ⟨es, v', scs, u'⟩ := x
    cases scs with
    | nil => rfl
    | cons sc' rest' =>
      simp only [onRes, Res.bind_ok, codeAnalyzer]
      have := wf ⟨v, (visitVersion v p.version).2, sc'.block, sc'.variables⟩
      simp only [codeSProgram] at this
      simp only [codeScope, Option.map_some, Option.getD_some, this]
      split <;> rfl

end Lines
end Qasm
