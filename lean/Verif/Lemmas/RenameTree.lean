import Verif.Lemmas.RenameParser
import Verif.Lemmas.Dressed
/-!
# Helper lemmas: the trees of tokens with renamed identifiers
-/

namespace Qasm

open Spec TokKind

variable {F : Type} {r : Str → Str} {stod : Str → Option F} {file : Option Str}

/-- The token with the identifier renamed. -/
def renToken (r : Str → Str) (t : Token) : Token := { t with text := if t.kind = identifier then r t.text else t.text }

theorem renToken_kind (t : Token) : (renToken r t).kind = t.kind := rfl

theorem renToken_ident {t : Token} (h : t.kind = identifier) : (renToken r t).text = r t.text := by simp [renToken, h]

theorem renToken_other {t : Token} (h : t.kind ≠ identifier) : (renToken r t).text = t.text := by simp [renToken, h]

/-- The phrase with renamed identifiers. -/
def renPhrase (r : Str → Str) : Phrase → Phrase
  | .expr e => .expr (mapE (renToken r) e)
  | .exprs es => .exprs (mapEs (renToken r) es)
  | .entry i => .entry (mapI (renToken r) i)
  | .entries is => .entries (mapIs (renToken r) is)

/-- The second node is the first with renamed variables, up to positions, if no function is renamed. -/
def SameNode (r : Str → Str) : Node F → Node F → Prop
  | .expr e, .expr e' => (∀ n ∈ calls e, r n = n) → stripExpr e' = stripExpr (renExpr r e)
  | .exprs es, .exprs es' => (∀ n ∈ callsList es, r n = n) → stripExprs es' = stripExprs (renExprs r es)
  | .entry i, .entry i' => (∀ n ∈ callsEntry i, r n = n) → stripEntry i' = stripEntry (renEntry r i)
  | .entries is, .entries is' => (∀ n ∈ callsEntries is, r n = n) → stripEntries is' = stripEntries (renEntries r is)
  | _, _ => False

theorem sameNode_expr {e : Expr F} {v : Node F} (h : SameNode r (.expr e) v) :
    ∃ e', v = .expr e' ∧ ((∀ n ∈ calls e, r n = n) → stripExpr e' = stripExpr (renExpr r e)) := by
  cases v <;> first | exact ⟨_, rfl, h⟩ | cases h
theorem sameNode_exprs {e : List (Expr F)} {v : Node F} (h : SameNode r (.exprs e) v) :
    ∃ e', v = .exprs e' ∧ ((∀ n ∈ callsList e, r n = n) → stripExprs e' = stripExprs (renExprs r e)) := by
  cases v <;> first | exact ⟨_, rfl, h⟩ | cases h
theorem sameNode_entry {e : IndexEntry F} {v : Node F} (h : SameNode r (.entry e) v) :
    ∃ e', v = .entry e' ∧ ((∀ n ∈ callsEntry e, r n = n) → stripEntry e' = stripEntry (renEntry r e)) := by
  cases v <;> first | exact ⟨_, rfl, h⟩ | cases h
theorem sameNode_entries {e : List (IndexEntry F)} {v : Node F} (h : SameNode r (.entries e) v) :
    ∃ e', v = .entries e' ∧ ((∀ n ∈ callsEntries e, r n = n) → stripEntries e' = stripEntries (renEntries r e)) := by
  cases v <;> first | exact ⟨_, rfl, h⟩ | cases h

theorem tree_ren {us : List Token} {ph : Phrase} (h : Derives us ph) :
    ∀ v, Tree stod file ph v → ∃ v', Tree stod file (renPhrase r ph) v' ∧ SameNode r v v' := by
  induction h with
  | parens _ _ _ ih =>
    intro v hv
    cases hv with
    | parens hv =>
      obtain ⟨v', h1, h2⟩ := ih _ hv
      obtain ⟨e', rfl, h2⟩ := sameNode_expr h2
      exact ⟨_, .parens h1, h2⟩
  | @pre op _ _ hop _ ih =>
    intro v hv
    cases hv with
    | plus hk hv =>
      obtain ⟨v', h1, h2⟩ := ih _ hv
      obtain ⟨e', rfl, h2⟩ := sameNode_expr h2
      exact ⟨_, .plus (op := renToken r op) hk h1, h2⟩
    | pre hk _ hv =>
      obtain ⟨v', h1, h2⟩ := ih _ hv
      obtain ⟨e', rfl, h2⟩ := sameNode_expr h2
      obtain ⟨l, hl⟩ := at_exists file (renToken r op)
      refine ⟨_, .pre (op := renToken r op) hk hl h1, fun hn => ?_⟩
      simp only [stripExpr, renExpr, h2 hn]
  | @bin op _ _ _ _ _ _ _ ih1 ih2 =>
    intro v hv
    cases hv with
    | bin hk _ ha hb =>
      obtain ⟨v', h1, h2⟩ := ih1 _ ha
      obtain ⟨e', rfl, h2⟩ := sameNode_expr h2
      obtain ⟨v', h3, h4⟩ := ih2 _ hb
      obtain ⟨e', rfl, h4⟩ := sameNode_expr h4
      obtain ⟨l, hl⟩ := at_exists file (renToken r op)
      refine ⟨_, .bin (op := renToken r op) hk hl h1 h3, fun hn => ?_⟩
      simp only [calls, List.mem_append] at hn
      simp only [stripExpr, renExpr, h2 (fun n h => hn n (.inl h)), h4 (fun n h => hn n (.inr h))]
  | @tern op _ _ _ _ _ _ _ _ _ _ _ _ ih1 ih2 ih3 =>
    intro v hv
    cases hv with
    | tern _ ha hb hc =>
      obtain ⟨v', h1, h2⟩ := ih1 _ ha
      obtain ⟨e', rfl, h2⟩ := sameNode_expr h2
      obtain ⟨v', h3, h4⟩ := ih2 _ hb
      obtain ⟨e', rfl, h4⟩ := sameNode_expr h4
      obtain ⟨v', h5, h6⟩ := ih3 _ hc
      obtain ⟨e', rfl, h6⟩ := sameNode_expr h6
      obtain ⟨l, hl⟩ := at_exists file (renToken r op)
      refine ⟨_, .tern (op := renToken r op) hl h1 h3 h5, fun hn => ?_⟩
      simp only [calls, List.mem_append] at hn
      simp only [stripExpr, renExpr, h2 (fun n h => hn n (.inl (.inl h))), h4 (fun n h => hn n (.inl (.inr h))),
        h6 (fun n h => hn n (.inr h))]
  | @call0 name _ _ hn _ _ =>
    intro v hv
    cases hv with
    | call _ ha =>
      cases ha
      obtain ⟨l, hl⟩ := at_exists file (renToken r name)
      refine ⟨_, .call (name := renToken r name) hl .exprs0, fun hc => ?_⟩
      simp only [calls, List.mem_cons] at hc
      simp only [stripExpr, renExpr, renToken_ident hn, hc _ (.inl rfl), renExprs]
  | @call name _ _ _ _ hn _ _ _ ih =>
    intro v hv
    cases hv with
    | call _ ha =>
      obtain ⟨v', h1, h2⟩ := ih _ ha
      obtain ⟨e', rfl, h2⟩ := sameNode_exprs h2
      obtain ⟨l, hl⟩ := at_exists file (renToken r name)
      refine ⟨_, .call (name := renToken r name) hl h1, fun hc => ?_⟩
      simp only [calls, List.mem_cons] at hc
      simp only [stripExpr, renExpr, renToken_ident hn, hc _ (.inl rfl), h2 fun n h => hc n (.inr h)]
  | @index name _ _ _ _ hn _ _ _ ih =>
    intro v hv
    cases hv with
    | index _ ha =>
      obtain ⟨v', h1, h2⟩ := ih _ ha
      obtain ⟨e', rfl, h2⟩ := sameNode_entries h2
      obtain ⟨l, hl⟩ := at_exists file (renToken r name)
      refine ⟨_, .index (name := renToken r name) hl h1, fun hc => ?_⟩
      simp only [calls, List.nil_append] at hc
      simp only [stripExpr, renExpr, renToken_ident hn, h2 hc]
  | @atom t hk =>
    intro v hv
    obtain ⟨l, hl⟩ := at_exists file (renToken r t)
    cases hv with
    | ident hk => exact ⟨_, .ident (t := renToken r t) hk hl, fun _ => by simp only [stripExpr, renExpr, renToken_ident hk]⟩
    | true hk hx => exact ⟨_, .true (t := renToken r t) hk ((renToken_other (by simp [hk])).trans hx) hl, fun _ => rfl⟩
    | false hk hx => exact ⟨_, .false (t := renToken r t) hk ((renToken_other (by simp [hk])).trans hx) hl, fun _ => rfl⟩
    | int hk hx => exact ⟨_, .int (t := renToken r t) hk (by rw [renToken_other (by simp [hk])]; exact hx) hl, fun _ => rfl⟩
    | float hk hx => exact ⟨_, .float (t := renToken r t) hk (by rw [renToken_other (by simp [hk])]; exact hx) hl, fun _ => rfl⟩
  | expr1 _ ih =>
    intro v hv
    cases hv with
    | exprsN ha hb =>
      cases hb
      obtain ⟨v', h1, h2⟩ := ih _ ha
      obtain ⟨e', rfl, h2⟩ := sameNode_expr h2
      refine ⟨_, .exprsN h1 .exprs0, fun hn => ?_⟩
      simp only [callsList, List.append_nil] at hn
      simp only [stripExprs, renExprs, h2 hn]
  | exprN _ _ _ ih1 ih2 =>
    intro v hv
    cases hv with
    | exprsN ha hb =>
      obtain ⟨v', h1, h2⟩ := ih1 _ ha
      obtain ⟨e', rfl, h2⟩ := sameNode_expr h2
      obtain ⟨v', h3, h4⟩ := ih2 _ hb
      obtain ⟨e', rfl, h4⟩ := sameNode_exprs h4
      refine ⟨_, .exprsN h1 h3, fun hn => ?_⟩
      simp only [callsList, List.mem_append] at hn
      simp only [stripExprs, renExprs, h2 (fun n h => hn n (.inl h)), h4 (fun n h => hn n (.inr h))]
  | item _ ih =>
    intro v hv
    cases hv with
    | item ha =>
      obtain ⟨v', h1, h2⟩ := ih _ ha
      obtain ⟨e', rfl, h2⟩ := sameNode_expr h2
      refine ⟨_, .item h1, fun hn => ?_⟩
      simp only [callsEntry] at hn
      simp only [stripEntry, renEntry, h2 hn]
  | range _ _ _ ih1 ih2 =>
    intro v hv
    cases hv with
    | range ha hb =>
      obtain ⟨v', h1, h2⟩ := ih1 _ ha
      obtain ⟨e', rfl, h2⟩ := sameNode_expr h2
      obtain ⟨v', h3, h4⟩ := ih2 _ hb
      obtain ⟨e', rfl, h4⟩ := sameNode_expr h4
      refine ⟨_, .range h1 h3, fun hn => ?_⟩
      simp only [callsEntry, List.mem_append] at hn
      simp only [stripEntry, renEntry, h2 (fun n h => hn n (.inl h)), h4 (fun n h => hn n (.inr h))]
  | entry1 _ ih =>
    intro v hv
    cases hv with
    | entriesN ha hb =>
      cases hb
      obtain ⟨v', h1, h2⟩ := ih _ ha
      obtain ⟨e', rfl, h2⟩ := sameNode_entry h2
      refine ⟨_, .entriesN h1 .entries0, fun hn => ?_⟩
      simp only [callsEntries, List.append_nil] at hn
      simp only [stripEntries, renEntries, h2 hn]
  | entryN _ _ _ ih1 ih2 =>
    intro v hv
    cases hv with
    | entriesN ha hb =>
      obtain ⟨v', h1, h2⟩ := ih1 _ ha
      obtain ⟨e', rfl, h2⟩ := sameNode_entry h2
      obtain ⟨v', h3, h4⟩ := ih2 _ hb
      obtain ⟨e', rfl, h4⟩ := sameNode_entries h4
      refine ⟨_, .entriesN h1 h3, fun hn => ?_⟩
      simp only [callsEntries, List.mem_append] at hn
      simp only [stripEntries, renEntries, h2 (fun n h => hn n (.inl h)), h4 (fun n h => hn n (.inr h))]

theorem exprTree_ren {us : List Token} {e : PExpr} (h : Derives us (.expr e)) {v : Expr F} (hv : Tree stod file (.expr e) (.expr v)) :
    ∃ v', Tree stod file (.expr (mapE (renToken r) e)) (.expr v') ∧
      ((∀ n ∈ calls v, r n = n) → stripExpr v' = stripExpr (renExpr r v)) := by
  obtain ⟨v', h1, h2⟩ := tree_ren (r := r) h _ hv
  obtain ⟨e', rfl, h2⟩ := sameNode_expr h2
  exact ⟨e', h1, h2⟩

theorem exprsTree_ren {us : List Token} {e : List PExpr} (h : Derives us (.exprs e)) {v : List (Expr F)}
    (hv : Tree stod file (.exprs e) (.exprs v)) :
    ∃ v', Tree stod file (.exprs (mapEs (renToken r) e)) (.exprs v') ∧
      ((∀ n ∈ callsList v, r n = n) → stripExprs v' = stripExprs (renExprs r v)) := by
  obtain ⟨v', h1, h2⟩ := tree_ren (r := r) h _ hv
  obtain ⟨e', rfl, h2⟩ := sameNode_exprs h2
  exact ⟨e', h1, h2⟩

theorem gateTree_ren {us : List Token} {g : PGate} (h : DerivesGate us g) : ∀ v : Gate F, GateTree stod file g v →
    ∃ v', GateTree stod file (mapG (renToken r) g) v' ∧ ((∀ n ∈ gateNames v, r n = n) → stripGate v' = stripGate (renGate r v)) := by
  induction h with
  | @inv kw _ _ _ hk _ _ ih =>
    intro v hv
    cases hv with
    | inv _ hg =>
      obtain ⟨v', h1, h2⟩ := ih _ hg
      obtain ⟨l, hl⟩ := at_exists file (renToken r kw)
      refine ⟨_, .inv (kw := renToken r kw) hl h1, fun hn => ?_⟩
      simp only [gateNames, callsList, List.append_nil] at hn
      simp only [stripGate, renGate, renToken_other (t := kw) (by simp [hk]), h2 hn, List.map_nil, renExprs]
  | @ctrl kw _ _ _ hk _ _ ih =>
    intro v hv
    cases hv with
    | ctrl _ hg =>
      obtain ⟨v', h1, h2⟩ := ih _ hg
      obtain ⟨l, hl⟩ := at_exists file (renToken r kw)
      refine ⟨_, .ctrl (kw := renToken r kw) hl h1, fun hn => ?_⟩
      simp only [gateNames, callsList, List.append_nil] at hn
      simp only [stripGate, renGate, renToken_other (t := kw) (by simp [hk]), h2 hn, List.map_nil, renExprs]
  | @pow kw _ _ _ _ _ _ _ hk _ he _ _ _ ih =>
    intro v hv
    cases hv with
    | pow _ hw hg =>
      obtain ⟨v', h1, h2⟩ := ih _ hg
      obtain ⟨w', h3, h4⟩ := exprTree_ren (r := r) he hw
      obtain ⟨l, hl⟩ := at_exists file (renToken r kw)
      refine ⟨_, .pow (kw := renToken r kw) hl h3 h1, fun hn => ?_⟩
      simp only [gateNames, callsList, List.append_nil, List.mem_append] at hn
      simp only [stripGate, renGate, renToken_other (t := kw) (by simp [hk]), h2 (fun n h => hn n (.inl h)), List.map_nil, renExprs,
        stripExprs, h4 (fun n h => hn n (.inr h))]
  | @named name hk =>
    intro v hv
    cases hv with
    | named _ ha =>
      cases ha
      obtain ⟨l, hl⟩ := at_exists file (renToken r name)
      refine ⟨_, .named (name := renToken r name) (ps := none) hl .exprs0, fun hn => ?_⟩
      simp only [gateNames, List.mem_cons] at hn
      simp only [stripGate, renGate, renToken_ident hk, hn _ (.inl rfl), List.map_nil, renExprs]
  | @parameters name _ _ _ es hk _ he _ =>
    intro v hv
    cases hv with
    | named _ ha =>
      obtain ⟨w', h3, h4⟩ := exprsTree_ren (r := r) he ha
      obtain ⟨l, hl⟩ := at_exists file (renToken r name)
      refine ⟨_, .named (name := renToken r name) (ps := some (mapEs (renToken r) es)) hl h3, fun hn => ?_⟩
      simp only [gateNames, List.mem_cons] at hn
      simp only [stripGate, renGate, renToken_ident hk, hn _ (.inl rfl), List.map_nil, h4 (fun n h => hn n (.inr h))]

theorem mem_keywords_other {t : Token} {ks : List TokKind} (h : t.kind ∈ ks) (hk : identifier ∉ ks) : (renToken r t).text = t.text :=
  renToken_other fun e => hk (e ▸ h)

theorem stmtTree_ren {us : List Token} {s : PStmt} (h : DerivesStmt us s) {v : Stmt F} (hv : StmtTree stod file s v) :
    ∃ v', StmtTree stod file (mapS (renToken r) s) v' ∧ ((∀ n ∈ otherNames v, r n = n) → stripStmt v' = stripStmt (renStmt r v)) := by
  cases h with
  | @var kw name _ hn =>
    cases hv with
    | var hk _ =>
      obtain ⟨l, hl⟩ := at_exists file (renToken r name)
      obtain ⟨k, hk'⟩ := at_exists file (renToken r kw)
      exact ⟨_, .var (kw := renToken r kw) (name := renToken r name) hk hl hk', fun _ => by
        simp only [stripStmt, renStmt, renToken_ident hn, List.map_nil]⟩
  | @array kw o n c name _ _ hi _ hn =>
    cases hv with
    | array hk hx _ =>
      obtain ⟨l, hl⟩ := at_exists file (renToken r name)
      obtain ⟨k, hk'⟩ := spans_exists file (renToken r kw) (renToken r c)
      exact ⟨_, .array (kw := renToken r kw) (size := renToken r n) (c := renToken r c) (name := renToken r name) hk
        (by rw [renToken_other (by simp [hi])]; exact hx) hl hk', fun _ => by
        simp only [stripStmt, renStmt, renToken_ident hn, List.map_nil]⟩
  | gate hg he =>
    cases hv with
    | gate hg' he' =>
      obtain ⟨g', h1, h2⟩ := gateTree_ren (r := r) hg _ hg'
      obtain ⟨es', h3, h4⟩ := exprsTree_ren (r := r) he he'
      refine ⟨_, .gate h1 h3, fun hn => ?_⟩
      simp only [otherNames, List.mem_append] at hn
      simp only [stripStmt, renStmt, h2 (fun n h => hn n (.inl h)), h4 (fun n h => hn n (.inr h)), List.map_nil]
  | @measure eq kw _ _ _ _ hb _ hk hq =>
    cases hv with
    | measure _ hu hb' hq' =>
      cases hu
      obtain ⟨b', h1, h2⟩ := exprTree_ren (r := r) hb hb'
      obtain ⟨q', h3, h4⟩ := exprTree_ren (r := r) hq hq'
      obtain ⟨l, hl⟩ := at_exists file (renToken r kw)
      refine ⟨_, .measure (kw := renToken r kw) (ps := none) hl .exprs0 h1 h3, fun hn => ?_⟩
      simp only [otherNames, callsList, List.mem_append, List.append_nil] at hn
      simp only [stripStmt, renStmt, renToken_other (t := kw) (by simp [hk]), renExprs, stripExprs, h2 (fun n h => hn n (.inl h)),
        h4 (fun n h => hn n (.inr h)), List.map_nil]
  | @measureParameters eq kw _ _ _ _ _ _ _ es hb _ hk _ he _ hq =>
    cases hv with
    | measure _ hu hb' hq' =>
      obtain ⟨b', h1, h2⟩ := exprTree_ren (r := r) hb hb'
      obtain ⟨q', h3, h4⟩ := exprTree_ren (r := r) hq hq'
      obtain ⟨es', h5, h6⟩ := exprsTree_ren (r := r) he hu
      obtain ⟨l, hl⟩ := at_exists file (renToken r kw)
      refine ⟨_, .measure (kw := renToken r kw) (ps := some (mapEs (renToken r) es)) hl h5 h1 h3, fun hn => ?_⟩
      simp only [otherNames, callsList, List.mem_append, List.append_nil] at hn
      simp only [stripStmt, renStmt, renToken_other (t := kw) (by simp [hk]), renExprs, stripExprs,
        h2 (fun n h => hn n (.inl (.inl h))), h4 (fun n h => hn n (.inl (.inr h))), h6 (fun n h => hn n (.inr h)), List.map_nil]
  | @simple kw _ _ hk he =>
    cases hv with
    | simple _ he' =>
      obtain ⟨e', h1, h2⟩ := exprTree_ren (r := r) he he'
      obtain ⟨l, hl⟩ := at_exists file (renToken r kw)
      refine ⟨_, .simple (kw := renToken r kw) hl h1, fun hn => ?_⟩
      simp only [otherNames, callsList, List.append_nil] at hn
      simp only [stripStmt, renStmt, mem_keywords_other hk (by decide), renExprs, stripExprs, h2 hn, List.map_nil]
  | @wait kw _ _ _ _ _ _ hk _ hp _ he =>
    cases hv with
    | wait _ hp' he' =>
      obtain ⟨e', h1, h2⟩ := exprTree_ren (r := r) he he'
      obtain ⟨p', h3, h4⟩ := exprTree_ren (r := r) hp hp'
      obtain ⟨l, hl⟩ := at_exists file (renToken r kw)
      refine ⟨_, .wait (kw := renToken r kw) hl h3 h1, fun hn => ?_⟩
      simp only [otherNames, callsList, List.append_nil, List.mem_append] at hn
      simp only [stripStmt, renStmt, renToken_other (t := kw) (by simp [hk]), renExprs, stripExprs, h2 (fun n h => hn n (.inl h)),
        h4 (fun n h => hn n (.inr h)), List.map_nil]
  | @asm kw o name c raw _ _ hn _ hr =>
    cases hv with
    | asm hx =>
      refine ⟨_, .asm (name := renToken r name) (raw := renToken r raw) ((renToken_other (by simp [hr])).trans hx), fun hn' => ?_⟩
      simp only [otherNames, List.mem_cons, List.not_mem_nil, or_false] at hn'
      simp only [stripStmt, renStmt, renToken_ident hn, hn' _ rfl, List.map_nil]

theorem stmtsTree_ren {ts : List Token} {ss : List PStmt} (h : Block DerivesStmt ts ss) :
    ∀ vs : List (Stmt F), Forall2 (StmtTree stod file) ss vs →
    ∃ vs', Forall2 (StmtTree stod file) (ss.map (mapS (renToken r))) vs' ∧
      ((∀ s ∈ vs, ∀ n ∈ otherNames s, r n = n) → vs'.map stripStmt = (vs.map (renStmt r)).map stripStmt) := by
  induction h with
  | nil =>
    intro vs hv
    cases hv
    exact ⟨[], .nil, fun _ => rfl⟩
  | cons _ _ hs _ ih =>
    intro vs hv
    cases hv with
    | cons h1 h2 =>
      obtain ⟨v', h3, h4⟩ := stmtTree_ren (r := r) hs h1
      obtain ⟨vs', h5, h6⟩ := ih _ h2
      refine ⟨v' :: vs', .cons h3 h5, fun hn => ?_⟩
      rw [List.map_cons, List.map_cons, List.map_cons, h4 (hn _ (List.mem_cons_self ..)),
        h6 fun s hs => hn s (List.mem_cons_of_mem _ hs)]

theorem programTree_ren {ts : List Token} {pr : PProgram} (h : Program DerivesStmt ts pr) {p : ProgramAst F}
    (hp : ProgramTree stod file pr p) :
    ∃ p', ProgramTree stod file (mapP (renToken r) pr) p' ∧ (OnlyVariables r p → stripProgram p' = stripProgram (renProgram r p)) := by
  cases h with
  | @mk _ _ _ n _ _ _ hn hb =>
    cases hp with
    | mk hx _ hs =>
      obtain ⟨vs', h1, h2⟩ := stmtsTree_ren (r := r) hb _ hs
      obtain ⟨l, hl⟩ := at_exists file (renToken r n)
      refine ⟨_, .mk (t := renToken r n) (by rw [renToken_other (by simp [hn])]; exact hx) hl h1, fun ho => ?_⟩
      simp only [stripProgram, renProgram, h2 ho]

end Qasm
