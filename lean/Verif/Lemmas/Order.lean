import Verif.Spec.Order
import Verif.Lemmas.Located
/-!
# Statements stand in the text in their order
-/

namespace Qasm.Order

open Spec TokKind Syn

variable {F : Type} {stod : Str → Option F} {file : Option Str} {text : Str}

/-- No location, or that of one of the tokens. -/
def On (file : Option Str) (us : List Token) (l : Option Loc) : Prop := l = none ∨ ∃ t ∈ us, t.kind ≠ eof ∧ At file t l

theorem On.mono {us vs : List Token} {l : Option Loc} (h : On file us l) (hs : ∀ t ∈ us, t ∈ vs) : On file vs l := by
  rcases h with h | ⟨t, ht, h⟩
  · exact .inl h
  · exact .inr ⟨t, hs t ht, h⟩

theorem on_of {us : List Token} {t : Token} {l : Option Loc} (ht : t ∈ us) (h : At file t l) {k : TokKind} (hk : t.kind = k)
    (hne : k ≠ eof := by decide) : On file us l := .inr ⟨t, ht, hk ▸ hne, h⟩

theorem not_eof {k : TokKind} {ks : List TokKind} (h : k ∈ ks) (hk : eof ∉ ks := by decide) : k ≠ eof := fun e => hk (e ▸ h)

theorem tree_on {us : List Token} {ph : Phrase} (hd : Derives us ph) {n : Node F} (h : Tree stod file ph n) :
    ∀ l ∈ nodeLocs n, On file us l := by
  induction hd generalizing n with
  | parens _ _ _ ih => cases h with | parens h => exact fun l hl => (ih h l hl).mono fun t ht => by simp [ht]
  | pre hk _ ih =>
    cases h with
    | plus _ h => exact fun l hl => (ih h l hl).mono fun t ht => by simp [ht]
    | pre hu ha h =>
      intro l hl
      simp only [nodeLocs, exprLocs, List.mem_cons] at hl
      rcases hl with rfl | hl
      · exact .inr ⟨_, by simp, not_eof hk, ha⟩
      · exact (ih h l hl).mono fun t ht => by simp [ht]
  | bin _ hk _ ih1 ih2 =>
    cases h with
    | bin hu ha h1 h2 =>
      intro l hl
      simp only [nodeLocs, exprLocs, List.mem_cons, List.mem_append] at hl
      rcases hl with rfl | hl | hl
      · exact .inr ⟨_, by simp, not_eof hk, ha⟩
      · exact (ih1 h1 l hl).mono fun t ht => by simp [ht]
      · exact (ih2 h2 l hl).mono fun t ht => by simp [ht]
  | tern _ hq _ _ _ ih1 ih2 ih3 =>
    cases h with
    | tern ha h1 h2 h3 =>
      intro l hl
      simp only [nodeLocs, exprLocs, List.mem_cons, List.mem_append] at hl
      rcases hl with rfl | (hl | hl) | hl
      · exact on_of (by simp) ha hq
      · exact (ih1 h1 l hl).mono fun t ht => by simp [ht]
      · exact (ih2 h2 l hl).mono fun t ht => by simp [ht]
      · exact (ih3 h3 l hl).mono fun t ht => by simp [ht]
  | call0 hn =>
    cases h with
    | call ha h =>
      cases h
      intro l hl
      simp only [nodeLocs, exprLocs, exprsLocs, List.mem_cons, List.not_mem_nil, or_false] at hl
      exact hl ▸ on_of (by simp) ha hn
  | call hn _ _ _ ih =>
    cases h with
    | call ha h =>
      intro l hl
      simp only [nodeLocs, exprLocs, List.mem_cons] at hl
      rcases hl with rfl | hl
      · exact on_of (by simp) ha hn
      · exact (ih h l hl).mono fun t ht => by simp [ht]
  | index hn _ hd _ ih =>
    cases h with
    | index ha h =>
      intro l hl
      simp only [nodeLocs, exprLocs, List.mem_cons, List.mem_append, List.not_mem_nil, or_false] at hl
      rcases hl with rfl | rfl | hl
      · exact on_of (by simp) ha hn
      · exact .inl rfl
      · exact (ih h l hl).mono fun t ht => by simp [ht]
  | atom hk =>
    cases h <;>
      exact fun l hl => by
        simp only [nodeLocs, exprLocs, List.mem_cons, List.not_mem_nil, or_false] at hl
        exact hl ▸ .inr ⟨_, List.mem_singleton.2 rfl, not_eof hk, by assumption⟩
  | expr1 _ ih =>
    cases h with
    | exprsN h1 h2 =>
      cases h2
      intro l hl
      simp only [nodeLocs, exprsLocs, List.append_nil] at hl
      exact ih h1 l hl
  | exprN _ _ _ ih1 ih2 =>
    cases h with
    | exprsN h1 h2 =>
      intro l hl
      simp only [nodeLocs, exprsLocs, List.mem_append] at hl
      rcases hl with hl | hl
      · exact (ih1 h1 l hl).mono fun t ht => by simp [ht]
      · exact (ih2 h2 l hl).mono fun t ht => by simp [ht]
  | item _ ih =>
    cases h with
    | item h =>
      intro l hl
      simp only [nodeLocs, entriesLocs, List.append_nil, List.mem_cons] at hl
      rcases hl with rfl | hl
      · exact .inl rfl
      · exact ih h l hl
  | range _ _ _ ih1 ih2 =>
    cases h with
    | range h1 h2 =>
      intro l hl
      simp only [nodeLocs, entriesLocs, List.append_nil, List.mem_cons, List.mem_append, List.cons_append] at hl
      rcases hl with rfl | hl | hl
      · exact .inl rfl
      · exact (ih1 h1 l hl).mono fun t ht => by simp [ht]
      · exact (ih2 h2 l hl).mono fun t ht => by simp [ht]
  | entry1 _ ih => cases h with | entriesN h1 h2 => cases h2; exact fun l hl => ih h1 l hl
  | entryN _ _ _ ih1 ih2 =>
    cases h with
    | @entriesN _ _ v vs h1 h2 =>
      intro l hl
      have e : entriesLocs (v :: vs) = entriesLocs [v] ++ entriesLocs vs := by cases v <;> simp [entriesLocs]
      simp only [nodeLocs, e, List.mem_append] at hl
      rcases hl with hl | hl
      · exact (ih1 h1 l hl).mono fun t ht => by simp [ht]
      · exact (ih2 h2 l hl).mono fun t ht => by simp [ht]

theorem gate_on {us : List Token} {g : PGate} (hd : DerivesGate us g) {v : Gate F} (h : GateTree stod file g v) :
    ∀ l ∈ gateLocs v, On file us l := by
  induction hd generalizing v with
  | inv hk _ _ ih =>
    cases h with
    | inv ha h =>
      intro l hl
      simp only [gateLocs, exprsLocs, List.append_nil, List.mem_cons] at hl
      rcases hl with rfl | hl
      · exact on_of (by simp) ha hk
      · exact (ih h l hl).mono fun t ht => by simp [ht]
  | ctrl hk _ _ ih =>
    cases h with
    | ctrl ha h =>
      intro l hl
      simp only [gateLocs, exprsLocs, List.append_nil, List.mem_cons] at hl
      rcases hl with rfl | hl
      · exact on_of (by simp) ha hk
      · exact (ih h l hl).mono fun t ht => by simp [ht]
  | pow hk _ he _ _ _ ih =>
    cases h with
    | pow ha he' h =>
      intro l hl
      simp only [gateLocs, exprsLocs, List.append_nil, List.mem_cons, List.mem_append, List.cons_append] at hl
      rcases hl with rfl | hl | hl
      · exact on_of (by simp) ha hk
      · exact (ih h l hl).mono fun t ht => by simp [ht]
      · exact (tree_on he he' l hl).mono fun t ht => by simp [ht]
  | named hn =>
    cases h with
    | named ha h =>
      cases h
      intro l hl
      simp only [gateLocs, exprsLocs, List.mem_cons, List.not_mem_nil, or_false] at hl
      exact hl ▸ on_of (by simp) ha hn
  | parameters hn _ he _ =>
    cases h with
    | named ha h =>
      intro l hl
      simp only [gateLocs, List.mem_cons] at hl
      rcases hl with rfl | hl
      · exact on_of (by simp) ha hn
      · exact (tree_on he h l hl).mono fun t ht => by simp [ht]

theorem locOfGate_mem (g : Gate F) : locOfGate g ∈ gateLocs g := by
  obtain ⟨l, as, name, g, ps⟩ := g
  cases g <;> simp [locOfGate, gateLocs]

theorem stmt_on {us : List Token} {s : PStmt} (hd : DerivesStmt us s) {v : Stmt F} (h : StmtTree stod file s v) :
    ∀ l ∈ stmtLocs v, On file us l := by
  cases hd with
  | var _ hn =>
    cases h with
    | var _ ha =>
      intro l hl
      simp only [stmtLocs, List.mem_cons, List.not_mem_nil, or_false] at hl
      exact hl ▸ on_of (by simp) ha hn
  | array _ _ _ _ hn =>
    cases h with
    | array _ _ ha =>
      intro l hl
      simp only [stmtLocs, List.mem_cons, List.not_mem_nil, or_false] at hl
      exact hl ▸ on_of (by simp) ha hn
  | gate hg he =>
    cases h with
    | gate hg' he' =>
      intro l hl
      simp only [stmtLocs, List.mem_cons, List.mem_append, List.cons_append] at hl
      rcases hl with rfl | hl | hl
      · exact (gate_on hg hg' _ (locOfGate_mem _)).mono fun t ht => by simp [ht]
      · exact (gate_on hg hg' l hl).mono fun t ht => by simp [ht]
      · exact (tree_on he he' l hl).mono fun t ht => by simp [ht]
  | measure hb _ hk hq =>
    cases h with
    | measure ha h1 h2 h3 =>
      cases h1
      intro l hl
      simp only [stmtLocs, exprsLocs, List.append_nil, List.mem_cons, List.mem_append] at hl
      rcases hl with rfl | hl | hl
      · exact on_of (by simp) ha hk
      · exact (tree_on hb h2 l hl).mono fun t ht => by simp [ht]
      · exact (tree_on hq h3 l hl).mono fun t ht => by simp [ht]
  | measureParameters hb _ hk _ hes _ hq =>
    cases h with
    | measure ha h1 h2 h3 =>
      intro l hl
      simp only [stmtLocs, exprsLocs, List.append_nil, List.mem_cons, List.mem_append, List.cons_append] at hl
      rcases hl with rfl | (hl | hl) | hl
      · exact on_of (by simp) ha hk
      · exact (tree_on hb h2 l hl).mono fun t ht => by simp [ht]
      · exact (tree_on hq h3 l hl).mono fun t ht => by simp [ht]
      · exact (tree_on hes h1 l hl).mono fun t ht => by simp [ht]
  | simple hk he =>
    cases h with
    | simple ha h =>
      intro l hl
      simp only [stmtLocs, exprsLocs, List.append_nil, List.mem_cons] at hl
      rcases hl with rfl | hl
      · exact .inr ⟨_, by simp, not_eof hk, ha⟩
      · exact (tree_on he h l hl).mono fun t ht => by simp [ht]
  | wait hk _ hd _ he =>
    cases h with
    | wait ha h1 h2 =>
      intro l hl
      simp only [stmtLocs, exprsLocs, List.append_nil, List.mem_cons, List.mem_append, List.cons_append] at hl
      rcases hl with rfl | hl | hl
      · exact on_of (by simp) ha hk
      · exact (tree_on he h2 l hl).mono fun t ht => by simp [ht]
      · exact (tree_on hd h1 l hl).mono fun t ht => by simp [ht]
  | asm =>
    cases h with
    | asm =>
      intro l hl
      simp only [stmtLocs, List.mem_cons, List.not_mem_nil, or_false] at hl
      exact .inl hl

/-- The location of the one token is before that of the other, if they stand in the text in this order. -/
theorem before_of {s t : Token} (hs : Placed text s) (h : Apart text s t) (hk : s.kind ≠ eof) (hk' : t.kind ≠ eof) {l m : Option Loc}
    (hl : At file s l) (hm : At file t m) : Before l m := by
  rcases h with h | ⟨before, between, after, -, h2, h3, h4, h5⟩
  · exact absurd h hk'
  · obtain ⟨⟨f, ⟨⟨a, b⟩, ⟨c, d⟩⟩⟩, rfl, -, g1, g2, g3, g4⟩ := hl
    obtain ⟨⟨f', ⟨⟨a', b'⟩, ⟨c', d'⟩⟩⟩, rfl, -, i1, i2, i3, i4⟩ := hm
    have hne : 0 < s.text.length := List.length_pos_iff.2 (Lexer.text_ne_nil (lexed_text hs.1 rfl hk))
    simp only at g1 g2 g3 g4 i1 i2 i3 i4
    subst g1 g2 g3 g4 i1 i2 i3 i4
    refine ⟨_, _, rfl, rfl, .inr ⟨rfl, by simp only; omega⟩, fun e => ?_, ?_⟩
    · simp only [Index.mk.injEq] at e; omega
    · by_cases hn : '\n' ∈ s.text
      · refine .inl ?_
        simp only [h2, h4, lineAfter, List.count_append]
        have := List.count_pos_iff.2 hn
        omega
      · have := pos_append (before ++ s.text) between
        rw [lineAfter_append hn, columnAfter_append hn] at this
        simp only [PosLe, h2, h3, h4, h5] at this ⊢
        omega

/-- Locations in the one group of tokens are before those in the other. -/
theorem before_on {us vs : List Token} (hp : ∀ t ∈ us, Placed text t) (h : ∀ s ∈ us, ∀ t ∈ vs, Apart text s t) {l m : Option Loc}
    (hl : On file us l) (hm : On file vs m) : l = none ∨ m = none ∨ Before l m := by
  rcases hl with hl | ⟨s, hs, hk, hl⟩
  · exact .inl hl
  · rcases hm with hm | ⟨t, ht, hk', hm⟩
    · exact .inr (.inl hm)
    · exact .inr (.inr (before_of (hp s hs) (h s hs t ht) hk hk' hl hm))

/-- All locations of the one statement are before those of the other. -/
def Earlier (v w : Stmt F) : Prop := ∀ l ∈ stmtLocs v, ∀ m ∈ stmtLocs w, l = none ∨ m = none ∨ Before l m

theorem block_on {ts : List Token} {ss : List PStmt} (hb : Block DerivesStmt ts ss) {vs : List (Stmt F)}
    (h : Forall2 (StmtTree stod file) ss vs) : ∀ v ∈ vs, ∀ l ∈ stmtLocs v, On file ts l := by
  induction hb generalizing vs with
  | nil => cases h; simp
  | cons _ _ hd _ ih =>
    cases h with
    | cons h1 h2 =>
      intro v hv l hl
      rcases List.mem_cons.1 hv with rfl | hv
      · exact (stmt_on hd h1 l hl).mono fun t ht => by simp [ht]
      · exact (ih h2 v hv l hl).mono fun t ht => by simp [ht]

theorem block_order {ts : List Token} {ss : List PStmt} (hb : Block DerivesStmt ts ss) (hl : ∀ t ∈ ts, Placed text t)
    (hp : ts.Pairwise (Apart text)) {vs : List (Stmt F)} (h : Forall2 (StmtTree stod file) ss vs) : vs.Pairwise Earlier := by
  induction hb generalizing vs with
  | nil => cases h; exact .nil
  | cons _ _ hd hb' ih =>
    cases h with
    | cons h1 h2 =>
      obtain ⟨-, hp2, hp3⟩ := List.pairwise_append.1 hp
      refine List.pairwise_cons.2 ⟨fun w hw l hl' m hm => ?_, ih (fun t ht => hl t (by simp [ht])) hp2 h2⟩
      exact before_on (fun t ht => hl t (by simp [ht])) (fun s hs t ht => hp3 s (by simp [hs]) t ht) (stmt_on hd h1 l hl')
        (block_on hb' h2 w hw m hm)

theorem program_order {ts : List Token} {pr : PProgram} (hp : Program DerivesStmt ts pr)
    (hl : ∀ t ∈ ts, Placed text t) (hap : ts.Pairwise (Apart text)) {p : ProgramAst F} (h : ProgramTree stod file pr p) :
    p.block.statements.Pairwise Earlier ∧
      ∀ v ∈ p.block.statements, ∀ m ∈ stmtLocs v, m = none ∨ Before p.version.loc m := by
  obtain ⟨_, _, hv, hb⟩ := hp
  cases h with
  | mk hc ha h =>
    have hap' := (List.pairwise_cons.1 (List.pairwise_append.1 hap).2.1).2
    have hap'' := List.pairwise_cons.1 hap'
    refine ⟨block_order hb (fun t ht => hl t (by simp [ht])) hap''.2 h, fun v hv' m hm => ?_⟩
    rcases before_on (us := [_]) (fun t ht => hl t (by simp at ht; simp [ht]))
      (fun s hs t ht => by rw [List.mem_singleton.1 hs]; exact hap''.1 t ht)
      (on_of (List.mem_singleton.2 rfl) ha hv) (block_on hb h v hv' m hm) with e | e
    · obtain ⟨_, e', _⟩ := ha
      rw [e] at e'; cases e'
    · exact e

end Qasm.Order
