import Verif.Lemmas.Pieces
import Verif.Props.Lexer
import Verif.Props.Syntactic
import Verif.Lemmas.Located
/-!
# Text after a new line

How a text that is read as a program is cut into tokens does not change when a new line and more text follow it.
-/

namespace Qasm

open Spec TokKind

namespace Lexer

/-- Only new lines, comments and raw strings contain a line feed. -/
theorem text_feed {m : Mode} {k : TokKind} {w : Str} (hk : k ∈ order m) (h : Text k w) (hs : '\n' ∈ w) :
    k = .newLine ∨ k = .multiLineComment ∨ k = .rawTextString := by
  have d1 : ¬ Digit '\n' := by simp [Digit]
  have l1 : ¬ Letter '\n' := by simp [Letter]
  have de : ∀ ds, Digits ds → '\n' ∉ ds := fun ds h hm => d1 (h.2 _ hm)
  cases k with
  | whiteSpace => rcases h.2 _ hs with h | h <;> simp at h
  | versionWhiteSpace => rcases h.2 _ hs with h | h <;> simp at h
  | singleLineComment =>
    obtain ⟨u, rfl, hu⟩ := h
    simp only [List.mem_cons, Char.reduceEq, false_or] at hs
    exact absurd rfl (hu _ hs).2
  | multiLineComment => simp
  | rawTextString => simp
  | newLine => simp
  | booleanLiteral => exfalso; rcases h with rfl | rfl <;> simp at hs
  | integerLiteral => exact absurd hs (de _ h)
  | versionNumber =>
    exfalso
    rcases h with h | ⟨a, b, rfl, ha, hb⟩
    · exact de _ h hs
    · rcases List.mem_append.1 hs with h | h
      · exact de _ ha h
      · rcases List.mem_cons.1 h with h | h
        · simp at h
        · exact de _ hb h
  | floatLiteral =>
    exfalso
    obtain ⟨a, b, e, rfl, ha, hb, _, he⟩ := h
    simp only [List.append_assoc, List.cons_append, List.mem_append, List.mem_cons] at hs
    rcases hs with h | h | h | h
    · exact d1 (ha _ h)
    · simp at h
    · exact d1 (hb _ h)
    · rcases he with rfl | ⟨x, sg, ds, rfl, hx, hsg, hds⟩
      · simp at h
      · simp only [List.cons_append, List.mem_append, List.mem_cons] at h
        rcases h with h | h | h
        · rcases hx with rfl | rfl <;> simp at h
        · rcases hsg with rfl | rfl | rfl <;> simp at h
        · exact de _ hds h
  | identifier => exact absurd (word_all h _ hs) (by simp [d1, l1])
  | eof => exact absurd hk (by cases m <;> simp [order])
  | _ =>
    exfalso
    have := Option.some.inj h
    subst this
    simp at hs

/-- Texts that start with `*`. -/
theorem text_star {m : Mode} {k : TokKind} {u : Str} (hk : k ∈ order m) (h : Text k ('*' :: u)) : k = .product ∨ k = .power := by
  cases k with
  | product => exact .inl rfl
  | power => exact .inr rfl
  | rawTextString => obtain ⟨v, he⟩ := h; simp at he
  | singleLineComment => obtain ⟨v, he, _⟩ := h; simp at he
  | multiLineComment => obtain ⟨v, he⟩ := h; simp at he
  | whiteSpace => rcases h.2 '*' (by simp) with h | h <;> simp at h
  | versionWhiteSpace => rcases h.2 '*' (by simp) with h | h <;> simp at h
  | versionNumber =>
    exfalso
    rcases h with h | ⟨a, b, he, ha, hb⟩
    · exact absurd (h.2 '*' (by simp)) (by simp [Digit])
    · cases a with
      | nil => exact ha.1 rfl
      | cons d a =>
        obtain ⟨rfl, _⟩ := List.cons.inj he
        exact absurd (ha.2 '*' (by simp)) (by simp [Digit])
  | newLine => rcases h with h | h <;> simp at h
  | integerLiteral => exact absurd (h.2 '*' (by simp)) (by simp [Digit])
  | floatLiteral =>
    obtain ⟨a, b, e, he, ha, _, _, _⟩ := h
    cases a with
    | nil => simp at he
    | cons d a =>
      obtain ⟨rfl, _⟩ := List.cons.inj he
      exact absurd (ha '*' (by simp)) (by simp [Digit])
  | identifier =>
    obtain ⟨d, v, he, hd, _⟩ := h
    have := (List.cons.inj he).1
    subst this; revert hd; simp [Letter]
  | booleanLiteral => rcases h with h | h <;> simp at h
  | eof => exact absurd hk (by cases m <;> simp [order])
  | _ => simp [Text, fixedText] at h

/-- A carriage return alone is no token. -/
theorem text_return {m : Mode} {k : TokKind} (hk : k ∈ order m) : ¬ Text k ['\r'] := by
  intro h
  cases k with
  | rawTextString => obtain ⟨v, he⟩ := h; simp at he
  | singleLineComment => obtain ⟨v, he, _⟩ := h; simp at he
  | multiLineComment => obtain ⟨v, he⟩ := h; simp at he
  | whiteSpace => rcases h.2 '\r' (by simp) with h | h <;> simp at h
  | versionWhiteSpace => rcases h.2 '\r' (by simp) with h | h <;> simp at h
  | versionNumber =>
    rcases h with h | ⟨a, b, he, ha, hb⟩
    · exact absurd (h.2 '\r' (by simp)) (by simp [Digit])
    · cases a with
      | nil => exact ha.1 rfl
      | cons d a =>
        obtain ⟨rfl, _⟩ := List.cons.inj he
        exact absurd (ha.2 '\r' (by simp)) (by simp [Digit])
  | newLine => rcases h with h | h <;> simp at h
  | integerLiteral => exact absurd (h.2 '\r' (by simp)) (by simp [Digit])
  | floatLiteral =>
    obtain ⟨a, b, e, he, ha, _, _, _⟩ := h
    cases a with
    | nil => simp at he
    | cons d a =>
      obtain ⟨rfl, _⟩ := List.cons.inj he
      exact absurd (ha '\r' (by simp)) (by simp [Digit])
  | identifier =>
    obtain ⟨d, v, he, hd, _⟩ := h
    have := (List.cons.inj he).1
    subst this; revert hd; simp [Letter]
  | booleanLiteral => rcases h with h | h <;> simp at h
  | eof => exact absurd hk (by cases m <;> simp [order])
  | _ => simp [Text, fixedText] at h

theorem winner_feed {m : Mode} {k : TokKind} {w x : Str} (b : Str)
    (h : Winner m (w ++ x) k w) (hq : k ≠ .tripleQuote)
    (hd : k = .division → x.head? ≠ some '*') : Winner m (w ++ (x ++ '\n' :: b)) k w := by
  rw [← List.append_assoc]
  have hwne := winner_ne_nil h
  have hwpre : ∀ y, w <+: (w ++ x) ++ y := fun y => ⟨x ++ y, by simp⟩
  have hwin := h
  obtain ⟨pre, post, ho, hc, hlt, hle⟩ := h
  have old : ∀ {v : Str}, v <+: w ++ x ++ '\n' :: b → v.length ≤ (w ++ x).length → v <+: w ++ x :=
    fun hp hl => List.prefix_of_prefix_length_le hp (List.prefix_append _ _) hl
  -- a candidate of the new text is one of the old text
  have back : ∀ k' ∈ order m, ∀ v, Candidate k' (w ++ x ++ '\n' :: b) v → Candidate k' (w ++ x) v := by
    rintro k' hk' v ⟨hv, hp, hmin⟩
    by_cases hvl : v.length ≤ (w ++ x).length
    · exact ⟨hv, old hp hvl, fun he v' hv' hp' => hmin he v' hv' (hp'.trans (List.prefix_append _ _))⟩
    · exfalso
      have hvx : w ++ x ++ ['\n'] <+: v := by
        refine List.prefix_of_prefix_length_le ⟨b, by simp⟩ hp ?_
        simp only [List.length_append, List.length_cons, List.length_nil] at hvl ⊢
        omega
      obtain ⟨z, hz⟩ := hvx
      have hsp : '\n' ∈ v := by rw [← hz]; simp
      rcases text_feed hk' hv hsp with rfl | rfl | rfl
      · rcases hv with rfl | rfl
        · cases w with
          | nil => exact hwne rfl
          | cons c w => simp at hz
        · cases w with
          | nil => exact hwne rfl
          | cons c w =>
            simp only [List.cons_append, List.cons.injEq] at hz
            obtain ⟨rfl, hz⟩ := hz
            cases w with
            | cons d w => simp at hz
            | nil =>
              have hm : m = .default := by
                cases m with
                | default => rfl
                | versionStatement => simp [order] at hk'
              subst hm
              exact absurd (winner_text hwin) (text_return (winner_mem hwin))
      · obtain ⟨u, hu⟩ := hv
        have e : w ++ x ++ ['\n'] ++ z = '/' :: '*' :: (u ++ ['*', '/']) := by rw [hz, hu]; simp
        have hm : m = .default := by cases m with
          | default => rfl
          | versionStatement => simp [order] at hk'
        subst hm
        cases w with
        | nil => exact hwne rfl
        | cons c w =>
          obtain ⟨rfl, e'⟩ := List.cons.inj e
          rcases text_slash (winner_mem hwin) (winner_text hwin) with ⟨hk, rfl⟩ | ⟨hk, hh⟩ | ⟨rfl, _⟩
          · cases x with
            | nil => simp at e'
            | cons d x =>
              obtain ⟨rfl, _⟩ := List.cons.inj e'
              exact hd hk rfl
          · cases w with
            | nil => simp at hh
            | cons d w =>
              obtain ⟨rfl, _⟩ := List.cons.inj e'
              simp at hh
          · have := hmin (.inl rfl) _ (winner_text hwin) (hwpre _)
            simp only [List.length_append] at hvl
            omega
      · obtain ⟨u, hu⟩ := hv
        have e : w ++ x ++ ['\n'] ++ z = '\'' :: '\'' :: '\'' :: (u ++ c!"'''") := by rw [hz, hu]; simp
        have hm : m = .default := by cases m with
          | default => rfl
          | versionStatement => simp [order] at hk'
        subst hm
        cases w with
        | nil => exact hwne rfl
        | cons c w =>
          obtain ⟨rfl, e'⟩ := List.cons.inj e
          rcases text_quote (winner_mem hwin) (winner_text hwin) with hk | rfl
          · exact hq hk
          · have := hmin (.inr rfl) _ (winner_text hwin) (hwpre _)
            simp only [List.length_append] at hvl
            omega
  refine ⟨pre, post, ho, ?_, ?_, ?_⟩
  · refine ⟨hc.1, hwpre _, fun he v hv hp => ?_⟩
    by_cases hvl : v.length ≤ (w ++ x).length
    · exact hc.2.2 he v hv (old hp hvl)
    · simp only [List.length_append] at hvl
      omega
  · intro k' hk' v hv
    exact hlt k' hk' v (back k' (by rw [ho]; simp [hk']) v hv)
  · intro k' hk' v hv
    exact hle k' hk' v (back k' (by rw [ho]; exact List.mem_append_right _ hk') v hv)

theorem cut_feed {m m' : Mode} {s rest : Str} {segs : List (TokKind × Str)} (h : Cut m s segs m' rest)
    (hcl : Closed segs) (hr : rest = []) (b : Str) : Cut m (s ++ '\n' :: b) segs m' ('\n' :: b) := by
  induction h with
  | nil => subst hr; exact .nil _ _
  | @cons m m' k w s rest segs hw hcut ih =>
    obtain ⟨hq, hd, hcl⟩ := hcl
    have hs := cut_covered hcut
    rw [List.append_assoc]
    refine .cons (winner_feed b hw hq ?_) (ih hcl hr)
    intro hk
    cases segs with
    | nil => cases hcut; subst hr; simp
    | cons p segs =>
      have := hd hk p (by simp)
      obtain ⟨k', w'⟩ := p
      cases w' with
      | nil =>
        exfalso
        cases hcut with
        | cons hw' _ => exact winner_ne_nil hw' rfl
      | cons d w' =>
        cases hcut with
        | cons _ _ => simpa using this

end Lexer

/-! ## The tokens of a program leave nothing open -/

namespace Parser

/-- The kinds follow each other without `/` before `*` or `**`, without `'''` and with every `version` before a number. The
first argument tells what comes before: 1 for `/`, 2 for `version`, 0 for anything else. -/
def Scan : Nat → List TokKind → Prop
  | n, [] => n = 0
  | n, k :: ks => (n = 1 → k ≠ product ∧ k ≠ power) ∧ (n = 2 → k = versionNumber) ∧ k ≠ tripleQuote ∧
      Scan (if k = division then 1 else if k = version then 2 else 0) ks

/-- The tokens may stand anywhere but after `version`. -/
def Clear (us : List Token) : Prop := ∀ n, n ≤ 1 → ∀ ks, Scan 0 ks → Scan n (us.map (·.kind) ++ ks)

/-- The kinds that are clear by themselves. -/
def plain (k : TokKind) : Bool := !([product, power, division, tripleQuote, version].contains k)

theorem clear_nil {n : Nat} {ks : List TokKind} (hn : n = 0) (h : Scan 0 ks) : Scan n ks := hn ▸ h

theorem clear_cons {t : Token} {us : List Token} (ht : plain t.kind = true) (hu : Clear us) : Clear (t :: us) := by
  intro n hn ks hk
  have h := hu 0 (by omega) ks hk
  have h1 : t.kind ≠ product ∧ t.kind ≠ power ∧ t.kind ≠ division ∧ t.kind ≠ tripleQuote ∧ t.kind ≠ version := by
    revert ht
    generalize t.kind = k
    cases k <;> simp [plain]
  obtain ⟨h1, h2, h3, h4, h5⟩ := h1
  refine ⟨fun _ => ⟨h1, h2⟩, fun h => by omega, h4, ?_⟩
  simpa [h3, h5] using h

theorem clear_one {t : Token} (ht : plain t.kind = true) : Clear [t] := by
  intro n hn ks hk
  have h1 : t.kind ≠ product ∧ t.kind ≠ power ∧ t.kind ≠ division ∧ t.kind ≠ tripleQuote ∧ t.kind ≠ version := by
    revert ht
    generalize t.kind = k
    cases k <;> simp [plain]
  obtain ⟨h1, h2, h3, h4, h5⟩ := h1
  refine ⟨fun _ => ⟨h1, h2⟩, fun h => by omega, h4, ?_⟩
  simpa [h3, h5] using hk

theorem clear_append {us vs : List Token} (hu : Clear us) (hv : Clear vs) : Clear (us ++ vs) := by
  intro n hn ks hk
  rw [List.map_append, List.append_assoc]
  exact hu n hn _ (hv 0 (by omega) ks hk)

/-- An infix operator between two clear lists. -/
theorem clear_infix {op : Token} {us vs : List Token} (hu : Clear us) (ho : op.kind ∈ infixOps) (hv : Clear vs) :
    Clear (us ++ op :: vs) := by
  intro n hn ks hk
  rw [List.map_append, List.append_assoc]
  refine hu n hn _ ?_
  have h0 := hv 0 (by omega) ks hk
  have h1 := hv 1 (by omega) ks hk
  refine ⟨fun h => by omega, fun h => by omega, ?_, ?_⟩
  · intro h; rw [show op.kind = tripleQuote from h] at ho; revert ho; decide
  · have hv : op.kind ≠ version := by intro h; rw [h] at ho; revert ho; decide
    show Scan (if op.kind = division then 1 else if op.kind = version then 2 else 0) _
    rw [if_neg hv]
    split
    · exact h1
    · exact h0

theorem plain_of {k j : TokKind} (h : k = j) (hj : plain j = true) : plain k = true := h ▸ hj

theorem plain_mem {k : TokKind} {l : List TokKind} (h : k ∈ l) (hl : ∀ j ∈ l, plain j = true) : plain k = true := hl k h

theorem derives_clear {us : List Token} {x : Phrase} (h : Derives us x) : Clear us := by
  induction h with
  | parens ho _ hc ih =>
    exact clear_cons (plain_of ho rfl) (clear_append ih (clear_one (plain_of hc rfl)))
  | pre ho _ ih => exact clear_cons (plain_mem ho (by decide)) ih
  | bin _ ho _ ih ih' => exact clear_infix ih ho ih'
  | tern _ ho _ hc _ ih ih' ih'' =>
    exact clear_append (clear_append ih (clear_cons (plain_of ho rfl) ih')) (clear_cons (plain_of hc rfl) ih'')
  | call0 hn ho hc =>
    exact clear_cons (plain_of hn rfl) (clear_cons (plain_of ho rfl) (clear_one (plain_of hc rfl)))
  | call hn ho _ hc ih =>
    exact clear_cons (plain_of hn rfl) (clear_cons (plain_of ho rfl) (clear_append ih (clear_one (plain_of hc rfl))))
  | index hn ho _ hc ih =>
    exact clear_cons (plain_of hn rfl) (clear_cons (plain_of ho rfl) (clear_append ih (clear_one (plain_of hc rfl))))
  | atom h => exact clear_one (plain_mem h (by decide))
  | expr1 _ ih => exact ih
  | item _ ih => exact ih
  | entry1 _ ih => exact ih
  | exprN _ hc _ ih ih' => exact clear_append ih (clear_cons (plain_of hc rfl) ih')
  | range _ hc _ ih ih' => exact clear_append ih (clear_cons (plain_of hc rfl) ih')
  | entryN _ hc _ ih ih' => exact clear_append ih (clear_cons (plain_of hc rfl) ih')

theorem gate_clear {us : List Token} {g : PGate} (h : DerivesGate us g) : Clear us := by
  induction h with
  | inv hk hd _ ih => exact clear_cons (plain_of hk rfl) (clear_cons (plain_of hd rfl) ih)
  | ctrl hk hd _ ih => exact clear_cons (plain_of hk rfl) (clear_cons (plain_of hd rfl) ih)
  | pow hk ho he hc hd _ ih =>
    exact clear_cons (plain_of hk rfl) (clear_cons (plain_of ho rfl)
      (clear_append (derives_clear he) (clear_cons (plain_of hc rfl) (clear_cons (plain_of hd rfl) ih))))
  | named hn => exact clear_one (plain_of hn rfl)
  | parameters hn ho he hc =>
    exact clear_cons (plain_of hn rfl) (clear_cons (plain_of ho rfl) (clear_append (derives_clear he) (clear_one (plain_of hc rfl))))

theorem stmt_clear {us : List Token} {s : PStmt} (h : DerivesStmt us s) : Clear us := by
  cases h with
  | var hk hn => exact clear_cons (plain_mem hk (by decide)) (clear_one (plain_of hn rfl))
  | array hk ho hn hc hi =>
    exact clear_cons (plain_mem hk (by decide)) (clear_cons (plain_of ho rfl) (clear_cons (plain_of hn rfl)
      (clear_cons (plain_of hc rfl) (clear_one (plain_of hi rfl)))))
  | gate hg he => exact clear_append (gate_clear hg) (derives_clear he)
  | measure hb he hk hq =>
    exact clear_append (derives_clear hb) (clear_cons (plain_of he rfl) (clear_cons (plain_of hk rfl) (derives_clear hq)))
  | measureParameters hb he hk ho hp hc hq =>
    exact clear_append (clear_append (derives_clear hb) (clear_cons (plain_of he rfl) (clear_cons (plain_of hk rfl)
      (clear_cons (plain_of ho rfl) (derives_clear hp))))) (clear_cons (plain_of hc rfl) (derives_clear hq))
  | simple hk he => exact clear_cons (plain_mem hk (by decide)) (derives_clear he)
  | wait hk ho hp hc he =>
    exact clear_append (us := _ :: _ :: _) (clear_cons (plain_of hk rfl) (clear_cons (plain_of ho rfl) (derives_clear hp)))
      (clear_cons (plain_of hc rfl) (derives_clear he))
  | asm hk ho hn hc hr =>
    exact clear_cons (plain_of hk rfl) (clear_cons (plain_of ho rfl) (clear_cons (plain_of hn rfl)
      (clear_cons (plain_of hc rfl) (clear_one (plain_of hr rfl)))))

theorem separators_scan {seps : List Token} (h : Separators seps) {ks : List TokKind} (hk : Scan 0 ks) :
    Scan 0 (seps.map (·.kind) ++ ks) := by
  induction seps with
  | nil => exact hk
  | cons t seps ih =>
    have ih := ih (fun u hu => h u (List.mem_cons_of_mem _ hu))
    have ht := h t (List.mem_cons_self ..)
    rw [separatorKinds] at ht
    refine ⟨fun h => by omega, fun h => by omega, ?_, ?_⟩
    · intro h; rw [show t.kind = tripleQuote from h] at ht; revert ht; decide
    · have h1 : t.kind ≠ division := by intro h; rw [h] at ht; revert ht; decide
      have h2 : t.kind ≠ version := by intro h; rw [h] at ht; revert ht; decide
      simpa [h1, h2] using ih

theorem block_scan {us : List Token} {ss : List PStmt} (h : Block DerivesStmt us ss) : Scan 0 (us.map (·.kind)) := by
  induction h with
  | nil hs he =>
    rw [List.map_append]
    refine separators_scan hs ⟨fun h => by omega, fun h => by omega, by simp [he], by simp [he, Scan]⟩
  | cons hs _ hr _ ih =>
    rw [List.map_append, List.map_append, List.append_assoc]
    exact separators_scan hs (stmt_clear hr 0 (by omega) _ ih)

theorem program_scan {us : List Token} {p : PProgram} (h : Program DerivesStmt us p) : Scan 0 (us.map (·.kind)) := by
  cases h with
  | mk hs hv hn hb =>
    rw [List.map_append]
    refine separators_scan hs ⟨fun h => by omega, fun h => by omega, by simp [hv], ?_⟩
    simp only [hv, reduceCtorEq, if_false, if_true]
    refine ⟨fun h => by simp at h, fun _ => hn, by simp [hn], ?_⟩
    simpa [hn] using block_scan hb

theorem scan_closed {m m' : Lexer.Mode} {s rest : Str} {segs : List (TokKind × Str)} (h : Cut m s segs m' rest) :
    ∀ n, Scan n ((Lexer.visible segs).map (·.1) ++ [eof]) → (m = .versionStatement → n = 2) → (n = 2 → m = .versionStatement) →
      Closed segs ∧ m' = .default := by
  induction h with
  | nil m s =>
    intro n h h1 h2
    refine ⟨trivial, ?_⟩
    cases m with
    | default => rfl
    | versionStatement =>
      have := h.2.1 (h1 rfl)
      simp at this
  | @cons m m' k w s rest segs hw hcut ih =>
    intro n h h1 h2
    cases hk : Skipped k with
    | true =>
      have hv : Lexer.visible ((k, w) :: segs) = Lexer.visible segs := by simp [Lexer.visible, hk]
      rw [hv] at h
      have hm : modeAfter m k = m := by
        revert hk; cases k <;> simp [Skipped, modeAfter]
      rw [hm] at ih hcut
      obtain ⟨c1, c2⟩ := ih n h h1 h2
      refine ⟨⟨?_, ?_, c1⟩, c2⟩
      · rintro rfl; simp [Skipped] at hk
      · rintro rfl; simp [Skipped] at hk
    | false =>
      have hv : Lexer.visible ((k, w) :: segs) = (k, w) :: Lexer.visible segs := by simp [Lexer.visible, hk]
      rw [hv] at h
      obtain ⟨a1, a2, a3, a4⟩ := h
      have hn : k = versionNumber ↔ m = .versionStatement := by
        constructor
        · rintro rfl
          have := Lexer.winner_mem hw
          cases m with
          | default => simp [order] at this
          | versionStatement => rfl
        · rintro rfl
          have := Lexer.winner_mem hw
          simp only [order, List.mem_cons, List.not_mem_nil, or_false] at this
          rcases this with rfl | rfl
          · simp [Skipped] at hk
          · rfl
      obtain ⟨c1, c2⟩ := ih _ a4 (by
          intro hm
          by_cases hkv : k = version
          · simp [hkv]
          · exfalso
            simp only [modeAfter, hkv, if_false] at hm
            by_cases hkn : k = versionNumber
            · simp [hkn] at hm
            · simp only [hkn, if_false] at hm
              exact hkn (hn.2 hm)) (by
          intro hm
          split at hm
          · omega
          · split at hm
            · rename_i hkv; simp [modeAfter, show k = version from hkv]
            · omega)
      refine ⟨⟨a3, ?_, c1⟩, c2⟩
      rintro rfl
      intro p hp hs
      cases segs with
      | nil => simp at hp
      | cons q segs =>
        simp only [List.head?_cons, Option.mem_def, Option.some.injEq] at hp
        subst hp
        obtain ⟨k', w'⟩ := q
        cases hcut with
        | cons hw' _ =>
          cases w' with
          | nil => simp at hs
          | cons d w' =>
            simp only [List.head?_cons, Option.some.injEq] at hs
            subst hs
            have hst := Lexer.text_star (Lexer.winner_mem hw') (Lexer.winner_text hw')
            have hsk : Skipped k' = false := by rcases hst with rfl | rfl <;> rfl
            have hv' : Lexer.visible ((k', '*' :: w') :: segs) = (k', '*' :: w') :: Lexer.visible segs := by simp [Lexer.visible, hsk]
            rw [hv'] at a4
            have := a4.1 (by simp)
            rcases hst with rfl | rfl
            · exact this.1 rfl
            · exact this.2 rfl

end Parser

/-! ## The tokens of a text and what follows a new line -/

theorem Lexer.tokensOf_append (b : Str) (xs ys : List (TokKind × Str)) :
    tokensOf b (xs ++ ys) = tokensOf b xs ++ tokensOf (b ++ covered xs) ys := by
  induction xs generalizing b with
  | nil => simp [tokensOf, covered]
  | cons p xs ih =>
    obtain ⟨k, w⟩ := p
    rw [List.cons_append, tokensOf, tokensOf, ih]
    have : b ++ w ++ covered xs = b ++ covered ((k, w) :: xs) := by simp [covered]
    rw [this]
    split <;> simp

/-- The segments of a text that is read as a program. -/
theorem program_cut {t : Str} {ts : List Token} {pr : PProgram} (hl : Lexer.lex t = .ok ts) (hp : Program DerivesStmt ts pr) :
    ∃ segs e, Cut .default t segs .default [] ∧ Closed segs ∧ covered segs = t ∧ ts = tokensOf [] segs ++ [e] ∧ e.kind = eof := by
  obtain ⟨segs, m, hc, hcov, rfl⟩ := (C39_tokens t ts).1 hl
  have hs := Parser.program_scan hp
  have hv : (tokensOf [] segs ++ [(⟨eof, c!"<EOF>", lineAfter t, columnAfter t⟩ : Token)]).map (fun x : Token => x.kind) =
      (Lexer.visible segs).map (·.1) ++ [eof] := by
    rw [List.map_append, ← Lexer.tokensOf_visible []]
    simp
  rw [hv] at hs
  obtain ⟨h1, rfl⟩ := Parser.scan_closed hc 0 hs (by simp) (by simp)
  exact ⟨segs, _, hc, h1, hcov, rfl, rfl⟩

/-- The tokens of a text that leaves nothing open, a new line and more text. -/
theorem lex_feed_cut {t s : Str} {segs : List (TokKind × Str)} (hc : Cut .default t segs .default []) (hcl : Closed segs) :
    ∃ sep : Token, sep.kind = newLine ∧
      (∀ ts', Lexer.lex (t ++ '\n' :: s) = .ok ts' → ∃ vs segs' m, Cut .default s segs' m [] ∧ vs = tokensOf (t ++ ['\n']) segs' ∧
        ∃ e', e'.kind = eof ∧ ts' = tokensOf [] segs ++ sep :: vs ++ [e']) ∧
      (∀ segs' m, Cut .default s segs' m [] →
        ∃ e', e'.kind = eof ∧ Lexer.lex (t ++ '\n' :: s) = .ok (tokensOf [] segs ++ sep :: tokensOf (t ++ ['\n']) segs' ++ [e'])) := by
  have hcov : covered segs = t := by simpa using (Lexer.cut_covered hc).symm
  have hf := Lexer.cut_feed hc hcl rfl s
  have whole : ∀ sb m r, Cut .default s sb m r → Cut .default (t ++ '\n' :: s) (segs ++ (newLine, c!"\n") :: sb) m r := by
    intro sb m r hb
    exact Lexer.cut_append hf (.cons (w := c!"\n") (Lexer.newline_winner s) hb)
  have toks : ∀ sb, tokensOf [] (segs ++ (newLine, c!"\n") :: sb) =
      tokensOf [] segs ++ ⟨newLine, c!"\n", lineAfter t, columnAfter t⟩ :: tokensOf (t ++ ['\n']) sb := by
    intro sb
    rw [Lexer.tokensOf_append, List.nil_append, hcov]
    rfl
  refine ⟨⟨newLine, c!"\n", lineAfter t, columnAfter t⟩, rfl, ?_, ?_⟩
  · intro ts' hl'
    obtain ⟨sb, m, rest, hb, hf'⟩ := Lexer.cut_exists .default s
    have hw := whole _ _ _ hb
    rcases hf' with rfl | ⟨hne, hst⟩
    · rw [Lexer.lex_of_cut hw] at hl'
      cases hl'
      refine ⟨_, sb, m, hb, rfl, ⟨eof, c!"<EOF>", lineAfter (t ++ '\n' :: s), columnAfter (t ++ '\n' :: s)⟩, rfl, ?_⟩
      rw [toks]; rfl
    · rw [Lexer.lex_of_stuck hw hne hst] at hl'
      cases hl'
  · intro sb m hb
    refine ⟨⟨eof, c!"<EOF>", lineAfter (t ++ '\n' :: s), columnAfter (t ++ '\n' :: s)⟩, rfl, ?_⟩
    rw [Lexer.lex_of_cut (whole _ _ _ hb), toks]
    rfl

/-- The tokens of a text that is read as a program, a new line and more text. -/
theorem lex_feed {t s : Str} {ts : List Token} {pr : PProgram} (hl : Lexer.lex t = .ok ts) (hp : Program DerivesStmt ts pr) :
    ∃ us e sep, ts = us ++ [e] ∧ e.kind = eof ∧ sep.kind = newLine ∧
      (∀ ts', Lexer.lex (t ++ '\n' :: s) = .ok ts' → ∃ vs segs m, Cut .default s segs m [] ∧ vs = tokensOf (t ++ ['\n']) segs ∧
        ∃ e', e'.kind = eof ∧ ts' = us ++ sep :: vs ++ [e']) ∧
      (∀ segs m, Cut .default s segs m [] →
        ∃ e', e'.kind = eof ∧ Lexer.lex (t ++ '\n' :: s) = .ok (us ++ sep :: tokensOf (t ++ ['\n']) segs ++ [e'])) := by
  obtain ⟨segs, e, hc, hcl, hcov, rfl, he⟩ := program_cut hl hp
  obtain ⟨sep, h1, h2, h3⟩ := lex_feed_cut (s := s) hc hcl
  exact ⟨_, e, sep, rfl, he, h1, h2, h3⟩

theorem pieces_between {α : Type} {p : α → Bool} {a b : List α} {x : α} (hx : p x = true) :
    pieces p (a ++ x :: b) = pieces p a ++ pieces p b := by
  have : splitAt p (a ++ x :: b) = splitAt p a ++ splitAt p b := by
    induction a with
    | nil => simp [splitAt, hx]
    | cons c a ih =>
      rw [List.cons_append, splitAt, splitAt, ih]
      split
      · rfl
      · cases h : splitAt p a with
        | nil => exact absurd h (splitAt_ne a)
        | cons y ys => rfl
  unfold pieces
  rw [this, List.filter_append]

end Qasm
