import Verif.Spec.Texts
import Verif.Lemmas.Plain
/-!
# Messages of analysers with their own registrations

Where the program is that of a text, they are plain text, or a registered function threw them.
-/

namespace Qasm.PlainText

open Spec Sem Syn

variable {F : Type} {fo : FloatOps F} {stod : Str → Option F} {ls : List (Level F)}

/-- The message is plain text, or that of a registered function. -/
def Fair (ls : List (Level F)) (m : Str) : Prop := (PlainAscii m ∧ m ≠ []) ∨ ThrowsMessage ls m

theorem lastFitting_mem {T : Type} {regs : List (Registration T)} {name : Str} {args ws : List (Value F)} {t : T}
    (h : LastFitting fo regs name args t ws) : ∃ r ∈ regs, r.2.1 = t := by
  obtain ⟨o, p, n, h, _⟩ := h
  exact ⟨(name, t, p), by rw [h]; simp, rfl⟩

theorem callIn {name : Str} {args : List (Value F)} {x : Err} (h : CallFailsIn fo ls name args x) (hn : PlainAscii name) :
    Fair ls x.message := by
  cases h with
  | unknown => exact .inl ⟨append (append (by decide) hn) (by decide), by simp⟩
  | overload => exact .inl ⟨append (append (append (append (by decide) hn) (by decide)) (kinds _)) (by decide), by simp⟩
  | thrown h1 h2 h3 =>
    obtain ⟨r, hr, rfl⟩ := lastFitting_mem h2
    exact .inr ⟨_, h1, r, hr, _, _, h3, rfl⟩
  | empty => exact .inl ⟨by dsimp only; decide, by simp⟩

theorem notIndex {v : Value F} {m : Str} (h : NotIndex fo v m) : Fair ls m := by
  cases h with
  | kind => exact .inl ⟨by decide, by simp⟩
  | notConst => exact .inl ⟨by decide, by simp⟩

theorem fair_at {x : Err} {l : Option Loc} (h : Fair ls x.message) : Fair ls (orAt x l).message := h

mutual
theorem exprIn {e : Expr F} {x : Err} (h : FailsIn fo ls e x) (w : Writable stod (.expr e)) : Fair ls x.message :=
  match h with
  | .ident _ => .inl ⟨append (append (by decide) (identName w)) (by decide), by simp⟩
  | .indexed h => fair_at (fair_at (exprIn h (indexOf w).1))
  | .notArray _ _ _ => .inl ⟨append (append (by decide) (label _)) (by decide), by simp⟩
  | .indices _ _ h => fair_at (entriesIn h (indexOf w).2)
  | .range _ _ _ _ _ => .inl ⟨append (append (append (append (by decide) (int _)) (by decide)) (int _)) (by decide), by simp⟩
  | .args h => exprsIn h (callOf w).2
  | .call _ h => callIn h (callOf w).1
  | .operand h => fair_at (exprIn h (unOf w))
  | .un _ h => callIn h (fn _)
  | .left h => fair_at (exprIn h (binOf w).1)
  | .right _ h => fair_at (exprIn h (binOf w).2)
  | .bin _ _ h => callIn h (fn _)
  | .cond h => fair_at (exprIn h (ternOf w).1)
  | .ifTrue _ h => fair_at (exprIn h (ternOf w).2.1)
  | .ifFalse _ _ h => fair_at (exprIn h (ternOf w).2.2)
  | .tern _ _ _ h => callIn h (fn _)
theorem exprsIn {es : List (Expr F)} {x : Err} (h : ArgsFail fo ls es x) (w : Writable stod (.exprs es)) : Fair ls x.message :=
  match h with
  | .head h => fair_at (exprIn h (exprsOf w).1)
  | .tail _ h => exprsIn h (exprsOf w).2
theorem entriesIn {is : List (IndexEntry F)} {x : Err} (h : IndicesFail fo ls is x) (w : Writable stod (.entries is)) :
    Fair ls x.message :=
  match h with
  | .head h => entryIn h (entriesOf w).1
  | .tail _ h => entriesIn h (entriesOf w).2
theorem entryIn {i : IndexEntry F} {x : Err} (h : EntryFails fo ls i x) (w : Writable stod (.entry i)) : Fair ls x.message :=
  match h with
  | .item h => exprIn h (itemOf w)
  | .itemValue _ h => notIndex h
  | .first h => exprIn h (rangeOf w).1
  | .firstValue _ h => notIndex h
  | .last _ _ h => exprIn h (rangeOf w).2
  | .lastValue _ _ _ h => notIndex h
  | .order _ _ _ _ _ => .inl ⟨by dsimp only; decide, by simp⟩
end

theorem paramIn {name : Str} (hn : PlainAscii name) {vs : List (Value F)} {ks : List Kind} {m : Str} (h : ParamFailsIn name vs ks m) :
    PlainAscii m ∧ m ≠ [] := by
  induction h with
  | here => exact ⟨append (append (append (append (by decide) hn) (by decide)) (label _)) (by decide), by simp⟩
  | later _ _ _ ih => exact ih

theorem paramsIn {name : Str} (hn : PlainAscii name) {vs : List (Value F)} {ks : List Kind} {m : Str} (h : ParamsFailIn name vs ks m) :
    PlainAscii m ∧ m ≠ [] := by
  cases h with
  | none => exact ⟨append (append (append (append (by decide) hn) (by decide)) (nat _)) (by decide), by simp⟩
  | count =>
    exact ⟨append (append (append (append (append (append (by decide) hn) (by decide)) (nat _)) (by decide)) (nat _)) (by decide),
      by simp⟩
  | kind _ h => exact paramIn hn h

theorem gateIn {g : Gate F} {x : Err} (h : GateFailsIn fo ls g x) (w : WritableGate stod g) : Fair ls x.message := by
  induction h with
  | parameters h => cases w with | named _ w => exact fair_at (exprsIn h w)
  | unknown => exact .inl ⟨append (append (by decide) (gateName w)) (by decide), by simp⟩
  | named _ _ h => exact .inl (paramsIn (gateName w) h)
  | inner _ ih =>
    cases w with
    | inv w => exact fair_at (ih w)
    | pow _ w => exact fair_at (ih w)
    | ctrl w => exact fair_at (ih w)
  | modifierParameters _ h =>
    cases w with
    | inv w => cases h
    | pow w _ => exact fair_at (exprsIn h (.exprsN w .exprs0))
    | ctrl w => cases h
  | modifier _ _ h => exact .inl (paramsIn (gateName w) h)
  | multi => exact .inl ⟨by dsimp only; decide, by simp⟩

theorem nonGateParamsIn {name : Str} (hn : PlainAscii name) {vs : List (Value F)} {m : Str} (h : NonGateParamsFailIn name vs m) :
    PlainAscii m ∧ m ≠ [] := by
  cases h with
  | count => exact ⟨append (append (append (append (by decide) hn) (by decide)) (nat _)) (by decide), by simp⟩
  | kind _ _ h => exact paramIn hn h

theorem instrIn {s : Stmt F} {x : Err} (h : InstrFailsIn fo ls s x) (w : WritableStmt stod s) : Fair ls x.message := by
  cases h with
  | gate h => cases w with | gate w _ _ => exact fair_at (gateIn h w)
  | gateOperands _ h => cases w with | gate _ _ w => exact fair_at (exprsIn h w)
  | gateKinds => cases w with | gate w _ _ => exact .inl (resolution (ref w) _)
  | gateSizes => exact .inl ⟨by dsimp only; decide, by simp⟩
  | operands h => exact fair_at (exprsIn h (nonGate w).2.1)
  | kinds => exact .inl (resolution (nonGate w).1 _)
  | parameters _ _ h => exact fair_at (exprsIn h (nonGate w).2.2)
  | parameterKinds _ _ _ h => exact .inl (nonGateParamsIn (nonGate w).1 h)
  | measureSizes => exact .inl ⟨by dsimp only; decide, by simp⟩

theorem fair_declared {r : Level F} {vars : List (Str × Value F)} {m : Str} (h : Fair ({ r with vars := vars } :: ls) m) :
    Fair (r :: ls) m := by
  rcases h with h | ⟨g, h1, h2⟩
  · exact .inl h
  · refine .inr ?_
    cases ls with
    | nil =>
      cases h1
      exact ⟨r, rfl, h2⟩
    | cons l ls => exact ⟨g, by simpa [List.getLast?_cons_cons] using h1, h2⟩

theorem analysisIn {r r' : Level F} {u : Nat} {ss : List (Stmt F)} {vs : List (SVariable F)} {ts : List (SStatement F)}
    {bad : List (Stmt F × Err)} (h : AnalysisIn fo ls r u ss vs ts bad r') (w : ∀ s ∈ ss, WritableStmt stod s) :
    ∀ b ∈ bad, Fair (r :: ls) b.2.message := by
  induction h with
  | nil => simp
  | decl _ _ _ ih => exact fun b hb => fair_declared (ih (fun s hs => w s (List.mem_cons_of_mem _ hs)) b hb)
  | instr _ _ ih => exact ih fun s hs => w s (List.mem_cons_of_mem _ hs)
  | badType _ h _ ih =>
    intro b hb
    rcases List.mem_cons.1 hb with rfl | hb
    · have := w _ (List.mem_cons_self ..)
      cases this with
      | var _ hw _ =>
        cases h with
        | unknown h1 h2 => exact (hw.elim h1 h2).elim
        | size =>
          exact .inl ⟨append (append (by decide) (by rcases hw with rfl | rfl <;> (dsimp only; decide))) (by decide), by simp⟩
    · exact ih (fun s hs => w s (List.mem_cons_of_mem _ hs)) b hb
  | redeclared _ _ _ ih =>
    intro b hb
    rcases List.mem_cons.1 hb with rfl | hb
    · have := w _ (List.mem_cons_self ..)
      cases this with
      | var hw _ _ => exact .inl ⟨append (append (by decide) (word hw.1)) (by decide), by simp⟩
    · exact ih (fun s hs => w s (List.mem_cons_of_mem _ hs)) b hb
  | badInstr _ _ h _ ih =>
    intro b hb
    rcases List.mem_cons.1 hb with rfl | hb
    · exact instrIn h.1 (w _ (List.mem_cons_self ..))
    · exact ih (fun s hs => w s (List.mem_cons_of_mem _ hs)) b hb

theorem versionErrors {v : Version} {node : VersionAst} {es : List Err} (h : VersionErrors v node es) :
    ∀ e ∈ es, PlainAscii e.message ∧ e.message ≠ [] := by
  intro e he
  cases h with
  | supported => cases he
  | negative => cases List.mem_singleton.1 he; exact ⟨by dsimp only; decide, by simp⟩
  | unsupported =>
    cases List.mem_singleton.1 he
    exact ⟨append (append (append (by decide) (versionText _)) (by decide)) (versionText _), by simp⟩

end Qasm.PlainText
