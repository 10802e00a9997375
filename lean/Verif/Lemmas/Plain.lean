import Verif.Spec.Plain
import Verif.Props.Located
import Verif.Props.Messages
/-!
# Messages are plain text
-/

namespace Qasm.PlainText

open Spec Sem Syn

variable {F : Type} {fo : FloatOps F} {stod : Str → Option F}

theorem append {a b : Str} (ha : PlainAscii a) (hb : PlainAscii b) : PlainAscii (a ++ b) := fun c hc =>
  (List.mem_append.1 hc).elim (ha c) (hb c)

theorem letter {c : Char} (h : Letter c) : 32 ≤ c.toNat ∧ c.toNat ≤ 126 := by
  rcases h with h | rfl
  · simp only [Char.isAlpha, Char.isUpper, Char.isLower, Bool.or_eq_true, Bool.and_eq_true, decide_eq_true_eq] at h
    rcases h with ⟨h1, h2⟩ | ⟨h1, h2⟩
    · have h3 : (65 : Nat) ≤ c.toNat := h1
      have h4 : c.toNat ≤ 90 := h2
      omega
    · have h3 : (97 : Nat) ≤ c.toNat := h1
      have h4 : c.toNat ≤ 122 := h2
      omega
  · decide

theorem digit {c : Char} (h : Digit c) : 32 ≤ c.toNat ∧ c.toNat ≤ 126 := by
  simp only [Digit, List.mem_cons, List.not_mem_nil, or_false] at h
  rcases h with rfl | rfl | rfl | rfl | rfl | rfl | rfl | rfl | rfl | rfl <;> decide

theorem isDigit {c : Char} (h : c.isDigit = true) : 32 ≤ c.toNat ∧ c.toNat ≤ 126 := by
  simp only [Char.isDigit, Bool.and_eq_true, decide_eq_true_eq] at h
  have h3 : (48 : Nat) ≤ c.toNat := h.1
  have h4 : c.toNat ≤ 57 := h.2
  omega

theorem word {w : Str} (h : Word w) : PlainAscii w := by
  obtain ⟨c, u, rfl, h1, h2⟩ := h
  intro d hd
  rcases List.mem_cons.1 hd with rfl | hd
  · exact letter h1
  · exact (h2 d hd).elim letter digit

theorem nat (n : Nat) : PlainAscii (decNat n) := fun c hc => isDigit (decNat_digits n c hc)

theorem int (i : Int) : PlainAscii (decInt i) := by
  unfold decInt
  split
  · intro c hc
    rcases List.mem_cons.1 hc with rfl | hc
    · decide
    · exact nat _ c hc
  · exact nat _

theorem label (k : Kind) : PlainAscii (kindLabel k) := by cases k <;> decide

theorem fn (f : Fn) : PlainAscii f.name := by
  cases f with
  | un o => cases o <;> decide
  | bin o => cases o <;> decide
  | cond => decide
  | math f => cases f <;> decide
  | abs => decide

theorem nil : PlainAscii [] := by simp [PlainAscii]

theorem intercalate {sep : Str} (hs : PlainAscii sep) {ws : List Str} (h : ∀ w ∈ ws, PlainAscii w) : PlainAscii (sep.intercalate ws) := by
  intro c hc
  simp only [List.intercalate, List.mem_flatten] at hc
  obtain ⟨l, hl, hc⟩ := hc
  have : ∀ l ∈ ws.intersperse sep, PlainAscii l := by
    clear hl hc
    induction ws with
    | nil => simp
    | cons w ws ih =>
      cases ws with
      | nil => simpa using h
      | cons w' ws =>
        intro l hl
        simp only [List.intersperse_cons₂, List.mem_cons] at hl ih
        rcases hl with rfl | rfl | hl
        · exact h _ (by simp)
        · exact hs
        · exact ih (fun w hw => h w (List.mem_cons_of_mem _ (by simpa using hw))) l (by simpa using hl)
  exact this l hl c hc

theorem kind (n : ValueNode F) : PlainAscii (kindText n) := by
  unfold kindText
  cases kindOf n with
  | none => exact nil
  | some k => exact label k

theorem kinds (ns : List (ValueNode F)) : PlainAscii (kindsText ns) := by
  refine intercalate (by decide) fun w hw => ?_
  obtain ⟨n, -, rfl⟩ := List.mem_map.1 hw
  exact kind n

theorem call {name : Str} {ns : List (ValueNode F)} {m : Str} (h : CallFails fo name ns m) (hn : PlainAscii name) : PlainAscii m ∧ m ≠ [] := by
  cases h with
  | unknown => exact ⟨append (append (by decide) hn) (by decide), by simp⟩
  | overload => exact ⟨append (append (append (append (by decide) hn) (by decide)) (kinds _)) (by decide), by simp⟩

theorem identName {l : Option Loc} {n : Str} (w : Writable stod (.expr (.ident l n))) : PlainAscii n := by
  cases w with | ident h => exact word h.1

theorem indexOf {l : Option Loc} {e : Expr F} {is : List (IndexEntry F)} (w : Writable stod (.expr (.index l e is))) :
    Writable stod (.expr e) ∧ Writable stod (.entries is) := by
  cases w with | index h _ w => exact ⟨.ident h, w⟩

theorem callOf {l : Option Loc} {n : Str} {es : List (Expr F)} (w : Writable stod (.expr (.call l n es))) :
    PlainAscii n ∧ Writable stod (.exprs es) := by
  cases w with | call h w => exact ⟨word h.1, w⟩

theorem unOf {l : Option Loc} {o : UnOp} {e : Expr F} (w : Writable stod (.expr (.un l o e))) : Writable stod (.expr e) := by
  cases w with | un w => exact w

theorem binOf {l : Option Loc} {o : BinOp} {a b : Expr F} (w : Writable stod (.expr (.bin l o a b))) :
    Writable stod (.expr a) ∧ Writable stod (.expr b) := by
  cases w with | bin w w' => exact ⟨w, w'⟩

theorem ternOf {l : Option Loc} {a b c : Expr F} (w : Writable stod (.expr (.tern l a b c))) :
    Writable stod (.expr a) ∧ Writable stod (.expr b) ∧ Writable stod (.expr c) := by
  cases w with | tern w w' w'' => exact ⟨w, w', w''⟩

theorem exprsOf {e : Expr F} {es : List (Expr F)} (w : Writable stod (.exprs (e :: es))) :
    Writable stod (.expr e) ∧ Writable stod (.exprs es) := by
  cases w with | exprsN w w' => exact ⟨w, w'⟩

theorem entriesOf {e : IndexEntry F} {es : List (IndexEntry F)} (w : Writable stod (.entries (e :: es))) :
    Writable stod (.entry e) ∧ Writable stod (.entries es) := by
  cases w with | entriesN w w' => exact ⟨w, w'⟩

theorem itemOf {l : Option Loc} {e : Expr F} (w : Writable stod (.entry (.item l e))) : Writable stod (.expr e) := by
  cases w with | item w => exact w

theorem rangeOf {l : Option Loc} {a b : Expr F} (w : Writable stod (.entry (.range l a b))) :
    Writable stod (.expr a) ∧ Writable stod (.expr b) := by
  cases w with | range w w' => exact ⟨w, w'⟩

mutual
theorem expr {D : List VarLink} {e : Expr F} {m : Str} {p : Option Loc} (h : Fails fo D e m p) (w : Writable stod (.expr e)) :
    PlainAscii m ∧ m ≠ [] :=
  match h with
  | .ident _ => ⟨append (append (by decide) (identName w)) (by decide), by simp⟩
  | .indexSub h => expr h (indexOf w).1
  | .indexKind _ _ _ => ⟨append (append (by decide) (label _)) (by decide), by simp⟩
  | .indexIndices _ _ h => entries h (indexOf w).2
  | .indexRange _ _ _ _ _ _ => ⟨append (append (append (append (by decide) (int _)) (by decide)) (int _)) (by decide), by simp⟩
  | .callArgs h => exprs h (callOf w).2
  | .call _ h => call h (callOf w).1
  | .unSub h => expr h (unOf w)
  | .un _ h => call h (fn _)
  | .binLeft h => expr h (binOf w).1
  | .binRight _ h => expr h (binOf w).2
  | .bin _ _ h => call h (fn _)
  | .ternCond h => expr h (ternOf w).1
  | .ternTrue _ h => expr h (ternOf w).2.1
  | .ternFalse _ _ h => expr h (ternOf w).2.2
  | .tern _ _ _ h => call h (fn _)
theorem exprs {D : List VarLink} {es : List (Expr F)} {m : Str} {p : Option Loc} (h : FailsList fo D es m p)
    (w : Writable stod (.exprs es)) : PlainAscii m ∧ m ≠ [] :=
  match h with
  | .head h => expr h (exprsOf w).1
  | .tail _ h => exprs h (exprsOf w).2
theorem entries {D : List VarLink} {is : List (IndexEntry F)} {m : Str} {p : Option Loc} (h : FailsIndices fo D is m p)
    (w : Writable stod (.entries is)) : PlainAscii m ∧ m ≠ [] :=
  match h with
  | .head h => entry h (entriesOf w).1
  | .tail _ _ h => entries h (entriesOf w).2
theorem entry {D : List VarLink} {i : IndexEntry F} {m : Str} {p : Option Loc} (h : FailsEntry fo D i m p)
    (w : Writable stod (.entry i)) : PlainAscii m ∧ m ≠ [] :=
  match h with
  | .item h => expr h (itemOf w)
  | .itemInt _ _ => ⟨by decide, by simp⟩
  | .first h => expr h (rangeOf w).1
  | .firstInt _ _ => ⟨by decide, by simp⟩
  | .last _ _ h => expr h (rangeOf w).2
  | .lastInt _ _ _ _ => ⟨by decide, by simp⟩
  | .order _ _ _ _ _ => ⟨by decide, by simp⟩
end

theorem param {name : Str} (hn : PlainAscii name) {vs : List (Value F)} {ks : List Kind} {m : Str} (h : ParamFails fo name vs ks m) :
    PlainAscii m ∧ m ≠ [] := by
  induction h with
  | here => exact ⟨append (append (append (append (by decide) hn) (by decide)) (kind _)) (by decide), by simp⟩
  | later _ _ _ ih => exact ih

theorem params {name : Str} (hn : PlainAscii name) {vs : List (Value F)} {ks : List Kind} {m : Str} (h : ParamsFail fo name vs ks m) :
    PlainAscii m ∧ m ≠ [] := by
  cases h with
  | none => exact ⟨append (append (append (append (by decide) hn) (by decide)) (nat _)) (by decide), by simp⟩
  | count =>
    exact ⟨append (append (append (append (append (append (by decide) hn) (by decide)) (nat _)) (by decide)) (nat _)) (by decide),
      by simp⟩
  | kind _ h => exact param hn h

theorem gateName {l : Option Loc} {as : List (AnnotationData F)} {name : Str} {g : Option (Gate F)} {ps : List (Expr F)}
    (w : WritableGate stod (.mk l as name g ps)) : PlainAscii name := by
  cases w with
  | named h => exact word h.1
  | inv => decide
  | pow => decide
  | ctrl => decide

theorem root {g : Gate F} (w : WritableGate stod g) : PlainAscii (rootName g) := by
  induction w with
  | named h => exact word h.1
  | inv _ ih => exact ih
  | pow _ _ ih => exact ih
  | ctrl _ ih => exact ih

theorem gate {D : List VarLink} {g : Gate F} {m : Str} {p : Option Loc} (h : GateFails fo D g m p) (w : WritableGate stod g) :
    PlainAscii m ∧ m ≠ [] := by
  induction h with
  | parameters h => cases w with | named _ w => exact exprs h w
  | unknown => exact ⟨append (append (by decide) (gateName w)) (by decide), by simp⟩
  | named _ _ h => exact params (gateName w) h
  | inner _ ih =>
    cases w with
    | inv w => exact ih w
    | pow _ w => exact ih w
    | ctrl w => exact ih w
  | modifierParameters _ h =>
    cases w with
    | inv w => cases h
    | pow w _ => exact exprs h (.exprsN w .exprs0)
    | ctrl w => cases h
  | modifier _ _ h => exact params (gateName w) h
  | multi => exact ⟨by decide, by simp⟩

theorem resolution {name : Str} (hn : PlainAscii name) (vs : List (Value F)) : PlainAscii (resolutionMessage name vs) ∧ resolutionMessage name vs ≠ [] :=
  ⟨append (append (append (append (by decide) hn) (by decide)) (kinds _)) (by decide), by simp [resolutionMessage]⟩

theorem ref {g : Gate F} (w : WritableGate stod g) : PlainAscii (refName g) := by
  cases w with
  | named h => exact word h.1
  | inv w => exact append (by split <;> decide) (root w)
  | pow _ w => exact append (by split <;> decide) (root w)
  | ctrl w => exact append (by split <;> decide) (root w)

theorem nonGateParams {name : Str} (hn : PlainAscii name) {vs : List (Value F)} {m : Str} (h : NonGateParamsFail fo name vs m) :
    PlainAscii m ∧ m ≠ [] := by
  cases h with
  | count => exact ⟨append (append (append (append (by decide) hn) (by decide)) (nat _)) (by decide), by simp⟩
  | kind _ _ h => exact param hn h

theorem nonGate {l : Option Loc} {as : List (AnnotationData F)} {name : Str} {es ps : List (Expr F)}
    (w : WritableStmt stod (.nonGate l as name es ps)) : PlainAscii name ∧ Writable stod (.exprs es) ∧ Writable stod (.exprs ps) := by
  cases w with
  | measure w1 w2 w3 => exact ⟨by decide, .exprsN w1 (.exprsN w2 .exprs0), w3⟩
  | simple h w => exact ⟨by rcases h with rfl | rfl | rfl <;> decide, .exprsN w .exprs0, .exprs0⟩
  | wait w1 w2 => exact ⟨by decide, .exprsN w2 .exprs0, .exprsN w1 .exprs0⟩

theorem stmt {D : List VarLink} {s : Stmt F} {m : Str} {p : Option Loc} (h : StmtFails fo D s m p) (w : WritableStmt stod s) :
    PlainAscii m ∧ m ≠ [] := by
  cases h with
  | unknownType h1 h2 => cases w with | var _ h _ => exact (h.elim h1 h2).elim
  | size =>
    cases w with
    | var _ h _ => exact ⟨append (append (by decide) (by rcases h with rfl | rfl <;> (dsimp only; decide))) (by decide), by simp⟩
  | redeclared => cases w with | var h _ _ => exact ⟨append (append (by decide) (word h.1)) (by decide), by simp⟩
  | gate h => cases w with | gate w _ _ => exact gate h w
  | gateOperands _ h => cases w with | gate _ _ w => exact exprs h w
  | gateKinds => cases w with | gate w _ _ => exact resolution (ref w) _
  | gateSizes => exact ⟨by decide, by simp⟩
  | operands h => exact exprs h (nonGate w).2.1
  | kinds => exact resolution (nonGate w).1 _
  | parameters _ _ _ h => exact exprs h (nonGate w).2.2
  | parameterKinds _ _ _ _ h => exact nonGateParams (nonGate w).1 h
  | measureSizes => exact ⟨by decide, by simp⟩

theorem errors {D : List VarLink} {u : Nat} {ss : List (Stmt F)} {es : List Err} (h : Errors fo D u ss es)
    (w : ∀ s ∈ ss, WritableStmt stod s) : ∀ e ∈ es, PlainAscii e.message ∧ e.message ≠ [] := by
  induction h with
  | nil => simp
  | decl _ _ _ ih => exact ih fun s hs => w s (List.mem_cons_of_mem _ hs)
  | instr _ _ ih => exact ih fun s hs => w s (List.mem_cons_of_mem _ hs)
  | badType _ h _ ih =>
    intro e he
    rcases List.mem_cons.1 he with rfl | he
    · exact stmt h (w _ (List.mem_cons_self ..))
    · exact ih (fun s hs => w s (List.mem_cons_of_mem _ hs)) e he
  | redeclared _ _ h _ ih =>
    intro e he
    rcases List.mem_cons.1 he with rfl | he
    · exact stmt h (w _ (List.mem_cons_self ..))
    · exact ih (fun s hs => w s (List.mem_cons_of_mem _ hs)) e he
  | badInstr _ h _ ih =>
    intro e he
    rcases List.mem_cons.1 he with rfl | he
    · exact stmt h (w _ (List.mem_cons_self ..))
    · exact ih (fun s hs => w s (List.mem_cons_of_mem _ hs)) e he

theorem versionText (v : Version) : PlainAscii (Spec.versionText v) := by
  refine intercalate (by decide) fun w hw => ?_
  obtain ⟨n, -, rfl⟩ := List.mem_map.1 hw
  exact int _

theorem program {v : Version} {p : ProgramAst F} {es : List Err} (h : ProgramErrors fo v p es) (w : WritableProgram stod p) :
    ∀ e ∈ es, PlainAscii e.message ∧ e.message ≠ [] := by
  obtain ⟨es1, es2, h1, h2, rfl⟩ := h
  intro e he
  rcases List.mem_append.1 he with he | he
  · cases h1 with
    | supported => cases he
    | negative => cases List.mem_singleton.1 he; exact ⟨by dsimp only; decide, by simp⟩
    | unsupported =>
      cases List.mem_singleton.1 he
      exact ⟨append (append (append (by decide) (versionText _)) (by decide)) (versionText _), by simp⟩
  · exact errors h2 w.2.2 e he

theorem writable {an : Antlr F} {file : Option Str} {text : Str} {p : ProgramAst F} (h : HasAst an file text p) :
    WritableProgram an.stod p := by
  obtain ⟨ts, pr, h1, h2, h3⟩ := h
  exact writableProgram_of (program_derives h2) (fine h1) h3

/-- A location is printed as the name of the file and plain text. -/
theorem print (l : Loc) : ∃ w, PlainAscii w ∧ l.print = l.fileName.getD c!"<unknown file name>" ++ w := by
  unfold Loc.print Loc.unknownFileName
  dsimp only
  split
  · exact ⟨[], nil, by simp⟩
  · split
    · split
      · exact ⟨[':'] ++ decNat l.range.first.line ++ ['.', '.'] ++ decNat l.range.last.line,
          append (append (append (by decide) (nat _)) (by decide)) (nat _), by simp⟩
      · exact ⟨[':'] ++ decNat l.range.first.line, append (by decide) (nat _), by simp⟩
    · split
      · split
        · exact ⟨[':'] ++ decNat l.range.first.line ++ [':'] ++ decNat l.range.first.column ++ ['.', '.'] ++ decNat l.range.last.column,
            append (append (append (append (append (by decide) (nat _)) (by decide)) (nat _)) (by decide)) (nat _), by simp⟩
        · exact ⟨[':'] ++ decNat l.range.first.line ++ [':'] ++ decNat l.range.first.column,
            append (append (append (by decide) (nat _)) (by decide)) (nat _), by simp⟩
      · split
        · exact ⟨[':'] ++ decNat l.range.first.line ++ [':'] ++ decNat l.range.first.column ++ ['.', '.'] ++ decNat l.range.last.line
              ++ [':'] ++ decNat l.range.last.column,
            append (append (append (append (append (append (append (by decide) (nat _)) (by decide)) (nat _)) (by decide)) (nat _))
              (by decide)) (nat _), by simp⟩
        · exact ⟨[':'] ++ decNat l.range.first.line ++ [':'] ++ decNat l.range.first.column,
            append (append (append (by decide) (nat _)) (by decide)) (nat _), by simp⟩

end Qasm.PlainText
