import Verif.Lemmas.PlaceText
import Verif.Lemmas.PlaceProgram
import Verif.Model.SyntacticAnalyzer
/-!
# Helper lemmas: syntax trees and analyses elsewhere
-/

namespace Qasm
namespace Place

open Spec Syn TokKind

variable {F : Type} {fo : FloatOps F} {an : Antlr F} {s : Shift} {f f' : Option Str}

/-! ## Locations -/

theorem index_lt (hs : s.InOrder) (i j : Index) : (s.index i).lt (s.index j) = i.lt j := by
  have lt_iff (a b : Index) : a.lt b = true ↔ a.line < b.line ∨ a.line = b.line ∧ a.column < b.column := by
    simp [Index.lt]
  have h : s.line i.line < s.line j.line ↔ i.line < j.line := by
    constructor
    · intro h
      rcases Nat.lt_trichotomy i.line j.line with h' | h' | h'
      · exact h'
      · rw [h'] at h; omega
      · have := hs _ _ h'; omega
    · exact hs _ _
  have h' : s.line i.line = s.line j.line ↔ i.line = j.line := by
    constructor
    · intro h
      rcases Nat.lt_trichotomy i.line j.line with h' | h' | h'
      · have := hs _ _ h'; omega
      · exact h'
      · have := hs _ _ h'; omega
    · intro h; rw [h]
  rw [Bool.eq_iff_iff]
  rw [lt_iff, lt_iff]
  simp only [Shift.index, h, h']
  constructor
  · rintro (h | ⟨h, h'⟩)
    · exact .inl h
    · rw [h] at h'; exact .inr ⟨h, by omega⟩
  · rintro (h | ⟨h, h'⟩)
    · exact .inl h
    · refine .inr ⟨h, ?_⟩; rw [h]; omega

theorem index_max (hs : s.InOrder) (i j : Index) : Index.max (s.index i) (s.index j) = s.index (Index.max i j) := by
  simp only [Index.max, index_lt hs]; split <;> rfl

theorem index_min (hs : s.InOrder) (i j : Index) : Index.min (s.index i) (s.index j) = s.index (Index.min i j) := by
  simp only [Index.min, index_lt hs]; split <;> rfl

theorem expand_place (hs : s.InOrder) (l : Loc) (i : Index) :
    (s.loc f l).expandToInclude (s.index i) = s.loc f (l.expandToInclude i) := by
  simp only [Loc.expandToInclude, Shift.loc, index_max hs, index_min hs]

theorem joins (hs : s.InOrder) : Joins (s.loc f) := by
  intro l k
  have : ∀ l : Loc, (s.loc f l).range.first = s.index l.range.first ∧ (s.loc f l).range.last = s.index l.range.last :=
    fun _ => ⟨rfl, rfl⟩
  rw [(this k).1, (this k).2, expand_place hs, expand_place hs]

/-! ## Syntax trees -/

variable (hf : f' ≠ some [])

theorem range_mk (l c n : Nat) : Range.mk' ⟨l, c⟩ ⟨l, c + n⟩ = ⟨⟨l, c⟩, ⟨l, c + n⟩⟩ := by
  have : ¬ c + n < c := by omega
  simp [Range.mk', Index.max, Index.lt, this]

theorem annotation_eq (f : Option Str) (t : Token) :
    annotation f t = some (Loc.mk' f ⟨⟨t.line, t.column + 1⟩, ⟨t.line, t.column + 1 + t.text.length⟩⟩) := by
  simp only [annotation, range_mk]

include hf

theorem mk'_place (r : Range) : s.loc f' (Loc.mk' f r) = Loc.mk' f' ⟨s.index r.first, s.index r.last⟩ := by
  simp only [Shift.loc, Loc.mk', if_neg hf]

theorem annotation_place (t : Token) : annotation f' (token s t) = (annotation f t).map (s.loc f') := by
  rw [annotation_eq, annotation_eq, Option.map_some, mk'_place hf]
  simp only [token, Shift.index]
  congr 4 <;> omega

theorem syntaxError_place (l c k : Nat) (x : Str) :
    syntaxError f' (s.line l) (c + s.right l + k) x = placeErr (s.loc f') (syntaxError f l (c + k) x) := by
  simp only [syntaxError, listenerError, Err.mkRange, placeErr, Option.map_some]
  rw [range_mk _ _ 0, range_mk _ _ 0, mk'_place hf]
  simp only [Shift.index]
  congr 5 <;> omega

theorem getInt_place (l c k : Nat) (x : Str) :
    getInt f' (s.line l) (c + s.right l + k) x = (getInt f l (c + k) x).place (s.loc f') id := by
  unfold getInt
  split
  · rfl
  · exact congrArg Res.err (syntaxError_place hf l c k _)

theorem getFloat_place (l c : Nat) (x : Str) :
    getFloat an f' (s.line l) (c + s.right l) x = (getFloat an f l c x).place (s.loc f') id := by
  unfold getFloat
  split
  · rfl
  · exact congrArg Res.err (syntaxError_place hf l c 0 _)

theorem atom_place (t : Token) : Syn.atom an f' (token s t) = (Syn.atom an f t).place (s.loc f') (placeExpr (s.loc f')) := by
  have ha := annotation_place (s := s) (f := f) hf t
  unfold Syn.atom
  rw [ha]
  simp only [token]
  split
  · simp [placeExpr]
  · rfl
  · exact place_bind (getInt_place hf t.line t.column 0 t.text) fun _ => by simp [placeExpr]
  · exact place_bind (getFloat_place hf t.line t.column t.text) fun _ => by simp [placeExpr]

omit hf in
theorem both_place {α β : Type} {m : Loc → Loc} {f : α → α} {g : β → β} {x x' : Res Err α} {y y' : Res Err β} (o : Bool)
    (hx : x' = x.place m f) (hy : y' = y.place m g) : Res.both o x' y' = (Res.both o x y).place m (fun z => (f z.1, g z.2)) := by
  unfold Res.both
  split
  · exact place_bind hy fun w => place_bind hx fun v => rfl
  · exact place_bind hx fun v => place_bind hy fun w => rfl

omit hf in
theorem three_place {α β γ : Type} {m : Loc → Loc} {f : α → α} {g : β → β} {h : γ → γ} {x x' : Res Err α} {y y' : Res Err β}
    {z z' : Res Err γ} (o : Order3) (hx : x' = x.place m f) (hy : y' = y.place m g) (hz : z' = z.place m h) :
    Res.three o x' y' z' = (Res.three o x y z).place m (fun t => (f t.1, g t.2.1, h t.2.2)) := by
  cases o
  · exact place_bind hx fun u => place_bind hy fun v => place_bind hz fun w => rfl
  · exact place_bind hx fun u => place_bind hz fun w => place_bind hy fun v => rfl
  · exact place_bind hy fun v => place_bind hx fun u => place_bind hz fun w => rfl
  · exact place_bind hy fun v => place_bind hz fun w => place_bind hx fun u => rfl
  · exact place_bind hz fun w => place_bind hx fun u => place_bind hy fun v => rfl
  · exact place_bind hz fun w => place_bind hy fun v => place_bind hx fun u => rfl

mutual
theorem expr_place (e : PExpr) : Syn.expr an f' (mapE (token s) e) = (Syn.expr an f e).place (s.loc f') (placeExpr (s.loc f')) := by
  match e with
  | .parens e => simp only [mapE, Syn.expr]; exact expr_place e
  | .pre op e =>
    simp only [mapE, Syn.expr, annotation_place (f := f) hf]
    refine place_bind (expr_place e) fun v => ?_
    simp only [token]
    split <;> simp [placeExpr]
  | .bin op a b =>
    simp only [mapE, Syn.expr, annotation_place (f := f) hf]
    exact place_bind (both_place _ (expr_place a) (expr_place b)) fun x => by simp [placeExpr, token]
  | .tern op c a b =>
    simp only [mapE, Syn.expr, annotation_place (f := f) hf]
    exact place_bind (three_place _ (expr_place c) (expr_place a) (expr_place b)) fun x => by simp [placeExpr]
  | .call n es =>
    simp only [mapE, Syn.expr, annotation_place (f := f) hf]
    exact place_bind (exprs_place es) fun v => by simp [placeExpr, token]
  | .index n is =>
    simp only [mapE, Syn.expr, annotation_place (f := f) hf]
    exact place_bind (indexEntries_place is) fun v => by simp [placeExpr, token]
  | .atom t => simp only [mapE, Syn.expr]; exact atom_place hf t
theorem exprs_place (es : List PExpr) :
    Syn.exprs an f' (mapEs (token s) es) = (Syn.exprs an f es).place (s.loc f') (placeExprs (s.loc f')) := by
  match es with
  | [] => simp [mapEs, Syn.exprs, placeExprs]
  | e :: es =>
    simp only [mapEs, Syn.exprs]
    exact place_bind (expr_place e) fun v => place_bind (exprs_place es) fun w => by simp [placeExprs]
theorem indexEntry_place (i : PEntry) :
    Syn.indexEntry an f' (mapI (token s) i) = (Syn.indexEntry an f i).place (s.loc f') (placeEntry (s.loc f')) := by
  match i with
  | .item e =>
    simp only [mapI, Syn.indexEntry]
    exact place_bind (expr_place e) fun v => by simp [placeEntry]
  | .range a b =>
    simp only [mapI, Syn.indexEntry]
    exact place_bind (both_place _ (expr_place a) (expr_place b)) fun x => by simp [placeEntry]
theorem indexEntries_place (is : List PEntry) :
    Syn.indexEntries an f' (mapIs (token s) is) = (Syn.indexEntries an f is).place (s.loc f') (placeEntries (s.loc f')) := by
  match is with
  | [] => simp [mapIs, Syn.indexEntries, placeEntries]
  | i :: is =>
    simp only [mapIs, Syn.indexEntries]
    exact place_bind (indexEntry_place i) fun v => place_bind (indexEntries_place is) fun w => by simp [placeEntries]
end

theorem optExprs_place (o : Option (List PExpr)) :
    Syn.optExprs an f' (o.map (mapEs (token s))) = (Syn.optExprs an f o).place (s.loc f') (placeExprs (s.loc f')) := by
  cases o with
  | none => simp [Syn.optExprs, placeExprs]
  | some es => exact exprs_place hf es

theorem gate_place (g : PGate) : Syn.gate an f' (mapG (token s) g) = (Syn.gate an f g).place (s.loc f') (placeGate (s.loc f')) := by
  match g with
  | .inv kw g =>
    simp only [mapG, Syn.gate, annotation_place (f := f) hf]
    exact place_bind (gate_place g) fun v => by simp [placeGate, placeExprs, token]
  | .pow kw e g =>
    simp only [mapG, Syn.gate, annotation_place (f := f) hf]
    exact place_bind (gate_place g) fun v => place_bind (expr_place hf e) fun w => by simp [placeGate, placeExprs, token]
  | .ctrl kw g =>
    simp only [mapG, Syn.gate, annotation_place (f := f) hf]
    exact place_bind (gate_place g) fun v => by simp [placeGate, placeExprs, token]
  | .named n ps =>
    simp only [mapG, Syn.gate, annotation_place (f := f) hf]
    exact place_bind (optExprs_place hf ps) fun v => by simp [placeGate, token]

theorem typeLoc_place (hs : s.InOrder) (kw : Token) (o : Option (Token × Token)) :
    typeLoc f' (token s kw) (o.map fun x => (token s x.1, token s x.2)) = (typeLoc f kw o).map (s.loc f') := by
  cases o with
  | none => exact annotation_place hf kw
  | some x =>
    obtain ⟨n, c⟩ := x
    simp only [Option.map_some, typeLoc, annotation_place (f := f) hf]
    rw [annotation_eq]
    simp only [Option.map_some, ← expand_place hs]
    have e : (⟨(token s c).line, (token s c).column + 1 + (token s c).text.length⟩ : Index)
        = s.index ⟨c.line, c.column + 1 + c.text.length⟩ := by
      simp only [token, Shift.index, Index.mk.injEq, true_and]
      omega
    rw [e]

theorem gateLoc_place (m : Loc → Loc) (g : Gate F) : gateLoc (placeGate m g) = (gateLoc g).map m := by
  match g with
  | .mk l as n none ps => rfl
  | .mk l as n (some g) ps => rfl

theorem stmt_place (hs : s.InOrder) (x : PStmt) :
    Syn.stmt an f' (mapS (token s) x) = (Syn.stmt an f x).place (s.loc f') (placeStmt (s.loc f')) := by
  cases x with
  | var kw size name =>
    simp only [mapS, Syn.stmt, annotation_place (f := f) hf, typeLoc_place (f := f) hf hs]
    refine place_bind (f := id) ?_ fun n => by simp [placeStmt, token]
    cases size with
    | none => rfl
    | some x =>
      obtain ⟨n, c⟩ := x
      exact place_bind (getInt_place hf n.line n.column 0 n.text) fun _ => rfl
  | gate g es =>
    simp only [mapS, Syn.stmt]
    exact place_bind (gate_place hf g) fun v => place_bind (exprs_place hf es) fun w => by simp [placeStmt, gateLoc_place hf]
  | measure kw ps b q =>
    simp only [mapS, Syn.stmt, annotation_place (f := f) hf]
    exact place_bind (optExprs_place hf ps) fun u => place_bind (expr_place hf b) fun v => place_bind (expr_place hf q) fun w => by
      simp [placeStmt, placeExprs, token]
  | simple kw e =>
    simp only [mapS, Syn.stmt, annotation_place (f := f) hf]
    exact place_bind (expr_place hf e) fun v => by simp [placeStmt, placeExprs, token]
  | wait kw p e =>
    simp only [mapS, Syn.stmt, annotation_place (f := f) hf]
    exact place_bind (expr_place hf p) fun v => place_bind (expr_place hf e) fun w => by simp [placeStmt, placeExprs, token]
  | asm name raw =>
    simp only [mapS, Syn.stmt]
    refine place_bind (f := id) ?_ fun v => by simp [placeStmt, token]
    simp only [token]
    cases h : Text.removeTripleQuotes raw.text with
    | err e => cases e
    | _ => rfl

theorem stmts_place (hs : s.InOrder) (xs : List PStmt) :
    Syn.stmts an f' (xs.map (mapS (token s))) = (Syn.stmts an f xs).place (s.loc f') (List.map (placeStmt (s.loc f'))) := by
  induction xs with
  | nil => rfl
  | cons x xs ih =>
    simp only [List.map_cons, Syn.stmts]
    exact place_bind (stmt_place hf hs x) fun v => place_bind ih fun w => rfl

theorem version_place (t : Token) :
    Syn.version f' (token s t) = (Syn.version f t).place (s.loc f') (fun v => ⟨v.items, v.loc.map (s.loc f')⟩) := by
  simp only [Syn.version, annotation_place (f := f) hf]
  simp only [token]
  refine place_bind (getInt_place hf t.line t.column 0 _) fun m => ?_
  split
  · rfl
  · refine place_bind (getInt_place hf t.line t.column _ _) fun n => rfl

theorem program_place (hs : s.InOrder) (p : PProgram) :
    Syn.program an f' (mapP (token s) p) = (Syn.program an f p).place (s.loc f') (placeProgram (s.loc f')) := by
  simp only [Syn.program, mapP]
  exact place_bind (version_place hf p.version) fun v => place_bind (stmts_place hf hs p.statements) fun w => rfl

end Place
end Qasm
