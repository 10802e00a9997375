import Verif.Spec.Reorder
import Verif.Lemmas.Join
import Verif.Lemmas.Unused
/-!
# Statements in another order
-/

namespace Qasm.Reorder

open Spec Join

variable {F : Type} {fo : FloatOps F}

abbrev Item (F : Type) := Stmt F × (SVariable F ⊕ SStatement F)

/-- The name an item declares. -/
def itemName : Item F → Option Str
  | (_, .inl x) => some x.name
  | _ => none

def itemVar : Item F → Option (SVariable F)
  | (_, .inl x) => some x
  | _ => none

def itemInstr : Item F → Option (SStatement F)
  | (_, .inr t) => some t
  | _ => none

/-- What is known of a statement of a valid program, if `D` are all its declarations. -/
def Fact (fo : FloatOps F) (D : List VarLink) (it : Item F) : Prop :=
  (∃ l n typ x, it = (.var l [] n typ, .inl x) ∧ TypeOk typ x.typ ∧ n.name ∉ reserved ∧ x.name = n.name ∧ x.annotations = [] ∧
    x.loc = n.loc) ∨
  (∃ s t, it = (s, .inr t) ∧ ¬ IsDecl s ∧ InstrOk fo D s t)

theorem outcomes_instr {s : Stmt F} (h : ¬ IsDecl s) (ss : List (Stmt F)) (vs : List (SVariable F)) (t : SStatement F) (ts : List (SStatement F)) :
    outcomes (s :: ss) vs (t :: ts) = (s, .inr t) :: outcomes ss vs ts := by
  cases s with
  | var => exact absurd trivial h
  | _ => simp [outcomes]

theorem fact_more {D D' : List VarLink} (h : ∀ x ∈ D, x ∈ D') {it : Item F} (hf : Fact fo D it) : Fact fo D' it := by
  rcases hf with hf | ⟨s, t, rfl, hd, hi⟩
  · exact .inl hf
  · have := instrOk_move (f := id) (N := fun _ => True) (D' := D') (fun x hx _ => h x hx) hi fun _ _ => trivial
    rw [moveSStatement_id] at this
    exact .inr ⟨s, t, rfl, hd, this⟩

theorem facts {D : List VarLink} {ss : List (Stmt F)} {vs : List (SVariable F)} {ts : List (SStatement F)} (h : Exec fo D ss vs ts)
    (hp : ∀ s ∈ ss, PlainStmt s) : (∀ it ∈ outcomes ss vs ts, Fact fo ((vs.map SVariable.link).reverse ++ D) it) ∧
      (outcomes ss vs ts).map Prod.fst = ss ∧ (outcomes ss vs ts).filterMap itemVar = vs ∧
      (outcomes ss vs ts).filterMap itemInstr = ts ∧ (vs.map (·.name)).Nodup ∧ ∀ x ∈ vs, Fresh D x.name := by
  induction h with
  | nil => simp [outcomes]
  | @decl D l as n typ ss t sas vs ts h1 h2 h3 h4 ih =>
    have has : as = [] := hp _ (List.mem_cons_self ..)
    subst has
    have hsas : sas = [] := by cases h3; rfl
    subst hsas
    obtain ⟨i1, i2, i3, i4, i5, i6⟩ := ih fun s hs => hp s (List.mem_cons_of_mem _ hs)
    refine ⟨?_, by simp [outcomes, i2], by simp [outcomes, itemVar, i3], by simpa [outcomes, itemInstr, List.filterMap_cons] using i4, ?_, ?_⟩
    · intro it hit
      simp only [outcomes, List.mem_cons] at hit
      rcases hit with rfl | hit
      · exact .inl ⟨l, n, typ, _, rfl, h1, h2.1, rfl, rfl, rfl⟩
      · exact fact_more (fun x hx => by
          simp only [List.map_cons, List.reverse_cons, List.append_assoc, List.singleton_append, SVariable.link]
          exact hx) (i1 it hit)
    · simp only [List.map_cons, List.nodup_cons, List.mem_map, not_exists, not_and]
      refine ⟨fun x hx e => ?_, i5⟩
      exact (i6 x hx).2 _ (List.mem_cons_self ..) e.symm
    · intro x hx
      rcases List.mem_cons.1 hx with rfl | hx
      · exact h2
      · exact ⟨(i6 x hx).1, fun y hy => (i6 x hx).2 y (List.mem_cons_of_mem _ hy)⟩
  | @instr D s ss t vs ts h1 h2 ih =>
    have hd : ¬ IsDecl s := by cases h1 <;> exact id
    obtain ⟨i1, i2, i3, i4, i5, i6⟩ := ih fun s hs => hp s (List.mem_cons_of_mem _ hs)
    rw [outcomes_instr hd]
    refine ⟨?_, by simp [i2], by simpa [itemVar, List.filterMap_cons] using i3, by simp [itemInstr, List.filterMap_cons, i4], i5, i6⟩
    intro it hit
    rcases List.mem_cons.1 hit with rfl | hit
    · refine fact_more (D := D) (fun x hx => by simp [hx]) (.inr ⟨s, t, rfl, hd, h1⟩)
    · exact i1 it hit

/-- A permutation of the images comes from a permutation. -/
theorem perm_lift {α β : Type} {g : α → β} {ys : List β} {zs : List β} (h : ys.Perm zs) : ∀ {xs : List α}, xs.map g = zs →
    ∃ xs' : List α, xs'.map g = ys ∧ xs'.Perm xs := by
  induction h with
  | nil => intro xs hx; exact ⟨xs, hx, .refl _⟩
  | cons y _ ih =>
    intro xs hx
    cases xs with
    | nil => cases hx
    | cons x xs =>
      simp only [List.map_cons, List.cons.injEq] at hx
      obtain ⟨xs', h1, h2⟩ := ih hx.2
      exact ⟨x :: xs', by simp [h1, hx.1], .cons _ h2⟩
  | swap y z l =>
    intro xs hx
    match xs, hx with
    | a :: b :: xs, hx =>
      simp only [List.map_cons, List.cons.injEq] at hx
      exact ⟨b :: a :: xs, by simp [hx], .swap ..⟩
  | trans _ _ ih1 ih2 =>
    intro xs hx
    obtain ⟨x1, h1, h2⟩ := ih2 hx
    obtain ⟨x2, h3, h4⟩ := ih1 h1
    exact ⟨x2, h3, h4.trans h2⟩

def moveItem (f : Nat → Nat) (it : Item F) : Item F := (it.1, moveOutcome f it.2)

theorem gate_mentioned : ∀ g : Gate F, PlainGate g → mentionedGate g = namesGate g
  | .mk l as n none ps, h => by cases h; simp [mentionedGate, namesGate, namesAnnotations]
  | .mk l as n (some g) ps, h => by
    obtain ⟨rfl, h⟩ := h
    simp [mentionedGate, namesGate, namesAnnotations, gate_mentioned g h]

theorem names_mentioned {s : Stmt F} (h : PlainStmt s) (hd : ¬ IsDecl s) : ∀ m ∈ mentioned s, m ∈ namesStmt s := by
  cases s with
  | var => exact absurd trivial hd
  | gate l as g es => intro m hm; obtain ⟨rfl, hg⟩ := h; simpa [mentioned, namesStmt, namesAnnotations, gate_mentioned g hg] using hm
  | nonGate l as n es ps => intro m hm; cases h; simpa [mentioned, namesStmt, namesAnnotations] using hm
  | asm => intro m hm; cases h; simpa [mentioned, namesAnnotations] using hm

/-- The items after `pre` are valid one after the other, if the identities are those that the order of the names gives. -/
theorem exec_items {D : List VarLink} {f : Nat → Nat} (items : List (Item F)) (hfact : ∀ it ∈ items, Fact fo D it)
    (hplain : ∀ it ∈ items, PlainStmt it.1) (hnod : (items.filterMap itemName).Nodup)
    (hD : ∀ x ∈ D, ∃ y ∈ items.filterMap itemVar, x = y.link)
    (hf : ∀ y ∈ items.filterMap itemVar, f y.uid = (items.filterMap itemName).idxOf y.name)
    (huse : ∀ pre it post, items = pre ++ it :: post → ∀ x ∈ namesStmt it.1, x ∈ items.filterMap itemName → x ∈ pre.filterMap itemName) :
    ∀ (rest pre : List (Item F)) (D' : List VarLink), items = pre ++ rest → D'.length = (pre.filterMap itemName).length →
      (∀ x ∈ D', x.name ∈ pre.filterMap itemName) → Fits f (· ∈ pre.filterMap itemName) D D' →
      Exec fo D' (rest.map Prod.fst) ((rest.map (moveItem f)).filterMap itemVar) ((rest.map (moveItem f)).filterMap itemInstr) ∧
      outcomes (rest.map Prod.fst) ((rest.map (moveItem f)).filterMap itemVar) ((rest.map (moveItem f)).filterMap itemInstr) =
        rest.map (moveItem f) := by
  intro rest
  induction rest with
  | nil => intro pre D' _ _ _ _; exact ⟨.nil, rfl⟩
  | cons it rest ih =>
    intro pre D' e hl hsub hfit
    have hmem : it ∈ items := by rw [e]; simp
    have e' : items = (pre ++ [it]) ++ rest := by rw [e]; simp
    rcases hfact it hmem with ⟨l, n, typ, y, rfl, ht, hr, hn, ha, hloc⟩ | ⟨s, t, rfl, hd, hi⟩
    · have hnames : items.filterMap itemName = pre.filterMap itemName ++ y.name :: rest.filterMap itemName := by
        rw [e]; simp [itemName]
      have hnot : y.name ∉ pre.filterMap itemName := by
        rw [hnames] at hnod
        intro hm
        exact (List.nodup_append.1 hnod).2.2 _ hm _ (List.mem_cons_self ..) rfl
      have hpos : f y.uid = D'.length := by
        rw [hf y (List.mem_filterMap.2 ⟨_, hmem, rfl⟩), hnames, List.idxOf_append, if_neg hnot, List.idxOf_cons_self, hl]; simp
      obtain ⟨i1, i2⟩ := ih (pre ++ [(.var l [] n typ, .inl y)]) (⟨D'.length, n.name, y.typ⟩ :: D') e' (by simp [itemName, hl]) (by
          intro x hx
          simp only [List.filterMap_append, List.mem_append]
          rcases List.mem_cons.1 hx with rfl | hx
          · right; simp [itemName, hn]
          · exact .inl (hsub x hx)) (by
          intro x hx hxn
          simp only [List.filterMap_append, List.mem_append] at hxn
          by_cases hx1 : x.name ∈ pre.filterMap itemName
          · exact List.mem_cons_of_mem _ (hfit x hx hx1)
          · have hxy : x.name = y.name := by
              rcases hxn with h | h
              · exact absurd h hx1
              · simpa [itemName] using h
            obtain ⟨z, hz, rfl⟩ := hD x hx
            have hz1 : z.name = y.name := hxy
            have : z = y := by
              obtain ⟨it', h1, h2⟩ := List.mem_filterMap.1 hz
              obtain ⟨s', o⟩ := it'
              cases o with
              | inr => cases h2
              | inl z' =>
                cases h2
                have hone : ∀ (xs : List (Item F)), (xs.filterMap itemName).Nodup → ∀ a b s s', (s, Sum.inl a) ∈ xs → (s', Sum.inl b) ∈ xs →
                    a.name = b.name → a = b := by
                  intro xs
                  induction xs with
                  | nil => intro _ a b s s' h; cases h
                  | cons x xs ihx =>
                    intro hnd a b s s' ha hb hab
                    have hmemn : ∀ (c : SVariable F) s, (s, Sum.inl c) ∈ xs → c.name ∈ xs.filterMap itemName := fun c s h =>
                      List.mem_filterMap.2 ⟨_, h, rfl⟩
                    have htl : (xs.filterMap itemName).Nodup := by
                      obtain ⟨s0, o0⟩ := x
                      cases o0 with
                      | inl c => simp only [List.filterMap_cons, itemName, List.nodup_cons] at hnd; exact hnd.2
                      | inr c => simpa [List.filterMap_cons, itemName] using hnd
                    rcases List.mem_cons.1 ha with ha1 | ha1 <;> rcases List.mem_cons.1 hb with hb1 | hb1
                    · rw [← ha1] at hb1; cases hb1; rfl
                    · rw [← ha1] at hnd
                      simp only [List.filterMap_cons, itemName, List.nodup_cons] at hnd
                      exact absurd (hab ▸ hmemn b s' hb1) hnd.1
                    · rw [← hb1] at hnd
                      simp only [List.filterMap_cons, itemName, List.nodup_cons] at hnd
                      exact absurd (hab ▸ hmemn a s ha1) hnd.1
                    · exact ihx htl a b s s' ha1 hb1 hab
                exact hone items hnod _ _ _ _ h1 hmem hz1
            subst this
            simp [moveLink, SVariable.link, hpos, hn])
      obtain ⟨yu, yn, yt, ya, yl⟩ := y
      simp only at hn ha hloc hpos ht
      subst hn ha hloc
      refine ⟨?_, ?_⟩
      · simp only [List.map_cons, moveItem, moveOutcome, List.filterMap_cons, itemVar, itemInstr, moveSVariable, hpos, List.map_nil]
        refine .decl ht ⟨hr, fun x hx hxn => hnot ?_⟩ .nil i1
        rw [← hxn]
        exact hsub x hx
      · simp only [List.map_cons, moveItem, moveOutcome, List.filterMap_cons, itemVar, itemInstr, outcomes]
        exact congrArg _ i2
    · obtain ⟨i1, i2⟩ := ih (pre ++ [(s, .inr t)]) D' e' (by simp [itemName, hl]) (by simpa [itemName] using hsub) (by simpa [itemName] using hfit)
      refine ⟨?_, ?_⟩
      · simp only [List.map_cons, moveItem, moveOutcome, List.filterMap_cons, itemVar, itemInstr]
        refine .instr (instrOk_move (N := fun m => m ∈ mentioned s) ?_ hi fun m hm => hm) i1
        intro x hx hm
        refine hfit x hx (huse pre _ rest e _ (names_mentioned (hplain _ hmem) hd _ hm) ?_)
        obtain ⟨y, hy, rfl⟩ := hD x hx
        obtain ⟨it', h1, h2⟩ := List.mem_filterMap.1 hy
        obtain ⟨s', o⟩ := it'
        cases o with
        | inr => cases h2
        | inl z => cases h2; exact List.mem_filterMap.2 ⟨_, h1, rfl⟩
      · simp only [List.map_cons, moveItem, moveOutcome, List.filterMap_cons, itemVar, itemInstr]
        rw [outcomes_instr hd]
        exact congrArg _ i2

end Qasm.Reorder
