import Verif.Model.Failure
import Verif.Lemmas.Levels
import Verif.Props.Promote
import Verif.Spec.Sample
/-!
# C109: the class of the exception says why a name does not resolve
-/

namespace Qasm

open Spec Analyzer

variable {F T : Type} {fo : FloatOps F}

/-! ## The class is the only difference -/

private theorem plain_err {α : Type} (r : Res Err α) : r.plain.mapErr (·.err) = r := by cases r <;> rfl

private theorem mapErr_bind {α β : Type} (r : Res Thrown α) (f : α → Res Thrown β) :
    (r.bind f).mapErr (·.err) = (r.mapErr (·.err)).bind fun a => (f a).mapErr (·.err) := by cases r <;> rfl

theorem overload_same (tbl : OverloadTable T) (name : Str) (args : List (Value F)) :
    (OverloadTable.resolveThrown fo tbl name args).mapErr (·.err) = OverloadTable.resolve fo tbl name args := by
  unfold OverloadTable.resolveThrown OverloadTable.resolve
  cases OverloadTable.find tbl name with
  | none => rfl
  | some ovs =>
    simp only [mapErr_bind, plain_err]
    congr 1
    funext r
    cases r with
    | some r => rfl
    | none => simp only [mapErr_bind, plain_err]; rfl

/-- C109. The functions that keep the class throw the errors of the model, and return what it returns. -/
theorem C109_same (scopes : List (Scope F)) (name : Str) (args : List (Value F)) :
    (resolveVariableThrown scopes name).mapErr (·.err) = resolveVariable scopes name ∧
    (resolveFunctionThrown fo scopes name args).mapErr (·.err) = resolveFunction fo scopes name args ∧
    (resolveInstructionThrown fo scopes name args).mapErr (·.err) = resolveInstruction fo scopes name args := by
  refine ⟨?_, ?_, ?_⟩
  · induction scopes with
    | nil => rfl
    | cons s ss ih =>
      unfold resolveVariableThrown resolveVariable VariableTable.resolveThrown VariableTable.resolve
      cases VariableTable.find s.variableTable name with
      | some v => rfl
      | none => exact ih
  · unfold resolveFunctionThrown resolveFunction
    cases scopes.getLast? with
    | none => rfl
    | some s =>
      simp only [FnTable.resolveThrown, FnTable.resolve, mapErr_bind, plain_err, overload_same]
  · induction scopes with
    | nil =>
      simp only [resolveInstructionThrown, resolveInstruction, mapErr_bind, plain_err]
      rfl
    | cons s ss ih =>
      have h := overload_same (fo := fo) s.instructionTable name args
      unfold resolveInstructionThrown resolveInstruction
      rw [← h]
      cases OverloadTable.resolveThrown fo s.instructionTable name args with
      | err e => exact ih
      | _ => rfl

/-- C109. The same for the tables themselves; all that a table of variables throws are name resolution failures. -/
theorem C109_thrown (vars : VariableTable F) (fns : OverloadTable (CoreFn F)) (name : Str) (x : Value F) (args : List (Value F)) :
    (vars.addThrown name x).mapErr (·.err) = vars.add name x ∧
    (vars.resolveThrown name).mapErr (·.err) = vars.resolve name ∧
    (FnTable.resolveThrown fo fns name args).mapErr (·.err) = FnTable.resolve fo fns name args ∧
    (∀ t, vars.addThrown name x = .err t → t.cls = .name) ∧ (∀ t, vars.resolveThrown name = .err t → t.cls = .name) := by
  refine ⟨?_, ?_, ?_, ?_, ?_⟩
  · unfold VariableTable.addThrown VariableTable.add
    cases VariableTable.find vars name <;> rfl
  · unfold VariableTable.resolveThrown VariableTable.resolve
    cases VariableTable.find vars name <;> rfl
  · simp only [FnTable.resolveThrown, FnTable.resolve, mapErr_bind, plain_err, overload_same]
  · unfold VariableTable.addThrown
    split <;> intro t h <;> cases h
    rfl
  · unfold VariableTable.resolveThrown
    split <;> intro t h <;> cases h
    rfl

/-! ## C109 -/

private theorem thrown_of_resolve {tbl : OverloadTable T} {name : Str} {args : List (Value F)} {r : T × List (Value F)}
    (h : OverloadTable.resolve fo tbl name args = .ok r) : OverloadTable.resolveThrown fo tbl name args = .ok r := by
  rw [← overload_same] at h
  cases h1 : OverloadTable.resolveThrown fo tbl name args <;> rw [h1] at h <;> cases h
  rfl

/-- C109. A table of functions or instructions in which anything was registered: an unknown name is thrown as
`NameResolutionFailure`, a known name none of whose overloads fits as `OverloadResolutionFailure`, and otherwise nothing
is thrown. -/
theorem C109_tables (regs : List (Registration T)) (name : Str) (args : List (Value F))
    (h : ∀ v ∈ args, kindOf v.node ≠ none) :
    ((∀ r ∈ regs, r.1 ≠ name) → ∃ e, OverloadTable.resolveThrown fo (tableOf regs) name args = .err ⟨.name, e⟩) ∧
    ((∃ r ∈ regs, r.1 = name) → (∀ r ∈ regs, r.1 = name → ¬ ∃ ws, Fits fo args r.2.2 ws) →
      ∃ e, OverloadTable.resolveThrown fo (tableOf regs) name args = .err ⟨.overload, e⟩) ∧
    (∀ tag ws, LastFitting fo regs name args tag ws →
      OverloadTable.resolveThrown fo (tableOf regs) name args = .ok (tag, ws)) := by
  refine ⟨fun hn => ?_, fun ⟨r, hr, hrn⟩ hf => ?_, fun tag ws hl => thrown_of_resolve ((C17_resolve fo regs name args h tag ws).2 hl)⟩
  · have hm : (tableOf regs).find name = none := by
      rw [find_tableOf]
      refine if_pos ?_
      rw [List.map_eq_nil_iff, List.filter_eq_nil_iff]
      exact fun r hr he => hn r hr (by simpa using he)
    exact ⟨_, by simp only [OverloadTable.resolveThrown, hm]; rfl⟩
  · have hm : ∃ ovs, (tableOf regs).find name = some ovs := by
      rw [find_tableOf]
      refine ⟨_, if_neg ?_⟩
      intro he
      rw [List.map_eq_nil_iff, List.filter_eq_nil_iff] at he
      exact he r hr (by simpa using hrn)
    obtain ⟨ovs, hm⟩ := hm
    rcases resolve_spec fo regs name args h with ⟨t, ws, h1, o, p, n, e, f, g⟩ | ⟨_, h2⟩
    · exact absurd ⟨_, f⟩ (hf (name, t, p) (by rw [e]; simp) rfl)
    · rcases h2 with ⟨h2, _⟩ | ⟨_, ts, h3, h4⟩
      · exact absurd hrn (h2 r hr)
      · simp only [OverloadTable.resolve, hm, h3, Res.bind_ok] at h4
        simp only [OverloadTable.resolveThrown, hm, h3, Res.plain, Res.mapErr_ok, Res.bind_ok]
        cases h5 : OverloadTable.resolveOverload fo ovs args with
        | ok r =>
          cases r with
          | none => exact ⟨_, rfl⟩
          | some r => rw [h5] at h4; cases h4
        | err e =>
          exfalso
          rcases resolveFirst_spec fo args ovs.reverse h with ⟨_, _, _, _, _, hx, _⟩ | ⟨hx, _⟩ <;>
            rw [OverloadTable.resolveOverload, hx] at h5 <;> cases h5
        | exn c => rw [h5] at h4; cases h4
        | ub => rw [h5] at h4; cases h4

variable {v : Version} {cs : List (Call F)} {a b : Analyzer F}

/-- C109. `resolve_variable` after any history of calls: it throws exactly when the name is registered in no scope, and
what it throws is a `NameResolutionFailure`. -/
theorem C109_variable (ha : Analyzer.new v = some a) (hc : Calls cs a b) (name : Str) :
    ((∀ l ∈ registered cs, name ∉ l.vars.map (·.1)) → ∃ e, resolveVariableThrown b.scopes name = .err ⟨.name, e⟩) ∧
    (∀ inner l outer w, registered cs = inner ++ l :: outer → (∀ m ∈ inner, name ∉ m.vars.map (·.1)) → (name, w) ∈ l.vars →
      ∃ w', (name, w') ∈ l.vars ∧ resolveVariableThrown b.scopes name = .ok w') := by
  have h := holds_registered ha hc
  generalize registered cs = ls at h
  generalize b.scopes = ss at h
  have hnone : ∀ {s : Scope F} {l : Level F}, HoldsLevel s l → name ∉ l.vars.map (·.1) → s.variableTable.find name = none := by
    intro s l hs hn
    rw [hs.1, Option.map_eq_none_iff, List.find?_eq_none]
    intro p hp he
    exact hn (List.mem_map.2 ⟨p, hp, by simpa using he⟩)
  induction h with
  | nil => exact ⟨fun _ => ⟨_, rfl⟩, fun inner l outer w e => by simp at e⟩
  | @cons s l ss ls h1 _ ih =>
    refine ⟨fun hn => ?_, fun inner m outer w e hi hw => ?_⟩
    · have := hnone h1 (hn l (List.mem_cons_self ..))
      simp only [resolveVariableThrown, VariableTable.resolveThrown, this]
      exact ih.1 fun m hm => hn m (List.mem_cons_of_mem _ hm)
    · cases inner with
      | nil =>
        simp only [List.nil_append, List.cons.injEq] at e
        obtain ⟨rfl, _⟩ := e
        cases hf : l.vars.find? (fun p => p.1 = name) with
        | none => exact absurd (List.find?_eq_none.1 hf _ hw) (by simp)
        | some p =>
          have h2 : p.1 = name := by simpa using List.find?_some hf
          refine ⟨p.2, by rw [← h2]; exact List.mem_of_find?_eq_some hf, ?_⟩
          have : s.variableTable.find name = some p.2 := by rw [h1.1, hf]; rfl
          simp only [resolveVariableThrown, VariableTable.resolveThrown, this]
      | cons i inner =>
        simp only [List.cons_append, List.cons.injEq] at e
        obtain ⟨rfl, e⟩ := e
        have := hnone h1 (hi l (List.mem_cons_self ..))
        simp only [resolveVariableThrown, VariableTable.resolveThrown, this]
        exact ih.2 inner m outer w e (fun m hm => hi m (List.mem_cons_of_mem _ hm)) hw

/-- C109. Registering a variable whose name is taken in the current scope throws a `NameResolutionFailure`. -/
theorem C109_redeclare (tbl : VariableTable F) (name : Str) (w : Value F) :
    (tbl.addThrown name w).mapErr (·.err) = tbl.add name w ∧ ∀ t, tbl.addThrown name w = .err t → t.cls = .name := by
  unfold VariableTable.addThrown VariableTable.add
  cases tbl.find name with
  | none => exact ⟨rfl, fun t h => by cases h⟩
  | some _ => exact ⟨rfl, fun t h => by cases h; rfl⟩

/-- C109. `resolve_function` after any history of calls, where `g` is what is registered in the global scope: an unknown
function is thrown as `NameResolutionFailure`, wrong arguments as `OverloadResolutionFailure`, and otherwise the most
recently registered function that fits is called. -/
theorem C109_function (ha : Analyzer.new v = some a) (hc : Calls cs a b) {g : Level F}
    (hg : (registered cs).getLast? = some g) (name : Str) (args : List (Value F)) (h : ∀ v ∈ args, kindOf v.node ≠ none) :
    ((∀ r ∈ g.functions, r.1 ≠ name) → ∃ e, resolveFunctionThrown fo b.scopes name args = .err ⟨.name, e⟩) ∧
    ((∃ r ∈ g.functions, r.1 = name) → (∀ r ∈ g.functions, r.1 = name → ¬ ∃ ws, Fits fo args r.2.2 ws) →
      ∃ e, resolveFunctionThrown fo b.scopes name args = .err ⟨.overload, e⟩) ∧
    (∀ f ws, LastFitting fo g.functions name args f ws → resolveFunctionThrown fo b.scopes name args = (f ws).plain) := by
  obtain ⟨s, hs, _, hfn, _⟩ := forall2_getLast (holds_registered ha hc) hg
  obtain ⟨h1, h2, h3⟩ := C109_tables (fo := fo) g.functions name args h
  simp only [resolveFunctionThrown, hs, FnTable.resolveThrown, hfn]
  refine ⟨fun hn => ?_, fun hx hf => ?_, fun f ws hl => ?_⟩
  · obtain ⟨e, he⟩ := h1 hn; exact ⟨e, by rw [he]; rfl⟩
  · obtain ⟨e, he⟩ := h2 hx hf; exact ⟨e, by rw [he]; rfl⟩
  · rw [h3 f ws hl]; rfl

private theorem thrown_class (regs : List (Registration T)) (name : Str) (args : List (Value F))
    (h : ∀ v ∈ args, kindOf v.node ≠ none) (hf : ∀ r ∈ regs, r.1 = name → ¬ ∃ ws, Fits fo args r.2.2 ws) :
    ∃ t, OverloadTable.resolveThrown fo (tableOf regs) name args = .err t := by
  obtain ⟨h1, h2, _⟩ := C109_tables (fo := fo) regs name args h
  by_cases hx : ∃ r ∈ regs, r.1 = name
  · obtain ⟨e, he⟩ := h2 hx hf; exact ⟨_, he⟩
  · obtain ⟨e, he⟩ := h1 fun r hr he => hx ⟨r, hr, he⟩; exact ⟨_, he⟩

/-- C109. `resolve_instruction` after any history of calls: it throws exactly when no registered instruction fits, but what
it throws is always a `ResolutionFailure`. Missing from what is documented: that the class tells an unknown name from
wrong operands. -/
theorem C109_instruction_partial (ha : Analyzer.new v = some a) (hc : Calls cs a b) (name : Str) (args : List (Value F))
    (h : ∀ v ∈ args, kindOf v.node ≠ none) :
    ((∀ l ∈ registered cs, ∀ r ∈ l.instructions, r.1 = name → ¬ ∃ ws, Fits fo args r.2.2 ws) →
      ∃ e, resolveInstructionThrown fo b.scopes name args = .err ⟨.resolution, e⟩) ∧
    (∀ inner l outer i ws, registered cs = inner ++ l :: outer →
      (∀ m ∈ inner, ∀ r ∈ m.instructions, r.1 = name → ¬ ∃ ws, Fits fo args r.2.2 ws) →
      LastFitting fo l.instructions name args i ws → resolveInstructionThrown fo b.scopes name args = .ok (i, ws)) := by
  have h2 := holds_registered ha hc
  generalize registered cs = ls at h2
  generalize b.scopes = ss at h2
  induction h2 with
  | nil =>
    refine ⟨fun _ => ?_, fun inner l outer i ws e => by simp at e⟩
    obtain ⟨ts, e1, _⟩ := typesOf_ok h
    exact ⟨_, by simp only [resolveInstructionThrown, e1, Res.plain, Res.mapErr_ok, Res.bind_ok]; rfl⟩
  | @cons s l ss ls h1 _ ih =>
    refine ⟨fun hn => ?_, fun inner m outer i ws e hi hw => ?_⟩
    · obtain ⟨t, ht⟩ := thrown_class l.instructions name args h (hn l (List.mem_cons_self ..))
      simp only [resolveInstructionThrown, h1.2.2, ht]
      exact ih.1 fun m hm => hn m (List.mem_cons_of_mem _ hm)
    · cases inner with
      | nil =>
        simp only [List.nil_append, List.cons.injEq] at e
        obtain ⟨rfl, _⟩ := e
        simp only [resolveInstructionThrown, h1.2.2, (C109_tables (fo := fo) l.instructions name args h).2.2 i ws hw]
      | cons j inner =>
        simp only [List.cons_append, List.cons.injEq] at e
        obtain ⟨rfl, e⟩ := e
        obtain ⟨t, ht⟩ := thrown_class l.instructions name args h (hi l (List.mem_cons_self ..))
        simp only [resolveInstructionThrown, h1.2.2, ht]
        exact ih.2 inner m outer i ws e (fun m hm => hi m (List.mem_cons_of_mem _ hm)) hw

/-- C109, refuted for instructions: the documentation of `resolve_instruction` promises a `NameResolutionFailure` if no
instruction of the name exists and an `OverloadResolutionFailure` if none fits. After no history, for no name and no
operands, is either of them thrown. -/
theorem C109_instruction_refuted (ha : Analyzer.new v = some a) (hc : Calls cs a b) (name : Str) (args : List (Value F))
    (h : ∀ v ∈ args, kindOf v.node ≠ none)
    (hf : ∀ l ∈ registered cs, ∀ r ∈ l.instructions, r.1 = name → ¬ ∃ ws, Fits fo args r.2.2 ws) (e : Err) :
    resolveInstructionThrown fo b.scopes name args ≠ .err ⟨.name, e⟩ ∧
    resolveInstructionThrown fo b.scopes name args ≠ .err ⟨.overload, e⟩ := by
  obtain ⟨e', h1⟩ := (C109_instruction_partial (fo := fo) ha hc name args h).1 hf
  rw [h1]
  constructor <;> intro hx <;> cases hx

private theorem calls_trans {cs ds : List (Call F)} {a b c : Analyzer F} (h : Calls cs a b) (g : Calls ds b c) :
    Calls (cs ++ ds) a c := by
  induction h with
  | nil => exact g
  | ok h1 _ ih => exact .ok h1 (ih g)
  | error h1 _ ih => exact .error h1 (ih g)

private theorem calls_foldl {E : Type} (f : Analyzer F → E → Res Err (Analyzer F))
    (hf : ∀ a e b, f a e = .ok b → ∃ cs, Calls cs a b) (es : List E) {a b : Analyzer F}
    (h : es.foldl (fun (r : Res Err (Analyzer F)) e => r.bind fun a => f a e) (.ok a) = .ok b) : ∃ cs, Calls cs a b := by
  induction es generalizing a with
  | nil => cases h; exact ⟨[], .nil⟩
  | cons e es ih =>
    rw [List.foldl_cons, Res.bind_ok] at h
    cases h1 : f a e with
    | ok m =>
      rw [h1] at h
      obtain ⟨cs, h2⟩ := hf a e m h1
      obtain ⟨ds, h3⟩ := ih h
      exact ⟨cs ++ ds, calls_trans h2 h3⟩
    | _ =>
      exfalso
      rw [h1] at h
      have : ∀ (es : List E) (r : Res Err (Analyzer F)), (∀ x, r ≠ .ok x) →
          ∀ x, es.foldl (fun (r : Res Err (Analyzer F)) e => r.bind fun a => f a e) r ≠ .ok x := by
        intro es
        induction es with
        | nil => exact fun r hr => hr
        | cons e es ih =>
          intro r hr
          refine ih _ ?_
          cases r with
          | ok y => exact absurd rfl (hr y)
          | _ => intro x hx; cases hx
      exact this es _ (fun x hx => by cases hx) b h

/-- A default analyser is one after a history of calls, so the theorems above apply to it, and to it after any
further calls. -/
theorem C109_default (h : Analyzer.default fo v = .ok b) : ∃ a cs, Analyzer.new v = some a ∧ Calls cs a b := by
  unfold Analyzer.default at h
  cases hn : Analyzer.new (F := F) v with
  | none => rw [hn] at h; cases h
  | some a =>
    rw [hn] at h
    simp only at h
    obtain ⟨a1, h1, h⟩ := Res.bind_eq_ok.1 h
    obtain ⟨a2, h2, h3⟩ := Res.bind_eq_ok.1 h
    unfold registerDefaultConstants at h1
    obtain ⟨b1, g1, h1⟩ := Res.bind_eq_ok.1 h1
    obtain ⟨b2, g2, h1⟩ := Res.bind_eq_ok.1 h1
    obtain ⟨b3, g3, h1⟩ := Res.bind_eq_ok.1 h1
    obtain ⟨b4, g4, h1⟩ := Res.bind_eq_ok.1 h1
    have c1 : Calls [.var _ _, .var _ _, .var _ _, .var _ _, .var _ _] a a1 :=
      .ok g1 (.ok g2 (.ok g3 (.ok g4 (.ok h1 .nil))))
    obtain ⟨cs2, c2⟩ := calls_foldl (fun a (e : Str × Str × CoreFn F) => a.registerFunctionSpec e.1 e.2.1 e.2.2) (by
      intro a e b he
      unfold registerFunctionSpec at he
      split at he
      · cases he
      · exact ⟨[.function _ _ _], .ok he .nil⟩) (ConstEval.registrations fo) h2
    obtain ⟨cs3, c3⟩ := calls_foldl (fun (a : Analyzer F) (e : Str × Str) => a.registerInstructionSpec e.1 (some e.2)) (by
      intro a e b he
      unfold registerInstructionSpec at he
      split at he
      · cases he
      · exact ⟨[.instruction _], .ok he .nil⟩) InstructionSet.registrations h3
    exact ⟨a, _, rfl, calls_trans c1 (calls_trans c2 c3)⟩

/-! ## Examples -/

/-- An analyser with one function and one instruction, the latter in an inner scope. -/
private def someCalls : List (Call F) :=
  [.function c!"f" [.bare .int] (fun vs => .ok vs.head?), .push, .instruction ⟨c!"G", [.bare .qubit]⟩,
    .var c!"x" ⟨.constInt 1, none⟩, .var c!"x" ⟨.constInt 2, none⟩]

example : ∃ a b : Analyzer F, Analyzer.new [3, 0] = some a ∧ Calls someCalls a b ∧
    resolveVariableThrown b.scopes c!"x" = .ok ⟨.constInt 1, none⟩ ∧
    resolveVariableThrown b.scopes c!"y" = .err ⟨.name, ⟨c!"failed to resolve variable 'y'", none⟩⟩ ∧
    resolveFunctionThrown fo b.scopes c!"f" [⟨.constBool true, none⟩] = .ok (some ⟨.constInt 1, none⟩) ∧
    resolveFunctionThrown fo b.scopes c!"f" [] =
      .err ⟨.overload, ⟨c!"failed to resolve overload for 'f' with argument pack ()", none⟩⟩ ∧
    resolveFunctionThrown fo b.scopes c!"g" [] = .err ⟨.name, ⟨c!"failed to resolve 'g'", none⟩⟩ ∧
    resolveInstructionThrown fo b.scopes c!"G" [] =
      .err ⟨.resolution, ⟨c!"failed to resolve instruction 'G' with argument pack ()", none⟩⟩ ∧
    resolveInstructionThrown fo b.scopes c!"H" [] =
      .err ⟨.resolution, ⟨c!"failed to resolve instruction 'H' with argument pack ()", none⟩⟩ :=
  ⟨_, _, rfl, .ok rfl (.ok rfl (.ok rfl (.ok rfl (.error rfl .nil)))), rfl, rfl, rfl, rfl, rfl, rfl, rfl⟩

example : registered (F := F) someCalls =
    [⟨[(c!"x", ⟨.constInt 1, none⟩)], [], [(c!"G", ⟨c!"G", [.bare .qubit]⟩, [.bare .qubit])]⟩,
      ⟨[], [(c!"f", (fun vs => .ok vs.head?), [.bare .int])], []⟩] := rfl

end Qasm
