import Verif.Model.SemanticAnalyzer
/-!
# The tables of a freshly built default analyser, computed
-/

namespace Qasm

variable {F : Type} (fo : FloatOps F)

/-- The function table after `register_consteval_core_functions`. -/
def defaultFns : OverloadTable (CoreFn F) :=
  [
    (c!"operator-", [⟨ConstEval.op_neg_f fo, [.bare .float]⟩, ⟨ConstEval.op_neg_i, [.bare .int]⟩, ⟨ConstEval.op_sub_ff fo, [.bare .float, .bare .float]⟩, ⟨ConstEval.op_sub_ii, [.bare .int, .bare .int]⟩]),
    (c!"operator+", [⟨ConstEval.op_add_ff fo, [.bare .float, .bare .float]⟩, ⟨ConstEval.op_add_ii, [.bare .int, .bare .int]⟩]),
    (c!"operator*", [⟨ConstEval.op_mul_ff fo, [.bare .float, .bare .float]⟩, ⟨ConstEval.op_mul_ii, [.bare .int, .bare .int]⟩]),
    (c!"operator/", [⟨ConstEval.op_div_ff fo, [.bare .float, .bare .float]⟩, ⟨ConstEval.op_div_ii, [.bare .int, .bare .int]⟩]),
    (c!"operator%", [⟨ConstEval.op_mod_ii, [.bare .int, .bare .int]⟩]),
    (c!"operator**", [⟨ConstEval.op_pow_ff fo, [.bare .float, .bare .float]⟩]),
    (c!"operator==", [⟨ConstEval.op_eq_ff fo, [.bare .float, .bare .float]⟩, ⟨ConstEval.op_eq_ii, [.bare .int, .bare .int]⟩, ⟨ConstEval.op_eq_bb, [.bare .bool, .bare .bool]⟩]),
    (c!"operator!=", [⟨ConstEval.op_ne_ff fo, [.bare .float, .bare .float]⟩, ⟨ConstEval.op_ne_ii, [.bare .int, .bare .int]⟩, ⟨ConstEval.op_ne_bb, [.bare .bool, .bare .bool]⟩]),
    (c!"operator>=", [⟨ConstEval.op_ge_ff fo, [.bare .float, .bare .float]⟩, ⟨ConstEval.op_ge_ii, [.bare .int, .bare .int]⟩, ⟨ConstEval.op_ge_bb, [.bare .bool, .bare .bool]⟩]),
    (c!"operator>", [⟨ConstEval.op_gt_ff fo, [.bare .float, .bare .float]⟩, ⟨ConstEval.op_gt_ii, [.bare .int, .bare .int]⟩, ⟨ConstEval.op_gt_bb, [.bare .bool, .bare .bool]⟩]),
    (c!"operator<=", [⟨ConstEval.op_le_ff fo, [.bare .float, .bare .float]⟩, ⟨ConstEval.op_le_ii, [.bare .int, .bare .int]⟩, ⟨ConstEval.op_le_bb, [.bare .bool, .bare .bool]⟩]),
    (c!"operator<", [⟨ConstEval.op_lt_ff fo, [.bare .float, .bare .float]⟩, ⟨ConstEval.op_lt_ii, [.bare .int, .bare .int]⟩, ⟨ConstEval.op_lt_bb, [.bare .bool, .bare .bool]⟩]),
    (c!"operator~", [⟨ConstEval.op_binv_i, [.bare .int]⟩]),
    (c!"operator&", [⟨ConstEval.op_band_ii, [.bare .int, .bare .int]⟩]),
    (c!"operator^", [⟨ConstEval.op_bxor_ii, [.bare .int, .bare .int]⟩]),
    (c!"operator|", [⟨ConstEval.op_bor_ii, [.bare .int, .bare .int]⟩]),
    (c!"operator<<", [⟨ConstEval.op_shl_ii, [.bare .int, .bare .int]⟩]),
    (c!"operator>>", [⟨ConstEval.op_shr_ii, [.bare .int, .bare .int]⟩]),
    (c!"operator!", [⟨ConstEval.op_linv_b, [.bare .bool]⟩]),
    (c!"operator&&", [⟨ConstEval.op_land_bb, [.bare .bool, .bare .bool]⟩]),
    (c!"operator^^", [⟨ConstEval.op_lxor_bb, [.bare .bool, .bare .bool]⟩]),
    (c!"operator||", [⟨ConstEval.op_lor_bb, [.bare .bool, .bare .bool]⟩]),
    (c!"operator?:", [⟨ConstEval.op_tcnd_bff, [.bare .bool, .bare .float, .bare .float]⟩, ⟨ConstEval.op_tcnd_bii, [.bare .bool, .bare .int, .bare .int]⟩, ⟨ConstEval.op_tcnd_bbb, [.bare .bool, .bare .bool, .bare .bool]⟩]),
    (c!"sqrt", [⟨ConstEval.fn_sqrt_f fo, [.bare .float]⟩]),
    (c!"exp", [⟨ConstEval.fn_exp_f fo, [.bare .float]⟩]),
    (c!"log", [⟨ConstEval.fn_log_f fo, [.bare .float]⟩]),
    (c!"sin", [⟨ConstEval.fn_sin_f fo, [.bare .float]⟩]),
    (c!"cos", [⟨ConstEval.fn_cos_f fo, [.bare .float]⟩]),
    (c!"tan", [⟨ConstEval.fn_tan_f fo, [.bare .float]⟩]),
    (c!"sinh", [⟨ConstEval.fn_sinh_f fo, [.bare .float]⟩]),
    (c!"cosh", [⟨ConstEval.fn_cosh_f fo, [.bare .float]⟩]),
    (c!"tanh", [⟨ConstEval.fn_tanh_f fo, [.bare .float]⟩]),
    (c!"asin", [⟨ConstEval.fn_asin_f fo, [.bare .float]⟩]),
    (c!"acos", [⟨ConstEval.fn_acos_f fo, [.bare .float]⟩]),
    (c!"atan", [⟨ConstEval.fn_atan_f fo, [.bare .float]⟩]),
    (c!"asinh", [⟨ConstEval.fn_asinh_f fo, [.bare .float]⟩]),
    (c!"acosh", [⟨ConstEval.fn_acosh_f fo, [.bare .float]⟩]),
    (c!"atanh", [⟨ConstEval.fn_atanh_f fo, [.bare .float]⟩]),
    (c!"abs", [⟨ConstEval.fn_abs_f fo, [.bare .float]⟩, ⟨ConstEval.fn_abs_i, [.bare .int]⟩])]

/-- The variable table after `register_default_constants`. -/
def defaultVars : VariableTable F :=
  [(c!"tau", ⟨.constFloat fo.tau, none⟩), (c!"eu", ⟨.constFloat fo.e, none⟩), (c!"pi", ⟨.constFloat fo.pi, none⟩),
   (c!"false", ⟨.constBool false, none⟩), (c!"true", ⟨.constBool true, none⟩)]

/-- The instruction table after `register_instructions`. -/
def defaultInstrs : OverloadTable Instruction :=
  InstructionSet.registrations.foldl (fun t e => InstrTable.add t ⟨e.1, (Types.fromSpec e.2).getD []⟩) []

/-- The global scope of a fresh default analyser. -/
def defaultScope : Scope F := ⟨defaultVars fo, defaultFns fo, defaultInstrs, ⟨[], none⟩, []⟩

theorem foldl_registerFunction (regs : List (Str × Str × CoreFn F)) (a : Analyzer F) (s : Scope F)
    (h : a.scopes = [s]) (hspec : ∀ e ∈ regs, (Types.fromSpec e.2.1).isSome) :
    regs.foldl (fun r e => Res.bind r fun a => a.registerFunctionSpec e.1 e.2.1 e.2.2) (.ok a)
      = .ok { a with scopes := [{ s with fnTable := (regs.foldl
          (fun t e => OverloadTable.add t e.1 e.2.2 ((Types.fromSpec e.2.1).getD [])) s.fnTable) }] } := by
  induction regs generalizing a s with
  | nil => cases a; simp_all
  | cons e es ih =>
    have he := hspec e (by simp)
    obtain ⟨ts, hts⟩ := Option.isSome_iff_exists.mp he
    have step : a.registerFunctionSpec e.1 e.2.1 e.2.2
        = .ok { a with scopes := [{ s with fnTable := OverloadTable.add s.fnTable e.1 e.2.2 ts }] } := by
      simp [Analyzer.registerFunctionSpec, hts, Analyzer.registerFunction, h, Analyzer.modifyLast, FnTable.add]
    rw [List.foldl_cons, Res.bind_ok, step, ih _ _ rfl (fun e' h' => hspec e' (by simp [h']))]
    simp [hts]

theorem foldl_registerInstruction (regs : List (Str × Str)) (a : Analyzer F) (s : Scope F)
    (h : a.scopes = [s]) (hspec : ∀ e ∈ regs, (Types.fromSpec e.2).isSome) :
    regs.foldl (fun r e => Res.bind r fun a => a.registerInstructionSpec e.1 (some e.2)) (.ok a)
      = .ok { a with scopes := [{ s with instructionTable := (regs.foldl
          (fun t e => InstrTable.add t ⟨e.1, (Types.fromSpec e.2).getD []⟩) s.instructionTable) }] } := by
  induction regs generalizing a s with
  | nil => cases a; simp_all
  | cons e es ih =>
    have he := hspec e (by simp)
    obtain ⟨ts, hts⟩ := Option.isSome_iff_exists.mp he
    have step : a.registerInstructionSpec e.1 (some e.2)
        = .ok { a with scopes := [{ s with instructionTable := InstrTable.add s.instructionTable ⟨e.1, ts⟩ }] } := by
      simp [Analyzer.registerInstructionSpec, hts, Analyzer.registerInstruction, Instruction.mk', h,
        Analyzer.modifyCurrent]
    rw [List.foldl_cons, Res.bind_ok, step, ih _ _ rfl (fun e' h' => hspec e' (by simp [h']))]
    simp [hts]

theorem registrations_specs : ∀ e ∈ ConstEval.registrations fo, (Types.fromSpec e.2.1).isSome := by
  simp [ConstEval.registrations, Types.fromSpec, Types.fromSpecChar]

theorem instr_registrations_specs : ∀ e ∈ InstructionSet.registrations, (Types.fromSpec e.2).isSome := by
  have : InstructionSet.registrations.all (fun e => (Types.fromSpec e.2).isSome) := by decide +kernel
  simpa using this

theorem defaultFns_eq : (ConstEval.registrations fo).foldl
    (fun t e => OverloadTable.add t e.1 e.2.2 ((Types.fromSpec e.2.1).getD [])) [] = defaultFns fo := by
  cbv

theorem registerDefaultConstants_eq (v : Version) :
    Analyzer.registerDefaultConstants fo (⟨v, [Scope.empty], 0⟩ : Analyzer F)
      = .ok ⟨v, [⟨defaultVars fo, [], [], ⟨[], none⟩, []⟩], 0⟩ := by
  simp [Analyzer.registerDefaultConstants, Analyzer.registerVariable, Analyzer.modifyCurrent,
    VariableTable.add, VariableTable.find, Scope.empty, defaultVars]

theorem defaultInstrs_eq : InstructionSet.registrations.foldl
    (fun t e => InstrTable.add t ⟨e.1, (Types.fromSpec e.2).getD []⟩) [] = defaultInstrs := rfl

theorem default_eq (v : Version) (h : Version.eq v [3, 0] = true) :
    Analyzer.default fo v = .ok ⟨v, [defaultScope fo], 0⟩ := by
  unfold Analyzer.default Analyzer.new
  rw [if_pos h]
  simp only [registerDefaultConstants_eq, Res.bind_ok]
  unfold Analyzer.registerDefaultFunctions
  rw [foldl_registerFunction _ _ _ rfl (registrations_specs fo), defaultFns_eq]
  rw [Res.bind_ok]
  unfold Analyzer.registerDefaultInstructions
  rw [foldl_registerInstruction _ _ _ rfl instr_registrations_specs]
  rfl

theorem default_none (v : Version) (h : Version.eq v [3, 0] = false) :
    Analyzer.default fo v = .exn c!"std::invalid_argument" := by
  unfold Analyzer.default Analyzer.new
  rw [if_neg (by simp [h])]

end Qasm
