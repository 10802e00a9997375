import Verif.Model.Api
import Verif.Spec.Sample
/-!
# The unit tests of the repository, on the model

These are examples, not proofs: they compare the model with what the tests in /repo/test expect of the code. Tests of float
functions with rounding and of memory addresses are left out; floats are those of `Spec/Sample`.
-/

namespace Qasm.Tests

open Sample

/-! ## test/v3x/cpp/test_functions.cpp -/

example : (ConstEval.op_neg_f fo : CoreFn Int) [⟨.constFloat (0), none⟩] = .ok (some ⟨.constFloat (0), none⟩) := by decide +kernel
example : (ConstEval.op_neg_f fo : CoreFn Int) [⟨.constFloat (5), none⟩] = .ok (some ⟨.constFloat (-5), none⟩) := by decide +kernel
example : (ConstEval.op_neg_f fo : CoreFn Int) [⟨.constFloat (-5), none⟩] = .ok (some ⟨.constFloat (5), none⟩) := by decide +kernel
example : (ConstEval.op_neg_i : CoreFn Int) [⟨.constInt (0), none⟩] = .ok (some ⟨.constInt (0), none⟩) := by decide +kernel
example : (ConstEval.op_neg_i : CoreFn Int) [⟨.constInt (5), none⟩] = .ok (some ⟨.constInt (-5), none⟩) := by decide +kernel
example : (ConstEval.op_neg_i : CoreFn Int) [⟨.constInt (-5), none⟩] = .ok (some ⟨.constInt (5), none⟩) := by decide +kernel
example : (ConstEval.op_add_ff fo : CoreFn Int) [⟨.constFloat (-5), none⟩, ⟨.constFloat (5), none⟩] = .ok (some ⟨.constFloat (0), none⟩) := by decide +kernel
example : (ConstEval.op_add_ii : CoreFn Int) [⟨.constInt (-5), none⟩, ⟨.constInt (5), none⟩] = .ok (some ⟨.constInt (0), none⟩) := by decide +kernel
example : (ConstEval.op_sub_ff fo : CoreFn Int) [⟨.constFloat (-5), none⟩, ⟨.constFloat (5), none⟩] = .ok (some ⟨.constFloat (-10), none⟩) := by decide +kernel
example : (ConstEval.op_sub_ii : CoreFn Int) [⟨.constInt (-5), none⟩, ⟨.constInt (5), none⟩] = .ok (some ⟨.constInt (-10), none⟩) := by decide +kernel
example : (ConstEval.op_mul_ff fo : CoreFn Int) [⟨.constFloat (-5), none⟩, ⟨.constFloat (5), none⟩] = .ok (some ⟨.constFloat (-25), none⟩) := by decide +kernel
example : (ConstEval.op_mul_ii : CoreFn Int) [⟨.constInt (-5), none⟩, ⟨.constInt (5), none⟩] = .ok (some ⟨.constInt (-25), none⟩) := by decide +kernel
example : (ConstEval.op_div_ff fo : CoreFn Int) [⟨.constFloat (-5), none⟩, ⟨.constFloat (5), none⟩] = .ok (some ⟨.constFloat (-1), none⟩) := by decide +kernel
example : (ConstEval.op_div_ii : CoreFn Int) [⟨.constInt (-5), none⟩, ⟨.constInt (5), none⟩] = .ok (some ⟨.constInt (-1), none⟩) := by decide +kernel
example : (ConstEval.op_div_ii : CoreFn Int) [⟨.constInt (8), none⟩, ⟨.constInt (3), none⟩] = .ok (some ⟨.constInt (2), none⟩) := by decide +kernel
example : (ConstEval.op_mod_ii : CoreFn Int) [⟨.constInt (-1), none⟩, ⟨.constInt (3), none⟩] = .ok (some ⟨.constInt (-1), none⟩) := by decide +kernel
example : (ConstEval.op_mod_ii : CoreFn Int) [⟨.constInt (-0), none⟩, ⟨.constInt (3), none⟩] = .ok (some ⟨.constInt (0), none⟩) := by decide +kernel
example : (ConstEval.op_mod_ii : CoreFn Int) [⟨.constInt (1), none⟩, ⟨.constInt (3), none⟩] = .ok (some ⟨.constInt (1), none⟩) := by decide +kernel
example : (ConstEval.op_mod_ii : CoreFn Int) [⟨.constInt (-1), none⟩, ⟨.constInt (-3), none⟩] = .ok (some ⟨.constInt (-1), none⟩) := by decide +kernel
example : (ConstEval.op_mod_ii : CoreFn Int) [⟨.constInt (0), none⟩, ⟨.constInt (-3), none⟩] = .ok (some ⟨.constInt (0), none⟩) := by decide +kernel
example : (ConstEval.op_mod_ii : CoreFn Int) [⟨.constInt (1), none⟩, ⟨.constInt (-3), none⟩] = .ok (some ⟨.constInt (1), none⟩) := by decide +kernel
example : (ConstEval.op_pow_ff fo : CoreFn Int) [⟨.constFloat (-5), none⟩, ⟨.constFloat (5), none⟩] = .ok (some ⟨.constFloat (-3125), none⟩) := by decide +kernel
example : (ConstEval.op_eq_ff fo : CoreFn Int) [⟨.constFloat (2), none⟩, ⟨.constFloat (2), none⟩] = .ok (some ⟨.constBool true, none⟩) := by decide +kernel
example : (ConstEval.op_ne_ff fo : CoreFn Int) [⟨.constFloat (2), none⟩, ⟨.constFloat (2), none⟩] = .ok (some ⟨.constBool false, none⟩) := by decide +kernel
example : (ConstEval.op_ge_ff fo : CoreFn Int) [⟨.constFloat (2), none⟩, ⟨.constFloat (2), none⟩] = .ok (some ⟨.constBool true, none⟩) := by decide +kernel
example : (ConstEval.op_gt_ff fo : CoreFn Int) [⟨.constFloat (2), none⟩, ⟨.constFloat (2), none⟩] = .ok (some ⟨.constBool false, none⟩) := by decide +kernel
example : (ConstEval.op_le_ff fo : CoreFn Int) [⟨.constFloat (2), none⟩, ⟨.constFloat (2), none⟩] = .ok (some ⟨.constBool true, none⟩) := by decide +kernel
example : (ConstEval.op_lt_ff fo : CoreFn Int) [⟨.constFloat (2), none⟩, ⟨.constFloat (2), none⟩] = .ok (some ⟨.constBool false, none⟩) := by decide +kernel
example : (ConstEval.op_eq_ii : CoreFn Int) [⟨.constInt (2), none⟩, ⟨.constInt (2), none⟩] = .ok (some ⟨.constBool true, none⟩) := by decide +kernel
example : (ConstEval.op_ne_ii : CoreFn Int) [⟨.constInt (2), none⟩, ⟨.constInt (2), none⟩] = .ok (some ⟨.constBool false, none⟩) := by decide +kernel
example : (ConstEval.op_ge_ii : CoreFn Int) [⟨.constInt (2), none⟩, ⟨.constInt (2), none⟩] = .ok (some ⟨.constBool true, none⟩) := by decide +kernel
example : (ConstEval.op_gt_ii : CoreFn Int) [⟨.constInt (2), none⟩, ⟨.constInt (2), none⟩] = .ok (some ⟨.constBool false, none⟩) := by decide +kernel
example : (ConstEval.op_le_ii : CoreFn Int) [⟨.constInt (2), none⟩, ⟨.constInt (2), none⟩] = .ok (some ⟨.constBool true, none⟩) := by decide +kernel
example : (ConstEval.op_lt_ii : CoreFn Int) [⟨.constInt (2), none⟩, ⟨.constInt (2), none⟩] = .ok (some ⟨.constBool false, none⟩) := by decide +kernel
example : (ConstEval.op_eq_bb : CoreFn Int) [⟨.constBool true, none⟩, ⟨.constBool true, none⟩] = .ok (some ⟨.constBool true, none⟩) := by decide +kernel
example : (ConstEval.op_ne_bb : CoreFn Int) [⟨.constBool true, none⟩, ⟨.constBool true, none⟩] = .ok (some ⟨.constBool false, none⟩) := by decide +kernel
example : (ConstEval.op_ge_bb : CoreFn Int) [⟨.constBool true, none⟩, ⟨.constBool true, none⟩] = .ok (some ⟨.constBool true, none⟩) := by decide +kernel
example : (ConstEval.op_gt_bb : CoreFn Int) [⟨.constBool true, none⟩, ⟨.constBool true, none⟩] = .ok (some ⟨.constBool false, none⟩) := by decide +kernel
example : (ConstEval.op_le_bb : CoreFn Int) [⟨.constBool true, none⟩, ⟨.constBool true, none⟩] = .ok (some ⟨.constBool true, none⟩) := by decide +kernel
example : (ConstEval.op_lt_bb : CoreFn Int) [⟨.constBool true, none⟩, ⟨.constBool true, none⟩] = .ok (some ⟨.constBool false, none⟩) := by decide +kernel
example : (ConstEval.op_binv_i : CoreFn Int) [⟨.constInt (172), none⟩] = .ok (some ⟨.constInt (-173), none⟩) := by decide +kernel
example : (ConstEval.op_band_ii : CoreFn Int) [⟨.constInt (172), none⟩, ⟨.constInt (163), none⟩] = .ok (some ⟨.constInt (160), none⟩) := by decide +kernel
example : (ConstEval.op_bxor_ii : CoreFn Int) [⟨.constInt (172), none⟩, ⟨.constInt (163), none⟩] = .ok (some ⟨.constInt (15), none⟩) := by decide +kernel
example : (ConstEval.op_bor_ii : CoreFn Int) [⟨.constInt (172), none⟩, ⟨.constInt (163), none⟩] = .ok (some ⟨.constInt (175), none⟩) := by decide +kernel
example : (ConstEval.op_shl_ii : CoreFn Int) [⟨.constInt (172), none⟩, ⟨.constInt (3), none⟩] = .ok (some ⟨.constInt (1376), none⟩) := by decide +kernel
example : (ConstEval.op_shr_ii : CoreFn Int) [⟨.constInt (172), none⟩, ⟨.constInt (3), none⟩] = .ok (some ⟨.constInt (21), none⟩) := by decide +kernel
example : (ConstEval.op_linv_b : CoreFn Int) [⟨.constBool true, none⟩] = .ok (some ⟨.constBool false, none⟩) := by decide +kernel
example : (ConstEval.op_land_bb : CoreFn Int) [⟨.constBool true, none⟩, ⟨.constBool true, none⟩] = .ok (some ⟨.constBool true, none⟩) := by decide +kernel
example : (ConstEval.op_lxor_bb : CoreFn Int) [⟨.constBool true, none⟩, ⟨.constBool true, none⟩] = .ok (some ⟨.constBool false, none⟩) := by decide +kernel
example : (ConstEval.op_lor_bb : CoreFn Int) [⟨.constBool true, none⟩, ⟨.constBool true, none⟩] = .ok (some ⟨.constBool true, none⟩) := by decide +kernel
example : (ConstEval.op_tcnd_bff : CoreFn Int) [⟨.constBool true, none⟩, ⟨.constFloat (-5), none⟩, ⟨.constFloat (5), none⟩] = .ok (some ⟨.constFloat (-5), none⟩) := by decide +kernel
example : (ConstEval.op_tcnd_bii : CoreFn Int) [⟨.constBool true, none⟩, ⟨.constInt (-5), none⟩, ⟨.constInt (5), none⟩] = .ok (some ⟨.constInt (-5), none⟩) := by decide +kernel
example : (ConstEval.op_tcnd_bbb : CoreFn Int) [⟨.constBool true, none⟩, ⟨.constBool true, none⟩, ⟨.constBool false, none⟩] = .ok (some ⟨.constBool true, none⟩) := by decide +kernel

/-! ## test/v3x/cpp/test_instruction_set.cpp -/

example : InstructionSet.namedGateMap.length = 60 ∧ InstructionSet.nonGateMap.length = 16 ∧ InstructionSet.gateModifierMap.length = 3 ∧
    InstructionSet.singleQubitNamedGateList.length = 20 ∧ InstructionSet.twoQubitNamedGateList.length = 5 := by decide
example : InstructionSet.isSingleQubitNamedGate c!"H" = true := by decide
example : InstructionSet.isSingleQubitNamedGate c!"h" = false := by decide
example : InstructionSet.isSingleQubitNamedGate c!"CNOT" = false := by decide
example : InstructionSet.isSingleQubitNamedGate c!"1q_H" = false := by decide
example : InstructionSet.isSingleQubitNamedGate c!"inv" = false := by decide
example : InstructionSet.isTwoQubitNamedGate c!"CNOT" = true := by decide
example : InstructionSet.isTwoQubitNamedGate c!"cnot" = false := by decide
example : InstructionSet.isTwoQubitNamedGate c!"H" = false := by decide
example : InstructionSet.isTwoQubitNamedGate c!"2q_H" = false := by decide
example : InstructionSet.isTwoQubitNamedGate c!"ctrl" = false := by decide
example : InstructionSet.isNamedGate c!"H" = true := by decide
example : InstructionSet.isNamedGate c!"CNOT" = true := by decide
example : InstructionSet.isNamedGate c!"h" = false := by decide
example : InstructionSet.isNamedGate c!"cnot" = false := by decide
example : InstructionSet.isNamedGate c!"1q_H" = false := by decide
example : InstructionSet.isNamedGate c!"2q_H" = false := by decide
example : InstructionSet.isNamedGate c!"inv" = false := by decide
example : InstructionSet.isSingleQubitGateComposition c!"1q_H" = true := by decide
example : InstructionSet.isSingleQubitGateComposition c!"H" = false := by decide
example : InstructionSet.isSingleQubitGateComposition c!"CNOT" = false := by decide
example : InstructionSet.isSingleQubitGateComposition c!"2q_H" = false := by decide
example : InstructionSet.isSingleQubitGateComposition c!"inv" = false := by decide
example : InstructionSet.isTwoQubitGateComposition c!"2q_H" = true := by decide
example : InstructionSet.isTwoQubitGateComposition c!"H" = false := by decide
example : InstructionSet.isTwoQubitGateComposition c!"CNOT" = false := by decide
example : InstructionSet.isTwoQubitGateComposition c!"1q_H" = false := by decide
example : InstructionSet.isTwoQubitGateComposition c!"inv" = false := by decide
example : InstructionSet.isSingleQubitGate c!"H" = true := by decide
example : InstructionSet.isSingleQubitGate c!"CNOT" = false := by decide
example : InstructionSet.isSingleQubitGate c!"1q_H" = true := by decide
example : InstructionSet.isSingleQubitGate c!"2q_H" = false := by decide
example : InstructionSet.isSingleQubitGate c!"inv" = false := by decide
example : InstructionSet.isTwoQubitGate c!"H" = false := by decide
example : InstructionSet.isTwoQubitGate c!"CNOT" = true := by decide
example : InstructionSet.isTwoQubitGate c!"1q_H" = false := by decide
example : InstructionSet.isTwoQubitGate c!"2q_H" = true := by decide
example : InstructionSet.isTwoQubitGate c!"inv" = false := by decide
example : InstructionSet.isGate c!"H" = true := by decide
example : InstructionSet.isGate c!"CNOT" = true := by decide
example : InstructionSet.isGate c!"1q_H" = true := by decide
example : InstructionSet.isGate c!"2q_H" = true := by decide
example : InstructionSet.isGate c!"inv" = false := by decide
example : InstructionSet.isGate c!"measure" = false := by decide
example : InstructionSet.isGate c!"reset" = false := by decide
example : InstructionSet.isMeasure c!"measure" = true := by decide
example : InstructionSet.isMeasure c!"MEASURE" = false := by decide
example : InstructionSet.isReset c!"reset" = true := by decide
example : InstructionSet.isReset c!"RESET" = false := by decide
example : InstructionSet.isInit c!"init" = true := by decide
example : InstructionSet.isInit c!"INIT" = false := by decide
example : InstructionSet.isBarrier c!"barrier" = true := by decide
example : InstructionSet.isBarrier c!"BARRIER" = false := by decide
example : InstructionSet.isWait c!"wait" = true := by decide
example : InstructionSet.isWait c!"WAIT" = false := by decide
example : InstructionSet.isNonGate c!"measure" = true := by decide
example : InstructionSet.isNonGate c!"reset" = true := by decide
example : InstructionSet.isNonGate c!"inv" = false := by decide
example : InstructionSet.isInvGateModifier c!"inv" = true := by decide
example : InstructionSet.isInvGateModifier c!"INV" = false := by decide
example : InstructionSet.isPowGateModifier c!"pow" = true := by decide
example : InstructionSet.isPowGateModifier c!"POW" = false := by decide
example : InstructionSet.isCtrlGateModifier c!"ctrl" = true := by decide
example : InstructionSet.isCtrlGateModifier c!"CTRL" = false := by decide
example : InstructionSet.isSingleQubitGateModifier c!"inv" = true := by decide
example : InstructionSet.isSingleQubitGateModifier c!"pow" = true := by decide
example : InstructionSet.isSingleQubitGateModifier c!"ctrl" = false := by decide
example : InstructionSet.isTwoQubitGateModifier c!"ctrl" = true := by decide
example : InstructionSet.isTwoQubitGateModifier c!"inv" = false := by decide
example : InstructionSet.isTwoQubitGateModifier c!"pow" = false := by decide
example : InstructionSet.isGateModifier c!"inv" = true := by decide
example : InstructionSet.isGateModifier c!"pow" = true := by decide
example : InstructionSet.isGateModifier c!"ctrl" = true := by decide
example : InstructionSet.isGateModifier c!"H" = false := by decide
example : InstructionSet.isGateModifier c!"CNOT" = false := by decide
example : InstructionSet.isGateModifier c!"1q_H" = false := by decide
example : InstructionSet.isGateModifier c!"2q_H" = false := by decide
example : InstructionSet.isGateModifier c!"measure" = false := by decide
example : InstructionSet.isGateModifier c!"reset" = false := by decide
example : InstructionSet.getNamedGateParamTypes c!"H" = .ok none := by decide
example : InstructionSet.getNamedGateParamTypes c!"Rz" = .ok (some c!"f") := by decide
example : InstructionSet.getGateModifierParamTypes c!"inv" = .ok none := by decide
example : InstructionSet.getGateModifierParamTypes c!"pow" = .ok (some c!"f") := by decide
example : InstructionSet.getInstructionParamTypes c!"H" = .ok none := by decide
example : InstructionSet.getInstructionParamTypes c!"measure" = .ok none := by decide
example : InstructionSet.getInstructionParamTypes c!"pow" = .ok (some c!"f") := by decide
example : InstructionSet.getNonGateParamTypesWithParamCount c!"measure" 0 = none := by decide
example : InstructionSet.getNonGateParamTypesWithParamCount c!"measure" 3 = (some c!"fff") := by decide
example : InstructionSet.getNonGateParamTypesWithParamCount c!"measure" 1 = none := by decide
example : InstructionSet.getNamedGateParamTypes c!"inv" = .err ⟨c!"couldn't find gate 'inv'", none⟩ := by decide
example : InstructionSet.getGateModifierParamTypes c!"H" = .err ⟨c!"couldn't find gate modifier 'H'", none⟩ := by decide
example : InstructionSet.getInstructionParamTypes c!"1q_H" = .err ⟨c!"couldn't find instruction '1q_H'", none⟩ := by decide

/-! ## test/test_utils.cpp -/

example : Text.toLowercase [] = [] := by decide
example : Text.urlEncode [] = [] := by decide
example : Text.jsonEncode [] = [] := by decide
example : Text.toLowercase (utf8 c!"abcd") = utf8 c!"abcd" := by decide +kernel
example : Text.toLowercase (utf8 c!"ABCD") = utf8 c!"abcd" := by decide +kernel
example : Text.toLowercase (utf8 c!"abCD") = utf8 c!"abcd" := by decide +kernel
example : Text.toLowercase (utf8 c!"abCD123") = utf8 c!"abcd123" := by decide +kernel
example : Text.toLowercase (utf8 c!"[abCD!]") = utf8 c!"[abcd!]" := by decide +kernel
example : Text.toLowercase (utf8 c!"123") = utf8 c!"123" := by decide +kernel
example : Text.urlEncode (utf8 c!"a0 ^") = utf8 c!"a0%20%5E" := by decide +kernel
example : Text.urlEncode (utf8 c!"C:\\my file.txt") = utf8 c!"C%3A%5Cmy%20file.txt" := by decide +kernel
example : Text.jsonEncode (utf8 c!"a0 \"\\") = utf8 c!"a0 \\u0022\\u005C" := by decide +kernel
example : Text.jsonEncode (utf8 c!"C:\\my file.txt") = utf8 c!"C:\\u005Cmy file.txt" := by decide +kernel
example : Text.jsonEncode (utf8 c!"failed to parse 'res/v1x/parsing/grammar/expression_recovery/input.cq'") = utf8 c!"failed to parse 'res/v1x/parsing/grammar/expression_recovery/input.cq'" := by decide +kernel
example : Text.equalCaseInsensitive (utf8 c!"") (utf8 c!"") = true := by decide +kernel
example : Text.equalCaseInsensitive (utf8 c!"abcd") (utf8 c!"abcd") = true := by decide +kernel
example : Text.equalCaseInsensitive (utf8 c!"ABCD") (utf8 c!"ABCD") = true := by decide +kernel
example : Text.equalCaseInsensitive (utf8 c!"abCD") (utf8 c!"ABcd") = true := by decide +kernel
example : Text.equalCaseInsensitive (utf8 c!"[abCD!]") (utf8 c!"[ABcd!]") = true := by decide +kernel
example : Text.equalCaseInsensitive (utf8 c!"123") (utf8 c!"123") = true := by decide +kernel
example : Text.equalCaseInsensitive (utf8 c!"123") (utf8 c!"ABC") = false := by decide +kernel

/-! ## test/test_annotations.cpp -/

example : (Loc.mk' none ⟨⟨0, 0⟩, ⟨0, 0⟩⟩).print = c!"<unknown file name>" := by decide +kernel
example : (Loc.mk' (some c!"") ⟨⟨0, 0⟩, ⟨0, 0⟩⟩).print = c!"<unknown file name>" := by decide +kernel
example : (Loc.mk' none (Range.mk' ⟨10, 0⟩ ⟨10, 0⟩)).print = c!"<unknown file name>:10" := by decide +kernel
example : (Loc.mk' (some c!"") (Range.mk' ⟨10, 0⟩ ⟨10, 0⟩)).print = c!"<unknown file name>:10" := by decide +kernel
example : (Loc.mk' none (Range.mk' ⟨10, 12⟩ ⟨10, 15⟩)).print = c!"<unknown file name>:10:12..15" := by decide +kernel
example : (Loc.mk' (some c!"") (Range.mk' ⟨10, 12⟩ ⟨10, 15⟩)).print = c!"<unknown file name>:10:12..15" := by decide +kernel
example : (Loc.mk' (some c!"input.cq") (Range.mk' ⟨10, 12⟩ ⟨10, 15⟩)).print = c!"input.cq:10:12..15" := by decide +kernel
example : (Loc.mk' (some c!"<unknown file name>") (Range.mk' ⟨10, 12⟩ ⟨10, 15⟩)).print = c!"<unknown file name>:10:12..15" := by decide +kernel

/-! ## test/test_error.cpp -/

/-- `{ { 10, 12 }, { 10, 15 } }` -/
private def r10 : Range := Range.mk' ⟨10, 12⟩ ⟨10, 15⟩
private def r20 : Range := Range.mk' ⟨20, 22⟩ ⟨20, 25⟩
private def noRange : Range := ⟨⟨0, 0⟩, ⟨0, 0⟩⟩
private def input : Option Str := some c!"input.cq"

example : (Err.mk0 c!"").what = c!"Error: <unknown error message>" := by decide +kernel
example : (Err.mk0 c!"syntax error").what = c!"Error: syntax error" := by decide +kernel
example : (Err.mkNode c!"syntax error" none).what = c!"Error: syntax error" := by decide +kernel
example : (Err.mkNode c!"syntax error" (some ⟨none, noRange⟩)).what = c!"Error at <unknown file name>: syntax error" := by decide +kernel
example : (Err.mkNode c!"syntax error" (some (Loc.mk' input r10))).what = c!"Error at input.cq:10:12..15: syntax error" := by decide +kernel
example : (Err.mkRange c!"" none noRange).what = c!"Error at <unknown file name>: <unknown error message>" := by decide +kernel
example : (Err.mkRange c!"syntax error" none noRange).what = c!"Error at <unknown file name>: syntax error" := by decide +kernel
example : (Err.mkRange c!"syntax error" input r10).what = c!"Error at input.cq:10:12..15: syntax error" := by decide +kernel
example : (Err.mkRange c!"syntax error" none r10).what = c!"Error at <unknown file name>:10:12..15: syntax error" := by decide +kernel
example : ((Err.mkRange c!"syntax error" input r10).context (some (Loc.mk' input r20))).what =
    c!"Error at input.cq:10:12..15: syntax error" := by decide +kernel
example : ((Err.mk0 c!"syntax error").context none).what = c!"Error: syntax error" := by decide +kernel
example : ((Err.mk0 c!"syntax error").context (some (Loc.mk' input r20))).what = c!"Error at input.cq:20:22..25: syntax error" := by
  decide +kernel
example : (Err.mk0 c!"").toJson = utf8 c!"{\"range\":{\"start\":{\"line\":0,\"character\":0},\"end\":{\"line\":0,\"character\":0}},\"message\":\"<unknown error message>\",\"severity\":1}" := by
  decide +kernel
example : (Err.mkRange c!"syntax error" none r10).toJson = utf8 c!"{\"range\":{\"start\":{\"line\":10,\"character\":12},\"end\":{\"line\":10,\"character\":15}},\"message\":\"syntax error\",\"severity\":1}" := by
  decide +kernel
example : (Err.mkRange c!"syntax error" input r10).toJson = utf8 c!"{\"range\":{\"start\":{\"line\":10,\"character\":12},\"end\":{\"line\":10,\"character\":15}},\"message\":\"syntax error\",\"severity\":1,\"relatedInformation\":[{\"location\":{\"uri\":\"file:///input.cq\",\"range\":{\"start\":{\"line\":0,\"character\":0},\"end\":{\"line\":0,\"character\":0}}},\"message\":\"<unknown error message>\"}]}" := by
  decide +kernel

/-! ## test/v3x/cpp/test_values.cpp -/

private def bool1 : Ty := ⟨.bool, 1⟩
private def int1 : Ty := ⟨.int, 1⟩
private def float1 : Ty := ⟨.float, 1⟩
private def boolTrue : Value Int := ⟨.constBool true, none⟩
private def intOne : Value Int := ⟨.constInt 1, none⟩
private def floatOne : Value Int := ⟨.constFloat 1, none⟩
private def boolRef : Value Int := ⟨.variableRef ⟨0, c!"b", bool1⟩, none⟩

example : Values.promote fo boolTrue bool1 = .ok (some boolTrue) := by decide +kernel
example : Values.promote fo boolTrue int1 = .ok (some intOne) := by decide +kernel
example : Values.promote fo boolTrue float1 = .ok (some floatOne) := by decide +kernel
example : Values.promote fo intOne int1 = .ok (some intOne) := by decide +kernel
example : Values.promote fo intOne float1 = .ok (some floatOne) := by decide +kernel
example : Values.promote fo floatOne float1 = .ok (some floatOne) := by decide +kernel
example : Values.promote fo boolRef int1 = .ok (some boolRef) := by decide +kernel
example : Values.promote fo intOne bool1 = .ok none := by decide +kernel
example : Values.promote fo floatOne bool1 = .ok none := by decide +kernel
example : Values.promote fo floatOne int1 = .ok none := by decide +kernel
example : Values.sizeOf boolTrue = 1 ∧ Values.sizeOf intOne = 1 ∧ Values.sizeOf floatOne = 1 := by decide

/-! ## test/v3x/cpp/test_analyzer.cpp -/

private def newAnalyzer : Analyzer Int := ⟨[3, 0], [.empty], 0⟩
private def stmt (l : Option Loc) : SStatement Int := .nonGate ⟨c!"h", [⟨.qubit, 1⟩]⟩ c!"h" [] [] [] l

example : (Analyzer.new [3, 0] : Option (Analyzer Int)) = some newAnalyzer := rfl
example : newAnalyzer.pushScope.scopes.length = 2 := rfl
example : (match newAnalyzer.popScope with | .ok a => some a.scopes.length | _ => none) = some 0 := rfl
example : (match newAnalyzer.addStatement (stmt none) with | .ok a => a.scopes.map fun s => (s.block.statements.length, s.block.loc) | _ => []) =
    [(1, none)] := rfl
example : Analyzer.blockLoc none (some (Loc.mk' input (Range.mk' ⟨10, 20⟩ ⟨11, 10⟩))) =
    some (Loc.mk' input (Range.mk' ⟨10, 20⟩ ⟨11, 10⟩)) := by decide
example : Analyzer.blockLoc (some (Loc.mk' input (Range.mk' ⟨5, 15⟩ ⟨8, 30⟩))) (some (Loc.mk' input (Range.mk' ⟨10, 10⟩ ⟨11, 20⟩))) =
    some (Loc.mk' input (Range.mk' ⟨5, 15⟩ ⟨11, 20⟩)) := by decide

/-! ## test/v3x/python/test_v3x_analyzer.py, test_analysis_result.py: the errors -/

private def an : Antlr Int := ⟨fun _ => none, fun _ => c!"", fun _ => false, ⟨fun _ => false, .abc, false⟩⟩
private def errorsOf (s : Str) : Option (List Str) :=
  match (Api.newV3x fo c!"3.0" false).bind fun a => Api.analyzeStrings fo an (fun _ => c!"tree") a s [] with
  | .ok l => some l.2
  | _ => none

example : errorsOf c!"version 3;qubit q;bit b;b = measure q;b = measure(1,0,0) q" = some [c!"tree"] := by decide +kernel
example : errorsOf c!"version 3;qubit q;bit b;b = measure(1,0) q" =
    some [[], c!"Error at <unknown file name>:1:29..36: instruction 'measure' does not have an overload with 2 parameters."] := by decide +kernel
example : errorsOf c!"version 3;qubit[5] q;bit[5] b;H q[0:4];b = measure q" = some [c!"tree"] := by decide +kernel
example : errorsOf c!"version 3;qubit[3] q;X q[3]" = some [[], c!"Error at <unknown file name>:1:24..25: index 3 out of range (size 3)"] := by
  decide +kernel
example : errorsOf c!"version 3;qubit q;H(0, 1) q" =
    some [[], c!"Error at <unknown file name>:1:19..20: instruction 'H' expects no parameters, but got 2."] := by decide +kernel
example : errorsOf c!"version 3;qubit q;Rx(0, 1) q" =
    some [[], c!"Error at <unknown file name>:1:19..21: instruction 'Rx' expects 1 parameters, but got 2."] := by decide +kernel
example : errorsOf c!"version 3;qubit q;Rn(0, 1) q" =
    some [[], c!"Error at <unknown file name>:1:19..21: instruction 'Rn' expects 5 parameters, but got 2."] := by decide +kernel
private def jsonOf (s : Str) : Option Bytes :=
  match (Api.newV3x fo c!"3.0" false).bind fun a => Api.analyzeJson fo an (fun _ => utf8 c!"tree") a s [] with
  | .ok b => some b.2
  | _ => none
example : jsonOf c!"version 3; qubit[0] q" = some (utf8 c!"{\"errors\":[{\"range\":{\"start\":{\"line\":1,\"character\":21},\"end\":{\"line\":1,\"character\":22}},\"message\":\"found qubit array of size <= 0\",\"severity\":1}]}") := by
  decide +kernel
example : jsonOf c!"version 3; qubit[17] q" = some (utf8 c!"tree") := by decide +kernel

end Qasm.Tests
