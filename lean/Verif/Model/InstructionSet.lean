import Verif.Model.Overload
/-!
# The instruction set: `src/v3x/instruction_set.cpp`, `include/libqasm/v3x/instruction_set.hpp`

Simplification: the multimaps are lists in source order. `std::multimap` iterates in key order, but
keeps the relative order of equal keys, and only per-name lookups and per-name registration order matter.
`find` of a multimap with several equal keys is modelled by the first of them (unspecified in C++;
see `C38_param_types_agree` for why it does not matter for gates).
-/

namespace Qasm

/-- One entry of an `InstructionMapT`: name, parameter types, operand types, instruction_set.hpp:11-16. -/
abbrev InstructionEntry := Str × Option Str × Str

namespace InstructionSet

/-- `named_gate_map`, src/v3x/instruction_set.cpp:11-72. -/
def namedGateMap : List InstructionEntry :=
  [
    (c!"CNOT", none, c!"QQ"),
    (c!"CNOT", none, c!"QV"),
    (c!"CNOT", none, c!"VQ"),
    (c!"CNOT", none, c!"VV"),
    (c!"CR", some c!"f", c!"QQ"),
    (c!"CR", some c!"f", c!"QV"),
    (c!"CR", some c!"f", c!"VQ"),
    (c!"CR", some c!"f", c!"VV"),
    (c!"CRk", some c!"i", c!"QQ"),
    (c!"CRk", some c!"i", c!"QV"),
    (c!"CRk", some c!"i", c!"VQ"),
    (c!"CRk", some c!"i", c!"VV"),
    (c!"CZ", none, c!"QQ"),
    (c!"CZ", none, c!"QV"),
    (c!"CZ", none, c!"VQ"),
    (c!"CZ", none, c!"VV"),
    (c!"H", none, c!"Q"),
    (c!"H", none, c!"V"),
    (c!"I", none, c!"Q"),
    (c!"I", none, c!"V"),
    (c!"mX90", none, c!"Q"),
    (c!"mX90", none, c!"V"),
    (c!"mY90", none, c!"Q"),
    (c!"mY90", none, c!"V"),
    (c!"mZ90", none, c!"Q"),
    (c!"mZ90", none, c!"V"),
    (c!"Rn", some c!"fffff", c!"Q"),
    (c!"Rn", some c!"fffff", c!"V"),
    (c!"Rx", some c!"f", c!"Q"),
    (c!"Rx", some c!"f", c!"V"),
    (c!"Ry", some c!"f", c!"Q"),
    (c!"Ry", some c!"f", c!"V"),
    (c!"Rz", some c!"f", c!"Q"),
    (c!"Rz", some c!"f", c!"V"),
    (c!"S", none, c!"Q"),
    (c!"S", none, c!"V"),
    (c!"Sdag", none, c!"Q"),
    (c!"Sdag", none, c!"V"),
    (c!"SWAP", none, c!"QQ"),
    (c!"SWAP", none, c!"QV"),
    (c!"SWAP", none, c!"VQ"),
    (c!"SWAP", none, c!"VV"),
    (c!"T", none, c!"Q"),
    (c!"T", none, c!"V"),
    (c!"Tdag", none, c!"Q"),
    (c!"Tdag", none, c!"V"),
    (c!"U", some c!"fff", c!"Q"),
    (c!"U", some c!"fff", c!"V"),
    (c!"X", none, c!"Q"),
    (c!"X", none, c!"V"),
    (c!"X90", none, c!"Q"),
    (c!"X90", none, c!"V"),
    (c!"Y", none, c!"Q"),
    (c!"Y", none, c!"V"),
    (c!"Y90", none, c!"Q"),
    (c!"Y90", none, c!"V"),
    (c!"Z", none, c!"Q"),
    (c!"Z", none, c!"V"),
    (c!"Z90", none, c!"Q"),
    (c!"Z90", none, c!"V")]

/-- `non_gate_map`, src/v3x/instruction_set.cpp:73-90. -/
def nonGateMap : List InstructionEntry :=
  [
    (c!"measure", none, c!"BQ"),
    (c!"measure", none, c!"WV"),
    (c!"measure", none, c!"BV"),
    (c!"measure", none, c!"WQ"),
    (c!"measure", some c!"fff", c!"BQ"),
    (c!"measure", some c!"fff", c!"WV"),
    (c!"measure", some c!"fff", c!"BV"),
    (c!"measure", some c!"fff", c!"WQ"),
    (c!"reset", none, c!"Q"),
    (c!"reset", none, c!"V"),
    (c!"init", none, c!"Q"),
    (c!"init", none, c!"V"),
    (c!"barrier", none, c!"Q"),
    (c!"barrier", none, c!"V"),
    (c!"wait", some c!"i", c!"Q"),
    (c!"wait", some c!"i", c!"V")]

/-- `gate_modifier_map`, src/v3x/instruction_set.cpp:91-95. -/
def gateModifierMap : List (Str × Option Str) :=
  [(c!"inv", none), (c!"pow", some c!"f"), (c!"ctrl", none)]

/-- `single_qubit_named_gate_list`, src/v3x/instruction_set.cpp:96-98. -/
def singleQubitNamedGateList : List Str :=
  [c!"H", c!"I", c!"mX90", c!"mY90", c!"mZ90", c!"Rn", c!"Rx", c!"Ry", c!"Rz", c!"S", c!"Sdag", c!"T", c!"Tdag", c!"U", c!"X", c!"X90", c!"Y", c!"Y90", c!"Z", c!"Z90"]

/-- `two_qubit_named_gate_list`, src/v3x/instruction_set.cpp:99-101. -/
def twoQubitNamedGateList : List Str :=
  [c!"CNOT", c!"CR", c!"CRk", c!"CZ", c!"SWAP"]

/-- `non_gate_list`, src/v3x/instruction_set.cpp:102-104. -/
def nonGateList : List Str :=
  [c!"measure", c!"reset", c!"init", c!"barrier", c!"wait"]

/-- `single_qubit_gate_composition_prefix`, instruction_set.hpp:34. -/
def singleQubitGateCompositionPrefix : Str := c!"1q"
/-- `two_qubit_gate_composition_prefix`, instruction_set.hpp:35. -/
def twoQubitGateCompositionPrefix : Str := c!"2q"
/-- `measure_name`, instruction_set.hpp:37. -/
def measureName : Str := c!"measure"
/-- `reset_name`, instruction_set.hpp:38. -/
def resetName : Str := c!"reset"
/-- `init_name`, instruction_set.hpp:39. -/
def initName : Str := c!"init"
/-- `barrier_name`, instruction_set.hpp:40. -/
def barrierName : Str := c!"barrier"
/-- `wait_name`, instruction_set.hpp:41. -/
def waitName : Str := c!"wait"
/-- `inv_gate_modifier_name`, instruction_set.hpp:43. -/
def invGateModifierName : Str := c!"inv"
/-- `pow_gate_modifier_name`, instruction_set.hpp:44. -/
def powGateModifierName : Str := c!"pow"
/-- `ctrl_gate_modifier_name`, instruction_set.hpp:45. -/
def ctrlGateModifierName : Str := c!"ctrl"

/-- `std::set::contains`. -/
def contains (l : List Str) (name : Str) : Bool := decide (name ∈ l)

/-- `std::string::starts_with`. -/
def startsWith (s p : Str) : Bool := p.isPrefixOf s

/-- `is_single_qubit_named_gate`, src/v3x/instruction_set.cpp:137-139. -/
def isSingleQubitNamedGate (name : Str) : Bool := contains singleQubitNamedGateList name
/-- `is_two_qubit_named_gate`, src/v3x/instruction_set.cpp:141-143. -/
def isTwoQubitNamedGate (name : Str) : Bool := contains twoQubitNamedGateList name
/-- `is_named_gate`, src/v3x/instruction_set.cpp:145-147. -/
def isNamedGate (name : Str) : Bool := isSingleQubitNamedGate name || isTwoQubitNamedGate name
/-- `is_single_qubit_gate_composition`, src/v3x/instruction_set.cpp:149-151. -/
def isSingleQubitGateComposition (name : Str) : Bool := startsWith name singleQubitGateCompositionPrefix
/-- `is_two_qubit_gate_composition`, src/v3x/instruction_set.cpp:153-155. -/
def isTwoQubitGateComposition (name : Str) : Bool := startsWith name twoQubitGateCompositionPrefix
/-- `is_gate_composition`, src/v3x/instruction_set.cpp:157-159. -/
def isGateComposition (name : Str) : Bool := isSingleQubitGateComposition name || isTwoQubitGateComposition name
/-- `is_single_qubit_gate`, src/v3x/instruction_set.cpp:161-163. -/
def isSingleQubitGate (name : Str) : Bool := isSingleQubitNamedGate name || isSingleQubitGateComposition name
/-- `is_two_qubit_gate`, src/v3x/instruction_set.cpp:165-167. -/
def isTwoQubitGate (name : Str) : Bool := isTwoQubitNamedGate name || isTwoQubitGateComposition name
/-- `is_gate`, src/v3x/instruction_set.cpp:169-171. -/
def isGate (name : Str) : Bool := isNamedGate name || isGateComposition name
/-- `is_measure`, src/v3x/instruction_set.cpp:173-175. -/
def isMeasure (name : Str) : Bool := name == measureName
/-- `is_reset`, src/v3x/instruction_set.cpp:177-179. -/
def isReset (name : Str) : Bool := name == resetName
/-- `is_init`, src/v3x/instruction_set.cpp:181-183. -/
def isInit (name : Str) : Bool := name == initName
/-- `is_barrier`, src/v3x/instruction_set.cpp:185-187. -/
def isBarrier (name : Str) : Bool := name == barrierName
/-- `is_wait`, src/v3x/instruction_set.cpp:189-191. -/
def isWait (name : Str) : Bool := name == waitName
/-- `is_non_gate`, src/v3x/instruction_set.cpp:193-195. -/
def isNonGate (name : Str) : Bool := contains nonGateList name
/-- `is_inv_gate_modifier`, src/v3x/instruction_set.cpp:197-199. -/
def isInvGateModifier (name : Str) : Bool := name == invGateModifierName
/-- `is_pow_gate_modifier`, src/v3x/instruction_set.cpp:201-203. -/
def isPowGateModifier (name : Str) : Bool := name == powGateModifierName
/-- `is_ctrl_gate_modifier`, src/v3x/instruction_set.cpp:205-207. -/
def isCtrlGateModifier (name : Str) : Bool := name == ctrlGateModifierName
/-- `is_single_qubit_gate_modifier`, src/v3x/instruction_set.cpp:209-211. -/
def isSingleQubitGateModifier (name : Str) : Bool := isInvGateModifier name || isPowGateModifier name
/-- `is_two_qubit_gate_modifier`, src/v3x/instruction_set.cpp:213-215. -/
def isTwoQubitGateModifier (name : Str) : Bool := isCtrlGateModifier name
/-- `is_gate_modifier`, src/v3x/instruction_set.cpp:217-219. -/
def isGateModifier (name : Str) : Bool :=
  isInvGateModifier name || isPowGateModifier name || isCtrlGateModifier name

/-- `get_named_gate_param_types`, src/v3x/instruction_set.cpp:221-227. -/
def getNamedGateParamTypes (name : Str) : Res Err (Option Str) :=
  match namedGateMap.find? fun e => e.1 == name with
  | some e => .ok e.2.1
  | none => .err (Err.mk0 (c!"couldn't find gate '" ++ name ++ c!"'"))

/-- `get_non_gate_param_types`, src/v3x/instruction_set.cpp:229-235. -/
def getNonGateParamTypes (name : Str) : Res Err (Option Str) :=
  match nonGateMap.find? fun e => e.1 == name with
  | some e => .ok e.2.1
  | none => .err (Err.mk0 (c!"couldn't find non-unitary instruction '" ++ name ++ c!"'"))

/-- `get_gate_modifier_param_types`, src/v3x/instruction_set.cpp:237-242. -/
def getGateModifierParamTypes (name : Str) : Res Err (Option Str) :=
  match gateModifierMap.find? fun e => e.1 == name with
  | some e => .ok e.2
  | none => .err (Err.mk0 (c!"couldn't find gate modifier '" ++ name ++ c!"'"))

/-- `get_instruction_param_types`, src/v3x/instruction_set.cpp:244-253. -/
def getInstructionParamTypes (name : Str) : Res Err (Option Str) :=
  if isNamedGate name then getNamedGateParamTypes name
  else if isNonGate name then getNonGateParamTypes name
  else if isGateModifier name then getGateModifierParamTypes name
  else .err (Err.mk0 (c!"couldn't find instruction '" ++ name ++ c!"'"))

/-- The loop of `get_non_gate_param_types_with_param_count`, src/v3x/instruction_set.cpp:258-270. -/
def paramTypesWithCount (paramCount : Nat) : List InstructionEntry → Option Str
  | [] => none
  | (_, none, _) :: rest => if paramCount = 0 then none else paramTypesWithCount paramCount rest
  | (_, some ps, _) :: rest => if ps.length = paramCount then some ps else paramTypesWithCount paramCount rest

/-- `get_non_gate_param_types_with_param_count`, src/v3x/instruction_set.cpp:255-271. -/
def getNonGateParamTypesWithParamCount (name : Str) (paramCount : Nat) : Option Str :=
  paramTypesWithCount paramCount (nonGateMap.filter fun e => e.1 == name)

/-- `fmt::format("{}_{}", prefix, name)`. -/
def compositionName (pre name : Str) : Str := pre ++ c!"_" ++ name

/-- The calls `register_instruction(name, operand_types)` made by `register_instructions`,
src/v3x/register_instructions.cpp:14-60, in order. -/
def registrations : List (Str × Str) :=
  (namedGateMap.map fun e => (e.1, e.2.2))
  ++ ((namedGateMap.filter fun e => isSingleQubitNamedGate e.1).map fun e =>
      (compositionName singleQubitGateCompositionPrefix e.1, e.2.2))
  ++ ((namedGateMap.filter fun e => isSingleQubitNamedGate e.1).flatMap fun e =>
      [(compositionName twoQubitGateCompositionPrefix e.1, c!"Q" ++ e.2.2),
       (compositionName twoQubitGateCompositionPrefix e.1, c!"V" ++ e.2.2)])
  ++ (nonGateMap.map fun e => (e.1, e.2.2))

end InstructionSet
end Qasm
