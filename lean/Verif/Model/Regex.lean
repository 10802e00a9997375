import Verif.Model.Base
/-!
# Matching of lexer rules

The lexer of libqasm is generated by ANTLR from `src/v3x/CqasmLexer.g4`; at run time ANTLR simulates all
rules of the current mode side by side and keeps the longest match. This module models that simulation
for one rule: a rule is a regular expression, its state is the list of what may still have to be
matched (the configurations of ANTLR's automaton), and a character moves every configuration on.

Simplification: ANTLR's `LexerATNSimulator` (not in /repo) runs all rules in one set of configurations and
caches it as a DFA; here each rule is run on its own and `Lexer.best` picks the winner.
-/

namespace Qasm

/-- The constructs used by the rules of src/v3x/CqasmLexer.g4. -/
inductive Regex where
  /-- The empty text. -/
  | eps
  /-- One character of a class (`'c'`, `[a-z]`, `~[\r\n]`, `.`). -/
  | set (p : Char → Bool)
  | seq (r s : Regex)
  | alt (r s : Regex)
  /-- `r*`, and `r*?` in a rule marked non-greedy. -/
  | star (r : Regex)

namespace Regex

/-- A literal such as `'version'`. -/
def str : Str → Regex
  | [] => eps
  | [c] => set (· == c)
  | c :: d :: s => seq (set (· == c)) (str (d :: s))

/-- `r+`. -/
def plus (r : Regex) : Regex := seq r (star r)

/-- `r?`. -/
def opt (r : Regex) : Regex := alt r eps

/-- Whether the empty text matches. -/
def nullable : Regex → Bool
  | eps => true
  | set _ => false
  | seq r s => nullable r && nullable s
  | alt r s => nullable r || nullable s
  | star _ => true

/-- Sequence, dropping a finished first part. -/
def cat : Regex → Regex → Regex
  | eps, s => s
  | r, s => seq r s

/-- The configurations reached from `r` by the character `c`. -/
def move : Regex → Char → List Regex
  | eps, _ => []
  | set p, c => if p c then [eps] else []
  | seq r s, c => (move r c).map (cat · s) ++ (if nullable r then move s c else [])
  | alt r s, c => move r c ++ move s c
  | star r, c => (move r c).map (cat · (star r))

/-- The configurations reached from a list of configurations. -/
def step (cs : List Regex) (c : Char) : List Regex := cs.flatMap (move · c)

/-- Whether some configuration is at the end of the rule. -/
def accepts (cs : List Regex) : Bool := cs.any nullable

/-- The length of the longest non-empty match of a greedy rule at the start of the text. The run stops
when no configuration is left. -/
def longest (cs : List Regex) : Str → Option Nat
  | [] => none
  | c :: s =>
    let r := step cs c
    if r.isEmpty then none
    else match longest r s with
      | some n => some (n + 1)
      | none => if accepts r then some 1 else none

/-- The length of the match of a non-greedy rule (`.*?`): the run stops at the first accepting state. -/
def shortest (cs : List Regex) : Str → Option Nat
  | [] => none
  | c :: s =>
    let r := step cs c
    if r.isEmpty then none
    else if accepts r then some 1
    else (shortest r s).map (· + 1)

end Regex
end Qasm
