import Verif.Model.Base
/-!
# String utilities: `src/utils.cpp` and `src/string_builder.cpp`

Byte level. `std::tolower` and `std::isalnum` are taken in the default "C" locale.
-/

namespace Qasm.Text

/-- `std::tolower` on an `unsigned char` in the "C" locale (used in src/utils.cpp:26, 35). -/
def tolower (c : UInt8) : UInt8 := if 65 ≤ c.toNat ∧ c.toNat ≤ 90 then c + 32 else c

/-- `std::isalnum` on an `unsigned char` in the "C" locale (used in src/utils.cpp:45). -/
def isalnum (c : UInt8) : Bool :=
  (48 ≤ c.toNat && c.toNat ≤ 57) || (65 ≤ c.toNat && c.toNat ≤ 90) || (97 ≤ c.toNat && c.toNat ≤ 122)

/-- `utils::to_lowercase`, src/utils.cpp:24-28. -/
def toLowercase (s : Bytes) : Bytes := s.map tolower

/-- `utils::equal_case_insensitive`, src/utils.cpp:33-37 (`ranges::equal` with a predicate). -/
def equalCaseInsensitive : Bytes → Bytes → Bool
  | [], [] => true
  | l :: ls, r :: rs => tolower l == tolower r && equalCaseInsensitive ls rs
  | _, _ => false

/-- Upper-case hexadecimal digit, as printed by the `X` format. -/
def hexDigit (n : Nat) : UInt8 := UInt8.ofNat (if n < 10 then 48 + n else 55 + n)

/-- One byte of `utils::url_encode`, src/utils.cpp:44-48: kept if unreserved, else `fmt::format("%{:02X}")`. -/
def urlEncodeByte (c : UInt8) : Bytes :=
  if isalnum c || c == 45 || c == 95 || c == 46 || c == 126 then [c]
  else [37, hexDigit (c.toNat / 16), hexDigit (c.toNat % 16)]

/-- `utils::url_encode`, src/utils.cpp:42-50. -/
def urlEncode (s : Bytes) : Bytes := s.flatMap urlEncodeByte

/-- `fmt::format("\\u{:04X}", static_cast<int>(c))` where `c` is a signed `char`, src/utils.cpp:59.
For `c >= 0x80` the number is negative: fmt prints the sign and pads the magnitude to width 4 in total. -/
def jsonEscape (c : UInt8) : Bytes :=
  if c.toNat < 128 then
    [92, 117, 48, 48, hexDigit (c.toNat / 16), hexDigit (c.toNat % 16)]
  else
    [92, 117, 45, 48, hexDigit ((256 - c.toNat) / 16), hexDigit ((256 - c.toNat) % 16)]

/-- One byte of `utils::json_encode`, src/utils.cpp:57-61. `char` is signed (x86-64 and AArch64-darwin
ABIs), so `c <= '\x1f'` holds for every byte from 0x80 up as well. -/
def jsonEncodeByte (c : UInt8) : Bytes :=
  if c == 34 || c == 92 || c.toNat ≤ 31 || 128 ≤ c.toNat then jsonEscape c else [c]

/-- `utils::json_encode`, src/utils.cpp:55-63. -/
def jsonEncode (s : Bytes) : Bytes := s.flatMap jsonEncodeByte

/-- `utils::remove_triple_quotes`, src/utils.cpp:68-72. The asserts are not modelled (release build);
`str.substr(3, n)` throws `std::out_of_range` when `str.size() < 3`, and `str.size() - 6` is a
`size_t`, so for sizes 3, 4, 5 the count wraps to a huge number and `substr` takes the whole tail. -/
def removeTripleQuotes (s : Str) : Res Empty Str :=
  if s.length < 3 then .exn c!"std::out_of_range"
  else if s.length < 6 then .ok (s.drop 3)
  else .ok ((s.drop 3).take (s.length - 6))

/-! ## `StringBuilder` -/

/-- The accumulated stream of a `StringBuilder`, include/libqasm/string_builder.hpp. -/
structure StringBuilder where
  stream : Str
  deriving Repr, DecidableEq

/-- A fresh `StringBuilder` has an empty stream. -/
def StringBuilder.empty : StringBuilder := ⟨[]⟩

/-- `StringBuilder::push_string`, src/string_builder.cpp:12-14. -/
def StringBuilder.pushString (b : StringBuilder) (s : Str) : StringBuilder := ⟨b.stream ++ s⟩

/-- `StringBuilder::push_escape`, src/string_builder.cpp:19-35. -/
def StringBuilder.pushEscape (b : StringBuilder) (e : Str) : StringBuilder :=
  if e = ['\\', 't'] then ⟨b.stream ++ ['\t']⟩
  else if e = ['\\', 'n'] then ⟨b.stream ++ ['\n']⟩
  else if e = ['\\', 'r'] then ⟨b.stream ++ ['\r']⟩
  else if e = ['\\', '\''] then ⟨b.stream ++ ['\'']⟩
  else if e = ['\\', '"'] then ⟨b.stream ++ ['"']⟩
  else if e = ['\\', '\\'] then ⟨b.stream ++ ['\\']⟩
  else ⟨b.stream ++ e⟩

end Qasm.Text
