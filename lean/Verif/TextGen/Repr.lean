import Mathlib.Data.List.Basic

/-!
# How Python prints strings and lists (`repr`, used by the f-strings of `text_generation/llm/instructions.py`)

Part of CPython (`unicode_repr`, `list_repr`). The table of printable characters outside of ASCII is a parameter.
-/

namespace Verif.TextGen

/-- A hexadecimal digit. -/
def hexChar (n : Nat) : Char := "0123456789abcdef".toList.getD n '0'

/-- `n` with `w` hexadecimal digits. -/
def hexFixed : Nat → Nat → List Char
  | 0, _ => []
  | w + 1, n => hexFixed w (n / 16) ++ [hexChar (n % 16)]

/-- One character of a string between quotes `q`. -/
def reprChar (printable : Char → Bool) (q c : Char) : List Char :=
  if c = q ∨ c = '\\' then ['\\', c]
  else if c = '\t' then ['\\', 't']
  else if c = '\n' then ['\\', 'n']
  else if c = '\r' then ['\\', 'r']
  else if c.toNat < 32 ∨ c.toNat = 127 then '\\' :: 'x' :: hexFixed 2 c.toNat
  else if c.toNat < 127 then [c]
  else if printable c then [c]
  else if c.toNat < 256 then '\\' :: 'x' :: hexFixed 2 c.toNat
  else if c.toNat < 65536 then '\\' :: 'u' :: hexFixed 4 c.toNat
  else '\\' :: 'U' :: hexFixed 8 c.toNat

/-- The quotes: double ones if there are single ones in the string and no double ones. -/
def quoteOf (cs : List Char) : Char := if '\'' ∈ cs ∧ '"' ∉ cs then '"' else '\''

/-- `repr` of a string. -/
def reprStr (printable : Char → Bool) (s : String) : List Char :=
  quoteOf s.toList :: s.toList.flatMap (reprChar printable (quoteOf s.toList)) ++ [quoteOf s.toList]

/-- The entries of a list after the first one. -/
def reprTail (printable : Char → Bool) : List String → List Char
  | [] => [']']
  | s :: ss => ',' :: ' ' :: reprStr printable s ++ reprTail printable ss

/-- `repr` of a list of strings. -/
def reprList (printable : Char → Bool) : List String → List Char
  | [] => ['[', ']']
  | s :: ss => '[' :: reprStr printable s ++ reprTail printable ss

end Verif.TextGen
