import Verif.TextGen.Text
import Verif.Shared.Dict

/-!
# `json.loads` (called in `text_generation/llm/utilities.py` 31-36)

The decoder of CPython (`json.decoder`, `_json.c`), with the default arguments. It is not part of the repository; the model of
`trim_and_load_json` takes any decoder, this file gives the one that is used.
-/

namespace Verif.TextGen

/-- The decoder's whitespace: blank, tab, line feed, carriage return. -/
def isWs (c : Char) : Bool := c == ' ' || c == '\t' || c == '\n' || c == '\r'

/-- Whitespace is skipped. -/
def skipWs (cs : List Char) : List Char := cs.dropWhile isWs

/-- Value of a hexadecimal digit. -/
def hexDigit (c : Char) : Option Nat :=
  if '0' ≤ c ∧ c ≤ '9' then some (c.toNat - 48)
  else if 'a' ≤ c ∧ c ≤ 'f' then some (c.toNat - 87)
  else if 'A' ≤ c ∧ c ≤ 'F' then some (c.toNat - 55)
  else none

/-- Four hexadecimal digits. -/
def hex4 (a b c d : Char) : Option Nat :=
  match hexDigit a, hexDigit b, hexDigit c, hexDigit d with
  | some w, some x, some y, some z => some (4096 * w + 256 * x + 16 * y + z)
  | _, _, _, _ => none

/-- The one-letter escapes. -/
def escapeOf (c : Char) : Option Nat :=
  if c = '"' then some 34 else if c = '\\' then some 92 else if c = '/' then some 47 else if c = 'b' then some 8
  else if c = 'f' then some 12 else if c = 'n' then some 10 else if c = 'r' then some 13 else if c = 't' then some 9 else none

/-- A string literal after its opening quote: the code points, escapes decoded one by one, and the text after the closing quote.
Control characters are not allowed (`strict=True`). Every failure is a `JSONDecodeError`. -/
def stringUnits : List Char → Option (List Nat × List Char)
  | [] => none
  | '"' :: r => some ([], r)
  | '\\' :: 'u' :: a :: b :: c :: d :: r =>
    match hex4 a b c d with
    | none => none
    | some n => match stringUnits r with
      | none => none
      | some (us, r') => some (n :: us, r')
  | '\\' :: e :: r =>
    match escapeOf e with
    | none => none
    | some n => match stringUnits r with
      | none => none
      | some (us, r') => some (n :: us, r')
  | c :: r =>
    if c = '\\' ∨ c.toNat < 32 then none
    else match stringUnits r with
      | none => none
      | some (us, r') => some (c.toNat :: us, r')

/-- Escaped surrogate pairs are joined. A lone surrogate stays one in Python; Lean's characters have none, so it becomes the
replacement character (a simplification: no key or verdict that the code looks for has one). -/
def joinUnits : List Nat → List Char
  | [] => []
  | [u] => [Char.ofNat (if 0xD800 ≤ u ∧ u < 0xE000 then 0xFFFD else u)]
  | u :: v :: us =>
    if 0xD800 ≤ u ∧ u < 0xDC00 ∧ 0xDC00 ≤ v ∧ v < 0xE000 then
      Char.ofNat (0x10000 + (u - 0xD800) * 1024 + (v - 0xDC00)) :: joinUnits us
    else Char.ofNat (if 0xD800 ≤ u ∧ u < 0xE000 then 0xFFFD else u) :: joinUnits (v :: us)

/-- The string that code points stand for. -/
def stringOf (us : List Nat) : String := String.ofList (joinUnits us)

/-- ASCII digit. -/
def isDec (c : Char) : Bool := decide ('0' ≤ c ∧ c ≤ '9')

/-- Fraction of a number: a point and at least one digit, or nothing. -/
def fraction : List Char → List Char × List Char
  | '.' :: r => if r.takeWhile isDec = [] then ([], '.' :: r) else ('.' :: r.takeWhile isDec, r.dropWhile isDec)
  | cs => ([], cs)

/-- Digits of an exponent after `e` and its sign. -/
def exponentDigits (front r all : List Char) : List Char × List Char :=
  if r.takeWhile isDec = [] then ([], all) else (front ++ r.takeWhile isDec, r.dropWhile isDec)

/-- Exponent of a number: `e` or `E`, an optional sign and at least one digit, or nothing. -/
def exponent (cs : List Char) : List Char × List Char :=
  match cs with
  | c :: r =>
    if c = 'e' ∨ c = 'E' then
      match r with
      | s :: r' => if s = '+' ∨ s = '-' then exponentDigits [c, s] r' cs else exponentDigits [c] r cs
      | [] => ([], cs)
    else ([], cs)
  | [] => ([], cs)

/-- Digits before the point: `0`, or digits that do not start with `0`. -/
def wholePart : List Char → Option (List Char × List Char)
  | '0' :: r => some (['0'], r)
  | c :: r => if isDec c then some (c :: r.takeWhile isDec, r.dropWhile isDec) else none
  | [] => none

/-- A number without its sign. The code never looks at a number, so one value stands for all. A whole number of more than 4300
digits raises a `ValueError` that is no `JSONDecodeError`. -/
def unsigned (cs : List Char) : Except PyErr (Json × List Char) :=
  match wholePart cs with
  | none => .error .invalid
  | some (ds, r) =>
    let f := fraction r
    let e := exponent f.2
    if f.1 = [] ∧ e.1 = [] ∧ ds.length > maxStrDigits then .error .valueError else .ok (.num 0, e.2)

/-- Values that are no arrays and no objects; `NaN` and the infinities are accepted. -/
def scalar (cs : List Char) : Except PyErr (Json × List Char) :=
  match cs with
  | '"' :: r => match stringUnits r with
    | none => .error .invalid
    | some (us, r') => .ok (.str (stringOf us), r')
  | 'n' :: 'u' :: 'l' :: 'l' :: r => .ok (.null, r)
  | 't' :: 'r' :: 'u' :: 'e' :: r => .ok (.bool true, r)
  | 'f' :: 'a' :: 'l' :: 's' :: 'e' :: r => .ok (.bool false, r)
  | 'N' :: 'a' :: 'N' :: r => .ok (.num 0, r)
  | 'I' :: 'n' :: 'f' :: 'i' :: 'n' :: 'i' :: 't' :: 'y' :: r => .ok (.num 0, r)
  | '-' :: 'I' :: 'n' :: 'f' :: 'i' :: 'n' :: 'i' :: 't' :: 'y' :: r => .ok (.num 0, r)
  | '-' :: r => unsigned r
  | _ => unsigned cs

/-- The elements of an array up to its closing bracket; `pv` reads one value. The first argument bounds the number of elements. -/
def arrayItems (pv : List Char → Except PyErr (Json × List Char)) : Nat → List Char → Except PyErr (List Json × List Char)
  | 0, _ => .error .invalid
  | n + 1, cs => match pv cs with
    | .error e => .error e
    | .ok (v, r) => match skipWs r with
      | ']' :: r' => .ok ([v], r')
      | ',' :: r' => match arrayItems pv n (skipWs r') with
        | .error e => .error e
        | .ok (vs, r'') => .ok (v :: vs, r'')
      | _ => .error .invalid

/-- The members of an object up to its closing brace. -/
def objectMembers (pv : List Char → Except PyErr (Json × List Char)) : Nat → List Char → Except PyErr (List (String × Json) × List Char)
  | 0, _ => .error .invalid
  | n + 1, cs => match cs with
    | '"' :: r => match stringUnits r with
      | none => .error .invalid
      | some (us, r1) => match skipWs r1 with
        | ':' :: r2 => match pv (skipWs r2) with
          | .error e => .error e
          | .ok (v, r3) => match skipWs r3 with
            | '}' :: r4 => .ok ([(stringOf us, v)], r4)
            | ',' :: r4 => match objectMembers pv n (skipWs r4) with
              | .error e => .error e
              | .ok (ms, r5) => .ok ((stringOf us, v) :: ms, r5)
            | _ => .error .invalid
        | _ => .error .invalid
    | _ => .error .invalid

/-- One value. The first argument is the number of arrays and objects that may be nested before the interpreter raises a
`RecursionError`. Of several members with the same key the last one counts. -/
def value : Nat → List Char → Except PyErr (Json × List Char)
  | depth, '[' :: r => match depth with
    | 0 => .error (.other "RecursionError")
    | d + 1 => match skipWs r with
      | ']' :: r' => .ok (.arr [], r')
      | cs => match arrayItems (value d) cs.length cs with
        | .error e => .error e
        | .ok (vs, r') => .ok (.arr vs, r')
  | depth, '{' :: r => match depth with
    | 0 => .error (.other "RecursionError")
    | d + 1 => match skipWs r with
      | '}' :: r' => .ok (.obj [], r')
      | cs => match objectMembers (value d) cs.length cs with
        | .error e => .error e
        | .ok (ms, r') => .ok (.obj (Verif.Shared.dictOf ms), r')
  | _, cs => scalar cs

/-- `json.loads(text)` when the text starts with a brace: the value is an object. -/
def loads (depth : Nat) (cs : List Char) : Except PyErr Dict :=
  match value depth (skipWs cs) with
  | .error e => .error e
  | .ok (v, r) => if skipWs r = [] then (match v with | .obj kvs => .ok kvs | _ => .error .typeError) else .error .invalid

end Verif.TextGen
