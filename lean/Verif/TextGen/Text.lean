import Mathlib.Data.List.Basic
import Mathlib.Data.List.TakeWhile

/-!
# Reading an LLM reply (`text_generation/llm/utilities.py`, `validators.py`)

A reply is a list of characters. The JSON library is a parameter (see `Verif.TextGen.Model`); this file has
the two regular expressions in front of it and the validators behind it.
-/

namespace Verif.TextGen

/-- Exceptions. `invalid` is `InvalidLLMResponseError` (`llm/exceptions.py`); `other` stands for everything a
library or the LLM client may raise. -/
inductive PyErr where
  | invalid
  | valueError
  | typeError
  | keyError
  | indexError
  | zeroDivision
  | attributeError
  | other (name : String)
  deriving DecidableEq, Repr

/-! ## `trim_and_load_json`: the regular expression -/

/-- The part `[\s\S]*\}` of the pattern (`utilities.py` 23): any characters, as many as possible, and then a
closing brace. The engine first takes everything and gives characters back until a brace follows. -/
def greedyToBrace : List Char → Option (List Char)
  | [] => none
  | c :: cs => match greedyToBrace cs with
    | some m => some (c :: m)
    | none => if c = '}' then some [c] else none

/-- `re.search(r"\{[\s\S]*\}", text)` (`utilities.py` 23-24): the match at the first position where the pattern
matches. -/
def searchBraces : List Char → Option (List Char)
  | [] => none
  | c :: cs =>
    if c = '{' then
      match greedyToBrace cs with
      | some m => some (c :: m)
      | none => searchBraces cs
    else searchBraces cs

/-! ## `find_first_signed_integer` -/

/-- The digits at the front of a text, `\d+` taken greedily. `digit` is the table of decimal digits: `\d` and
`int` accept every Unicode decimal digit. -/
def digitRun (digit : Char → Option Nat) (cs : List Char) : List Char := cs.takeWhile (fun c => (digit c).isSome)

/-- `re.search(r"-?\d+", text)` (`utilities.py` 40): sign and digits of the first match. -/
def searchInt (digit : Char → Option Nat) : List Char → Option (Bool × List Char)
  | [] => none
  | c :: cs =>
    if c = '-' ∧ digitRun digit cs ≠ [] then some (true, digitRun digit cs)
    else if (digit c).isSome then some (false, digitRun digit (c :: cs))
    else searchInt digit cs

/-- The value of a run of digits, most significant first. -/
def digitsVal (digit : Char → Option Nat) (ds : List Char) : Nat :=
  ds.foldl (fun acc c => 10 * acc + (digit c).getD 0) 0

/-- The largest number of digits that `int` converts (`sys.int_info.default_max_str_digits`). -/
def maxStrDigits : Nat := 4300

/-- `find_first_signed_integer` (`utilities.py` 39-43). `int` raises a `ValueError` on more than 4300 digits. -/
def findFirstSignedInteger (digit : Char → Option Nat) (text : List Char) : Except PyErr (Option Int) :=
  match searchInt digit text with
  | none => .ok none
  | some (neg, ds) =>
    if ds.length > maxStrDigits then .error .valueError
    else .ok (some (if neg then -(digitsVal digit ds : Int) else (digitsVal digit ds : Int)))

/-! ## JSON values and the validators -/

/-- The Python values that `json.loads` builds. The key order of an object is irrelevant here; its keys are
distinct. Numbers (integers, floats) are never looked at by the code, so one integer stands for them. -/
inductive Json where
  | null
  | bool (b : Bool)
  | num (n : Int)
  | str (s : String)
  | arr (xs : List Json)
  | obj (kvs : List (String × Json))

/-- A Python dictionary with string keys. -/
abbrev Dict := List (String × Json)

/-- `d.get(key)` -/
def Dict.get (d : Dict) (key : String) : Option Json := (d.find? (fun kv => kv.1 == key)).map (·.2)

/-- `isinstance(v, str)` -/
def Json.isStr : Json → Bool
  | .str _ => true
  | _ => false

/-- `v in allowed_values` for a set of strings: the value is hashed first, and lists and dictionaries cannot be
hashed (`TypeError`). -/
def memSet (v : Json) (allowed : List String) : Except PyErr Bool :=
  match v with
  | .arr _ => .error .typeError
  | .obj _ => .error .typeError
  | .str s => .ok (allowed.contains s)
  | _ => .ok false

/-- `v in allowed_values` of every entry (a list comprehension evaluates all of them; `validators.py` 22-24). The
entries are strings by then, so no hash fails; kept for the model to be total. -/
def allMemSet (allowed : List String) : List Json → Except PyErr Bool
  | [] => .ok true
  | v :: vs => match memSet v allowed with
    | .error e => .error e
    | .ok b => match allMemSet allowed vs with
      | .error e => .error e
      | .ok r => .ok (b && r)

/-- `validate_statements` (`validators.py` 4-31). The key is a string wherever it is called. -/
def validateStatements (d : Dict) (key : String) (allowed : Option (List String)) (len : Option Nat) :
    Except PyErr Unit :=
  match d.get key with
  | none => .error .invalid
  | some (.arr xs) =>
    if !(xs.all Json.isStr) then .error .invalid
    else match (match allowed with | none => Except.ok true | some al => allMemSet al xs) with
      | .error e => .error e
      | .ok false => .error .invalid
      | .ok true => match len with
        | none => .ok ()
        | some n => if n ≠ xs.length then .error .invalid else .ok ()
  | some _ => .error .invalid

/-- The body of the loop in `validate_verdicts` (`validators.py` 53-68). -/
def validateVerdict (allowed : Option (List String)) (v : Json) : Except PyErr Unit :=
  match v with
  | .obj kvs =>
    if !((kvs.all (fun kv => kv.1 == "verdict" || kv.1 == "analysis")) && (Dict.get kvs "verdict").isSome
        && (Dict.get kvs "analysis").isSome) then .error .invalid
    else match allowed with
      | none => .ok ()
      | some al => match Dict.get kvs "verdict" with
        | none => .error .keyError
        | some x => match memSet x al with
          | .error e => .error e
          | .ok b => if b then .ok () else .error .invalid
  | _ => .error .invalid

/-- The loop of `validate_verdicts` (`validators.py` 53-68). -/
def validateEach (allowed : Option (List String)) : List Json → Except PyErr Unit
  | [] => .ok ()
  | v :: vs => match validateVerdict allowed v with
    | .error e => .error e
    | .ok _ => validateEach allowed vs

/-- `validate_verdicts` (`validators.py` 34-68). -/
def validateVerdicts (d : Dict) (key : String) (allowed : Option (List String)) (len : Option Nat) :
    Except PyErr Unit :=
  match d.get key with
  | none => .error .invalid
  | some (.arr xs) =>
    match len with
    | none => validateEach allowed xs
    | some n => if n ≠ xs.length then .error .invalid else validateEach allowed xs
  | some _ => .error .invalid

end Verif.TextGen
