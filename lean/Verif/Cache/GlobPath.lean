import Verif.Cache.Writer

/-!
# The cache path is used as a glob pattern (`cache/persistent.py` 98-111)

`get_dataset_files` evaluates `glob.glob(f"{path}/*.parquet")`. The path of the cache is therefore
interpreted as a pattern. Modelled: one path component (the directory name of the cache, inside a
parent whose name has no metacharacter), CPython's `glob`/`fnmatch` on a case-sensitive file system.
`glob` matches pattern components one by one, so the components of a longer path behave alike.
-/

namespace Verif.Cache.Glob

/-- `glob.has_magic`: the name contains one of `*`, `?`, `[`. -/
def magic (p : List Char) : Bool := p.any (fun c => c == '*' || c == '?' || c == '[')

/-- A compiled piece of an `fnmatch` pattern. -/
inductive Tok where
  | lit (c : Char)
  | any
  | star
  | cls (neg : Bool) (ranges : List (Char × Char))
deriving DecidableEq

/-- Content of a bracket expression as a list of ranges, read from the left
(`fnmatch.translate`: `a-b` is a range, other characters stand for themselves). -/
def ranges : List Char → List (Char × Char)
  | a :: '-' :: b :: r => (a, b) :: ranges r
  | a :: r => (a, a) :: ranges r
  | [] => []

/-- Splits at the first `]`; `none` when there is none. -/
def untilClose : List Char → Option (List Char × List Char)
  | [] => none
  | ']' :: r => some ([], r)
  | c :: r => (untilClose r).map (fun (x, y) => (c :: x, y))

/-- The bracket expression that starts after `[` (`fnmatch.translate`): an optional `!`, then a
first `]` is an ordinary character; `none` when the bracket is not closed. -/
def bracket (s : List Char) : Option (Tok × List Char) :=
  let (neg, s1) := match s with
    | '!' :: r => (true, r)
    | r => (false, r)
  match s1 with
  | ']' :: r => (untilClose r).map (fun (x, y) => (.cls neg (ranges (']' :: x)), y))
  | r => (untilClose r).map (fun (x, y) => (.cls neg (ranges x), y))

/-- `fnmatch.translate` as a token list. The first argument is a recursion bound (the length of the
pattern suffices since every step consumes a character). -/
def tokens : Nat → List Char → List Tok
  | _, [] => []
  | 0, _ :: _ => []
  | n + 1, '*' :: r => .star :: tokens n r
  | n + 1, '?' :: r => .any :: tokens n r
  | n + 1, '[' :: r => match bracket r with
    | some (t, r') => t :: tokens n r'
    | none => .lit '[' :: tokens n r
  | n + 1, c :: r => .lit c :: tokens n r

/-- All suffixes of a name (what may be left after `*`). -/
def suffixes : List Char → List (List Char)
  | [] => [[]]
  | c :: r => (c :: r) :: suffixes r

/-- Full match of a token list against a name. -/
def matchT : List Tok → List Char → Bool
  | [], s => s.isEmpty
  | .star :: ts, s => (suffixes s).any (matchT ts)
  | .any :: ts, _ :: s => matchT ts s
  | .lit c :: ts, x :: s => (c == x) && matchT ts s
  | .cls neg rs :: ts, x :: s => (neg != rs.any (fun r => r.1 ≤ x && x ≤ r.2)) && matchT ts s
  | _ :: _, [] => false

/-- Names starting with a dot are only matched by patterns starting with a dot (`glob._ishidden`). -/
def hidden (s : List Char) : Bool := s.head? == some '.'

/-- Does `glob` on the pattern `p` visit a sibling directory called `d`? A name without
metacharacters is looked up literally. -/
def visits (p d : String) : Bool :=
  if magic p.toList then
    (hidden p.toList || !hidden d.toList) && matchT (tokens p.toList.length p.toList) d.toList
  else p == d

/-- A parent directory: its subdirectories with the parquet files in them. -/
abbrev Parent := List (String × List Nat)

/-- `get_dataset_files` (`persistent.py` 98-111) of the cache in directory `p`: directory and index
of every file found. -/
def datasetFiles (p : String) (fs : Parent) : List (String × Nat) :=
  (fs.filter (fun d => visits p d.1)).flatMap (fun d => d.2.map (fun n => (d.1, n)))

/-- The unlink loop of `FileCacheWriter.delete` (`persistent.py` 366-369) on the cache in directory
`p`. -/
def unlinkDataset (p : String) (fs : Parent) : Parent :=
  fs.map (fun d => (d.1, d.2.filter (fun n => !(datasetFiles p fs).contains (d.1, n))))

/-- A writer on the directory `p` inside `fs` (`fs` does not contain `p` itself). -/
def writerAt {α : Type} (p : String) (fs : Parent) (batchSize rowsPerFile : Nat) : FileW α :=
  FileW.create batchSize rowsPerFile (visits p p) ((datasetFiles p fs).map Prod.snd)

end Verif.Cache.Glob
