/-!
# Creating, loading and deleting an on-disk cache (`cache/persistent.py`)

File system operations are atomic steps; a crash leaves the state after some prefix of the steps.
The path itself is assumed to contain no glob metacharacter here (see `Verif/Cache/GlobPath.lean` for
what happens otherwise).
-/

namespace Verif.Cache.Life

/-- Values stored in `.cfg` (`persistent.py` 335-340). Sizes are Python integers (naturals here),
`compression` a string. The schema is stored as a non-empty base64 string and is restored by its
decoder (trusted: pyarrow IPC round trip); `σ` is the type of schemas. -/
structure Cfg (σ : Type) where
  batchSize : Nat
  rowsPerFile : Nat
  compression : String
  schema : σ
deriving DecidableEq

/-- The `.cfg` file: created by `open(..., "w")` but not completely written yet, or complete. -/
inductive CfgFile (σ : Type) where
  | partly
  | full (c : Cfg σ)
deriving DecidableEq

/-- Content of a directory: `*.parquet` files, the `.cfg` file, anything else. -/
structure DirSt (σ : Type) where
  parquet : List String
  cfg : Option (CfgFile σ)
  other : List String
deriving DecidableEq

/-- What is found at the path. -/
inductive Node (σ : Type) where
  | missing
  | file
  | dir (d : DirSt σ)
deriving DecidableEq

/-- Exceptions. -/
inductive Err where
  | fileNotFound
  | notADirectory
  | keyError
  | jsonError
  | fileExists
  | osError
deriving DecidableEq, Repr

variable {σ : Type}

/-- `FileCacheReader.load` (`persistent.py` 115-155). `_retrieve` raises `KeyError` for a falsy
value: 0 or the empty string. -/
def load : Node σ → Except Err (Cfg σ)
  | .missing => .error .fileNotFound
  | .file => .error .notADirectory
  | .dir d => match d.cfg with
    | none => .error .fileNotFound
    | some .partly => .error .jsonError
    | some (.full c) =>
      if c.batchSize = 0 then .error .keyError
      else if c.rowsPerFile = 0 then .error .keyError
      else if c.compression = "" then .error .keyError
      else .ok c

/-- States passed through while the dataset files are unlinked one by one
(`persistent.py` 366-369). -/
def unlinkAll (d : DirSt σ) : List String → List (Node σ)
  | [] => []
  | _ :: fs => .dir { d with parquet := fs } :: unlinkAll d fs

/-- `FileCacheWriter.delete` (`persistent.py` 351-377): states after each step, and the outcome.
The state before the call is not part of the list. -/
def delete (n : Node σ) : List (Node σ) × Except Err Unit :=
  match n with
  | .missing => ([], .ok ())
  | n => match load n with
    | .error e => ([], .error e)
    | .ok _ => match n with
      | .dir d =>
        let s1 := unlinkAll d d.parquet
        let d2 : DirSt σ := { d with parquet := [], cfg := none }
        if d.other.isEmpty then (s1 ++ [.dir d2, .missing], .ok ())
        else (s1 ++ [.dir d2], .error .osError)
      | _ => ([], .error .notADirectory)

/-- The state at the end of a trace that starts in `n`. -/
def final (n : Node σ) (trace : List (Node σ)) : Node σ := (n :: trace).getLast (by simp)

/-- `mkdir` and writing the configuration (`persistent.py` 330-341). -/
def mkAndWrite (c : Cfg σ) (n : Node σ) : List (Node σ) × Except Err Unit :=
  match n with
  | .missing =>
    ([.dir ⟨[], none, []⟩, .dir ⟨[], some .partly, []⟩, .dir ⟨[], some (.full c), []⟩], .ok ())
  | _ => ([], .error .fileExists)

/-- `path.exists()`. -/
def Node.exists : Node σ → Bool
  | .missing => false
  | _ => true

/-- `FileCacheWriter.create` (`persistent.py` 299-349). -/
def create (c : Cfg σ) (deleteIfExists : Bool) (n : Node σ) : List (Node σ) × Except Err Unit :=
  if deleteIfExists && n.exists then
    match delete n with
    | (tr, .error e) => (tr, .error e)
    | (tr, .ok ()) =>
      let (tr2, r) := mkAndWrite c (final n tr)
      (tr ++ tr2, r)
  else mkAndWrite c n

end Verif.Cache.Life
