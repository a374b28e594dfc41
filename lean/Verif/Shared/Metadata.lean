import Mathlib.Logic.Function.Basic
import Verif.Cache.Lifecycle

/-!
# Metadata fields: schemas, encoding, and the order in which a persistent evaluator is created

`object_detection/shared.py`, `classification/shared.py`, `semantic_segmentation/shared.py` and the
`Builder.persistent` / `Evaluator.load` methods of the three evaluators.
-/

namespace Verif.Metadata

open Verif.Cache

/-- What pyarrow supplies: the printed form of a data type (`str(v)`) and the table of type aliases
used by `pa.schema` when a type is given as a string (`No type alias for ...` is `none`). Both are
arbitrary here; nothing is assumed about them unless a theorem says so. -/
structure Arrow (τ : Type) where
  str : τ → String
  aliasOf : String → Option τ

/-- The type of a metadata field: `str | pa.DataType` (`object_detection/shared.py` 39). -/
inductive FieldType (τ : Type) where
  | name (s : String)
  | type (t : τ)
deriving DecidableEq

/-- A metadata declaration `list[tuple[str, str | pa.DataType]] | None`. -/
abbrev Fields (τ : Type) := Option (List (String × FieldType τ))

/-- Exceptions. Both are `ValueError` in Python. -/
inductive SchemaErr where
  | conflict
  | noAlias
deriving DecidableEq, Repr

/-- A schema: names with data types, in order. -/
abbrev Schema (τ : Type) := List (String × τ)

variable {τ : Type}

/-- Python's `str(v)`. -/
def FieldType.str (A : Arrow τ) : FieldType τ → String
  | .name s => s
  | .type t => A.str t

/-- A type handed to `pa.schema` (pyarrow's `ensure_type`). -/
def FieldType.resolve (A : Arrow τ) : FieldType τ → Option τ
  | .name s => A.aliasOf s
  | .type t => some t

/-- `metadata_fields if metadata_fields else []` (`object_detection/shared.py` 41). -/
def listed : Fields τ → List (String × FieldType τ)
  | none => []
  | some l => l

/-- `pa.schema(...)` of a list of (name, type): a string without an alias raises; names may repeat. -/
def paSchema (A : Arrow τ) : List (String × FieldType τ) → Except SchemaErr (Schema τ)
  | [] => .ok []
  | (k, v) :: rest => match v.resolve A with
    | none => .error .noAlias
    | some t => match paSchema A rest with
      | .error e => .error e
      | .ok s => .ok ((k, t) :: s)

/-- Is some metadata field named like a reserved field? The set intersection at
`object_detection/shared.py` 61-63, 93-97, `classification/shared.py` 56-58 and
`semantic_segmentation/shared.py` 52-54. -/
def conflicting (reserved : List String) (m : List (String × FieldType τ)) : Bool :=
  m.any fun f => reserved.contains f.1

/-- The data types used by the reserved fields. -/
structure Builtin (τ : Type) where
  string : τ
  int64 : τ
  uint64 : τ
  float64 : τ
  bool : τ

/-- Reserved fields of the detailed detection cache (`object_detection/shared.py` 42-58). -/
def detailedReserved (B : Builtin τ) : Schema τ :=
  [("datum_uid", B.string), ("datum_id", B.int64), ("gt_uid", B.string), ("gt_id", B.int64),
   ("gt_label", B.string), ("gt_label_id", B.int64), ("pd_uid", B.string), ("pd_id", B.int64),
   ("pd_label", B.string), ("pd_label_id", B.int64), ("pd_score", B.float64), ("iou", B.float64)]

/-- Reserved fields of the ranked cache that come before the metadata
(`object_detection/shared.py` 74-86). -/
def rankedReserved (B : Builtin τ) : Schema τ :=
  [("datum_uid", B.string), ("datum_id", B.int64), ("gt_id", B.int64), ("gt_label_id", B.int64),
   ("pd_id", B.int64), ("pd_label_id", B.int64), ("pd_score", B.float64), ("iou", B.float64)]

/-- The field that comes after the metadata (`object_detection/shared.py` 87-89). -/
def rankingReserved (B : Builtin τ) : Schema τ := [("iou_prev", B.float64)]

/-- Reserved fields of the classification cache (`classification/shared.py` 40-53). -/
def clsReserved (B : Builtin τ) : Schema τ :=
  [("datum_uid", B.string), ("datum_id", B.int64), ("gt_label", B.string),
   ("gt_label_id", B.int64), ("pd_label", B.string), ("pd_label_id", B.int64),
   ("pd_score", B.float64), ("pd_winner", B.bool), ("match", B.bool)]

/-- Reserved fields of the segmentation cache (`semantic_segmentation/shared.py` 38-49). -/
def segReserved (B : Builtin τ) : Schema τ :=
  [("datum_uid", B.string), ("datum_id", B.int64), ("gt_label", B.string),
   ("gt_label_id", B.int64), ("pd_label", B.string), ("pd_label_id", B.int64),
   ("count", B.uint64)]

/-- A reserved field as an argument of `pa.schema`. -/
def asArg (s : Schema τ) : List (String × FieldType τ) := s.map fun f => (f.1, .type f.2)

/-- `generate_detailed_schema` (`object_detection/shared.py` 38-68). -/
def detailedSchema (A : Arrow τ) (B : Builtin τ) (m : Fields τ) : Except SchemaErr (Schema τ) :=
  if conflicting ((detailedReserved B).map (·.1)) (listed m) then .error .conflict
  else paSchema A (asArg (detailedReserved B) ++ listed m)

/-- `generate_ranked_schema` (`object_detection/shared.py` 71-108). -/
def rankedSchema (A : Arrow τ) (B : Builtin τ) (m : Fields τ) : Except SchemaErr (Schema τ) :=
  if conflicting ((rankedReserved B ++ rankingReserved B).map (·.1)) (listed m) then
    .error .conflict
  else paSchema A (asArg (rankedReserved B) ++ listed m ++ asArg (rankingReserved B))

/-- `generate_schema` of classification (`classification/shared.py` 36-62). -/
def clsSchema (A : Arrow τ) (B : Builtin τ) (m : Fields τ) : Except SchemaErr (Schema τ) :=
  if conflicting ((clsReserved B).map (·.1)) (listed m) then .error .conflict
  else paSchema A (asArg (clsReserved B) ++ listed m)

/-- `generate_intermediate_schema` (`classification/shared.py` 65-72). -/
def intermediateSchema (B : Builtin τ) : Schema τ :=
  [("pd_label_id", B.int64), ("pd_score", B.float64), ("match", B.bool)]

/-- `generate_roc_curve_schema` (`classification/shared.py` 75-82). -/
def rocCurveSchema (B : Builtin τ) : Schema τ :=
  [("pd_label_id", B.int64), ("cumulative_fp", B.uint64), ("cumulative_tp", B.uint64)]

/-- `generate_schema` of segmentation (`semantic_segmentation/shared.py` 32-64). -/
def segSchema (A : Arrow τ) (B : Builtin τ) (m : Fields τ) : Except SchemaErr (Schema τ) :=
  if conflicting ((segReserved B).map (·.1)) (listed m) then .error .conflict
  else paSchema A (asArg (segReserved B) ++ listed m)

/-- Assignment in an insertion-ordered Python dict: an existing key keeps its place. -/
def dictSet (d : List (String × String)) (k v : String) : List (String × String) :=
  match d with
  | [] => [(k, v)]
  | (k', v') :: rest => if k' = k then (k, v) :: rest else (k', v') :: dictSet rest k v

/-- `encode_metadata_fields` (`object_detection/shared.py` 111-115, `classification/shared.py` 85-89,
`semantic_segmentation/shared.py` 67-72): the dict comprehension assigns in order. -/
def encode (A : Arrow τ) (m : Fields τ) : List (String × String) :=
  (listed m).foldl (fun d f => dictSet d f.1 (f.2.str A)) []

/-- `decode_metadata_fields` (`object_detection/shared.py` 118-121, `classification/shared.py` 92-95,
`semantic_segmentation/shared.py` 75-79). -/
def decode (d : List (String × String)) : List (String × FieldType τ) :=
  d.map fun kv => (kv.1, .name kv.2)

/-! ## The directory of a persistent evaluator -/

/-- The metadata file: opened but incomplete, or complete. The JSON round trip of a dict of strings
is trusted. -/
inductive MetaFile where
  | partly
  | full (d : List (String × String))
deriving DecidableEq

/-- What is found at the path of an evaluator: the caches in its sub-directories and the file
`metadata.json`. Other content is ignored by the code and not represented. -/
inductive Root (τ : Type) where
  | missing
  | file
  | dir (caches : String → Life.Node (Schema τ)) (metaFile : Option MetaFile)

/-- Exceptions of `persistent` and `load`. -/
inductive Err where
  | schema (e : SchemaErr)
  | cache (e : Life.Err)
  | fileNotFound
  | notADirectory
  | jsonError
deriving DecidableEq

/-- Configuration of the caches (`batch_size`, `rows_per_file`, `compression`). -/
structure Opts where
  batchSize : Nat
  rowsPerFile : Nat
  compression : String

/-- The caches found at a path. -/
def Root.caches : Root τ → String → Life.Node (Schema τ)
  | .dir c _ => c
  | _ => fun _ => .missing

/-- The metadata file found at a path. -/
def Root.metaFile : Root τ → Option MetaFile
  | .dir _ m => m
  | _ => none

/-- Replacing the cache in sub-directory `name`. -/
def Root.setCache (r : Root τ) (name : String) (n : Life.Node (Schema τ)) : Root τ :=
  .dir (Function.update r.caches name n) r.metaFile

/-- `FileCacheWriter.create(path / name, ...)` (`cache/persistent.py` 299-349) without
`delete_if_exists`: final state and outcome. `mkdir(parents=True)` creates the root when it is
missing and fails when the root is a file. -/
def createCache (o : Opts) (name : String) (s : Schema τ) (r : Root τ) :
    Root τ × Except Err Unit :=
  match r with
  | .file => (r, .error .notADirectory)
  | r =>
    let n := r.caches name
    let c : Life.Cfg (Schema τ) := ⟨o.batchSize, o.rowsPerFile, o.compression, s⟩
    match Life.create c false n with
    | (_, .error e) => (r, .error (.cache e))
    | (tr, .ok ()) => (r.setCache name (Life.final n tr), .ok ())

/-- Schema first, then the cache: the argument of `create` is evaluated before the call
(`object_detection/evaluator.py` 120-133). -/
def schemaThenCreate (o : Opts) (name : String) (s : Except SchemaErr (Schema τ)) (r : Root τ) :
    Root τ × Except Err Unit :=
  match s with
  | .error e => (r, .error (.schema e))
  | .ok s => createCache o name s r

/-- Sequencing of steps: the first exception ends the sequence and keeps the state. -/
def andThen (x : Root τ × Except Err Unit) (f : Root τ → Root τ × Except Err Unit) :
    Root τ × Except Err Unit :=
  match x with
  | (r, .error e) => (r, .error e)
  | (r, .ok ()) => f r

/-- Writing `metadata.json` with mode `"w"`, replacing an older one
(`object_detection/evaluator.py` 135-139). -/
def writeMeta (A : Arrow τ) (m : Fields τ) (r : Root τ) : Root τ × Except Err Unit :=
  (.dir r.caches (some (.full (encode A m))), .ok ())

/-- `Builder.persistent` of object detection (`object_detection/evaluator.py` 92-145). -/
def detPersistent (A : Arrow τ) (B : Builtin τ) (o : Opts) (m : Fields τ) (r : Root τ) :
    Root τ × Except Err Unit :=
  andThen (schemaThenCreate o "detailed" (detailedSchema A B m) r) fun r =>
  andThen (schemaThenCreate o "ranked" (rankedSchema A B m) r) fun r =>
  writeMeta A m r

/-- `Builder.persistent` of classification (`classification/evaluator.py` 104-165). -/
def clsPersistent (A : Arrow τ) (B : Builtin τ) (o : Opts) (m : Fields τ) (r : Root τ) :
    Root τ × Except Err Unit :=
  andThen (schemaThenCreate o "cache" (clsSchema A B m) r) fun r =>
  andThen (schemaThenCreate o "intermediate" (.ok (intermediateSchema B)) r) fun r =>
  andThen (schemaThenCreate o "roc_curve" (.ok (rocCurveSchema B)) r) fun r =>
  writeMeta A m r

/-- `Builder.persistent` of segmentation (`semantic_segmentation/evaluator.py` 69-115). -/
def segPersistent (A : Arrow τ) (B : Builtin τ) (o : Opts) (m : Fields τ) (r : Root τ) :
    Root τ × Except Err Unit :=
  andThen (schemaThenCreate o "counts" (segSchema A B m) r) fun r =>
  writeMeta A m r

/-- `FileCacheReader.load` of every listed sub-directory, in order. -/
def loadCaches (r : Root τ) : List String → Except Err (List (Schema τ))
  | [] => .ok []
  | name :: rest => match Life.load (r.caches name) with
    | .error e => .error (.cache e)
    | .ok c => match loadCaches r rest with
      | .error e => .error e
      | .ok ss => .ok (c.schema :: ss)

/-- `Evaluator.load` (`object_detection/evaluator.py` 252-291, `classification/evaluator.py` 352-402,
`semantic_segmentation/evaluator.py` 191-237) as far as schemas and metadata fields are concerned:
the path is checked, the caches are loaded, the labels are extracted (not represented: it reads only
rows) and `metadata.json` is decoded. The result lists the schemas of the loaded caches and the
restored metadata fields. -/
def loadEvaluator (names : List String) (r : Root τ) :
    Except Err (List (Schema τ) × Fields τ) :=
  match r with
  | .missing => .error .fileNotFound
  | .file => .error .notADirectory
  | r => match loadCaches r names with
    | .error e => .error e
    | .ok ss => match r.metaFile with
      | none => .error .fileNotFound
      | some .partly => .error .jsonError
      | some (.full d) => .ok (ss, some (decode d))

/-- Sub-directories read by `Evaluator.load`. -/
def detNames : List String := ["detailed", "ranked"]
/-- Sub-directories read by `Evaluator.load` of classification (`classification/evaluator.py`
379-382); the intermediate cache is not read. -/
def clsNames : List String := ["cache", "roc_curve"]
/-- Sub-directories read by `Evaluator.load` of segmentation. -/
def segNames : List String := ["counts"]

end Verif.Metadata
