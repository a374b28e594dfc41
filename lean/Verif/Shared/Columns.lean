import Mathlib.Data.List.Basic

/-!
# Metadata columns
(`object_detection/loader.py` 72-75, 100-103, 127-131, 163-166; `semantic_segmentation/loader.py` 128-132, 150-153,
166-170, 185-187; `classification/loader.py` 74-76)
-/

namespace Verif.Shared

/-- A metadata dictionary. -/
abbrev Dict (V : Type) := List (String × V)

/-- The value in column `f` of a row that is written as `{**a, **b, ...}`: the last dictionary that has the field gives
the value; the value of a field that none of them has is null. (That the reserved columns follow in the row does not
matter, since a metadata field cannot have the name of a reserved column: C49.) -/
def column {V : Type} (dicts : List (Dict V)) (f : String) : Option V :=
  dicts.foldl (fun acc d => (d.lookup f).or acc) none

theorem column_append {V : Type} (a : List (Dict V)) (d : Dict V) (f : String) :
    column (a ++ [d]) f = (d.lookup f).or (column a f) := by
  unfold column
  rw [List.foldl_append]
  rfl

end Verif.Shared
