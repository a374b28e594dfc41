import Mathlib.Data.List.Dedup
import Mathlib.Data.Int.Order.Basic

/-!
# Pagination (`cache/compute.py` 160-211)
-/

namespace Verif.Cache

/-- `pc.unique(tbl[column_key]).sort()` (`compute.py` 189): the distinct keys in ascending order. -/
def sortedUnique (l : List Int) : List Int := l.dedup.mergeSort (fun a b => decide (a ≤ b))

variable {α : Type}

/-- The loop over non-empty tables (`compute.py` 183-211); `prev` is `curr_idx` before the table. -/
def pageLoop (key : α → Int) (offset limit : Nat) : List (List α) → Nat → List (List α)
  | [], _ => []
  | t :: ts, prev =>
    if t.isEmpty then pageLoop key offset limit ts prev
    else
      let u := sortedUnique (t.map key)
      let curr := prev + u.length
      if curr ≤ offset then pageLoop key offset limit ts curr
      else if prev ≥ offset + limit then []
      else
        let lower : α → Bool := fun x =>
          if prev < offset ∧ curr > offset then decide (key x ≥ u.getD (offset - prev) 0) else true
        let upper : α → Bool := fun x =>
          if prev < offset + limit ∧ curr > offset + limit then
            decide (key x < u.getD (offset + limit - prev) 0) else true
        t.filter (fun x => lower x && upper x) :: pageLoop key offset limit ts curr

/-- `limit if limit else total` (`compute.py` 173): both `None` and `0` mean "no limit". -/
def effLimit (limit : Option Nat) (total : Nat) : Nat :=
  match limit with
  | some (n + 1) => n + 1
  | _ => total

/-- `paginate_index` (`compute.py` 160-211): the tables yielded. `tables` are the source tables,
`modifier` the optional row filter (`fun _ => true` for `None`). `offset` and `limit` are naturals
(negative arguments are not modelled). -/
def paginate (key : α → Int) (modifier : α → Bool) (limit : Option Nat) (offset : Nat)
    (tables : List (List α)) : List (List α) :=
  let total := tables.flatten.length
  let lim := effLimit limit total
  let filtered := tables.map (List.filter modifier)
  if offset = 0 ∧ lim ≥ total then filtered
  else if offset ≥ total then []
  else pageLoop key offset lim filtered 0

/-! ## Specification vocabulary -/

/-- The index: the distinct keys of each table in ascending order, table after table. -/
def keyIndex (key : α → Int) (tables : List (List α)) : List Int :=
  tables.flatMap (fun t => sortedUnique (t.map key))

end Verif.Cache
