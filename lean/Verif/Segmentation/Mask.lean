import Mathlib.Data.List.Basic

/-!
# Bitmasks and segmentations (`semantic_segmentation/annotation.py`)

A NumPy array is an object that several bitmasks can share and that the constructor of `Segmentation`
writes to, so arrays live in a heap and a bitmask holds an address. An array is its shape and its values in
row-major order. The check of the dtype in `Bitmask.__post_init__` (34-38) and the check that the list holds
bitmasks (97-98) are left out: the types of the model exclude both. Arrays that NumPy marks read-only are not
modelled.
-/

namespace Verif.Segmentation

/-- A flattened boolean array. -/
abbrev Mask := List Bool

/-- Pixel `x` of a mask. -/
def bit (m : Mask) (x : Nat) : Bool := m.getD x false

/-- A boolean NumPy array. -/
structure Arr where
  shape : List Nat
  data : Mask
deriving DecidableEq

/-- The arrays of the program, by address. -/
abbrev Heap := Nat → Arr

/-- `Bitmask` (`annotation.py` 9-38). `info` stands for the metadata dictionary. -/
structure Bitmask where
  addr : Nat
  label : String
  info : Option String := none
deriving DecidableEq

/-- The exceptions of `Segmentation.__post_init__`. -/
inductive SegErr
  | shape
  | maskShape
deriving DecidableEq

/-- `np.logical_and` (`annotation.py` 107-108). -/
def maskAnd (a b : Mask) : Mask := List.zipWith (· && ·) a b

/-- `a | b` (`annotation.py` 110-114). -/
def maskOr (a b : Mask) : Mask := List.zipWith (· || ·) a b

/-- `m[overlap] = False` (`annotation.py` 109). -/
def maskClear (m overlap : Mask) : Mask := List.zipWith (fun x o => if o then false else x) m overlap

/-- `.any()`. -/
def maskAny (m : Mask) : Bool := m.any id

/-- The two accumulators of the loop (`annotation.py` 94-95): `None`, or the accumulated mask and overlap. -/
abbrev Acc := Option (Mask × Mask)

/-- The loop of `_validate_bitmasks` (`annotation.py` 96-114). The heap is also returned when the loop raises,
since what it wrote to the arrays stays. -/
def validateLoop (shape : List Nat) : Heap → Acc → List Bitmask → Heap × Except SegErr Acc
  | h, acc, [] => (h, .ok acc)
  | h, acc, b :: bs =>
    if (h b.addr).shape ≠ shape then (h, .error .maskShape)
    else
      match acc with
      | none => validateLoop shape h (some ((h b.addr).data, List.replicate (h b.addr).data.length false)) bs
      | some (accumulation, overlaps) =>
        if maskAny (maskAnd accumulation (h b.addr).data) then
          let overlap := maskAnd accumulation (h b.addr).data
          let h' : Heap := Function.update h b.addr { (h b.addr) with data := maskClear (h b.addr).data overlap }
          validateLoop shape h' (some (accumulation, maskOr overlaps overlap)) bs
        else validateLoop shape h (some (maskOr accumulation (h b.addr).data, overlaps)) bs

/-- The warning at the end of `_validate_bitmasks` (`annotation.py` 115-123): the number of pixels it
reports. -/
def warning : Acc → Option Nat
  | none => none
  | some (_, overlaps) => if maskAny overlaps then some (overlaps.count true) else none

/-- `_validate_bitmasks` (`annotation.py` 93-123). -/
def validate (shape : List Nat) (h : Heap) (bs : List Bitmask) : Heap × Except SegErr (Option Nat) :=
  let r := validateLoop shape h none bs
  (r.1, r.2.map warning)

/-- `Segmentation.__post_init__` (`annotation.py` 82-91). `shape` has Python integers, which may be negative.
Returns the heap and the two warnings. -/
def postInit (shape : List Int) (h : Heap) (gts pds : List Bitmask) : Heap × Except SegErr (Option Nat × Option Nat) :=
  match shape with
  | [a, b] =>
    if a ≤ 0 ∨ b ≤ 0 then (h, .error .shape)
    else
      let s := [a.toNat, b.toNat]
      let r := validate s h gts
      match r.2 with
      | .error e => (r.1, .error e)
      | .ok w =>
        let r' := validate s r.1 pds
        (r'.1, r'.2.map (fun w' => (w, w')))
  | _ => (h, .error .shape)

/-- `size` (`annotation.py` 88) of an accepted shape. -/
def sizeOf2 (shape : List Int) : Nat := (shape.map Int.toNat).prod

end Verif.Segmentation
