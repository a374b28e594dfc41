import Mathlib.Data.Int.Log
import Mathlib.Data.Rat.Floor
import Mathlib.Tactic.Linarith

/-!
# Rounding to IEEE double precision

The models compute with exact rationals. This file gives the rounding of one operation (round to nearest,
ties to even, 53 bits, gradual underflow; no overflow) for the places where the difference is observable.
-/

namespace Verif.Shared

/-- Round a rational to the nearest integer, ties to even. -/
def roundEven (x : Rat) : Int :=
  let f := ⌊x⌋
  let d := x - f
  if d < 1 / 2 then f else if 1 / 2 < d then f + 1 else if f % 2 = 0 then f else f + 1

/-- The double nearest to `x` (the exponent range has no upper end here: doubles overflow at `2 ^ 1024`). -/
def fl (x : Rat) : Rat :=
  if x = 0 then 0 else
    let ulp : Rat := (2 : Rat) ^ max (Int.log 2 |x| - 52) (-1074)
    roundEven (x / ulp) * ulp

/-- `fl` is exact on small integers, e.g. -/
example : fl 29 = 29 ∧ fl (1 / 2) = 1 / 2 := by decide +kernel

/-- 0.29 is not a double. -/
example : fl (29 / 100) ≠ 29 / 100 := by decide +kernel

/-- The rounding is to a nearest integer. -/
theorem roundEven_near (x : Rat) : |(roundEven x : Rat) - x| ≤ 1 / 2 := by
  have h1 := Int.floor_le x
  have h2 := Int.lt_floor_add_one x
  unfold roundEven
  dsimp only
  split
  · rw [abs_le]; constructor <;> linarith
  · split
    · push_cast; rw [abs_le]; constructor <;> linarith
    · split
      · rw [abs_le]; constructor <;> linarith
      · push_cast; rw [abs_le]; constructor <;> linarith

end Verif.Shared
