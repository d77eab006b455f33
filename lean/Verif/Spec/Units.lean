import Mathlib.Algebra.Order.Field.Rat
import Mathlib.Algebra.Order.Group.Abs

/-! What is assumed of floating point arithmetic, and the exact lengths of the units. -/

namespace Benker.Units

/-- the standard model of floating point arithmetic: rounding to a double has a relative error of at most 2⁻⁵³ -/
def FloatModel (fl : Rat → Rat) : Prop := ∀ q : Rat, |fl q - q| ≤ |q| / 2 ^ 53

/-- exact length of each unit, in metres: an inch is 25.4 mm, a foot 0.3048 m, a point (or pixel) 1/72 inch, a pica 1/12 inch -/
def metres (unit : String) : Option Rat :=
  if unit = "mm" then some (1 / 1000) else if unit = "cm" then some (1 / 100) else if unit = "dm" then some (1 / 10)
  else if unit = "m" then some 1 else if unit = "in" then some (254 / 10000) else if unit = "ft" then some (3048 / 10000)
  else if unit = "pt" then some (254 / 10000 / 72) else if unit = "px" then some (254 / 10000 / 72)
  else if unit = "pc" then some (254 / 10000 / 12) else none

end Benker.Units
