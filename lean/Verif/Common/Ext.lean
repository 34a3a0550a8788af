import Mathlib.Data.Rat.Defs
import Mathlib.Algebra.Order.Ring.Rat

/-!
# Extended doubles for control decisions

`D` is the value set of a C++ `double` seen by comparisons: NaN, the two infinities and finite
values (rationals; rounding is not modelled, the two zeros are identified).
Comparisons follow IEEE 754: every ordered comparison with NaN is false.
-/
namespace Verif

inductive D where
  | nan
  | ninf
  | pinf
  | fin (q : ℚ)
  deriving DecidableEq, Repr

namespace D

/-- `std::isfinite` -/
def isFinite : D → Bool
  | fin _ => true
  | _ => false

/-- `a <= b` -/
def le : D → D → Bool
  | nan, _ => false
  | _, nan => false
  | ninf, _ => true
  | _, pinf => true
  | fin a, fin b => decide (a ≤ b)
  | _, _ => false

/-- `a < b` -/
def lt : D → D → Bool
  | nan, _ => false
  | _, nan => false
  | ninf, ninf => false
  | ninf, _ => true
  | pinf, _ => false
  | fin _, ninf => false
  | fin _, pinf => true
  | fin a, fin b => decide (a < b)

/-- `a + b` -/
def add : D → D → D
  | nan, _ => nan
  | _, nan => nan
  | ninf, pinf => nan
  | pinf, ninf => nan
  | ninf, _ => ninf
  | _, ninf => ninf
  | pinf, _ => pinf
  | _, pinf => pinf
  | fin a, fin b => fin (a + b)

/-- `c * a` for a positive finite constant `c` -/
def scale (c : ℚ) : D → D
  | nan => nan
  | ninf => ninf
  | pinf => pinf
  | fin a => fin (c * a)

/-- `a * b` -/
def mul : D → D → D
  | nan, _ => nan
  | _, nan => nan
  | fin a, fin b => fin (a * b)
  | fin a, pinf => if a = 0 then nan else if 0 < a then pinf else ninf
  | fin a, ninf => if a = 0 then nan else if 0 < a then ninf else pinf
  | pinf, fin a => if a = 0 then nan else if 0 < a then pinf else ninf
  | ninf, fin a => if a = 0 then nan else if 0 < a then ninf else pinf
  | pinf, pinf => pinf
  | pinf, ninf => ninf
  | ninf, pinf => ninf
  | ninf, ninf => pinf

/-- `std::min(a, b)`: returns `b` if `b < a` and `a` otherwise (so `min(a, NaN) = a`). -/
def stdMin (a b : D) : D := if lt b a then b else a

/-- `std::max(a, b)`: returns `b` if `a < b` and `a` otherwise. -/
def stdMax (a b : D) : D := if lt a b then b else a

instance : Inhabited D := ⟨nan⟩

end D
end Verif
