import Verif.Profiles.Model
import Mathlib.Data.Finset.Sort

/-!
# Model of `set_profile`, `src/vmecpp/__init__.py:2574-2634`

Positions are reals, so equal grid points of two stages are one element of the set; the doubles of the same grid are
modelled at the end for one stage.
-/
namespace Verif.Profiles
open Verif

/-- the part of `VmecInput` that the function reads or replaces -/
structure ProfileInput where
  ns_array : List Int
  pmass : ProfileIn
  piota : ProfileIn
  pcurr : ProfileIn

/-- `np.linspace(0.0, 1.0, ns)[i]`, 2601 -/
noncomputable def linspace01 (ns i : Int) : ℝ := i / (ns - 1)

/-- the set after one turn of the loop, 2600-2604. `full_grid[1]` raises if there is one surface or none. -/
noncomputable def stageUpdate (ns : Int) (s_values : Finset ℝ) : Outcome (Finset ℝ) :=
  if ns < 0 then .throws "ValueError: Number of samples must be non-negative"
  else if ns < 2 then .throws "IndexError"
  else
    let full_grid := linspace01 ns
    let half_grid := fun i => full_grid i - 1 / 2 * (full_grid 1 - full_grid 0)
    .ok (s_values ∪ (Finset.Ico 0 ns).image full_grid ∪ (Finset.Ico 0 ns).image half_grid)

/-- the loop over the stages, 2599-2604 -/
noncomputable def gridPoints : List Int → Finset ℝ → Outcome (Finset ℝ)
  | [], s => .ok s
  | ns :: l, s => (stageUpdate ns s).bind (gridPoints l)

/-- `np.sort(np.array(list(s_values)))`, 2605 -/
noncomputable def sortedKnots (s : Finset ℝ) : RVec := ⟨s.card, fun i => (s.sort (· ≤ ·)).getD i.toNat 0⟩

/-- `set_profile`. `f` is applied to every knot, 2606; `model_copy(update=...)` replaces four fields, 2607-2632 -/
noncomputable def setProfile (inp : ProfileInput) (field : String) (f : ℝ → ℝ) : Outcome ProfileInput :=
  (gridPoints inp.ns_array ∅).bind fun s =>
    let knots := sortedKnots s
    let values : RVec := ⟨knots.n, fun i => f (knots.v i)⟩
    let empty : RVec := ⟨0, fun _ => 0⟩
    if field = "pressure" then .ok { inp with pmass := ⟨"line_segment", empty, knots, values⟩ }
    else if field = "iota" then .ok { inp with piota := ⟨"line_segment", empty, knots, values⟩ }
    else if field = "current" then .ok { inp with pcurr := ⟨"line_segment_i", empty, knots, values⟩ }
    else .throws "ValueError: field must be one of 'pressure', 'iota', 'current'"

/-! ## the grid points as doubles

`rn` rounds to the nearest double, ties to even, for numbers without overflow or underflow. -/

/-- exponent `e` with `2^e ≤ x < 2^(e+1)` for `0 < x`: a first guess from the lengths, corrected by one -/
def expo (x : ℚ) : Int :=
  let g : Int := (x.num.natAbs.log2 : Int) - (x.den.log2 : Int)
  if x < (2 : ℚ) ^ g then g - 1 else g

/-- nearest integer, ties to even -/
def nearest (x : ℚ) : Int :=
  let n := x.floor
  let r := x - n
  if r < 1 / 2 then n else if r > 1 / 2 then n + 1 else if n % 2 = 0 then n else n + 1

/-- rounding to 53 bits -/
def rn (x : ℚ) : ℚ :=
  if x = 0 then 0
  else
    let u : ℚ := (2 : ℚ) ^ (expo |x| - 52)
    nearest (x / u) * u

/-- `np.linspace(0.0, 1.0, ns)`: `arange(ns) * step`, the last element set to `1.0` -/
def fullF (ns i : Int) : ℚ := if i = ns - 1 then 1 else rn (i * rn (1 / (ns - 1)))

/-- `full_grid - 0.5 * (full_grid[1] - full_grid[0])` in doubles -/
def halfF (ns i : Int) : ℚ := rn (fullF ns i - rn (1 / 2 * rn (fullF ns 1 - fullF ns 0)))

/-- the position of the half-grid surface in `evalRadialProfiles` in doubles, `radial_profiles.cc:1154` -/
def posHF (ns jH : Int) : ℚ := rn (rn (jH + 1 / 2) / rn (ns - 1))

/-- the knots of one stage of `ns` surfaces in ascending order: half grid and full grid alternate -/
def knotsF (ns : Int) (i : Int) : ℚ := if i % 2 = 0 then halfF ns (i / 2) else fullF ns (i / 2)

end Verif.Profiles
