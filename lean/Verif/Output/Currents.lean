import Mathlib.Analysis.SpecialFunctions.Sqrt
import Verif.Common.Loop

/-!
# Model of the current density of the `wout` file

`vmec/output_quantities/output_quantities.cc:5305-5449`, the last block of `ComputeWOutFileContents`.

The four matrices are filled in the same loops; they do not interact, so that each has its own function here.  A matrix `wout.x(mn, j)` is a function
of row and column.  Exact reals; array bounds are not modelled.
-/
namespace Verif.Output
open Verif

/-- what the block reads: mode table `xm_nyq`, `xn_nyq`, radial grids, coefficients of the covariant field and `MU_0`.  For `currumnc`, `currvmnc`
    these are `bsubsmns`, `bsubumnc`, `bsubvmnc`, for `currumns`, `currvmns` they are `bsubsmnc`, `bsubumns`, `bsubvmns`. -/
structure CurrIn where
  mnmax : Int
  ns : Int
  deltaS : ℝ
  mu_0 : ℝ
  xm : Int → Int
  xn : Int → Int
  sqrtSH : Int → ℝ
  sqrtSF : Int → ℝ
  bs : Int → Int → ℝ
  bu : Int → Int → ℝ
  bv : Int → Int → ℝ

namespace CurrIn
variable (A : CurrIn)

/-- `t1` (`t1a`), 5348-5366 and 5379-5395 -/
noncomputable def t1 (mn j : Int) : ℝ :=
  if (A.xm mn).tmod 2 = 1 then 1 / 2 * (A.sqrtSH j * A.bs mn (j + 1) + A.sqrtSH (j - 1) * A.bs mn j) / A.sqrtSF j
  else 1 / 2 * (A.bs mn (j + 1) + A.bs mn j)

/-- `t2`, `t3` (`t2a`, `t3a`) of the array `b`, 5355-5368 and 5385-5397 -/
noncomputable def dds (b : Int → Int → ℝ) (mn j : Int) : ℝ :=
  let ohs := 1 / A.deltaS
  if (A.xm mn).tmod 2 = 1 then
    let b0 := b mn j / A.sqrtSH (j - 1)
    let b1 := b mn (j + 1) / A.sqrtSH j
    ohs * (b1 - b0) * A.sqrtSF j + 1 / 4 * (b0 + b1) / A.sqrtSF j
  else ohs * (b mn (j + 1) - b mn j)

/-- loop over the interior surfaces and modes, 5335-5404 -/
noncomputable def interior (v : Int → Int → ℝ) : Int → Int → ℝ :=
  forRange 1 (A.ns - 1) (fun j w => forRange 0 A.mnmax (fun mn w => fun r c => if r = mn ∧ c = j then v mn j else w r c) w) (fun _ _ => 0)

/-- axis, 5406-5415 and 5430-5437 -/
noncomputable def axis (w : Int → Int → ℝ) : Int → Int → ℝ :=
  forRange 0 A.mnmax (fun mn w => if A.xm mn ≤ 1 then fun r c => if r = mn ∧ c = 0 then 2 * w mn 1 - w mn 2 else w r c else w) w

/-- edge, 5417-5423 and 5439-5444 -/
noncomputable def edge (w : Int → Int → ℝ) : Int → Int → ℝ :=
  forRange 0 A.mnmax (fun mn w => fun r c => if r = mn ∧ c = A.ns - 1 then 2 * w mn (A.ns - 2) - w mn (A.ns - 3) else w r c) w

/-- the whole block for one matrix, 5335-5427 and 5429-5448 -/
noncomputable def matrix (v : Int → Int → ℝ) : Int → Int → ℝ := fun r c => A.edge (A.axis (A.interior v)) r c / A.mu_0

/-- `currumnc`, 5371 -/
noncomputable def currumnc : Int → Int → ℝ := A.matrix (fun mn j => -(A.xn mn : ℝ) * A.t1 mn j - A.dds A.bv mn j)
/-- `currvmnc`, 5372 -/
noncomputable def currvmnc : Int → Int → ℝ := A.matrix (fun mn j => -(A.xm mn : ℝ) * A.t1 mn j + A.dds A.bu mn j)
/-- `currumns`, 5400 -/
noncomputable def currumns : Int → Int → ℝ := A.matrix (fun mn j => (A.xn mn : ℝ) * A.t1 mn j - A.dds A.bv mn j)
/-- `currvmns`, 5401 -/
noncomputable def currvmns : Int → Int → ℝ := A.matrix (fun mn j => (A.xm mn : ℝ) * A.t1 mn j + A.dds A.bu mn j)

end CurrIn
end Verif.Output
