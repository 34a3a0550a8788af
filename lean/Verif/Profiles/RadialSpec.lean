import Verif.Profiles.Radial
import Verif.Profiles.Props

/-! # C102: specification of the radial profile arrays -/
namespace Verif.Profiles
open Verif Verif.Partition

/-- position of the half-grid surface between the full-grid surfaces `j` and `j + 1` -/
noncomputable def sHalf (ns j : Int) : ℝ := (j + 1 / 2) / (ns - 1)
/-- position of the full-grid surface `j` -/
noncomputable def sFull (ns j : Int) : ℝ := j / (ns - 1)
/-- enclosed toroidal flux of the coefficients `aphi`: the polynomial with zero value on the axis -/
noncomputable def fluxPoly (aphi : RVec) (x : ℝ) : ℝ := x * poly aphi x
/-- the enclosed toroidal flux over `2 pi` of the whole plasma volume is `sign * phiedge / 2 pi` -/
noncomputable def RadialIn.phi (I : RadialIn) (x : ℝ) : ℝ :=
  I.signOfJacobian * I.phiedge / (2 * Real.pi) / fluxPoly I.aphi 1 * fluxPoly I.aphi x
/-- flux label at which the profiles are read -/
noncomputable def RadialIn.label (I : RadialIn) (x : ℝ) : ℝ := if fluxPoly I.aphi x ≤ 1 then fluxPoly I.aphi x else 1

end Verif.Profiles
