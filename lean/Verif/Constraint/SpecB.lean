import Verif.Constraint.Spec
import Verif.Kernels.SpecB

/-!
# Spectral condensation as a penalty

The constraint compares the poloidal angle of a surface with a preferred one. For a surface with the coefficients `A` let
`q` be the surface with the coefficients m(m-1) A: the misalignment is the scalar product of `q`, less a reference, with the
poloidal tangent. The penalty is a weighted sum of the squares of the Fourier coefficients of the misalignment.
-/
namespace Verif.Constraint.Spec
open Finset

/-- coefficients with the factor m(m-1) -/
noncomputable def weighted {C : Type} (A : C → Int → Int → Int → ℝ) : C → Int → Int → Int → ℝ :=
  fun a j m n => (m * (m - 1) : ℝ) * A a j m n

/-- misalignment at a point: `g` geometry, `q` geometry of the coefficients with the factor m(m-1), `sq` the root of the
    normalised flux, (`r0`, `z0`) the reference -/
noncomputable def misalignment (sq r0 z0 : ℝ) (g q : Kernels.Geo) : ℝ :=
  (q.r1_e + sq * q.r1_o - r0) * (g.ru_e + sq * g.ru_o) + (q.z1_e + sq * q.z1_o - z0) * (g.zu_e + sq * g.zu_o)

/-- penalty of a surface with the misalignment `g`; modes 1 ≤ m ≤ mpol - 2 -/
noncomputable def penalty (s : Sizes.Sizes) (t : ℝ) (g : Int → ℝ) : ℝ :=
  t / 8 * ∑ f ∈ fams s.lasym, ∑ m ∈ Ico 1 (s.mpol - 1), ∑ n ∈ Ico 0 (s.ntor + 1), (coef s g f m n / (m * (m + 1))) ^ 2

end Verif.Constraint.Spec
