import Verif.Transform.SpecC
import Verif.Asym.Model

/-!
# The geometry of a torus without stellarator symmetry
-/
namespace Verif.Asym.Spec
open Finset Verif.Kernels Verif.Transform Verif.Transform.Spec

/-- coefficients `A` of the symmetric and `B` of the antisymmetric part: `A a j m n` belongs to mode (m, n) on surface `j`.
    Values and derivatives at grid point (k, l), even and odd poloidal modes apart; `lv` is minus the derivative of lambda.
    The grid point may be anywhere on the full poloidal interval, `0 ≤ l < nThetaEven`. -/
noncomputable def geoPoint (s : Sizes.Sizes) (A : Coef → Int → Int → Int → ℝ) (B : CoefA → Int → Int → Int → ℝ) (j k l : Int) : Geo :=
  let M := fun e => modes s.mpol j e
  let R := fun e θ φ => evenSeries s.nfp s.ntor (M e) (A .rcc j) (A .rss j) θ φ + oddSeries s.nfp s.ntor (M e) (B .rsc j) (B .rcs j) θ φ
  let Z := fun e θ φ => oddSeries s.nfp s.ntor (M e) (A .zsc j) (A .zcs j) θ φ + evenSeries s.nfp s.ntor (M e) (B .zcc j) (B .zss j) θ φ
  let L := fun e θ φ => oddSeries s.nfp s.ntor (M e) (A .lsc j) (A .lcs j) θ φ + evenSeries s.nfp s.ntor (M e) (B .lcc j) (B .lss j) θ φ
  let θ := gridTheta s l
  let φ := gridPhi s k
  let du := fun (f : ℝ → ℝ → ℝ) => deriv (fun θ => f θ φ) θ
  let dv := fun (f : ℝ → ℝ → ℝ) => deriv (fun φ => f θ φ) φ
  { r1_e := R true θ φ, r1_o := R false θ φ, ru_e := du (R true), ru_o := du (R false), rv_e := dv (R true), rv_o := dv (R false)
    z1_e := Z true θ φ, z1_o := Z false θ φ, zu_e := du (Z true), zu_o := du (Z false), zv_e := dv (Z true), zv_o := dv (Z false)
    lu_e := du (L true), lu_o := du (L false), lv_e := -dv (L true), lv_o := -dv (L false) }

/-- grid points in the order of the arrays -/
noncomputable def geo (s : Sizes.Sizes) (A : Coef → Int → Int → Int → ℝ) (B : CoefA → Int → Int → Int → ℝ) (j kl : Int) : Geo :=
  geoPoint s A B j (kl / s.nThetaEff) (kl % s.nThetaEff)

/-- power of the antisymmetric Fourier forces of `R` and `Z` along a displacement on one surface -/
noncomputable def modePowerA (mpol ntor : Int) (f ξ : CoefA → Int → Int → ℝ) : ℝ :=
  ∑ m ∈ Ico 0 mpol, ∑ n ∈ Ico 0 (ntor + 1),
    (f .rsc m n * ξ .rsc m n + f .rcs m n * ξ .rcs m n + f .zcc m n * ξ .zcc m n + f .zss m n * ξ .zss m n)

/-- power of the antisymmetric lambda forces -/
noncomputable def modePowerLA (mpol ntor : Int) (f ξ : CoefA → Int → Int → ℝ) : ℝ :=
  ∑ m ∈ Ico 0 mpol, ∑ n ∈ Ico 0 (ntor + 1), (f .lcc m n * ξ .lcc m n + f .lss m n * ξ .lss m n)

end Verif.Asym.Spec
