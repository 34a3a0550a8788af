import Verif.Transform.SpecB
import Verif.Transform.Model
import Verif.Kernels.Model
import Mathlib.Analysis.Calculus.Deriv.Basic

/-!
# The geometry of a torus that is given by its Fourier coefficients
-/
namespace Verif.Transform.Spec
open Finset Verif.Kernels

/-- `A a j m n`: coefficient of mode (m, n) of kind `a` on surface `j`. Values and derivatives at grid point (k, l), even
    and odd poloidal modes apart, as the force kernels want them: `lv` is minus the derivative of lambda. -/
noncomputable def geoPoint (s : Sizes.Sizes) (A : Coef → Int → Int → Int → ℝ) (j k l : Int) : Geo :=
  let R := fun e => evenSeries s.nfp s.ntor (modes s.mpol j e) (A .rcc j) (A .rss j)
  let Z := fun e => oddSeries s.nfp s.ntor (modes s.mpol j e) (A .zsc j) (A .zcs j)
  let L := fun e => oddSeries s.nfp s.ntor (modes s.mpol j e) (A .lsc j) (A .lcs j)
  let θ := gridTheta s l
  let φ := gridPhi s k
  let du := fun (f : ℝ → ℝ → ℝ) => deriv (fun θ => f θ φ) θ
  let dv := fun (f : ℝ → ℝ → ℝ) => deriv (fun φ => f θ φ) φ
  { r1_e := R true θ φ, r1_o := R false θ φ, ru_e := du (R true), ru_o := du (R false), rv_e := dv (R true), rv_o := dv (R false)
    z1_e := Z true θ φ, z1_o := Z false θ φ, zu_e := du (Z true), zu_o := du (Z false), zv_e := dv (Z true), zv_o := dv (Z false)
    lu_e := du (L true), lu_o := du (L false), lv_e := -dv (L true), lv_o := -dv (L false) }

/-- grid points in the order of the arrays -/
noncomputable def geo (s : Sizes.Sizes) (A : Coef → Int → Int → Int → ℝ) (j kl : Int) : Geo :=
  geoPoint s A j (kl / s.nThetaEff) (kl % s.nThetaEff)

/-- power of Fourier forces `f` of `R` and `Z` along a displacement on one surface -/
noncomputable def modePower (mpol ntor : Int) (f ξ : Coef → Int → Int → ℝ) : ℝ :=
  ∑ m ∈ Ico 0 mpol, ∑ n ∈ Ico 0 (ntor + 1),
    (f .rcc m n * ξ .rcc m n + f .rss m n * ξ .rss m n + f .zsc m n * ξ .zsc m n + f .zcs m n * ξ .zcs m n)

/-- power of lambda forces -/
noncomputable def modePowerL (mpol ntor : Int) (f ξ : Coef → Int → Int → ℝ) : ℝ :=
  ∑ m ∈ Ico 0 mpol, ∑ n ∈ Ico 0 (ntor + 1), (f .lsc m n * ξ .lsc m n + f .lcs m n * ξ .lcs m n)

end Verif.Transform.Spec
