import Verif.Transform.SpecB
import Verif.Kernels.Spec
import Verif.Sizes.Model

/-!
# The band-pass filter of the constraint force
-/
namespace Verif.Constraint.Spec
open Finset Verif.Fourier

/-- the four products of trigonometric functions: poloidal factor first -/
inductive Fam | sc | cs | cc | ss
  deriving DecidableEq

/-- with stellarator symmetry the force is odd -/
def fams (lasym : Bool) : Finset Fam := if lasym then {.sc, .cs, .cc, .ss} else {.sc, .cs}

/-- an angular function, normalised to mean square one -/
noncomputable def wave (nfp : Int) (f : Fam) (m n : Int) (θ φ : ℝ) : ℝ :=
  scale m * scale n * match f with
    | .sc => Real.sin (m * θ) * Real.cos (n * nfp * φ)
    | .cs => Real.cos (m * θ) * Real.sin (n * nfp * φ)
    | .cc => Real.cos (m * θ) * Real.cos (n * nfp * φ)
    | .ss => Real.sin (m * θ) * Real.sin (n * nfp * φ)

/-- at grid point (k, l) -/
noncomputable def waveAt (s : Sizes.Sizes) (f : Fam) (m n k l : Int) : ℝ :=
  wave s.nfp f m n (Transform.Spec.gridTheta s l) (Transform.Spec.gridPhi s k)

/-- grid points in the order of the arrays -/
noncomputable def value (s : Sizes.Sizes) (f : Fam) (m n kl : Int) : ℝ := waveAt s f m n (kl / s.nThetaEff) (kl % s.nThetaEff)

/-- surface average of a function on the grid -/
noncomputable def mean (s : Sizes.Sizes) (g : Int → ℝ) : ℝ :=
  Kernels.Spec.integral s.nZnT (fun kl => Sizes.wInt s (kl % s.nThetaEff)) g

/-- Fourier coefficient of a function on the grid -/
noncomputable def coef (s : Sizes.Sizes) (g : Int → ℝ) (f : Fam) (m n : Int) : ℝ := mean s fun kl => g kl * value s f m n kl

/-- a function on the grid from its coefficients -/
noncomputable def series (s : Sizes.Sizes) (M N : Finset Int) (a : Fam → Int → Int → ℝ) (kl : Int) : ℝ :=
  ∑ f ∈ fams s.lasym, ∑ m ∈ M, ∑ n ∈ N, a f m n * value s f m n kl

end Verif.Constraint.Spec
