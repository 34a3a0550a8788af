import Verif.Fourier.Spec
import Verif.Sizes.Model

/-!
# The Fourier series of a flux surface

Even (`m` even) and odd part of a quantity; on the magnetic axis (surface 0) only the modes `m ≤ 1` exist. `φ` is the
geometric toroidal angle, so a mode `n` has the phase `n · nfp · φ`.
-/
namespace Verif.Transform.Spec
open Finset Verif.Fourier

/-- the poloidal modes of one parity on surface `j` -/
noncomputable def modes (mpol j : Int) (even : Bool) : Finset Int :=
  (Ico 0 mpol).filter fun m => (2 ∣ m ↔ even = true) ∧ (j = 0 → m ≤ 1)

/-- stellarator-symmetric even function (`R`) -/
noncomputable def evenSeries (nfp ntor : Int) (M : Finset Int) (cc ss : Int → Int → ℝ) (θ φ : ℝ) : ℝ :=
  ∑ m ∈ M, ∑ n ∈ Ico 0 (ntor + 1), scale m * scale n *
    (cc m n * Real.cos (m * θ) * Real.cos (n * nfp * φ) + ss m n * Real.sin (m * θ) * Real.sin (n * nfp * φ))

/-- stellarator-symmetric odd function (`Z`, `λ`) -/
noncomputable def oddSeries (nfp ntor : Int) (M : Finset Int) (sc cs : Int → Int → ℝ) (θ φ : ℝ) : ℝ :=
  ∑ m ∈ M, ∑ n ∈ Ico 0 (ntor + 1), scale m * scale n *
    (sc m n * Real.sin (m * θ) * Real.cos (n * nfp * φ) + cs m n * Real.cos (m * θ) * Real.sin (n * nfp * φ))

/-- poloidal grid points: 0 and π are among them -/
noncomputable def gridTheta (s : Sizes.Sizes) (l : Int) : ℝ := Real.pi * l / (s.nThetaReduced - 1)

/-- toroidal grid points: one field period -/
noncomputable def gridPhi (s : Sizes.Sizes) (k : Int) : ℝ := 2 * Real.pi / s.nfp * k / s.nZeta

end Verif.Transform.Spec
