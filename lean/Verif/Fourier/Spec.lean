import Mathlib.Analysis.SpecialFunctions.Trigonometric.Basic
import Mathlib.Data.Int.Interval
import Mathlib.Algebra.BigOperators.Group.Finset.Basic

/-!
# Specification vocabulary for Fourier series

* `validMode M N m n`: the modes of a combined-basis expansion with `m < M`, `|n| ≤ N`
  (for `m = 0` only `n ≥ 0`).
* `combinedCos`/`combinedSin`: the functions of `(θ, φ)` described by mode tables and coefficients.
* `productCos`/`productSin`: the functions described by product-basis coefficients.
-/
namespace Verif.Fourier
open Finset

/-- admissible modes -/
def validMode (M N m n : Int) : Prop :=
  0 ≤ m ∧ m < M ∧ n ≤ N ∧ (if m = 0 then 0 ≤ n else -N ≤ n)

/-- scale factor of the basis functions: `1` for mode number 0 and `√2` otherwise;
    `common/fourier_basis/fourier_basis.cc:66-76,109-119` -/
noncomputable def scale (m : Int) : ℝ := if m = 0 then 1 else Real.sqrt 2

/-- `Σ_mn fc[mn] cos(xm[mn] θ - xn[mn] φ)` over `count` table entries -/
noncomputable def combinedCos (count : Int) (xm xn : Int → Int) (fc : Int → ℝ) (θ φ : ℝ) : ℝ :=
  ∑ i ∈ Ico 0 count, fc i * Real.cos (xm i * θ - xn i * φ)

/-- `Σ_mn fc[mn] sin(xm[mn] θ - xn[mn] φ)` over `count` table entries -/
noncomputable def combinedSin (count : Int) (xm xn : Int → Int) (fc : Int → ℝ) (θ φ : ℝ) : ℝ :=
  ∑ i ∈ Ico 0 count, fc i * Real.sin (xm i * θ - xn i * φ)

/-- even function in product form with scaled basis functions; `cc m n`, `ss m n` coefficients,
    `ζ = nfp φ` -/
noncomputable def productCos (M N : Int) (cc ss : Int → Int → ℝ) (θ ζ : ℝ) : ℝ :=
  ∑ m ∈ Ico 0 M, ∑ n ∈ Ico 0 (N + 1),
    (cc m n * (Real.cos (m * θ) * scale m) * (Real.cos (n * ζ) * scale n) +
     ss m n * (Real.sin (m * θ) * scale m) * (Real.sin (n * ζ) * scale n))

/-- odd function in product form -/
noncomputable def productSin (M N : Int) (sc cs : Int → Int → ℝ) (θ ζ : ℝ) : ℝ :=
  ∑ m ∈ Ico 0 M, ∑ n ∈ Ico 0 (N + 1),
    (sc m n * (Real.sin (m * θ) * scale m) * (Real.cos (n * ζ) * scale n) +
     cs m n * (Real.cos (m * θ) * scale m) * (Real.sin (n * ζ) * scale n))

end Verif.Fourier
