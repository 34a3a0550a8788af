import Verif.Boundary.Model

/-!
# What the boundary arrays mean
-/
namespace Verif.Boundary
open Verif Finset

/-- the user's surface, major radius -/
noncomputable def userR (s : Size) (id : Indata) (θ ζ : ℝ) : ℝ :=
  ∑ m ∈ Ico 0 s.mpol, ∑ n ∈ Ico (-s.ntor) (s.ntor + 1),
    (id.rbc m (s.ntor + n) * Real.cos (m * θ - n * ζ) +
      if s.lasym then id.rbs m (s.ntor + n) * Real.sin (m * θ - n * ζ) else 0)

/-- the user's surface, height -/
noncomputable def userZ (s : Size) (id : Indata) (θ ζ : ℝ) : ℝ :=
  ∑ m ∈ Ico 0 s.mpol, ∑ n ∈ Ico (-s.ntor) (s.ntor + 1),
    (id.zbs m (s.ntor + n) * Real.sin (m * θ - n * ζ) +
      if s.lasym then id.zbc m (s.ntor + n) * Real.cos (m * θ - n * ζ) else 0)

/-- the arrays that exist for a given symmetry; the others are never allocated -/
def Size.has (s : Size) : B → Bool
  | .rbcc | .zbsc => true
  | .rbss | .zbcs => s.lthreed
  | .rbsc | .zbcc => s.lasym
  | .rbcs | .zbss => s.lasym && s.lthreed

/-- value of the product-basis function of an array at `(θ, ζ)`; the letters after the `b` give the
    poloidal and the toroidal function -/
noncomputable def basis : B → Int → Int → ℝ → ℝ → ℝ
  | .rbcc, m, n, θ, ζ | .zbcc, m, n, θ, ζ => Real.cos (m * θ) * Real.cos (n * ζ)
  | .rbss, m, n, θ, ζ | .zbss, m, n, θ, ζ => Real.sin (m * θ) * Real.sin (n * ζ)
  | .rbsc, m, n, θ, ζ | .zbsc, m, n, θ, ζ => Real.sin (m * θ) * Real.cos (n * ζ)
  | .rbcs, m, n, θ, ζ | .zbcs, m, n, θ, ζ => Real.cos (m * θ) * Real.sin (n * ζ)

/-- contribution of one array to the surface -/
noncomputable def part (s : Size) (a : Arrays) (θ ζ : ℝ) (c : B) : ℝ :=
  if s.has c then
    ∑ m ∈ Ico 0 s.mpol, ∑ n ∈ Ico 0 (s.ntor + 1), basis c m n θ ζ * a c (m * (s.ntor + 1) + n)
  else 0

/-- major radius described by the internal arrays -/
noncomputable def intR (s : Size) (a : Arrays) (θ ζ : ℝ) : ℝ :=
  part s a θ ζ .rbcc + part s a θ ζ .rbss + part s a θ ζ .rbsc + part s a θ ζ .rbcs

/-- height described by the internal arrays -/
noncomputable def intZ (s : Size) (a : Arrays) (θ ζ : ℝ) : ℝ :=
  part s a θ ζ .zbsc + part s a θ ζ .zbcs + part s a θ ζ .zbcc + part s a θ ζ .zbss

end Verif.Boundary
