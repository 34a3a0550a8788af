import Verif.Radial.Model
import Mathlib.Algebra.BigOperators.Intervals
import Mathlib.Data.Int.Interval
import Mathlib.Algebra.Order.Interval.Finset.Basic

/-! # The quadratic form behind the radial preconditioner

Specification, independent of the code: fields on the whole radial grid, and the bilinear form which keeps the terms of the second variation of the energy
that contain the square of a derivative of the displacement.  `x j` is the displacement of one Fourier coefficient on surface `j`. -/
namespace Verif.Radial
open Verif Finset

/-- fields at half-grid point `j` and grid point `kl` -/
structure Glob where
  s : Sizes.Sizes
  ns : Int
  deltaS : ℝ
  r12 : Int → Int → ℝ
  P : Int → Int → ℝ
  tau : Int → Int → ℝ
  bsupv : Int → Int → ℝ
  gsqrt : Int → Int → ℝ
  sqrtSH : Int → ℝ
  sm : Int → ℝ
  sp : Int → ℝ

/-- a coordinate: radial and poloidal derivative on the half grid, poloidal derivative (even and odd part) and odd part on the full grid -/
structure GCoord where
  xs : Int → Int → ℝ
  xu12 : Int → Int → ℝ
  xuE : Int → Int → ℝ
  xuO : Int → Int → ℝ
  x1O : Int → Int → ℝ

namespace Glob
variable (G : Glob)

/-- weight of the squares of radial and poloidal derivatives at a point of the grid -/
noncomputable def W (j kl : Int) : ℝ := -4 * (G.r12 j kl * G.P j kl / G.tau j kl) * Sizes.wInt G.s (kl.tmod G.s.nThetaEff)

/-- weight of the square of the toroidal derivative -/
noncomputable def Wn (j kl : Int) : ℝ := -(G.bsupv j kl ^ 2 * G.gsqrt j kl) * Sizes.wInt G.s (kl.tmod G.s.nThetaEff)

/-- displacement at the inner surface of cell `j`, in the scaling of the coefficients of odd `m` (`sp = √s_{j+1/2} / √s_j`) -/
noncomputable def inner (odd : Bool) (x : Int → ℝ) (j : Int) : ℝ := if odd then G.sp j * x j else x j

/-- displacement at the outer surface of cell `j` (`sm = √s_{j+1/2} / √s_{j+1}`) -/
noncomputable def outer (odd : Bool) (x : Int → ℝ) (j : Int) : ℝ := if odd then G.sm j * x (j + 1) else x (j + 1)

/-- `x_u ∂_s ξ` at half-grid point `j`: difference quotient of the displacement, for odd `m` that of `√s ξ` by the product rule -/
noncomputable def dRad (X : GCoord) (odd : Bool) (x : Int → ℝ) (j kl : Int) : ℝ :=
  X.xu12 j kl * ((G.outer odd x j - G.inner odd x j) / G.deltaS) +
    if odd then
      ((X.xuE (j + 1) kl / G.sqrtSH j + X.xuO (j + 1) kl) * G.outer odd x j + (X.xuE j kl / G.sqrtSH j + X.xuO j kl) * G.inner odd x j) / (4 * G.sqrtSH j)
    else 0

/-- `x_s ξ` at half-grid point `j`: mean of the values at both surfaces -/
noncomputable def dPol (X : GCoord) (odd : Bool) (x : Int → ℝ) (j kl : Int) : ℝ :=
  ((X.xs j kl + X.x1O (j + 1) kl / (2 * G.sqrtSH j)) * G.outer odd x j + (X.xs j kl + X.x1O j kl / (2 * G.sqrtSH j)) * G.inner odd x j) / 2

/-- contribution of cell `j` to the bilinear form of mode `(m, n)` -/
noncomputable def cell (X : GCoord) (m n : Int) (x y : Int → ℝ) (j : Int) : ℝ :=
  let odd : Bool := decide (m % 2 = 1)
  ∑ kl ∈ Ico 0 G.s.nZnT,
    (G.W j kl * (G.dRad X odd x j kl * G.dRad X odd y j kl + m ^ 2 * (G.dPol X odd x j kl * G.dPol X odd y j kl)) +
      G.Wn j kl * ((n * G.s.nfp) ^ 2 * (x j * y j + x (j + 1) * y (j + 1))))

/-- the bilinear form of mode `(m, n)` -/
noncomputable def form (X : GCoord) (m n : Int) (x y : Int → ℝ) : ℝ := ∑ j ∈ Ico 0 (G.ns - 1), G.cell X m n x y j

end Glob

/-- unit displacement of surface `j` -/
def unit (j : Int) : Int → ℝ := fun i => if i = j then 1 else 0

/-- displacement in which only the surfaces `jMin ≤ j < jMax` move; for `m = 1` the axis moves like the first surface -/
def active (m jMin jMax : Int) (x : Int → ℝ) : Int → ℝ := fun j =>
  if jMin ≤ j ∧ j < jMax then x j else if m = 1 ∧ j = 0 then x 1 else 0

/-- the arrays of a thread hold the fields -/
structure Holds (c : PCtx) (G : Glob) : Prop where
  s : c.s = G.s
  ns : c.ns = G.ns
  deltaS : c.deltaS = G.deltaS
  half : ∀ j, c.r.nsMinH ≤ j → j < c.r.nsMaxH → ∀ kl, 0 ≤ kl → kl < G.s.nZnT →
    c.f.r12 ((j - c.r.nsMinH) * G.s.nZnT + kl) = G.r12 j kl ∧ c.f.totalPressure ((j - c.r.nsMinH) * G.s.nZnT + kl) = G.P j kl ∧
    c.f.tau ((j - c.r.nsMinH) * G.s.nZnT + kl) = G.tau j kl ∧ c.f.bsupv ((j - c.r.nsMinH) * G.s.nZnT + kl) = G.bsupv j kl ∧
    c.f.gsqrt ((j - c.r.nsMinH) * G.s.nZnT + kl) = G.gsqrt j kl
  rad : ∀ j, c.r.nsMinH ≤ j → j < c.r.nsMaxH →
    c.f.sqrtSH (j - c.r.nsMinH) = G.sqrtSH j ∧ c.f.sm (j - c.r.nsMinH) = G.sm j ∧ c.f.sp (j - c.r.nsMinH) = G.sp j

/-- the arrays of a thread hold the coordinate -/
structure HoldsX (c : PCtx) (G : Glob) (x : Coord) (X : GCoord) : Prop where
  half : ∀ j, c.r.nsMinH ≤ j → j < c.r.nsMaxH → ∀ kl, 0 ≤ kl → kl < G.s.nZnT →
    x.xs ((j - c.r.nsMinH) * G.s.nZnT + kl) = X.xs j kl ∧ x.xu12 ((j - c.r.nsMinH) * G.s.nZnT + kl) = X.xu12 j kl
  full : ∀ j, c.r.nsMinF1 ≤ j → j < c.r.nsMaxF1 → ∀ kl, 0 ≤ kl → kl < G.s.nZnT →
    x.xu_e ((j - c.r.nsMinF1) * G.s.nZnT + kl) = X.xuE j kl ∧ x.xu_o ((j - c.r.nsMinF1) * G.s.nZnT + kl) = X.xuO j kl ∧
    x.x1_o ((j - c.r.nsMinF1) * G.s.nZnT + kl) = X.x1O j kl

end Verif.Radial
