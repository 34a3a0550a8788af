import Verif.Common.Loop
import Mathlib.Algebra.Field.Basic

/-!
# Model of `common/sizes/sizes.cc`
-/
namespace Verif.Sizes
open Verif

/-- The members of class `Sizes`, `common/sizes/sizes.h`; `wInt` is separate (`wInt` below). -/
structure Sizes where
  lasym : Bool
  nfp : Int
  mpol : Int
  ntor : Int
  mpolGeometry : Int
  ntorGeometry : Int
  ntheta : Int
  nZeta : Int
  lthreed : Bool
  num_basis : Int
  nThetaEven : Int
  nThetaReduced : Int
  nThetaEff : Int
  nZnT : Int
  mnsize : Int
  mnmax : Int
  mnyq2 : Int
  nnyq2 : Int
  mnmax_nyq : Int
  mnyq : Int
  nnyq : Int
  deriving Repr, DecidableEq

/-- Constructor and `computeDerivedSizes`, `common/sizes/sizes.cc:20-165`
    (debug printouts dropped; `CHECK_GE` failures are `abort`). -/
def mk (lasym : Bool) (nfp mpol ntor ntheta nzeta mpol_geometry ntor_geometry : Int) :
    Outcome Sizes :=
  if ¬ nfp ≥ 1 then .abort "nfp" else
  if ¬ mpol ≥ 1 then .abort "mpol" else
  if ¬ ntor ≥ 0 then .abort "ntor" else
  let ntheta' := if ntheta < 2 * mpol + 6 then 2 * mpol + 6 else ntheta
  let nZeta1 := if ntor = 0 ∧ nzeta < 1 then 1 else nzeta
  let nZeta := if ntor > 0 then (if nZeta1 < 2 * ntor + 4 then 2 * ntor + 4 else nZeta1) else nZeta1
  let lthreed := decide (ntor > 0)
  let nb0 : Int := 1
  let nb1 := if lthreed then nb0 * 2 else nb0
  let num_basis := if lasym then nb1 * 2 else nb1
  let nThetaEven := 2 * ntheta'.tdiv 2
  let nThetaReduced := nThetaEven.tdiv 2 + 1
  let nThetaEff := if lasym then nThetaEven else nThetaReduced
  let mnyq0 := nThetaEven.tdiv 2
  let nnyq0 := nZeta.tdiv 2
  let mnyq2 := max 0 (max (2 * mnyq0) (2 * (mpol - 1)))
  let nnyq2 := max 0 (max (2 * nnyq0) (2 * ntor))
  .ok {
    lasym := lasym
    nfp := nfp
    mpol := mpol
    ntor := ntor
    mpolGeometry := if mpol_geometry < 1 ∨ mpol_geometry > mpol then mpol else mpol_geometry
    ntorGeometry := if ntor_geometry < 0 ∨ ntor_geometry > ntor then ntor else ntor_geometry
    ntheta := ntheta'
    nZeta := nZeta
    lthreed := lthreed
    num_basis := num_basis
    nThetaEven := nThetaEven
    nThetaReduced := nThetaReduced
    nThetaEff := nThetaEff
    nZnT := nZeta * nThetaEff
    mnsize := mpol * (ntor + 1)
    mnmax := (ntor + 1) + (mpol - 1) * (2 * ntor + 1)
    mnyq2 := mnyq2
    nnyq2 := nnyq2
    mnmax_nyq := nnyq2.tdiv 2 + 1 + mnyq2.tdiv 2 * (nnyq2 + 1)
    mnyq := mnyq2.tdiv 2
    nnyq := nnyq2.tdiv 2 }

/-- `wInt[l]`, `common/sizes/sizes.cc:126-138`, over an exact field. -/
def wInt {K : Type} [Field K] (s : Sizes) (l : Int) : K :=
  let dnorm3 : K := 1 / ((s.nZeta * (s.nThetaReduced - 1) : Int) : K)
  let dnorm3 : K := if s.lasym then 1 / ((s.nZeta * s.nThetaEven : Int) : K) else dnorm3
  if !s.lasym && (l = 0 ∨ l = s.nThetaReduced - 1) then dnorm3 / 2 else dnorm3

/-- The flux-surface average loop, e.g. `vmec/ideal_mhd_model/ideal_mhd_model.cc:1702-1707`
    (`f kl` stands for the integrand at flat grid index `kl`). -/
def surfaceAverage {K : Type} [Field K] (s : Sizes) (f : Int → K) : K :=
  forRange 0 s.nZnT (fun kl acc => acc + f kl * wInt s (kl.tmod s.nThetaEff)) 0

end Verif.Sizes
