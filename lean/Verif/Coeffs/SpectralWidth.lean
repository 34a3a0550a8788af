import Verif.Coeffs.Model
import Verif.Partition.Model

/-!
# Model of the spectral width

`vmec/fourier_geometry/fourier_geometry.cc:354-440` (`ComputeSpectralWidth`), `vmec/radial_profiles/radial_profiles.cc:1253-1285` (`AccumulateVolumeAveragedSpectralWidth`),
`vmec/handover_storage/handover_storage.cc:175-188` and their use in `vmec/vmec/vmec.cc:1166-1169` and `:1428-1455`.  Numbers are reals.  The critical section is modelled by an arbitrary order of the
threads; array bounds are not modelled.  A surface without any amplitude with `m > 0` gives `0/0`, which is NaN in the code and 0 here; the bounds are claimed only where there is amplitude.
-/
namespace Verif.Coeffs
open Verif Verif.Partition

/-- `coefficient_norm`, `fourier_geometry.cc:373-430` -/
noncomputable def coefficientNorm (x : Ctx) (mscale nscale : Int → ℝ) (s : State) (jF m n : Int) : ℝ :=
  let i := x.idx jF m n
  let basis_norm := mscale m * nscale n
  let a := s .rcc i ^ 2 + s .zsc i ^ 2
  let b := if x.lthreed then (if m = 1 then (s .rss i + s .zcs i) ^ 2 + (s .rss i - s .zcs i) ^ 2 else s .rss i ^ 2 + s .zcs i ^ 2) else 0
  let c := if x.lasym then (if m = 1 then (s .rsc i + s .zcc i) ^ 2 + (s .rsc i - s .zcc i) ^ 2 else s .rsc i ^ 2 + s .zcc i ^ 2) else 0
  let d := if x.lasym && x.lthreed then s .rcs i ^ 2 + s .zss i ^ 2 else 0
  (a + b + c + d) * (basis_norm * basis_norm)

/-- `ComputeSpectralWidth`, `fourier_geometry.cc:354-440`; `prof` is `spectral_width`, indexed by `jF - nsMinF1` -/
noncomputable def computeSpectralWidth (x : Ctx) (mscale nscale : Int → ℝ) (p q : ℕ) (s : State) (prof : Int → ℝ) : Int → ℝ :=
  let minimum_j := if x.nsMin = 0 then 1 else x.nsMin
  let prof := if x.nsMin = 0 then upd prof (x.nsMin - x.nsMinF1) 1 else prof
  forRange minimum_j x.nsMax (fun jF prof =>
    let sums : ℝ × ℝ := forRange 1 x.mpol (fun m a => forRange 0 (x.ntor + 1) (fun n a =>
      a + (coefficientNorm x mscale nscale s jF m n * (m : ℝ) ^ (p + q), coefficientNorm x mscale nscale s jF m n * (m : ℝ) ^ p)) a) (0, 0)
    upd prof (jF - x.nsMinF1) (sums.1 / sums.2)) prof

/-- `AccumulateVolumeAveragedSpectralWidth`, `radial_profiles.cc:1253-1280`: the contribution of one thread; `dV` is `dVdsH`, indexed by `jH - nsMinH` -/
noncomputable def widthContribution (ns : Int) (r : Ranges) (prof dV : Int → ℝ) : ℝ × ℝ :=
  localHalfSum ns r fun jH => ((prof (jH + 1 - r.nsMinF1) + prof (jH - r.nsMinF1)) / 2 * dV (jH - r.nsMinH), dV (jH - r.nsMinH))

/-- the accumulators after all threads registered their contribution, and their ratio, `handover_storage.cc:175-188` -/
noncomputable def volumeAveragedSpectralWidth (contribution : Int → ℝ × ℝ) (order : List Int) : ℝ :=
  let total := order.foldl (fun acc t => (acc.1 + (contribution t).1, acc.2 + (contribution t).2)) ((0 : ℝ), (0 : ℝ))
  total.1 / total.2

end Verif.Coeffs
