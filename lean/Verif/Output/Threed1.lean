import Verif.Output.Mercier

/-!
# Model of the first table of the `threed1` file

`vmec/output_quantities/output_quantities.cc:3200-3444` (`ComputeIntermediateThreed1FirstTableQuantities`), `3446-3535` (`ComputeThreed1FirstTable`) and the
profiles that `ComputeWOutFileContents` takes from it (4484-4497).

Exact reals; arrays start with zeros as in the code; `std::max`-like special values do not occur.  The quotients of the code are quotients of real numbers: where the
code divides by zero the model says `0`, the theorems exclude this.  Array bounds are not modelled.
-/
namespace Verif.Output
open Verif

/-- what the functions read; `R` is `vmec_internal_results`, `mu_0` is `MU_0` -/
structure TableIn where
  s : Sizes.Sizes
  ns : Int
  deltaS : ℝ
  mu_0 : ℝ
  sign : ℝ
  R : Results

namespace TableIn
variable (I : TableIn)

/-- `tau`, 3246-3248 -/
noncomputable def tau : Int → ℝ := fillGrid 0 (I.ns - 1) I.s.nZnT (fun jH kl =>
  I.sign * Sizes.wInt I.s (kl.tmod I.s.nThetaEff) * I.R.gridH .gsqrt (jH * I.s.nZnT + kl))

/-- an array set on the half-grid surfaces -/
noncomputable def onHalf (v : Int → ℝ) : Int → ℝ := forRange 0 (I.ns - 1) (fun jH a => upd a jH (v jH)) (fun _ => 0)
/-- an array set on the interior full-grid surfaces -/
noncomputable def onFull (v : Int → ℝ) : Int → ℝ := forRange 1 (I.ns - 1) (fun jF a => upd a jF (v jF)) (fun _ => 0)

/-- `s2` after the loop over `kl`, 3250-3251 -/
noncomputable def s2sum (jH : Int) : ℝ := forRange 0 I.s.nZnT (fun kl acc => acc + I.R.gridH .total_pressure (jH * I.s.nZnT + kl) * I.tau (jH * I.s.nZnT + kl)) 0
/-- `beta_vol`, 3256-3260 -/
noncomputable def beta_vol : Int → ℝ := I.onHalf (fun jH =>
  let s2 := I.s2sum jH / I.R.profH .dVdsH jH
  let s2 := s2 - I.R.profH .presH jH
  I.R.profH .presH jH / s2)
/-- `overr`, 3253-3254 and 3262-3263 -/
noncomputable def overr : Int → ℝ := I.onHalf (fun jH =>
  forRange 0 I.s.nZnT (fun kl acc => acc + I.tau (jH * I.s.nZnT + kl) / I.R.gridH .r12 (jH * I.s.nZnT + kl)) 0 / I.R.profH .dVdsH jH)
/-- `beta_axis`, 3267-3269 -/
noncomputable def beta_axis : ℝ := 3 / 2 * I.beta_vol 0 - 1 / 2 * I.beta_vol 1

/-- from the half grid to the full grid: 3272-3274, 3283-3285, 3291-3293 and, with a factor, 3275-3278, 3286-3289, 3294-3297 -/
noncomputable def toFull (c : ℝ) (p : Int → ℝ) : Int → ℝ :=
  let a := upd (fun _ => 0) 0 (c * (3 / 2 * p 0 - 1 / 2 * p 1))
  let a := forRange 1 (I.ns - 1) (fun jF a => upd a jF (c * (p jF + p (jF - 1)) / 2)) a
  upd a (I.ns - 1) (c * (3 / 2 * p (I.ns - 2) - 1 / 2 * p (I.ns - 3)))
/-- `presf` -/
noncomputable def presf : Int → ℝ := I.toFull 1 (I.R.profH .presH)
/-- `phipf_loc` -/
noncomputable def phipf_loc : Int → ℝ := I.toFull (2 * Real.pi * I.sign) (I.R.profH .phipH)

/-- `phi1`, 3300 and 3305-3307 -/
noncomputable def phi1 : Int → ℝ := forRange 1 I.ns (fun jF a => upd a jF (a (jF - 1) + I.R.profH .phipH (jF - 1) * I.deltaS)) (fun _ => 0)
/-- `chi1`, 3301 and 3308-3311 -/
noncomputable def chi1 : Int → ℝ := forRange 1 I.ns (fun jF a => upd a jF (a (jF - 1) + I.R.profH .phipH (jF - 1) * I.R.profH .iotaH (jF - 1) * I.deltaS)) (fun _ => 0)
/-- `chi`, 3313-3314; the value stored in `wout.chi` (4497) -/
noncomputable def chi : Int → ℝ := forRange 1 I.ns (fun jF a => upd a jF (2 * Real.pi * I.chi1 jF)) (fun _ => 0)

/-- `bucoH` (`c = bsubu`) and `bvcoH` (`c = bsubv`), 3321-3334 -/
noncomputable def avg (c : GridH) : Int → ℝ :=
  forRange 0 (I.ns - 1) (fun jH a => forRange 0 I.s.nZnT (fun kl a =>
    upd a jH (a jH + I.R.gridH c (jH * I.s.nZnT + kl) * Sizes.wInt I.s (kl.tmod I.s.nThetaEff))) a) (fun _ => 0)

/-- extrapolation of a full-grid array to the axis and to the boundary, five times in 3407-3441 -/
noncomputable def ends (a : Int → ℝ) : Int → ℝ :=
  let a := upd a 0 (2 * a 1 - a 2)
  upd a (I.ns - 1) (2 * a (I.ns - 2) - a (I.ns - 3))

/-- `jcurv`, 3343-3345 -/
noncomputable def jcurv0 : Int → ℝ := I.onFull (fun jF => I.sign / I.deltaS * (I.avg .bsubu jF - I.avg .bsubu (jF - 1)))
/-- `jcuru`, 3346-3348 -/
noncomputable def jcuru0 : Int → ℝ := I.onFull (fun jF => -(I.sign / I.deltaS) * (I.avg .bsubv jF - I.avg .bsubv (jF - 1)))
/-- `presgrad`, 3351-3353 -/
noncomputable def presgrad0 : Int → ℝ := I.onFull (fun jF => (I.R.profH .presH jF - I.R.profH .presH (jF - 1)) / I.deltaS)
/-- `vpphi`, 3356-3358 -/
noncomputable def vpphi0 : Int → ℝ := I.onFull (fun jF => 1 / 2 * (I.R.profH .dVdsH jF + I.R.profH .dVdsH (jF - 1)))
/-- `equif`, 3362-3367 -/
noncomputable def equif0 : Int → ℝ := I.onFull (fun jF =>
  (I.R.profF .chipF jF * I.jcurv0 jF - I.R.profF .phipF jF * I.jcuru0 jF) / I.vpphi0 jF + I.presgrad0 jF)
/-- the normalisation of `equif`, 3382-3389 -/
noncomputable def equif1 : Int → ℝ := forRange 1 (I.ns - 1) (fun jF a => upd a jF (a jF *
  (I.vpphi0 jF / (|I.jcurv0 jF * I.R.profF .chipF jF| + |I.jcuru0 jF * I.R.profF .phipF jF| + |I.presgrad0 jF * I.vpphi0 jF|)))) I.equif0

/-- `jcurv` at the end -/
noncomputable def jcurv : Int → ℝ := I.ends I.jcurv0
/-- `jcuru` at the end -/
noncomputable def jcuru : Int → ℝ := I.ends I.jcuru0
/-- `presgrad` at the end -/
noncomputable def presgrad : Int → ℝ := I.ends I.presgrad0
/-- `vpphi` at the end -/
noncomputable def vpphi : Int → ℝ := I.ends I.vpphi0
/-- `equif` at the end; the value stored in `wout.equif` -/
noncomputable def equif : Int → ℝ := I.ends I.equif1

/-- `bucof`, 3374, 3391-3394, 3400-3402 -/
noncomputable def bucof : Int → ℝ :=
  let a := forRange 1 (I.ns - 1) (fun jF a => upd a jF ((I.avg .bsubu jF + I.avg .bsubu (jF - 1)) / 2)) (upd (fun _ => 0) 0 0)
  upd a (I.ns - 1) (3 / 2 * I.avg .bsubu (I.ns - 2) - 1 / 2 * I.avg .bsubu (I.ns - 3))
/-- `bvcof`, 3375-3377, 3395-3398, 3403-3405 -/
noncomputable def bvcof : Int → ℝ := I.toFull 1 (I.avg .bsubv)

/-- the table has one row per surface, 3473-3532 -/
noncomputable def onAll (v : Int → ℝ) : Int → ℝ := forRange 0 I.ns (fun jF a => upd a jF (v jF)) (fun _ => 0)
/-- `toroidal_flux`, 3491-3492 -/
noncomputable def toroidal_flux : Int → ℝ := I.onAll (fun jF => 2 * Real.pi * I.sign * I.phi1 jF)
/-- `avg_jsupu`, 3498-3499 -/
noncomputable def avg_jsupu : Int → ℝ := I.onAll (fun jF => I.jcuru jF / I.vpphi jF / I.mu_0)
/-- `avg_jsupv`, 3502-3503 -/
noncomputable def avg_jsupv : Int → ℝ := I.onAll (fun jF => I.jcurv jF / I.vpphi jF / I.mu_0)
/-- `cur0`, 3481 -/
noncomputable def cur0 (jF : Int) : ℝ := 2 * Real.pi * I.sign * I.vpphi jF * 2 * Real.pi
/-- `d_volume_d_phi`, 3506 -/
noncomputable def d_volume_d_phi : Int → ℝ := I.onAll (fun jF => I.cur0 jF / I.phipf_loc jF)
/-- `d_pressure_d_phi`, 3509-3510 -/
noncomputable def d_pressure_d_phi : Int → ℝ := I.onAll (fun jF => I.presgrad jF / I.phipf_loc jF / I.mu_0)

/-- `wout.chipf`, 4491-4492 -/
noncomputable def wout_chipf : Int → ℝ := I.onAll (fun jF => I.sign * 2 * Real.pi * I.R.profF .chipF jF)
/-- `wout.phipf`, 4489-4490 -/
noncomputable def wout_phipf : Int → ℝ := I.onAll (fun jF => I.sign * 2 * Real.pi * I.R.profF .phipF jF)

/-- `psi` of the geometric and magnetic quantities, 3744-3751 and 3948-3953 -/
noncomputable def psi : Int → ℝ :=
  let r3v := I.onHalf (fun jH => 2 * Real.pi * I.deltaS * I.sign * I.R.profH .phipH jH * I.R.profH .iotaH jH)
  forRange 1 I.ns (fun jF a => upd a jF (a (jF - 1) + r3v (jF - 1))) (fun _ => 0)

end TableIn
end Verif.Output
