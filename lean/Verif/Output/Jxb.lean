import Verif.Output.Field
import Verif.Sizes.Model
import Mathlib.Analysis.SpecialFunctions.Trigonometric.Basic

/-! # Model of the contents of the jxbout file
(`vmec/output_quantities/output_quantities.cc:2501-2842`)

Exact reals.  The arrays `sqgb2`, `kperpu`, ... of length `nZnT` are overwritten for every surface and only read on the same surface;
they are functions of surface and grid point here.  Every output array has its own loop nest; in the code they share one and each
expression uses only values of the same surface.  Array bounds are not modelled. -/
namespace Verif.Output
open Verif

/-- `CovariantBDerivatives` -/
structure BDerivatives where
  bsubsu : Int → ℝ
  bsubsv : Int → ℝ
  bsubuv : Int → ℝ
  bsubvu : Int → ℝ

/-- what `ComputeJxBOutputFileContents` reads, 2501-2506; `mu_0` and `epsilon` are the constants `MU_0` and `DBL_EPSILON`, `huge` is `DBL_MAX`,
    `write` is the condition on the status at 2744-2745 and 2782-2783 -/
structure JxbIn where
  s : Sizes.Sizes
  ns : Int
  deltaS : ℝ
  mu_0 : ℝ
  epsilon : ℝ
  huge : ℝ
  sign_of_jacobian : ℝ
  R : Results
  D : BDerivatives
  bsubs_full : Int → ℝ
  write : Bool

namespace JxbIn
variable (I : JxbIn)

/-- value of a half-grid field -/
def h (c : GridH) (jH kl : Int) : ℝ := I.R.gridH c (jH * I.s.nZnT + kl)

/-- 2563 -/
noncomputable def dnorm1 : ℝ := 4 * Real.pi * Real.pi

/-- 2566-2575 -/
noncomputable def ovp (jF : Int) : ℝ :=
  let jHi := jF - 1
  let jHo := jF
  2 / (I.R.profH .dVdsH jHo + I.R.profH .dVdsH jHi) / dnorm1

/-- 2577 -/
noncomputable def tjnorm (jF : Int) : ℝ := I.ovp jF * I.sign_of_jacobian

/-- 2580-2583 -/
noncomputable def pprime (jF : Int) : ℝ :=
  let jHi := jF - 1
  let jHo := jF
  1 / I.mu_0 * (I.R.profH .presH jHo - I.R.profH .presH jHi) / I.deltaS

/-- 2585 -/
noncomputable def pprime_ovp (jF : Int) : ℝ := I.pprime jF * I.ovp jF

/-- 2586 -/
noncomputable def pnorm (jF : Int) : ℝ := 1 / (|I.pprime_ovp jF| + I.epsilon)

/-- 2606-2618 -/
noncomputable def sqgb2 (jF kl : Int) : ℝ :=
  let jHi := jF - 1
  let jHo := jF
  let gsqrt_outside := I.h .gsqrt jHo kl
  let gsqrt_inside := I.h .gsqrt jHi kl
  let bsq_outside := I.h .total_pressure jHo kl - I.R.profH .presH jHo
  let bsq_inside := I.h .total_pressure jHi kl - I.R.profH .presH jHi
  gsqrt_outside * bsq_outside + gsqrt_inside * bsq_inside

/-- 2632 -/
noncomputable def kperpu (jF kl : Int) : ℝ := 0.5 * (I.h .bsubv jF kl + I.h .bsubv (jF - 1) kl) * I.pprime jF / I.sqgb2 jF kl
/-- 2633 -/
noncomputable def kperpv (jF kl : Int) : ℝ := 0.5 * (I.h .bsubu jF kl + I.h .bsubu (jF - 1) kl) * I.pprime jF / I.sqgb2 jF kl

/-- 2637-2650 -/
noncomputable def kp2 (jF kl : Int) : ℝ :=
  let guu_o := I.h .guu jF kl
  let guu_i := I.h .guu (jF - 1) kl
  let guv_o := I.h .guv jF kl
  let guv_i := I.h .guv (jF - 1) kl
  let gvv_o := I.h .gvv jF kl
  let gvv_i := I.h .gvv (jF - 1) kl
  let term_uu := I.kperpu jF kl * I.kperpu jF kl * (guu_o + guu_i) / 2
  let term_uv := I.kperpu jF kl * I.kperpv jF kl * (guv_o + guv_i) / 2
  let term_vv := I.kperpv jF kl * I.kperpv jF kl * (gvv_o + gvv_i) / 2
  term_uu + 2 * term_uv + term_vv

/-- 2654-2660 -/
noncomputable def ithetaAt (jF kl : Int) : ℝ :=
  let bsubsv := I.D.bsubsv (jF * I.s.nZnT + kl)
  let bsubvs := (I.h .bsubv jF kl - I.h .bsubv (jF - 1) kl) / I.deltaS
  (bsubsv - bsubvs) / I.mu_0
/-- 2654-2661 -/
noncomputable def izetaAt (jF kl : Int) : ℝ :=
  let bsubsu := I.D.bsubsu (jF * I.s.nZnT + kl)
  let bsubus := (I.h .bsubu jF kl - I.h .bsubu (jF - 1) kl) / I.deltaS
  (-bsubsu + bsubus) / I.mu_0

/-- 2665 -/
noncomputable def sqrtg (jF kl : Int) : ℝ := (I.h .gsqrt jF kl + I.h .gsqrt (jF - 1) kl) / 2

/-- 2679-2681 -/
noncomputable def bsupu1 (jF kl : Int) : ℝ :=
  (I.h .bsupu jF kl * I.h .gsqrt jF kl + I.h .bsupu (jF - 1) kl * I.h .gsqrt (jF - 1) kl) / (2 * I.sqrtg jF kl)
/-- 2682-2684 -/
noncomputable def bsupv1 (jF kl : Int) : ℝ :=
  (I.h .bsupv jF kl * I.h .gsqrt jF kl + I.h .bsupv (jF - 1) kl * I.h .gsqrt (jF - 1) kl) / (2 * I.sqrtg jF kl)
/-- 2688 -/
noncomputable def bsubu1 (jF kl : Int) : ℝ := (I.h .bsubu jF kl + I.h .bsubu (jF - 1) kl) / 2
/-- 2689 -/
noncomputable def bsubv1 (jF kl : Int) : ℝ := (I.h .bsubv jF kl + I.h .bsubv (jF - 1) kl) / 2

/-- 2693-2694 -/
noncomputable def jxb (jF kl : Int) : ℝ := I.ovp jF * (I.ithetaAt jF kl * I.bsupv1 jF kl - I.izetaAt jF kl * I.bsupu1 jF kl)

/-- 2698-2699 -/
noncomputable def bdotkAt (jF kl : Int) : ℝ := I.ithetaAt jF kl * I.bsubu1 jF kl + I.izetaAt jF kl * I.bsubv1 jF kl

/-- 2703 -/
noncomputable def force_residual (jF kl : Int) : ℝ := I.jxb jF kl - I.pprime_ovp jF

/-- `s.wInt[l]` with `l = kl % nThetaEff`, 2601 -/
noncomputable def w (kl : Int) : ℝ := Sizes.wInt I.s (kl.tmod I.s.nThetaEff)

/-- an accumulation over the grid points of a surface, e.g. 2708 -/
noncomputable def average (f : Int → ℝ) : ℝ := forRange 0 I.s.nZnT (fun kl acc => acc + f kl) 0

/-- 2588, 2705 -/
noncomputable def force_residual_max (jF : Int) : ℝ := forRange 0 I.s.nZnT (fun kl acc => max acc (I.force_residual jF kl * I.pnorm jF)) (-I.huge)
/-- 2589, 2706 -/
noncomputable def force_residual_min (jF : Int) : ℝ := forRange 0 I.s.nZnT (fun kl acc => min acc (I.force_residual jF kl * I.pnorm jF)) I.huge

/-- a profile, set for the interior surfaces (2565) -/
noncomputable def prof (v : Int → ℝ) : Int → ℝ := forRange 1 (I.ns - 1) (fun jF a => upd a jF (v jF)) (fun _ => 0)

/-- extrapolation of a profile to the axis and the boundary, 2821-2838 -/
noncomputable def ends (a : Int → ℝ) : Int → ℝ :=
  let a := upd a 0 (2 * a 1 - a 2)
  upd a (I.ns - 1) (2 * a (I.ns - 2) - a (I.ns - 3))

/-- 2725 -/
noncomputable def amaxfor : Int → ℝ := I.prof (fun jF => 100 * min (I.force_residual_max jF) 9.999)
/-- 2726 -/
noncomputable def aminfor : Int → ℝ := I.prof (fun jF => 100 * max (I.force_residual_min jF) (-9.999))
/-- 2708, 2728 -/
noncomputable def avforce : Int → ℝ := I.prof (fun jF => I.average (fun kl => I.force_residual jF kl * I.w kl))
/-- 2709, 2729, 2836-2838 -/
noncomputable def pprim : Int → ℝ := I.ends (I.prof (fun jF => I.average (fun kl => I.pprime_ovp jF * I.w kl)))
/-- 2717, 2731, 2821-2823 -/
noncomputable def jdotb : Int → ℝ := I.ends (I.prof (fun jF => dnorm1 * I.tjnorm jF * I.average (fun kl => I.bdotkAt jF kl * I.w kl)))
/-- 2718, 2732, 2825-2827 -/
noncomputable def bdotb : Int → ℝ := I.ends (I.prof (fun jF => dnorm1 * I.tjnorm jF * I.average (fun kl => I.sqgb2 jF kl * I.w kl)))
/-- 2734-2738, 2829-2831 -/
noncomputable def bdotgradv : Int → ℝ := I.ends (I.prof (fun jF =>
  dnorm1 * I.tjnorm jF * (I.R.profH .phipH jF + I.R.profH .phipH (jF - 1)) / 2))
/-- 2720-2721, 2740 -/
noncomputable def jpar2 : Int → ℝ := I.prof (fun jF =>
  dnorm1 * I.tjnorm jF * I.average (fun kl => I.bdotkAt jF kl * I.bdotkAt jF kl * I.w kl / I.sqgb2 jF kl))
/-- 2722, 2741 -/
noncomputable def jperp2 : Int → ℝ := I.prof (fun jF => dnorm1 * I.tjnorm jF * I.average (fun kl => I.kp2 jF kl * I.sqrtg jF kl * I.w kl))

/-- `itheta` -/
noncomputable def itheta : Int → ℝ := fillGrid 1 (I.ns - 1) I.s.nZnT I.ithetaAt
/-- `izeta`, with the extrapolation 2804-2819, which is the one of `ExtrapolateBSubS` -/
noncomputable def izeta : Int → ℝ := extrapolate I.s I.ns (fillGrid 1 (I.ns - 1) I.s.nZnT I.izetaAt)
/-- `bdotk` -/
noncomputable def bdotk : Int → ℝ := fillGrid 1 (I.ns - 1) I.s.nZnT I.bdotkAt

/-- an array on the interior full-grid surfaces that is only set when `write` holds, 2744-2778 -/
noncomputable def onFull (v : Int → Int → ℝ) : Int → ℝ := if I.write then fillGrid 1 (I.ns - 1) I.s.nZnT v else fun _ => 0
/-- 2755 -/
noncomputable def jsupu3 : Int → ℝ := I.onFull (fun jF kl => I.ovp jF * I.ithetaAt jF kl)
/-- 2756 (`izeta` is extrapolated later and the values read here are those of the interior surface) -/
noncomputable def jsupv3 : Int → ℝ := I.onFull (fun jF kl => I.ovp jF * I.izetaAt jF kl)
/-- 2760 -/
noncomputable def bsupu3 : Int → ℝ := I.onFull I.bsupu1
/-- 2761 -/
noncomputable def bsupv3 : Int → ℝ := I.onFull I.bsupv1
/-- 2765 -/
noncomputable def jcrossb : Int → ℝ := I.onFull I.jxb
/-- 2766 -/
noncomputable def jxb_gradp : Int → ℝ := I.onFull (fun jF kl => I.jxb jF kl - I.pprime_ovp jF)
/-- 2767 -/
noncomputable def jdotb_sqrtg : Int → ℝ := I.onFull (fun jF kl => I.ovp jF * I.bdotkAt jF kl)
/-- 2771 -/
noncomputable def sqrtg3 : Int → ℝ := I.onFull (fun jF kl => I.sqrtg jF kl * I.ovp jF)
/-- 2776 -/
noncomputable def bsubs3 : Int → ℝ := I.onFull (fun jF kl => I.bsubs_full (jF * I.s.nZnT + kl))

/-- an array on all half-grid surfaces but the last, 2786-2800 (`num_half = ns - 1`) -/
noncomputable def onHalf (v : Int → Int → ℝ) : Int → ℝ := if I.write then fillGrid 0 (I.ns - 1 - 1) I.s.nZnT v else fun _ => 0
/-- 2787-2795 -/
noncomputable def jsups3 : Int → ℝ := I.onHalf (fun jH kl =>
  let ovp := 1 / I.R.profH .dVdsH jH / dnorm1
  let bsubuv := I.D.bsubuv (jH * I.s.nZnT + kl)
  let bsubvu := I.D.bsubvu (jH * I.s.nZnT + kl)
  ovp * (bsubuv - bsubvu) / I.mu_0)
/-- 2797 -/
noncomputable def bsubu3 : Int → ℝ := I.onHalf (fun jH kl => I.R.gridH .bsubu (jH * I.s.nZnT + kl))
/-- 2798 -/
noncomputable def bsubv3 : Int → ℝ := I.onHalf (fun jH kl => I.R.gridH .bsubv (jH * I.s.nZnT + kl))

end JxbIn

end Verif.Output
