import Verif.Output.Threed1

/-!
# Model of the geometric and magnetic quantities of the `threed1` file

`vmec/output_quantities/output_quantities.cc:3538-3754` (`ComputeIntermediateThreed1GeometricMagneticQuantities`), `3756-3946`
(`ComputeThreed1GeometricMagneticQuantities`), `4085-4117` (`ComputeThreed1Volumetrics`), `4160-4181` (`ComputeThreed1Betas`).

Exact reals, conventions of `Threed1.lean`; a loop that only adds to several sums is written as one loop per sum.  `DBL_MAX` and the extents of the plasma are
parameters.  Array bounds are modelled for `waist` and `height` only.
-/
namespace Verif.Output
open Verif

/-- what the functions read beyond `TableIn`: members of `handover_storage` and of `jxbout`, and `DBL_MAX` -/
structure GeomIn extends TableIn where
  rBtor : ℝ
  r_00 : ℝ
  r_outer : ℝ
  r_inner : ℝ
  dblMax : ℝ
  jpar2 : Int → ℝ
  jdotb : Int → ℝ
  bdotb : Int → ℝ
  jperp2 : Int → ℝ

namespace GeomIn
variable (I : GeomIn)

/-- `wInt[kl % nThetaEff]` -/
noncomputable def w (kl : Int) : ℝ := Sizes.wInt I.s (kl.tmod I.s.nThetaEff)
/-- a full-grid array at `lcfs_kl = (ns - 1) * nZnT + kl` -/
noncomputable def lcfs (c : GridF) (kl : Int) : ℝ := I.R.gridF c ((I.ns - 1) * I.s.nZnT + kl)
/-- `r`, `rb`, 3568-3569, 3791-3792, 3857-3858 -/
noncomputable def rb (kl : Int) : ℝ := I.lcfs .r_e kl + I.lcfs .r_o kl
/-- `z`, 3859-3860 -/
noncomputable def zb (kl : Int) : ℝ := I.lcfs .z_e kl + I.lcfs .z_o kl
/-- `rv`, 3570-3571 -/
noncomputable def rvb (kl : Int) : ℝ := I.lcfs .rv_e kl + I.lcfs .rv_o kl
/-- `zv`, 3572-3573 -/
noncomputable def zvb (kl : Int) : ℝ := I.lcfs .zv_e kl + I.lcfs .zv_o kl
/-- `zub`, 3793-3794 -/
noncomputable def zub (kl : Int) : ℝ := I.lcfs .zu_e kl + I.lcfs .zu_o kl
/-- `ru0`, 3561 -/
noncomputable def ru0 (kl : Int) : ℝ := I.R.gridO .ruFull ((I.ns - 1) * I.s.nZnT + kl)
/-- `zu0`, 3562 -/
noncomputable def zu0 (kl : Int) : ℝ := I.R.gridO .zuFull ((I.ns - 1) * I.s.nZnT + kl)
/-- `guu_1u`, 3563 -/
noncomputable def guu_1u (kl : Int) : ℝ := I.ru0 kl * I.ru0 kl + I.zu0 kl * I.zu0 kl
/-- a sum over the points of a surface -/
noncomputable def sumKl (f : Int → ℝ) : ℝ := forRange 0 I.s.nZnT (fun kl acc => acc + f kl) 0
/-- a sum over the half-grid surfaces -/
noncomputable def sumH (f : Int → ℝ) : ℝ := forRange 0 (I.ns - 1) (fun jH acc => acc + f jH) 0
/-- a sum over the points of all half-grid surfaces: a loop over `jH` around a loop over `kl` -/
noncomputable def sumHK (f : Int → ℝ) : ℝ := forRange 0 (I.ns - 1) (fun jH acc => forRange 0 I.s.nZnT (fun kl acc => acc + f (jH * I.s.nZnT + kl)) acc) 0

/-- `anorm`, 3550 -/
noncomputable def anorm : ℝ := 2 * Real.pi * I.deltaS
/-- `vnorm`, 3551 -/
noncomputable def vnorm : ℝ := 2 * Real.pi * I.anorm
/-- `circumference_sum`, 3566 -/
noncomputable def circumference_sum : ℝ := I.sumKl (fun kl => Real.sqrt (I.guu_1u kl) * I.w kl)
/-- `surf_area`, 3576-3580 -/
noncomputable def surf_area : Int → ℝ := forRange 0 I.s.nZnT (fun kl a =>
  let rv_zu_minus_zv_ru := I.rvb kl * I.zu0 kl - I.zvb kl * I.ru0 kl
  upd a kl (I.w kl * Real.sqrt (I.rb kl * I.rb kl * I.guu_1u kl + rv_zu_minus_zv_ru * rv_zu_minus_zv_ru))) (fun _ => 0)

/-- `circum_p`, 3777 -/
noncomputable def circum_p : ℝ := 2 * Real.pi * I.circumference_sum
/-- `surf_area_p`, 3779-3783 -/
noncomputable def surf_area_p : ℝ := 4 * Real.pi * Real.pi * I.sumKl I.surf_area
/-- `cross_area_p`, 3795-3800 -/
noncomputable def cross_area_p : ℝ := 2 * Real.pi * |I.sumKl (fun kl => I.rb kl * I.zub kl * I.w kl)|
/-- `volume_p`, 3795-3801 -/
noncomputable def volume_p : ℝ := 2 * Real.pi * Real.pi * |I.sumKl (fun kl => I.rb kl * (I.rb kl * I.zub kl * I.w kl))|
/-- `Rmajor_p`, 3803 -/
noncomputable def Rmajor_p : ℝ := I.volume_p / (2 * Real.pi * I.cross_area_p)
/-- `Aminor_p`, 3804 -/
noncomputable def Aminor_p : ℝ := Real.sqrt (I.cross_area_p / Real.pi)
/-- `aspect`, 3806 -/
noncomputable def aspect : ℝ := I.Rmajor_p / I.Aminor_p
/-- `d_of_kappa`, 3828-3829 -/
noncomputable def d_of_kappa : ℝ := I.surf_area_p * I.Aminor_p / (2 * I.volume_p)
/-- `kappa_p`, 3830-3836 -/
noncomputable def kappa_p : ℝ :=
  let d2 := I.d_of_kappa * I.d_of_kappa
  1 + (Real.pi * Real.pi / 8) * (d2 + Real.sqrt |d2 * d2 - 1| - 1)
/-- `rcen`, 3838-3839 -/
noncomputable def rcen : ℝ := (I.r_outer + I.r_inner) / 2
/-- `aminr1`, 3842-3845 -/
noncomputable def aminr1 : ℝ := Real.sqrt (2 * I.volume_p / (4 * Real.pi * Real.pi * I.r_00))

/-- `rmax_surf`, 3852 and 3861 -/
noncomputable def rmax_surf : ℝ := forRange 0 I.s.nZnT (fun kl acc => max acc (I.rb kl)) 0
/-- `rmin_surf`, 3853 and 3862 -/
noncomputable def rmin_surf : ℝ := forRange 0 I.s.nZnT (fun kl acc => min acc (I.rb kl)) I.dblMax
/-- `zmax_surf`, 3854 and 3863 -/
noncomputable def zmax_surf : ℝ := forRange 0 I.s.nZnT (fun kl acc => max acc (I.zb kl)) 0

/-- `mod_b`, 3877-3879 -/
noncomputable def mod_b (jH kl : Int) : ℝ := Real.sqrt (2 * (I.R.gridH .total_pressure (jH * I.s.nZnT + kl) - I.R.profH .presH jH))
/-- `bmax`, 3867 and 3869-3881 -/
noncomputable def bmax : Int → ℝ :=
  forRange 0 (I.ns - 1) (fun jH a => forRange 0 I.s.nZeta (fun k a => forRange 0 I.s.nThetaReduced (fun l a =>
    upd a (jH * I.s.nThetaReduced + l) (max (a (jH * I.s.nThetaReduced + l)) (I.mod_b jH (k * I.s.nThetaEff + l)))) a) a) (fun _ => 0)
/-- `bmin`, 3866, 3869-3879 and 3882-3883 -/
noncomputable def bmin : Int → ℝ :=
  forRange 0 (I.ns - 1) (fun jH a => forRange 0 I.s.nZeta (fun k a => forRange 0 I.s.nThetaReduced (fun l a =>
    upd a (jH * I.s.nThetaReduced + l) (min (a (jH * I.s.nThetaReduced + l)) (I.mod_b jH (k * I.s.nThetaEff + l)))) a) a) (fun _ => I.dblMax)

/-- one plane of the loop 3898-3925: the value of `waist` -/
noncomputable def waistOf (k : Int) : ℝ :=
  let index_outboard := ((I.ns - 1) * I.s.nZeta + k) * I.s.nThetaEff + 0
  let r_outboard := I.R.gridF .r_e index_outboard + I.R.gridF .r_o index_outboard
  let index_inboard := ((I.ns - 1) * I.s.nZeta + k) * I.s.nThetaReduced + (I.s.nThetaReduced - 1)
  let r_inboard := I.R.gridF .r_e index_inboard + I.R.gridF .r_o index_inboard
  r_outboard - r_inboard
/-- one plane of the loop 3898-3925: the value of `height` -/
noncomputable def heightOf (k : Int) : ℝ :=
  forRange 0 I.s.nThetaEff (fun l acc =>
    let index_zeta := ((I.ns - 1) * I.s.nZeta + k) * I.s.nThetaEff + l
    max acc (I.R.gridF .z_e index_zeta + I.R.gridF .z_o index_zeta)) 0 * 2
/-- `waist` and `height`, 3888-3925: the index of the plane, the planes written so far; writing behind the end of the array is undefined behaviour -/
noncomputable def planes : Outcome (Int × (Int → ℝ) × (Int → ℝ)) :=
  let symmetry_planes_count : Int := if I.s.ntor > 0 then 2 else 1
  forRange 0 (I.s.nZeta.tdiv 2 + 1) (fun k st => do
    let (i, waist, height) ← st
    if k ≠ 0 ∧ k ≠ I.s.nZeta.tdiv 2 then return (i, waist, height)
    if i < symmetry_planes_count then return (i + 1, upd waist i (I.waistOf k), upd height i (I.heightOf k))
    else .ub "waist[symmetry_plane_index]") (.ok (0, fun _ => 0, fun _ => 0))

/-! ### energies -/

/-- `sump`, 3594-3599 -/
noncomputable def sump : ℝ := I.vnorm * I.sumH (fun jH => I.R.profH .dVdsH jH * I.R.profH .presH jH)
/-- `sumbtot`, 3698 and 3709-3710 -/
noncomputable def sumbtot : ℝ := 2 * (I.vnorm * I.sumHK (fun i => I.R.gridH .total_pressure i * I.tau i) - I.sump)
/-- `sumbtor`, 3700-3702 and 3711 -/
noncomputable def sumbtor : ℝ := I.vnorm * I.sumHK (fun i => I.tau i * (I.R.gridH .r12 i * I.R.gridH .bsupv i) * (I.R.gridH .r12 i * I.R.gridH .bsupv i))
/-- `sumbpol`, 3712 -/
noncomputable def sumbpol : ℝ := I.sumbtot - I.sumbtor
/-- `sump2`, 3705-3706 and 3715 -/
noncomputable def sump2 : ℝ := I.vnorm * I.sumH (fun jH => I.R.profH .presH jH * I.R.profH .presH jH * I.R.profH .dVdsH jH)
/-- `toroidal_flux`, 3766-3775 -/
noncomputable def toroidal_flux_p : ℝ := I.anorm * I.sumHK (fun i => I.R.gridH .bsupv i * I.tau i)
/-- `delphid_exact`, 3620-3626 and 3650 -/
noncomputable def delphid_exact : ℝ := I.sumHK (fun i => (I.rBtor / I.R.gridH .r12 i / I.R.gridH .r12 i - I.R.gridH .bsupv i) * I.tau i) * I.anorm
/-- `pavg`, 3847 -/
noncomputable def pavg : ℝ := I.sump / I.volume_p
/-- `betapol`, 3927 -/
noncomputable def betapol : ℝ := 2 * I.sump / I.sumbpol
/-- `betatot`, 3714 and 3928 -/
noncomputable def betatot : ℝ := 2 * I.sump / I.sumbtot
/-- `betator`, 3714 and 3929 -/
noncomputable def betator : ℝ := 2 * I.sump / I.sumbtor
/-- `VolAvgB`, 3930 -/
noncomputable def VolAvgB : ℝ := Real.sqrt |I.sumbtot / I.volume_p|
/-- `betstr`, 4175-4178 -/
noncomputable def betstr : ℝ := 2 * Real.sqrt (I.sump2 / I.volume_p) / (I.sumbtot / I.volume_p)

/-- `jPS2`, 3717-3731 -/
noncomputable def jPS2 : Int → ℝ := forRange 1 (I.ns - 1) (fun jF a => upd a jF (I.jpar2 jF - I.jdotb jF * I.jdotb jF / I.bdotb jF)) (fun _ => 0)
/-- a sum with the weight `two_dVds_full`, 3733-3742 -/
noncomputable def sumF (f : Int → ℝ) : ℝ := forRange 1 (I.ns - 1) (fun jF acc => acc + f jF * (I.R.profH .dVdsH jF + I.R.profH .dVdsH (jF - 1))) 0
/-- `jpar_perp`, 3935-3941; the test `s2 != 0` -/
noncomputable def jpar_perp : ℝ := if I.sumF I.jperp2 ≠ 0 then I.sumF I.jpar2 / I.sumF I.jperp2 else I.sumF I.jpar2
/-- `jparPS_perp`, 3935-3941 -/
noncomputable def jparPS_perp : ℝ := if I.sumF I.jperp2 ≠ 0 then I.sumF I.jPS2 / I.sumF I.jperp2 else I.sumF I.jPS2

/-- `int_modb`, `int_btor`, `int_bpol`, `int_p`, 4088-4110; `mu_0` is `MU_0` -/
noncomputable def int_modb : ℝ := 1 / 2 / I.mu_0 * I.sumbtot
noncomputable def int_btor : ℝ := 1 / 2 / I.mu_0 * I.sumbtor
noncomputable def int_bpol : ℝ := 1 / 2 / I.mu_0 * I.sumbpol
noncomputable def int_p : ℝ := I.sump / I.mu_0
/-- `int_ekin`, 4113 -/
noncomputable def int_ekin : ℝ := 3 / 2 * I.sump / I.mu_0

end GeomIn
end Verif.Output
