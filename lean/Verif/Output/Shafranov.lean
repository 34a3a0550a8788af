import Verif.Output.Geometry

/-!
# Model of the Shafranov integrals of the `threed1` file

`vmec/output_quantities/output_quantities.cc:3601-3688` (the sums `musubi`, `rshaf` and the array `phat`) and `4183-4304`
(`ComputeThreed1ShafranovIntegrals`).

Exact reals, conventions of `Geometry.lean`.  Where the code divides by zero the model says `0`; the theorems exclude this.  Array bounds are not modelled.
-/
namespace Verif.Output
open Verif

/-- what the functions read beyond `GeomIn`; `active` is `fc.lfreeb && vacuum_pressure_state == kActive` -/
structure ShafIn extends GeomIn where
  active : Bool
  bSubVVac : ℝ
  vacuum_magnetic_pressure : Int → ℝ
  vacuum_b_phi : Int → ℝ

namespace ShafIn
variable (I : ShafIn)

/-- `btor_vac`, 3620-3621 -/
noncomputable def btor_vac (i : Int) : ℝ := I.rBtor / I.R.gridH .r12 i
/-- `btor1`, 3628-3629 -/
noncomputable def btor1 (i : Int) : ℝ := I.R.gridH .r12 i * I.R.gridH .bsupv i
/-- `dbtor`, 3631-3633 -/
noncomputable def dbtor (i : Int) : ℝ := I.btor1 i * I.btor1 i - I.btor_vac i * I.btor_vac i
/-- `musubi` of the intermediate quantities, 3612 and 3635-3636 -/
noncomputable def musubi0 : ℝ := forRange 0 (I.ns - 1) (fun jH acc => forRange 0 I.s.nZnT (fun kl acc => acc - I.dbtor (jH * I.s.nZnT + kl) * I.tau (jH * I.s.nZnT + kl)) acc) 0
/-- the temporary use of `phat`, 3639-3643 -/
noncomputable def phat0 (i : Int) : ℝ :=
  let p := I.R.gridH .total_pressure i - 1 / 2 * I.btor_vac i * I.btor_vac i
  let p := p - I.dbtor i
  p * I.tau i
/-- `rshaf1`, 3645 -/
noncomputable def rshaf1 : ℝ := I.sumHK I.phat0
/-- `rshaf2`, 3646-3647 -/
noncomputable def rshaf2 : ℝ := I.sumHK (fun i => I.phat0 i / I.R.gridH .r12 i)
/-- `rshaf`, 3651 -/
noncomputable def rshaf : ℝ := I.rshaf1 / I.rshaf2

/-- `redge`, 3658-3663 -/
noncomputable def redge : Int → ℝ := forRange 0 I.s.nZnT (fun kl a => upd a kl (I.rb kl)) (fun _ => 0)
/-- linear extrapolation of a half-grid array to the boundary, 3682-3684 and 4217-4222 -/
noncomputable def toEdge (c : GridH) (kl : Int) : ℝ := 3 / 2 * I.R.gridH c ((I.ns - 2) * I.s.nZnT + kl) - 1 / 2 * I.R.gridH c ((I.ns - 3) * I.s.nZnT + kl)
/-- `phat`, 3664-3686 -/
noncomputable def phat : Int → ℝ :=
  if I.active then
    forRange 0 I.s.nZeta (fun k a => forRange 0 I.s.nThetaEff (fun l a =>
      let idx_kl := k * I.s.nThetaEff + l
      let idx_lk := l * I.s.nZeta + k
      let bsubvvac_r := I.bSubVVac / I.redge idx_kl
      upd a idx_kl (I.vacuum_magnetic_pressure idx_lk - 1 / 2 * bsubvvac_r * bsubvvac_r)) a) (fun _ => 0)
  else
    forRange 0 I.s.nZnT (fun kl a =>
      let btor_edge := I.rBtor / I.redge kl
      upd a kl (I.toEdge .total_pressure kl - 1 / 2 * btor_edge * btor_edge)) (fun _ => 0)
/-- `bpol2vac`, 4199-4228 -/
noncomputable def bpol2vac : Int → ℝ :=
  if I.active then
    forRange 0 I.s.nThetaEff (fun l a => forRange 0 I.s.nZeta (fun k a =>
      let idx_lk := l * I.s.nZeta + k
      let idx_kl := k * I.s.nThetaEff + l
      let bphiv := I.vacuum_b_phi idx_lk
      upd a idx_kl (2 * I.vacuum_magnetic_pressure idx_lk - bphiv * bphiv)) a) (fun _ => 0)
  else
    forRange 0 I.s.nZnT (fun kl a =>
      let btor_lfcs := I.toEdge .bsupv kl * I.redge kl
      upd a kl (2 * I.toEdge .total_pressure kl - btor_lfcs * btor_lfcs)) (fun _ => 0)

/-- `aminr1` of this function, 4234 -/
noncomputable def aminr1' : ℝ := I.volume_p / I.surf_area_p
/-- `factor`, 4236-4242 -/
noncomputable def factor : ℝ := 1 / (4 * Real.pi * Real.pi * I.aminr1' * I.sumKl (fun kl => I.bpol2vac kl * I.surf_area kl))
/-- `facnorm`, 4243 -/
noncomputable def facnorm : ℝ := I.factor * 4 * Real.pi * Real.pi
/-- `scaling_ratio`, 4246-4250 -/
noncomputable def scaling_ratio : ℝ :=
  let t := I.R.currv / I.circum_p
  I.factor * t * t * I.volume_p
/-- `rbps1u`, 4259-4264 -/
noncomputable def rbps1u (kl : Int) : ℝ := I.facnorm * I.redge kl * I.phat kl * I.w kl
/-- `sigr0`, 4266 -/
noncomputable def sigr0 : ℝ := I.sumKl (fun kl => I.rbps1u kl * I.zu0 kl)
/-- `sigr1`, 4267 -/
noncomputable def sigr1 : ℝ := I.sumKl (fun kl => I.rbps1u kl * I.zu0 kl * I.redge kl)
/-- `sigz1`, 4268 -/
noncomputable def sigz1 : ℝ := forRange 0 I.s.nZnT (fun kl acc => acc - I.rbps1u kl * I.ru0 kl * I.zb kl) 0
/-- `er`, 4271 -/
noncomputable def er : ℝ := I.sigr1 + I.sigz1
/-- `r_lao`, 4275-4276 -/
noncomputable def r_lao : ℝ := I.volume_p / (2 * Real.pi * I.cross_area_p)
/-- `smaleli`, 4280 -/
noncomputable def smaleli : ℝ := I.factor * I.sumbpol
/-- `betai`, 4281 -/
noncomputable def betai : ℝ := 2 * I.factor * I.sump
/-- `musubi`, 4282-4283 -/
noncomputable def musubi : ℝ := I.vnorm * I.factor * I.musubi0
/-- `lambda`, 4284 -/
noncomputable def lambda : ℝ := 1 / 2 * I.smaleli + I.betai
/-- `s11`, 4287 -/
noncomputable def s11 : ℝ := I.er - I.rshaf * I.sigr0
/-- `s12`, 4290 -/
noncomputable def s12 : ℝ := I.er - I.rcen * I.sigr0
/-- `s13`, 4293 -/
noncomputable def s13 : ℝ := I.er - I.r_lao * I.sigr0
/-- `s2`, 4294 -/
noncomputable def s2 : ℝ := I.sigr0 * I.rshaf
/-- `s3`, 4297 -/
noncomputable def s3 : ℝ := I.sigz1
/-- `delta2`, 4278 and 4300 -/
noncomputable def delta2 : ℝ := 1 - I.rshaf / I.rcen
/-- `delta3`, 4277 and 4301 -/
noncomputable def delta3 : ℝ := 1 - I.rshaf / I.r_lao

end ShafIn
end Verif.Output
