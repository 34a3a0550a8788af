import Verif.Profiles.Model
import Verif.Partition.Model

/-!
# Model of the initial radial profile arrays of the solver

`evalRadialProfiles` of `cpp/vmecpp/vmec/radial_profiles/radial_profiles.cc` and the loop over the threads that
calls it, `vmec/vmec/vmec.cc:692-699`. Numbers are reals. The three profile functions (modelled one by one in
`Profiles.Model`) are parameters here: functions of the normalised toroidal flux that return a number.
-/
namespace Verif.Profiles
open Verif Verif.Partition

/-- what `evalRadialProfiles` reads. `massP`, `iotaP`, `currP` are `evalMassProfile`, `evalIotaProfile`,
    `evalCurrProfile`; `mu0` is `MU_0` (`common/util/util.h:189`), `eps` is `DBL_EPSILON`, `pDamp` is `kPDamp`
    (`vmec.h:109`), `r00` is `id_.rbc(0, id_.ntor)` -/
structure RadialIn where
  ns : Int
  aphi : RVec
  phiedge : ℝ
  signOfJacobian : ℝ
  massP : ℝ → ℝ
  iotaP : ℝ → ℝ
  currP : ℝ → ℝ
  curtor : ℝ
  r00 : ℝ
  spres_ped : ℝ
  gamma : ℝ
  pDamp : ℝ
  mu0 : ℝ
  eps : ℝ

namespace RadialIn
variable (I : RadialIn)

/-- `polfluxDeriv`, `radial_profiles.cc:492-502` -/
noncomputable def polfluxDeriv (x : ℝ) : ℝ :=
  let tf := min (torflux I.aphi x) 1
  let iota := I.iotaP tf
  iota * torfluxDeriv I.aphi x

/-- `polflux`, `radial_profiles.cc:511-527` -/
noncomputable def polflux (x : ℝ) : ℝ :=
  let delta_x := x / 100
  forRange 0 101 (fun i acc =>
    let contribution := I.polfluxDeriv (i * delta_x)
    if i = 0 ∨ i = 100 then acc + 0.5 * contribution else acc + contribution) 0 * delta_x

open Classical in
/-- `maxPoloidalFlux`, `radial_profiles.cc:447-454` -/
noncomputable def maxPoloidalFlux : ℝ :=
  let f := maxToroidalFlux I.aphi I.signOfJacobian I.phiedge
  let edge := I.polflux 1
  if edge ≠ 0 then f / edge else f

/-- `Itor`, `radial_profiles.cc:1137-1148` -/
noncomputable def Itor : ℝ :=
  let currv := I.mu0 * I.curtor
  let edgeCurrent := I.currP 1
  if |edgeCurrent| > |I.eps * I.curtor| then I.signOfJacobian * currv / (2 * Real.pi * edgeCurrent) else 0
end RadialIn

/-- the arrays of `RadialProfiles` that the function writes (local indices), and the running sum `local_rmsPhiP` -/
structure RadialArrays where
  sqrtSH : Int → ℝ
  phipH : Int → ℝ
  chipH : Int → ℝ
  iotaH : Int → ℝ
  currH : Int → ℝ
  massH : Int → ℝ
  sqrtSF : Int → ℝ
  phipF : Int → ℝ
  chipF : Int → ℝ
  iotaF : Int → ℝ
  radialBlending : Int → ℝ
  scalxc : Int → ℝ
  sm : Int → ℝ
  sp : Int → ℝ
  local_rmsPhiP : ℝ

variable (I : RadialIn) (r : Ranges) (flip : Bool)

/-- body of the half-grid loop, `radial_profiles.cc:1153-1199` -/
noncomputable def halfBody (jH : Int) (s : RadialArrays) : RadialArrays :=
  let maxFlux := maxToroidalFlux I.aphi I.signOfJacobian I.phiedge
  let halfGridPos : ℝ := (jH + 0.5) / (I.ns - 1)
  let k := jH - r.nsMinH
  let phip := maxFlux * torfluxDeriv I.aphi halfGridPos
  let chip := maxFlux * I.polfluxDeriv halfGridPos
  let toroidalFlux := min (torflux I.aphi halfGridPos) 1
  let iota := I.iotaP toroidalFlux
  let curr := I.currP toroidalFlux
  let vpnorm := maxFlux * torfluxDeriv I.aphi halfGridPos
  let massEvalPos := min halfGridPos I.spres_ped
  let massEvalTorFlux := min (torflux I.aphi massEvalPos) 1
  let mass := I.massP massEvalTorFlux
  { s with
    sqrtSH := upd s.sqrtSH k (Real.sqrt halfGridPos)
    phipH := upd s.phipH k phip
    chipH := upd s.chipH k (if flip then chip * -1 else chip)
    iotaH := upd s.iotaH k (if flip then iota * -1 else iota)
    currH := upd s.currH k (curr * I.Itor)
    massH := upd s.massH k (mass * (|vpnorm| * I.r00) ^ I.gamma)
    local_rmsPhiP := if jH < r.nsMaxH - 1 ∨ jH = I.ns - 2 then s.local_rmsPhiP + phip * phip else s.local_rmsPhiP }

/-- body of the full-grid loop, `radial_profiles.cc:1208-1232`; `kEvenParity` is 0, `kOddParity` is 1
    (`vmec_algorithm_constants.h`) -/
noncomputable def fullBody (jF1 : Int) (s : RadialArrays) : RadialArrays :=
  let maxFlux := maxToroidalFlux I.aphi I.signOfJacobian I.phiedge
  let sqrtS1 : ℝ := Real.sqrt (1 / (I.ns - 1))
  let fullGridPos : ℝ := jF1 / (I.ns - 1)
  let k := jF1 - r.nsMinF1
  let sq := Real.sqrt fullGridPos
  { s with
    sqrtSF := upd s.sqrtSF k sq
    phipF := upd s.phipF k (maxFlux * torfluxDeriv I.aphi fullGridPos)
    chipF := upd s.chipF k (maxFlux * I.polfluxDeriv fullGridPos)
    iotaF := upd s.iotaF k (I.iotaP (min (torflux I.aphi fullGridPos) 1))
    radialBlending := upd s.radialBlending k (2 * I.pDamp * (1 - fullGridPos))
    scalxc := upd (upd s.scalxc (k * 2 + 0) 1) (k * 2 + 1) (1 / max sq sqrtS1) }

/-- `radial_profiles.cc:1235-1237` -/
noncomputable def edgeFix (s : RadialArrays) : RadialArrays :=
  if r.nsMaxF1 = I.ns then { s with sqrtSF := upd s.sqrtSF (I.ns - 1 - r.nsMinF1) 1 } else s

/-- body of the last loop, `radial_profiles.cc:1239-1246` -/
noncomputable def stagBody (jH : Int) (s : RadialArrays) : RadialArrays :=
  let jFi := jH
  let jFo := jH + 1
  { s with
    sm := upd s.sm (jH - r.nsMinH) (s.sqrtSH (jH - r.nsMinH) / s.sqrtSF (jFo - r.nsMinF1))
    sp := if jH > 0 then upd s.sp (jH - r.nsMinH) (s.sqrtSH (jH - r.nsMinH) / s.sqrtSF (jFi - r.nsMinF1)) else s.sp }

/-- `radial_profiles.cc:1247-1250` -/
noncomputable def axisFix (s : RadialArrays) : RadialArrays :=
  if r.nsMinH = 0 then { s with sp := upd s.sp 0 (s.sm 0) } else s

/-- `RadialProfiles::evalRadialProfiles`, `radial_profiles.cc:1129-1251`, without the addition to `rmsPhiP` -/
noncomputable def evalArrays (s : RadialArrays) : RadialArrays :=
  let s := forRange r.nsMinH r.nsMaxH (halfBody I r flip) { s with local_rmsPhiP := 0 }
  let s := forRange r.nsMinF1 r.nsMaxF1 (fullBody I r) s
  let s := edgeFix I r s
  let s := forRange r.nsMinH r.nsMaxH (stagBody r) s
  axisFix r s

/-- the objects of the solver: the arrays of every thread and the two members of `VmecConstants` -/
structure Solver where
  p : Int → RadialArrays
  rmsPhiP : ℝ
  lamscale : ℝ

/-- `evalRadialProfiles` of one thread, with `m_vmecconst.rmsPhiP += local_rmsPhiP`, 1202-1203 -/
noncomputable def evalRadialProfiles (R : Int → Ranges) (t : Int) (v : Solver) : Solver :=
  let a := evalArrays I (R t) flip (v.p t)
  { v with p := upd v.p t a, rmsPhiP := v.rmsPhiP + a.local_rmsPhiP }

/-- `VmecConstants::reset`, `vmec_constants.cc:9-12` -/
noncomputable def resetConstants (v : Solver) : Solver := { v with rmsPhiP := 0, lamscale := 0 }

/-- the part of `Vmec::InitializeRadial` that fills the profiles, `vmec.cc:692-699`; `deltaS` is `1 / (ns - 1)`, 551 -/
noncomputable def initProfiles (nt : Int) (R : Int → Ranges) (v : Solver) : Solver :=
  let v := forRange 0 nt (evalRadialProfiles I flip R) v
  { v with lamscale := Real.sqrt (v.rmsPhiP * (1 / (I.ns - 1))) }

end Verif.Profiles
