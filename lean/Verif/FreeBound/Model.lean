import Verif.Constraint.PropsB
import Verif.Nestor.PropsF
import Verif.Control.Model
import Verif.Coils.Model

/-!
# Model of the coupling between plasma and vacuum at the boundary, `vmec/ideal_mhd_model/ideal_mhd_model.cc`

Exact real numbers for `double`, except in the two checks after NESTOR, where `double` is `D` (NaN and infinities). Array bounds are modelled only
for the read of the last but one half-grid surface.
-/
namespace Verif.FreeBound
open Verif Partition Transform Control

/-! ## Handing the geometry to NESTOR -/

/-- `FourierGeometry` has storage for this array, `fourier_coefficients.cc`; the same conditions guard the copies in `:66-83` -/
def present (s : Sizes.Sizes) : Nestor.Coef → Bool
  | .rCC => true
  | .zSC => true
  | .rSS => s.lthreed
  | .zCS => s.lthreed
  | .rSC => s.lasym
  | .zCC => s.lasym
  | .rCS => s.lasym && s.lthreed
  | .zSS => s.lasym && s.lthreed

/-- one pass of the loops of `HandOverBoundaryGeometry`, `:55-75`; `x` are the arrays `rmncc`, ... of `physical_x`, keyed with the names of the
    targets `rCC_LCFS`, ... -/
noncomputable def handOne (s : Sizes.Sizes) (x : Nestor.Coef → Int → ℝ) (offset m n : Int) (h : Nestor.Coef → Int → ℝ) : Nestor.Coef → Int → ℝ :=
  let ntorp1 := s.ntor + 1
  let idx_mn := m * ntorp1 + n
  let idx_nm := n * s.mpol + m
  let h := put h .rCC idx_nm (x .rCC (offset + idx_mn))
  let h := put h .zSC idx_nm (x .zSC (offset + idx_mn))
  let h := if s.lthreed then
      let h := put h .rSS idx_nm (x .rSS (offset + idx_mn))
      put h .zCS idx_nm (x .zCS (offset + idx_mn))
    else h
  if s.lasym then
    let h := put h .rSC idx_nm (x .rSC (offset + idx_mn))
    let h := put h .zCC idx_nm (x .zCC (offset + idx_mn))
    if s.lthreed then
      let h := put h .rCS idx_nm (x .rCS (offset + idx_mn))
      put h .zSS idx_nm (x .zSS (offset + idx_mn))
    else h
  else h

/-- `HandOverBoundaryGeometry`, `ideal_mhd_model.cc:48-77`; `h` is what the arrays of `HandoverStorage` held -/
noncomputable def handOver (s : Sizes.Sizes) (x : Nestor.Coef → Int → ℝ) (offset : Int) (h : Nestor.Coef → Int → ℝ) : Nestor.Coef → Int → ℝ :=
  forRange 0 s.mpol (fun m h => forRange 0 (s.ntor + 1) (fun n h => handOne s x offset m n h) h) h

/-- the offset of the call, `ideal_mhd_model.cc:797-802` -/
def lcfsOffset (s : Sizes.Sizes) (r : Ranges) : Int := (r.nsMaxF1 - 1 - r.nsMinF1) * s.mnsize

/-- the call with its guard, `ideal_mhd_model.cc:797-803` -/
noncomputable def handOverCall (c : Ctx) (x : Nestor.Coef → Int → ℝ) (h : Nestor.Coef → Int → ℝ) : Nestor.Coef → Int → ℝ :=
  if c.r.nsMaxF1 = c.ns then handOver c.s x (lcfsOffset c.s c.r) h else h

/-- `HandOverMagneticAxis`, `ideal_mhd_model.cc:79-88`, for `rAxis` (`e` is `r1_e`) or `zAxis` (`z1_e`) -/
noncomputable def handOverAxis (s : Sizes.Sizes) (e h : Int → ℝ) : Int → ℝ :=
  forRange 0 s.nZeta (fun k h => upd h k (e (k * s.nThetaEff))) h

/-! ## The checks after NESTOR -/

/-- `a - b` -/
def sub (a b : D) : D := a.add (match b with | .nan => .nan | .ninf => .pinf | .pinf => .ninf | .fin q => .fin (-q))

/-- `fabs` -/
def abs : D → D
  | .nan => .nan
  | .ninf => .pinf
  | .pinf => .pinf
  | .fin q => .fin |q|

/-- outcome of the checks -/
inductive Verdict | wrongSign | currentMismatch | pass
  deriving DecidableEq

/-- `ideal_mhd_model.cc:893-909` -/
def check (rBtor bSubVVac cTor bSubUVac : D) : Verdict :=
  if (rBtor.mul bSubVVac).lt (.fin 0) then .wrongSign
  else if D.lt (.fin (1 / 100)) (abs (Coils.div (sub cTor bSubUVac) rBtor)) then .currentMismatch
  else .pass

/-! ## The pressure on the boundary -/

/-- `edgePressure`, `ideal_mhd_model.cc:923-929`; `mass` is `evalMassProfile` -/
noncomputable def edgePressure (c : Ctx) (mass : ℝ → ℝ) (presH : Int → ℝ) : ℝ :=
  let p := mass ((c.ns - 3 / 2) / (c.ns - 1))
  if p ≠ 0 then mass 1 / p * presH (c.r.nsMaxH - 1 - c.r.nsMinH) else p

/-- `rBSq`, `insideTotalPressure`, `delBSq` -/
structure Edge where
  rBSq : Int → ℝ
  inside : Int → ℝ
  delBSq : Int → ℝ

/-- what the loop reads: `vacuum_magnetic_pressure`, `totalPressure`, `presH`, `evalMassProfile`, `r1_e`, `r1_o`, `deltaS` -/
structure EdgeIn where
  vac : Int → ℝ
  total : Int → ℝ
  presH : Int → ℝ
  mass : ℝ → ℝ
  r1e : Int → ℝ
  r1o : Int → ℝ
  deltaS : ℝ

/-- `outsideEdgePressure`, `ideal_mhd_model.cc:942-946` -/
noncomputable def outside (c : Ctx) (q : EdgeIn) (kl : Int) : ℝ :=
  let k := kl.tdiv c.s.nThetaEff
  let l := kl.tmod c.s.nThetaEff
  let idx_lk := l * c.s.nZeta + k
  q.vac idx_lk + edgePressure c q.mass q.presH

/-- one pass, `ideal_mhd_model.cc:931-955`; the read of `totalPressure` on the last but one half-grid surface is undefined if the thread has no
    such surface -/
noncomputable def edgeOne (c : Ctx) (q : EdgeIn) (kl : Int) (a : Edge) : Outcome Edge :=
  if (c.r.nsMaxH - 2 - c.r.nsMinH) * c.s.nZnT + kl < 0 then .ub "totalPressure[nsMaxH - 2]" else
  let inside := upd a.inside kl (3 / 2 * q.total ((c.r.nsMaxH - 1 - c.r.nsMinH) * c.s.nZnT + kl)
    - 1 / 2 * q.total ((c.r.nsMaxH - 2 - c.r.nsMinH) * c.s.nZnT + kl))
  let idx_kl := (c.r.nsMaxF1 - 1 - c.r.nsMinF1) * c.s.nZnT + kl
  .ok { inside
        rBSq := upd a.rBSq kl (outside c q kl * (q.r1e idx_kl + q.r1o idx_kl) / q.deltaS)
        delBSq := upd a.delBSq kl |outside c q kl - inside kl| }

/-- `ideal_mhd_model.cc:919-955` with its guard -/
noncomputable def edge (c : Ctx) (q : EdgeIn) (a : Edge) : Outcome Edge :=
  if c.r.nsMaxF1 = c.ns then forRangeM 0 c.s.nZnT (edgeOne c q) a else .ok a

/-- `get_delbsq`, `ideal_mhd_model.cc:3236-3249` -/
noncomputable def delbsq (c : Ctx) (state : VacState) (a : Edge) : ℝ :=
  if c.lfreeb ∧ state = .active then
    let p := forRange 0 c.s.nZnT (fun kl (p : ℝ × ℝ) =>
      let l := kl.tmod c.s.nThetaEff
      (p.1 + a.delBSq kl * Sizes.wInt c.s l, p.2 + a.inside kl * Sizes.wInt c.s l)) (0, 0)
    p.1 / p.2
  else 0

/-! ## The force on the boundary -/

/-- one pass of the loop in `assembleTotalForces`, `ideal_mhd_model.cc:2515-2522`; arrays `armn_e`, ... keyed with the parity -/
noncomputable def forceOne (c : Ctx) (ruFull zuFull rBSq : Int → ℝ) (kl : Int) (d : FArr × Bool → Int → ℝ) : FArr × Bool → Int → ℝ :=
  let i := (c.r.nsMaxF - 1 - c.r.nsMinF) * c.s.nZnT + kl
  let d := addTo d (.armn, true) i (zuFull i * rBSq kl)
  let d := addTo d (.armn, false) i (zuFull i * rBSq kl)
  let d := addTo d (.azmn, true) i (-(ruFull i * rBSq kl))
  addTo d (.azmn, false) i (-(ruFull i * rBSq kl))

/-- free-boundary part of `assembleTotalForces`, `ideal_mhd_model.cc:2509-2524`; `Ctx.vacuum` is "state `kInitialized` or `kActive`" -/
noncomputable def edgeForce (c : Ctx) (ruFull zuFull rBSq : Int → ℝ) (d : FArr × Bool → Int → ℝ) : FArr × Bool → Int → ℝ :=
  if c.lfreeb ∧ c.vacuum ∧ c.r.nsMaxF1 = c.ns then forRange 0 c.s.nZnT (forceOne c ruFull zuFull rBSq) d else d

/-! ## The reference of the constraint force -/

/-- `rCon`, `zCon` -/
inductive RZ | r | z
  deriving DecidableEq

/-- step 1 of `rzConIntoVolume`, `ideal_mhd_model.cc:1610-1621`, for one thread -/
noncomputable def conShare (c : Ctx) (con : RZ → Int → ℝ) (h : RZ → Int → ℝ) : RZ → Int → ℝ :=
  if c.r.nsMaxF1 = c.ns then
    forRange 0 c.s.nZnT (fun kl h =>
      let lcfs_kl := (c.ns - 1 - c.r.nsMinF) * c.s.nZnT + kl
      let h := put h .r kl (con .r lcfs_kl)
      put h .z kl (con .z lcfs_kl)) h
  else h

/-- step 2, `:1628-1636`, for one thread -/
noncomputable def conSpread (c : Ctx) (h : RZ → Int → ℝ) (con0 : RZ → Int → ℝ) : RZ → Int → ℝ :=
  forRange (max 1 c.r.nsMinF) c.r.nsMaxFIncludingLcfs (fun jF con0 =>
    let sFull := c.sqrtSF (jF - c.r.nsMinF1) * c.sqrtSF (jF - c.r.nsMinF1)
    forRange 0 c.s.nZnT (fun kl con0 =>
      let idx_kl := (jF - c.r.nsMinF) * c.s.nZnT + kl
      let con0 := put con0 .r idx_kl (h .r kl * sFull)
      put con0 .z idx_kl (h .z kl * sFull)) con0) con0

/-- `rzConIntoVolume` of all threads: the first steps in the order `L`, the barrier, then the second steps -/
noncomputable def rzConIntoVolume (T : Int → Ctx) (L : List Int) (con con0 : Int → RZ → Int → ℝ) (h : RZ → Int → ℝ) : Int → RZ → Int → ℝ :=
  let h := L.foldl (fun h t => conShare (T t) (con t) h) h
  fun t => conSpread (T t) h (con0 t)

/-- the decay in `update`, `ideal_mhd_model.cc:783-795`, for one thread; executed in every evaluation with a vacuum state other than `kOff` -/
noncomputable def conDecay (c : Ctx) (con0 : RZ → Int → ℝ) : RZ → Int → ℝ :=
  forRange c.r.nsMinF c.r.nsMaxF (fun jF con0 =>
    forRange 0 c.s.nZnT (fun kl con0 =>
      let idx_kl := (jF - c.r.nsMinF) * c.s.nZnT + kl
      let con0 := put con0 .r idx_kl (con0 .r idx_kl * (9 / 10))
      put con0 .z idx_kl (con0 .z idx_kl * (9 / 10))) con0) con0

end Verif.FreeBound
