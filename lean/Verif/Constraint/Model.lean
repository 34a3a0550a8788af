import Verif.Asym.Model
import Verif.Common.Fam

/-!
# Model of the constraint force, `ideal_mhd_model.cc` and `constraint_force_kernel.h`

Exact real numbers for `double`; arrays are functions of the flat index of the code, array bounds are not modelled here.
The context is that of the transforms (`Transform/Model.lean`).
-/
namespace Verif.Constraint
open Verif Verif.Fourier Partition Transform

/-- `xmpq`, `ideal_mhd_model.cc:299-300` -/
def xmpqOf (m : Int) : ℝ := (m * (m - 1) : Int)

/-- `faccon`, `ideal_mhd_model.cc:298-304`: zero, then the entries 1 ≤ m < mpol - 1 -/
noncomputable def facconOf (mpol : Int) (signOfJacobian : ℝ) : Int → ℝ :=
  forRange 0 mpol (fun m f =>
    if m > 1 then upd f (m - 1) (-0.25 * signOfJacobian / (xmpqOf m * xmpqOf m)) else f) fun _ => 0

variable (c : Ctx)

/-- `ruFull` or `zuFull`, `ideal_mhd_model.cc:1138-1167`: even plus √s times odd, on the surfaces of the thread with the
    boundary; `e` and `o` are `ru_e`, `ru_o` or `zu_e`, `zu_o` -/
noncomputable def fullOf (e o : Int → ℝ) (g : Int → ℝ) : Int → ℝ :=
  forRange c.r.nsMinF c.r.nsMaxFIncludingLcfs (fun jF g =>
    forRange 0 c.s.nZnT (fun kl g =>
      upd g ((jF - c.r.nsMinF) * c.s.nZnT + kl)
        (e ((jF - c.r.nsMinF1) * c.s.nZnT + kl) + c.sqrtSF (jF - c.r.nsMinF1) * o ((jF - c.r.nsMinF1) * c.s.nZnT + kl))) g) g

/-- what the constraint kernels read, all indexed from `nsMinF` -/
structure Con where
  rCon : Int → ℝ
  rCon0 : Int → ℝ
  zCon : Int → ℝ
  zCon0 : Int → ℝ
  ruFull : Int → ℝ
  zuFull : Int → ℝ

/-- the arrays of a thread after `geometryFromFourier`: `g` is the result of the transforms, `r0`, `z0` are `rCon0`, `zCon0`,
    and `u`, `v` what `ruFull`, `zuFull` held before -/
noncomputable def conOf (g : Arr → Int → ℝ) (r0 z0 u v : Int → ℝ) : Con where
  rCon := g .rCon
  rCon0 := r0
  zCon := g .zCon
  zCon0 := z0
  ruFull := fullOf c (g (.geo .ru true)) (g (.geo .ru false)) u
  zuFull := fullOf c (g (.geo .zu true)) (g (.geo .zu false)) v

/-- first surface with a constraint, `constraint_force_kernel.h:26-30` and `ideal_mhd_model.cc:117-123` -/
def jFirst : Int := max (if c.r.nsMinF = 0 then 1 else 0) c.r.nsMinF

/-- `ComputeEffectiveConstraintForce`, `constraint_force_kernel.h:21-38`; `g` is what `gConEff` held -/
noncomputable def effective (q : Con) (g : Int → ℝ) : Int → ℝ :=
  forRange (jFirst c) c.r.nsMaxFIncludingLcfs (fun jF g =>
    forRange 0 c.s.nZnT (fun kl g =>
      let i := (jF - c.r.nsMinF) * c.s.nZnT + kl
      upd g i ((q.rCon i - q.rCon0 i) * q.ruFull i + (q.zCon i - q.zCon0 i) * q.zuFull i)) g) g

/-! ## `deAliasConstraintForce`, `ideal_mhd_model.cc:93-254` -/

/-- toroidal coefficients of one poloidal mode: the work arrays `gsc`, `gcs`, `gcc`, `gss` -/
inductive Four | gsc | gcs | gcc | gss
  deriving DecidableEq

/-- the force on the grid and its antisymmetric part on one surface -/
inductive Out | gCon | gcona
  deriving DecidableEq

/-- scalar product of two segments -/
noncomputable def dot (n : Int) (a b : Int → ℝ) : ℝ := forRange 0 n (fun i s => s + a i * b i) 0

/-- `absl::c_fill_n(a, n, 0)` -/
noncomputable def fillFirst (n : Int) (a : Int → ℝ) : Int → ℝ := fun i => if 0 ≤ i ∧ i < n then 0 else a i

/-- `lRev = (nThetaEven - l) % nThetaEven`, `ideal_mhd_model.cc:167` -/
def lRev (l : Int) : Int := (c.s.nThetaEven - l).tmod c.s.nThetaEven

/-- body of the first loop over `k`, `ideal_mhd_model.cc:133-183`: the coefficients of mode `m`. The work array `refl` is
    filled before it is read and is left out. -/
noncomputable def analyse (tc : ℝ) (g : Int → ℝ) (jF m k : Int) (a : Four → Int → ℝ) : Four → Int → ℝ :=
  let base := ((jF - c.r.nsMinF) * c.s.nZeta + k) * c.s.nThetaEff
  let w0 := dot c.s.nThetaReduced (fun l => g (base + l)) fun l => (polAt c m l).sinmui
  let w1 := dot c.s.nThetaReduced (fun l => g (base + l)) fun l => (polAt c m l).cosmui
  if c.s.lasym = false then
    forRange 0 (c.s.ntor + 1) (fun n a =>
      let a := addTo a .gsc n ((torAt c k n).cosnv * w0 * tc)
      addTo a .gcs n ((torAt c k n).sinnv * w1 * tc)) a
  else
    let rbase := ((jF - c.r.nsMinF) * c.s.nZeta + Asym.kRev c k) * c.s.nThetaEff
    let w3 := dot c.s.nThetaReduced (fun l => g (rbase + lRev c l)) fun l => (polAt c m l).cosmui
    let w4 := dot c.s.nThetaReduced (fun l => g (rbase + lRev c l)) fun l => (polAt c m l).sinmui
    forRange 0 (c.s.ntor + 1) (fun n a =>
      let a := addTo a .gcs n (0.5 * tc * (torAt c k n).sinnv * (w1 - w3))
      let a := addTo a .gsc n (0.5 * tc * (torAt c k n).cosnv * (w0 - w4))
      let a := addTo a .gss n (0.5 * tc * (torAt c k n).sinnv * (w0 + w4))
      addTo a .gcc n (0.5 * tc * (torAt c k n).cosnv * (w1 + w3))) a

/-- body of the second loop over `k`, `ideal_mhd_model.cc:191-230` -/
noncomputable def synthesise (faccon : Int → ℝ) (jF m k : Int) (a : Four → Int → ℝ) (o : Out → Int → ℝ) : Out → Int → ℝ :=
  let w0 := dot (c.s.ntor + 1) (a .gsc) fun n => (torAt c k n).cosnv
  let w1 := dot (c.s.ntor + 1) (a .gcs) fun n => (torAt c k n).sinnv
  let a0 := if c.s.lasym then dot (c.s.ntor + 1) (a .gcc) fun n => (torAt c k n).cosnv else 0
  let a1 := if c.s.lasym then dot (c.s.ntor + 1) (a .gss) fun n => (torAt c k n).sinnv else 0
  forRange 0 c.s.nThetaReduced (fun l o =>
    let o := addTo o .gCon (((jF - c.r.nsMinF) * c.s.nZeta + k) * c.s.nThetaEff + l)
      (faccon m * (w0 * (polAt c m l).sinmu + w1 * (polAt c m l).cosmu))
    if c.s.lasym then
      addTo o .gcona (k * c.s.nThetaEff + l) (faccon m * (a0 * (polAt c m l).cosmu + a1 * (polAt c m l).sinmu))
    else o) o

/-- one poloidal mode, `ideal_mhd_model.cc:126-231`: work arrays and forces -/
noncomputable def modeStep (faccon : Int → ℝ) (tc : ℝ) (g : Int → ℝ) (jF m : Int) (st : (Four → Int → ℝ) × (Out → Int → ℝ)) :
    (Four → Int → ℝ) × (Out → Int → ℝ) :=
  let a : Four → Int → ℝ := fun f => match f with
    | .gsc => fillFirst (c.s.ntor + 1) (st.1 .gsc)
    | .gcs => fillFirst (c.s.ntor + 1) (st.1 .gcs)
    | .gcc => if c.s.lasym then fillFirst (c.s.ntor + 1) (st.1 .gcc) else st.1 .gcc
    | .gss => if c.s.lasym then fillFirst (c.s.ntor + 1) (st.1 .gss) else st.1 .gss
  let a := forRange 0 c.s.nZeta (fun k a => analyse c tc g jF m k a) a
  (a, forRange 0 c.s.nZeta (fun k o => synthesise c faccon jF m k a o) st.2)

/-- extension of the force to the full interval, `ideal_mhd_model.cc:233-251` -/
noncomputable def extend (base : Int) (gcona : Int → ℝ) (g : Int → ℝ) : Int → ℝ :=
  let g := forRange 0 c.s.nZeta (fun k g =>
    forRange c.s.nThetaReduced c.s.nThetaEven (fun l g =>
      let w := Asym.kRev c k * c.s.nThetaEff + (c.s.nThetaEven - l)
      upd g (base + k * c.s.nThetaEff + l) (-g (base + w) + gcona w)) g) g
  forRange 0 c.s.nZeta (fun k g =>
    forRange 0 c.s.nThetaReduced (fun l g =>
      let w := k * c.s.nThetaEff + l
      upd g (base + w) (g (base + w) + gcona w)) g) g

/-- one surface, `ideal_mhd_model.cc:123-252` -/
noncomputable def surface (faccon tcon : Int → ℝ) (g : Int → ℝ) (jF : Int) (st : (Four → Int → ℝ) × (Out → Int → ℝ)) :
    (Four → Int → ℝ) × (Out → Int → ℝ) :=
  let o : Out → Int → ℝ := if c.s.lasym then fun a => match a with
    | .gCon => st.2 .gCon
    | .gcona => fillFirst c.s.nZnT (st.2 .gcona) else st.2
  let st := forRange 1 (c.s.mpol - 1) (fun m st => modeStep c faccon (tcon (jF - c.r.nsMinF)) g jF m st) (st.1, o)
  if c.s.lasym then
    (st.1, fun a => match a with
      | .gCon => extend c ((jF - c.r.nsMinF) * c.s.nZnT) (st.2 .gcona) (st.2 .gCon)
      | .gcona => st.2 .gcona)
  else st

/-- `deAliasConstraintForce`, `ideal_mhd_model.cc:93-254`: the new `gCon`; `st` are the contents of the work arrays and of
    `gCon` before the call -/
noncomputable def deAlias (faccon tcon : Int → ℝ) (g : Int → ℝ) (st : (Four → Int → ℝ) × (Out → Int → ℝ)) : Int → ℝ :=
  let o : Out → Int → ℝ := fun a => match a with
    | .gCon => fillFirst ((c.r.nsMaxF - c.r.nsMinF) * c.s.nZnT) (st.2 .gCon)
    | .gcona => st.2 .gcona
  (forRange (jFirst c) c.r.nsMaxF (fun jF st => surface c faccon tcon g jF st) (st.1, o)).2 .gCon

/-- one point of `AddConstraintForces`, `constraint_force_kernel.h:50-65` -/
noncomputable def addPoint (q : Con) (gCon : Int → ℝ) (jF kl : Int) (d : FArr → Bool → Int → ℝ) : FArr → Bool → Int → ℝ :=
  let i := (jF - c.r.nsMinF) * c.s.nZnT + kl
  let sq := c.sqrtSF (jF - c.r.nsMinF1)
  let brcon := (q.rCon i - q.rCon0 i) * gCon i
  let bzcon := (q.zCon i - q.zCon0 i) * gCon i
  fun a e i' => if i' = i then
      match a, e with
      | .brmn, true => d .brmn true i + brcon
      | .bzmn, true => d .bzmn true i + bzcon
      | .brmn, false => d .brmn false i + brcon * sq
      | .bzmn, false => d .bzmn false i + bzcon * sq
      | .frcon, true => q.ruFull i * gCon i
      | .fzcon, true => q.zuFull i * gCon i
      | .frcon, false => q.ruFull i * gCon i * sq
      | .fzcon, false => q.zuFull i * gCon i * sq
      | a, e => d a e i
    else d a e i'

/-- `AddConstraintForces`, `constraint_force_kernel.h:42-68`: all force arrays -/
noncomputable def addConstraint (q : Con) (gCon : Int → ℝ) (d : FArr → Bool → Int → ℝ) : FArr → Bool → Int → ℝ :=
  forRange c.r.nsMinF c.r.nsMaxF (fun jF d => forRange 0 c.s.nZnT (fun kl d => addPoint c q gCon jF kl d) d) d

/-- `effectiveConstraintForce`, `deAliasConstraintForce` and the end of `assembleTotalForces` as `update` calls them,
    `ideal_mhd_model.cc:972-981`; `gEff`, `st` are what the work arrays held before -/
noncomputable def total (faccon tcon : Int → ℝ) (q : Con) (gEff : Int → ℝ) (st : (Four → Int → ℝ) × (Out → Int → ℝ))
    (d : FArr → Bool → Int → ℝ) : FArr → Bool → Int → ℝ :=
  addConstraint c q (deAlias c faccon tcon (effective c q gEff) st) d

end Verif.Constraint
