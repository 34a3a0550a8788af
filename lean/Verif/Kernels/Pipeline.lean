import Verif.Kernels.Precond
import Verif.Kernels.Field

/-!
# The evaluation of the forces by one thread, from the geometry to the force density
-/
namespace Verif.Kernels
open Verif Verif.Partition Finset

/-- the arrays of a thread that an evaluation overwrites -/
structure Work where
  half : Vec Half
  dVdsH : Vec ℝ
  chipH : Vec ℝ
  iotaH : Vec ℝ
  presH : Vec ℝ
  lamScratch : Vec LamIn
  inside : Vec Side
  outside : Vec Side
  force : Vec Force
  lam : Vec Lam

/-- the arrays of a thread that an evaluation only reads (the flux functions come from `evalRadialProfiles`) -/
structure Given where
  sqrtSH : Vec ℝ
  sqrtSF : Vec ℝ
  phipF : Vec ℝ
  phipH : Vec ℝ
  currH : Vec ℝ
  massH : Vec ℝ
  radialBlending : Vec ℝ

/-- what an evaluation leaves behind -/
structure Evaluated where
  geo : Vec Geo
  half : Vec Half
  dVdsH : Vec ℝ
  chipH : Vec ℝ
  iotaH : Vec ℝ
  presH : Vec ℝ
  localThermalEnergy : ℝ
  localMagneticEnergy : ℝ
  force : Vec Force
  lam : Vec Lam

/-- the sequence of calls in `IdealMhdModel::update`, `ideal_mhd_model.cc:603-700` and `1046-1060`. Left out: the test of
    the Jacobian (`1649-1677`), which ends the evaluation early, the quantities that do not enter the forces, the
    preconditioners, the constraint force and the vacuum contribution. -/
noncomputable def evaluate (c : Ctx) (r : Ranges) (g : Given) (geo : Vec Geo) (w : Work) : Outcome Evaluated := do
  let half ← computeJacobian c r geo g.sqrtSH w.half
  let half ← computeMetricElements c r geo g.sqrtSF g.sqrtSH half
  let dVdsH ← updateDifferentialVolume c r half w.dVdsH
  let geo ← scaleLambda c r g.phipF geo
  let half ← computeBsupContra c r geo g.sqrtSH half
  let f ← fluxFromCurrent c r half g.currH g.phipH w.chipH w.iotaH
  let half ← addChip c r f.1 half
  let half ← computeBCo c half
  let e ← pressureAndEnergies c r g.massH dVdsH w.presH half
  let lam ← hybridLambdaForce c r e.half geo g.sqrtSH g.sqrtSF g.radialBlending w.lamScratch w.lam
  let force ← computeMHDForces c r e.half geo g.sqrtSH g.sqrtSF w.inside w.outside w.force
  .ok ⟨geo, e.half, dVdsH, f.1, f.2, e.presH, e.localThermalEnergy, e.localMagneticEnergy, force, lam⟩

/-- profiles of the whole torus -/
structure Prof where
  qH : Int → ℝ
  qF : Int → ℝ
  phipF : Int → ℝ
  phipH : Int → ℝ
  curr : Int → ℝ
  mass : Int → ℝ
  blend : Int → ℝ
  /-- values of `chipH` and `iotaH` before the evaluation; `iotaH` is an input for `ncurr == 0` -/
  chip : Int → ℝ
  iota : Int → ℝ

/-- the lambda derivatives with the normalisation undone -/
noncomputable def geoOf (c : Ctx) (P : Prof) (X : Int → Int → Geo) (j kl : Int) : Geo :=
  lambdaPoint c.lthreed c.lamscale (P.phipF j) (X j kl)

/-- Jacobian and metric of a half-grid point -/
noncomputable def metricOf (c : Ctx) (P : Prof) (X : Int → Int → Geo) (H0 : Int → Int → Half) (j kl : Int) : Half :=
  metricPoint c.lthreed (P.qF j * P.qF j) (P.qF (j + 1) * P.qF (j + 1)) (P.qH j) (X j kl) (X (j + 1) kl)
    (jacobianPoint c.deltaS (P.qH j) (X j kl) (X (j + 1) kl) (H0 j kl))

noncomputable def volumeOf (c : Ctx) (P : Prof) (X : Int → Int → Geo) (H0 : Int → Int → Half) (j : Int) : ℝ :=
  (∑ kl ∈ Ico 0 c.nZnT, (metricOf c P X H0 j kl).gsqrt * wt c kl) * c.signOfJacobian

/-- the field before the poloidal flux is added -/
noncomputable def lamFieldOf (c : Ctx) (P : Prof) (X : Int → Int → Geo) (H0 : Int → Int → Half) (j kl : Int) : Half :=
  bcontraPoint c.lthreed (P.qH j) (geoOf c P X j kl) (geoOf c P X (j + 1) kl) (metricOf c P X H0 j kl)

noncomputable def newChipOf (c : Ctx) (P : Prof) (X : Int → Int → Geo) (H0 : Int → Int → Half) (j : Int) : ℝ :=
  chipOf c (P.curr j) (P.phipH j) (P.chip j) (P.iota j) (lamFieldOf c P X H0 j)

noncomputable def newIotaOf (c : Ctx) (P : Prof) (X : Int → Int → Geo) (H0 : Int → Int → Half) (j : Int) : ℝ :=
  iotaOf c (P.curr j) (P.phipH j) (P.chip j) (P.iota j) (lamFieldOf c P X H0 j)

/-- the field of a half-grid point -/
noncomputable def fieldOf (c : Ctx) (P : Prof) (X : Int → Int → Geo) (H0 : Int → Int → Half) (j kl : Int) : Half :=
  let h := lamFieldOf c P X H0 j kl
  bcoPoint c.lthreed { h with bsupu := h.bsupu + newChipOf c P X H0 j / h.gsqrt }

noncomputable def presOf (c : Ctx) (P : Prof) (X : Int → Int → Geo) (H0 : Int → Int → Half) (j : Int) : ℝ :=
  P.mass j / volumeOf c P X H0 j ^ c.adiabaticIndex

/-- all quantities of a half-grid point -/
noncomputable def halfOf (c : Ctx) (P : Prof) (X : Int → Int → Geo) (H0 : Int → Int → Half) (j kl : Int) : Half :=
  { fieldOf c P X H0 j kl with totalPressure := magP (fieldOf c P X H0 j kl) + presOf c P X H0 j }

/-- the arrays hold the windows of a thread -/
structure Windows (c : Ctx) (r : Ranges) (P : Prof) (X : Int → Int → Geo) (g : Given) (geo : Vec Geo) (w : Work) : Prop where
  geo : Holds geo r.nsMinF1 r.nsMaxF1 c.nZnT X
  sqrtSH : Holds1 g.sqrtSH r.nsMinH r.nsMaxH P.qH
  sqrtSF : Holds1 g.sqrtSF r.nsMinF1 r.nsMaxF1 P.qF
  phipF : Holds1 g.phipF r.nsMinF1 r.nsMaxF1 P.phipF
  phipH : Holds1 g.phipH r.nsMinH r.nsMaxH P.phipH
  curr : Holds1 g.currH r.nsMinH r.nsMaxH P.curr
  mass : Holds1 g.massH r.nsMinH r.nsMaxH P.mass
  blend : Holds1 g.radialBlending r.nsMinF1 r.nsMaxF1 P.blend
  chip : Holds1 w.chipH r.nsMinH r.nsMaxH P.chip
  iota : Holds1 w.iotaH r.nsMinH r.nsMaxH P.iota
  /-- the other arrays have the size the constructor gives them, `ideal_mhd_model.cc:306-478` -/
  half : w.half.size = (r.nsMaxH - r.nsMinH) * c.nZnT
  dVdsH : w.dVdsH.size = r.nsMaxH - r.nsMinH
  presH : w.presH.size = r.nsMaxH - r.nsMinH
  lamScratch : w.lamScratch.size = c.nZnT
  inside : w.inside.size = c.nZnT
  outside : w.outside.size = c.nZnT
  force : w.force.size = (r.nsMaxF - r.nsMinF) * c.nZnT
  lam : w.lam.size = (r.nsMaxFIncludingLcfs - r.nsMinF) * c.nZnT

/-- what the arrays hold afterwards -/
structure Result (c : Ctx) (r : Ranges) (P : Prof) (X : Int → Int → Geo) (H0 : Int → Int → Half) (w : Work) (e : Evaluated) :
    Prop where
  geo : Holds e.geo r.nsMinF1 r.nsMaxF1 c.nZnT (geoOf c P X)
  half : Holds e.half r.nsMinH r.nsMaxH c.nZnT (halfOf c P X H0)
  dVdsH : Holds1 e.dVdsH r.nsMinH r.nsMaxH (volumeOf c P X H0)
  chipH : Holds1 e.chipH r.nsMinH r.nsMaxH (newChipOf c P X H0)
  iotaH : Holds1 e.iotaH r.nsMinH r.nsMaxH (newIotaOf c P X H0)
  presH : Holds1 e.presH r.nsMinH r.nsMaxH (presOf c P X H0)
  thermal : e.localThermalEnergy = (∑ j ∈ Ico r.nsMinH r.nsMaxH,
    if j < r.nsMaxH - 1 ∨ j = c.ns - 2 then presOf c P X H0 j * volumeOf c P X H0 j else 0) * c.deltaS
  magnetic : e.localMagneticEnergy = |∑ j ∈ Ico r.nsMinH r.nsMaxH, if j < r.nsMaxH - 1 ∨ j = c.ns - 2 then
    ∑ kl ∈ Ico 0 c.nZnT, (fieldOf c P X H0 j kl).gsqrt * magP (fieldOf c P X H0 j kl) * wt c kl else 0| * c.deltaS
  force : Holds e.force r.nsMinF r.nsMaxF c.nZnT fun j kl =>
    forceAt c (halfOf c P X H0) (geoOf c P X) P.qH P.qF j kl (w.force.val ((j - r.nsMinF) * c.nZnT + kl))
  lam : Holds e.lam r.nsMinF r.nsMaxFIncludingLcfs c.nZnT fun j kl =>
    lamAt c (halfOf c P X H0) (geoOf c P X) P.qH P.qF P.blend j kl (w.lam.val ((j - r.nsMinF) * c.nZnT + kl))

variable {c : Ctx} {r : Ranges} {P : Prof} {X : Int → Int → Geo} {g : Given} {geo : Vec Geo} {w : Work}

/-- what the half-grid arrays of a thread held before -/
def before (c : Ctx) (r : Ranges) (w : Work) (j kl : Int) : Half := w.half.val ((j - r.nsMinH) * c.nZnT + kl)

theorem evaluate_ok (hc : GoodCtx c) (hr : Good c.ns c.lfreeb r) (h : Windows c r P X g geo w) :
    ∃ e, evaluate c r g geo w = .ok e ∧ Result c r P X (before c r w) w e := by
  unfold evaluate
  obtain ⟨h1, e1, k1⟩ := jacobian_ok hr h.geo h.sqrtSH (H := before c r w) ⟨h.half, fun _ _ _ _ _ _ => rfl⟩
  rw [e1, Outcome.bind_ok]
  obtain ⟨h2, e2, k2⟩ := metric_ok hr h.geo h.sqrtSH h.sqrtSF k1
  rw [e2, Outcome.bind_ok]
  obtain ⟨v, e3, k3⟩ := diffVolume_ok hc k2 (V := fun j => w.dVdsH.val (j - r.nsMinH)) ⟨h.dVdsH, fun _ _ _ => rfl⟩
  rw [e3, Outcome.bind_ok]
  obtain ⟨g2, e4, k4⟩ := scaleLambda_ok hr h.geo h.phipF
  rw [e4, Outcome.bind_ok]
  obtain ⟨h3, e5, k5⟩ := bcontra_ok hr k4 h.sqrtSH k2
  rw [e5, Outcome.bind_ok]
  obtain ⟨x, y, e6, k6, k6'⟩ := flux_ok hc hr k5 h.curr h.phipH h.chip h.iota
  rw [e6, Outcome.bind_ok]
  obtain ⟨h4, e7, k7⟩ := addChip_ok k5 k6
  dsimp only
  rw [e7, Outcome.bind_ok]
  obtain ⟨h5, e8, k8⟩ := bco_ok k7 hc hr
  rw [e8, Outcome.bind_ok]
  obtain ⟨p, e9, k9⟩ := thermal_ok hr h.mass k3 (p0 := fun j => w.presH.val (j - r.nsMinH)) ⟨h.presH, fun _ _ _ => rfl⟩
  obtain ⟨h6, e10, k10⟩ := magnetic_ok hc hr k8 k9
  unfold pressureAndEnergies
  rw [e9, Outcome.bind_ok]
  dsimp only
  rw [e10, Outcome.bind_ok]
  dsimp only [Outcome.bind_ok]
  obtain ⟨lam, e11, k11⟩ := lambda_ok (L0 := fun j kl => w.lam.val ((j - r.nsMinF) * c.nZnT + kl)) hc hr k10 k4
    h.sqrtSH h.sqrtSF h.blend h.lamScratch ⟨h.lam, fun _ _ _ _ _ _ => rfl⟩
  rw [e11, Outcome.bind_ok]
  obtain ⟨f, e12, k12⟩ := density_ok (F0 := fun j kl => w.force.val ((j - r.nsMinF) * c.nZnT + kl)) hc rfl hr k10 k4
    h.sqrtSH h.sqrtSF h.inside h.outside (le_refl _) ⟨h.force, fun _ _ _ _ _ _ => rfl⟩
  rw [e12, Outcome.bind_ok]
  refine ⟨_, rfl, ⟨k4, k10, k3, k6, k6', k9, rfl, rfl, k12.congr fun j kl _ b _ _ => by rw [if_pos b]; rfl, k11⟩⟩

/-! ## the previous contents of the half-grid arrays do not matter -/

/-- arrays set to zero -/
def blank : Int → Int → Half := fun _ _ => ⟨0, 0, 0, 0, 0, 0, 0, 0, 0, 0, 0, 0, 0, 0, 0⟩

theorem metricOf_eq (H0 : Int → Int → Half) (j kl : Int) :
    metricOf c P X H0 j kl = { metricOf c P X blank j kl with
      guv := if c.lthreed then (metricOf c P X blank j kl).guv else (H0 j kl).guv
      bsupu := (H0 j kl).bsupu, bsupv := (H0 j kl).bsupv, bsubu := (H0 j kl).bsubu, bsubv := (H0 j kl).bsubv
      totalPressure := (H0 j kl).totalPressure } := by
  unfold metricOf metricPoint jacobianPoint
  cases c.lthreed <;> rfl

theorem volumeOf_eq (H0 : Int → Int → Half) (j : Int) : volumeOf c P X H0 j = volumeOf c P X blank j := by
  unfold volumeOf
  simp only [metricOf_eq H0]

theorem lamFieldOf_eq (H0 : Int → Int → Half) (j kl : Int) :
    lamFieldOf c P X H0 j kl = { lamFieldOf c P X blank j kl with
      guv := if c.lthreed then (metricOf c P X blank j kl).guv else (H0 j kl).guv
      bsubu := (H0 j kl).bsubu, bsubv := (H0 j kl).bsubv, totalPressure := (H0 j kl).totalPressure } := by
  unfold lamFieldOf bcontraPoint
  rw [metricOf_eq H0]

theorem jvOf_eq (H0 : Int → Int → Half) (j : Int) : jvOf c (lamFieldOf c P X H0 j) = jvOf c (lamFieldOf c P X blank j) := by
  unfold jvOf
  refine Finset.sum_congr rfl fun kl _ => ?_
  rw [lamFieldOf_eq H0]
  cases h : c.lthreed
  · rfl
  · simp only [if_true]; rfl

theorem avgOf_eq (H0 : Int → Int → Half) (j : Int) :
    avgOf c (lamFieldOf c P X H0 j) = avgOf c (lamFieldOf c P X blank j) := by
  unfold avgOf
  refine Finset.sum_congr rfl fun kl _ => ?_
  rw [lamFieldOf_eq H0]

theorem newChipOf_eq (H0 : Int → Int → Half) (j : Int) : newChipOf c P X H0 j = newChipOf c P X blank j := by
  unfold newChipOf chipOf
  rw [jvOf_eq H0, avgOf_eq H0]

theorem newIotaOf_eq (H0 : Int → Int → Half) (j : Int) : newIotaOf c P X H0 j = newIotaOf c P X blank j := by
  have h := newChipOf_eq (c := c) (P := P) (X := X) H0 j
  unfold newChipOf at h
  unfold newIotaOf iotaOf
  rw [h]

theorem fieldOf_eq (H0 : Int → Int → Half) (j kl : Int) :
    fieldOf c P X H0 j kl = { fieldOf c P X blank j kl with
      guv := if c.lthreed then (metricOf c P X blank j kl).guv else (H0 j kl).guv
      totalPressure := (H0 j kl).totalPressure } := by
  unfold fieldOf bcoPoint
  dsimp only
  rw [newChipOf_eq H0, lamFieldOf_eq H0]
  cases h : c.lthreed
  · simp only [Bool.false_eq_true, if_false]
  · simp only [if_true]; rfl

theorem presOf_eq (H0 : Int → Int → Half) (j : Int) : presOf c P X H0 j = presOf c P X blank j := by
  unfold presOf; rw [volumeOf_eq H0]

theorem halfOf_eq (H0 : Int → Int → Half) (j kl : Int) :
    halfOf c P X H0 j kl = { halfOf c P X blank j kl with
      guv := if c.lthreed then (metricOf c P X blank j kl).guv else (H0 j kl).guv } := by
  unfold halfOf magP
  rw [presOf_eq H0, fieldOf_eq H0]

end Verif.Kernels
