import Verif.Common.Fam
import Verif.Sizes.Model
import Verif.Partition.Model
import Mathlib.Data.Real.Basic

/-! # Model of the collection of the results (`vmec/output_quantities/output_quantities.cc:1559-1902`)

Exact reals.  A matrix `x(i)` with one row per surface is a flat array, as in the code.  Arrays of the same
kind are families keyed by their name, and the assignments of one pass to the arrays of one family are one
step.  Array bounds are not modelled; the resized arrays start with zeros as in the code. -/
namespace Verif.Output
open Verif

/-- half-grid profiles, 1676-1688 -/
inductive ProfH | sqrtSH | sm | sp | phipH | chipH | bvcoH | dVdsH | massH | presH | iotaH | currH
  deriving DecidableEq

/-- half-grid fields, 1694-1714 -/
inductive GridH | r12 | ru12 | zu12 | rs | zs | gsqrt | guu | guv | gvv | bsupu | bsupv | bsubu | bsubv | total_pressure
  deriving DecidableEq

/-- full-grid profiles, 1720-1728 -/
inductive ProfF | sqrtSF | phipF | chipF | iotaF | spectral_width
  deriving DecidableEq

/-- Fourier coefficients, 1738-1772 -/
inductive Coef | rmncc | zmnsc | lmnsc | rmnss | zmncs | lmncs | rmnsc | zmncc | lmncc | rmncs | zmnss | lmnss
  deriving DecidableEq

/-- full-grid fields that start at `nsMinF1` in a thread, 1800-1817 -/
inductive GridF | r_e | r_o | z_e | z_o | ru_e | ru_o | zu_e | zu_o | rv_e | rv_o | zv_e | zv_o
  deriving DecidableEq

/-- full-grid fields that start at `nsMinF` in a thread, 1819-1821 -/
inductive GridO | ruFull | zuFull
  deriving DecidableEq

/-- the condition under which the half-grid field is copied (1703-1705) -/
def GridH.on (s : Sizes.Sizes) : GridH → Bool
  | .guv => s.lthreed
  | _ => true

/-- the conditions under which the coefficients are copied (1744-1773) -/
def Coef.on (s : Sizes.Sizes) : Coef → Bool
  | .rmncc | .zmnsc | .lmnsc => true
  | .rmnss | .zmncs | .lmncs => s.lthreed
  | .rmnsc | .zmncc | .lmncc => s.lasym
  | .rmncs | .zmnss | .lmnss => s.lasym && s.lthreed

/-- the condition under which the full-grid field is copied; otherwise zero is written (1807-1817) -/
def GridF.on (s : Sizes.Sizes) : GridF → Bool
  | .rv_e | .rv_o | .zv_e | .zv_o => s.lthreed
  | _ => true

/-- what one thread offers: `RadialPartitioning`, `RadialProfiles`, `FourierGeometry` and `IdealMhdModel` -/
structure Piece where
  r : Partition.Ranges
  profH : ProfH → Int → ℝ
  gridH : GridH → Int → ℝ
  profF : ProfF → Int → ℝ
  coef : Coef → Int → ℝ
  gridF : GridF → Int → ℝ
  gridO : GridO → Int → ℝ
  blmn_e : Int → ℝ
  blmn_asym_e : Int → ℝ
  currv : ℝ

/-- `VmecInternalResults` -/
structure Results where
  profH : ProfH → Int → ℝ
  gridH : GridH → Int → ℝ
  profF : ProfF → Int → ℝ
  coef : Coef → Int → ℝ
  gridF : GridF → Int → ℝ
  gridO : GridO → Int → ℝ
  bsubvF : Int → ℝ
  phiF : Int → ℝ
  currv : ℝ

/-- the zero-initialised results, 1568-1656 (`currv` is uninitialised there and is set by thread 0) -/
def Results.zero : Results :=
  { profH := fun _ _ => 0, gridH := fun _ _ => 0, profF := fun _ _ => 0, coef := fun _ _ => 0, gridF := fun _ _ => 0, gridO := fun _ _ => 0
    bsubvF := fun _ => 0, phiF := fun _ => 0, currv := 0 }

/-- body of the loop over half-grid surfaces, 1673-1717 -/
def gatherHalf (s : Sizes.Sizes) (ns : Int) (t : Piece) (jH : Int) (res : Results) : Results :=
  if jH < t.r.nsMaxH - 1 ∨ jH = ns - 2 then
    { res with
      profH := fun c j => if j = jH then t.profH c (jH - t.r.nsMinH) else res.profH c j
      gridH := forRange 0 s.nZnT (fun kl g =>
        let idx_global := jH * s.nZnT + kl
        let idx_local := (jH - t.r.nsMinH) * s.nZnT + kl
        fun c i => if i = idx_global ∧ c.on s = true then t.gridH c idx_local else g c i) res.gridH }
  else res

/-- `bsubvF(idx_global)`, 1783-1797 -/
noncomputable def bsubvF (s : Sizes.Sizes) (lamscale : ℝ) (t : Piece) (jF kl : Int) : ℝ :=
  let unlamscale := if jF > 0 then -1 / lamscale else 1
  let idx_local := (jF - t.r.nsMinF) * s.nZnT + kl
  let l := kl.tmod s.nThetaEff
  let blmn_e_full := if s.lasym = true ∧ l < s.nThetaReduced then t.blmn_e idx_local + t.blmn_asym_e idx_local else t.blmn_e idx_local
  blmn_e_full * unlamscale

/-- body of the loop over full-grid surfaces, 1719-1823 -/
noncomputable def gatherFull (s : Sizes.Sizes) (lamscale : ℝ) (t : Piece) (jF : Int) (res : Results) : Results :=
  { res with
    profF := fun c j => if j = jF then t.profF c (jF - t.r.nsMinF1) else res.profF c j
    coef := forRange 0 (s.ntor + 1) (fun n x => forRange 0 s.mpol (fun m x =>
      let source_index := ((jF - t.r.nsMinF1) * s.mpol + m) * (s.ntor + 1) + n
      let target_index := (jF * (s.ntor + 1) + n) * s.mpol + m
      fun c i => if i = target_index ∧ c.on s = true then t.coef c source_index else x c i) x) res.coef
    bsubvF := forRange 0 s.nZnT (fun kl b => fun i => if i = jF * s.nZnT + kl then bsubvF s lamscale t jF kl else b i) res.bsubvF
    gridF := forRange 0 s.nZnT (fun kl g =>
      fun c i => if i = jF * s.nZnT + kl then (if c.on s = true then t.gridF c ((jF - t.r.nsMinF1) * s.nZnT + kl) else 0) else g c i) res.gridF
    gridO := forRange 0 s.nZnT (fun kl g =>
      fun c i => if i = jF * s.nZnT + kl then t.gridO c ((jF - t.r.nsMinF) * s.nZnT + kl) else g c i) res.gridO }

/-- `GatherDataFromThreads`, 1559-1828 -/
noncomputable def gather (s : Sizes.Sizes) (ns nt : Int) (lamscale : ℝ) (T : Int → Piece) : Results :=
  forRange 0 nt (fun thread_id res =>
    let t := T thread_id
    let res := forRange t.r.nsMinH t.r.nsMaxH (gatherHalf s ns t) res
    let res := forRange t.r.nsMinF t.r.nsMaxFIncludingLcfs (gatherFull s lamscale t) res
    if thread_id = 0 then { res with currv := t.currv } else res) Results.zero

/-! ### Mesh blending, poloidal current and toroidal flux -/

/-- `MeshBledingBSubZeta`, 1830-1846 -/
def meshBlending (s : Sizes.Sizes) (ns : Int) (bsubvF bsubv : Int → ℝ) : Int → ℝ :=
  forRangeRev 0 (ns - 2) (fun jH b =>
    let jF := jH + 1
    forRange 0 s.nZnT (fun kl b =>
      let idx_sourceH := (jH + 1) * s.nZnT + kl
      let idx_sourceF := jF * s.nZnT + kl
      let idx_targetH := jH * s.nZnT + kl
      upd b idx_targetH (2 * bsubvF idx_sourceF - b idx_sourceH)) b) bsubv

/-- `poloidal_current_deviation[jH]` of `ComputePoloidalCurrentToFixBSubV`, 1848-1870 -/
noncomputable def poloidalCurrentDeviation (s : Sizes.Sizes) (bsubv bvcoH : Int → ℝ) (jH : Int) : ℝ :=
  let poloidal_current_from_bsubv := forRange 0 s.nZnT (fun kl acc =>
    let iHalf := jH * s.nZnT + kl
    let l := kl.tmod s.nThetaEff
    acc + bsubv iHalf * Sizes.wInt s l) (0 : ℝ)
  poloidal_current_from_bsubv - bvcoH jH

/-- `FixupPoloidalCurrent`, 1872-1885 -/
def fixupPoloidalCurrent (s : Sizes.Sizes) (num_half : Int) (dev : Int → ℝ) (bsubv : Int → ℝ) : Int → ℝ :=
  forRange 0 num_half (fun jH b => forRange 0 s.nZnT (fun kl b =>
    let iHalf := jH * s.nZnT + kl
    upd b iHalf (b iHalf - dev jH)) b) bsubv

/-- `RecomputeToroidalFlux`, 1887-1902; the argument `pi2` is `2.0 * M_PI` -/
def recomputeToroidalFlux (ns : Int) (sign_of_jacobian pi2 deltaS : ℝ) (phipF phiF : Int → ℝ) : Int → ℝ :=
  let phiF := upd phiF 0 0
  let phiF := forRange 1 ns (fun jF p => upd p jF (p (jF - 1) + phipF (jF - 1))) phiF
  let scaling_factor := sign_of_jacobian * pi2 * deltaS
  forRange 0 ns (fun jF p => upd p jF (p jF * scaling_factor)) phiF

end Verif.Output
