import Verif.Kernels.Model

/-!
# What the force arrays should hold on a surface

Written for the torus as a whole: surfaces `0 ≤ j < ns` of the full grid, half-grid points `0 ≤ h < ns - 1` between
`h` and `h + 1`. A full-grid surface takes its values from the half-grid points next to it, one at the axis and at the
boundary and two in between. No thread, no range and no scratch array occurs.
-/
namespace Verif.Kernels.Spec
open Finset

/-- the half-grid points next to a full-grid surface -/
def sides (ns j : Int) : Finset Int := ({j - 1, j} : Finset Int).filter fun h => 0 ≤ h ∧ h < ns - 1

/-- half the sum over the adjacent half-grid points -/
noncomputable def mean (ns : Int) (f : Int → ℝ) (j : Int) : ℝ := (∑ h ∈ sides ns j, f h) / 2

/-- radial difference, a missing half-grid point counts as zero -/
noncomputable def dds (ns : Int) (deltaS : ℝ) (f : Int → ℝ) (j : Int) : ℝ :=
  (∑ h ∈ sides ns j, if h = j then f h else -f h) / deltaS

/-- MHD force density at a poloidal/toroidal point: `H` half-grid quantities, `X` geometry, `q h` = √s on the half
    grid, `sF` = s of the surface -/
noncomputable def force (ns : Int) (lthreed : Bool) (deltaS : ℝ) (H : Int → Half) (q : Int → ℝ) (j : Int) (X : Geo)
    (sF : ℝ) : Force :=
  let p := fun h => (H h).totalPressure
  let P := fun h => (H h).r12 * p h
  let uu := fun h => (H h).gsqrt * (H h).bsupu * (H h).bsupu
  let uv := fun h => if lthreed then (H h).gsqrt * (H h).bsupu * (H h).bsupv else 0
  let vv := fun h => (H h).gsqrt * (H h).bsupv * (H h).bsupv
  let w := fun (f : Int → ℝ) h => q h * f h
  let m := fun f => mean ns f j
  let d := fun f => dds ns deltaS f j
  { armn_e := d (fun h => (H h).zu12 * P h) + m (fun h => (H h).tau * p h) - m vv * X.r1_e - m (w vv) * X.r1_o
    armn_o := d (fun h => q h * ((H h).zu12 * P h)) + m (fun h => q h * ((H h).tau * p h)) -
      m (fun h => P h / q h) * X.zu_e / 2 - m P * X.zu_o / 2 - m (w vv) * X.r1_e - m vv * X.r1_o * sF
    azmn_e := -d fun h => (H h).ru12 * P h
    azmn_o := -(d fun h => q h * ((H h).ru12 * P h)) + m (fun h => P h / q h) * X.ru_e / 2 + m P * X.ru_o / 2
    brmn_e := m (fun h => (H h).zs * P h) + m (fun h => P h / q h) * X.z1_o / 2 - (m uu * X.ru_e + m (w uu) * X.ru_o) -
      (m uv * X.rv_e + m (w uv) * X.rv_o)
    brmn_o := m (fun h => q h * ((H h).zs * P h)) + m P * X.z1_o / 2 - (m (w uu) * X.ru_e + m uu * X.ru_o * sF) -
      (m (w uv) * X.rv_e + m uv * X.rv_o * sF)
    bzmn_e := -m (fun h => (H h).rs * P h) - m (fun h => P h / q h) * X.r1_o / 2 - (m uu * X.zu_e + m (w uu) * X.zu_o) -
      (m uv * X.zv_e + m (w uv) * X.zv_o)
    bzmn_o := -m (fun h => q h * ((H h).rs * P h)) - m P * X.r1_o / 2 - (m (w uu) * X.zu_e + m uu * X.zu_o * sF) -
      (m (w uv) * X.zv_e + m uv * X.zv_o * sF)
    crmn_e := m uv * X.ru_e + m (w uv) * X.ru_o + (m vv * X.rv_e + m (w vv) * X.rv_o)
    crmn_o := m (w uv) * X.ru_e + m uv * X.ru_o * sF + (m (w vv) * X.rv_e + m vv * X.rv_o * sF)
    czmn_e := m uv * X.zu_e + m (w uv) * X.zu_o + (m vv * X.zv_e + m (w vv) * X.zv_o)
    czmn_o := m (w uv) * X.zu_e + m uv * X.zu_o * sF + (m (w vv) * X.zv_e + m vv * X.zv_o * sF) }

/-- the toroidal parts exist in three dimensions only -/
def sameForce (lthreed : Bool) (a b : Force) : Prop :=
  a.armn_e = b.armn_e ∧ a.armn_o = b.armn_o ∧ a.azmn_e = b.azmn_e ∧ a.azmn_o = b.azmn_o ∧
  a.brmn_e = b.brmn_e ∧ a.brmn_o = b.brmn_o ∧ a.bzmn_e = b.bzmn_e ∧ a.bzmn_o = b.bzmn_o ∧
  (lthreed → a.crmn_e = b.crmn_e ∧ a.crmn_o = b.crmn_o ∧ a.czmn_e = b.czmn_e ∧ a.czmn_o = b.czmn_o)

/-- lambda force: `beta` is the blending with the alternative covariant component, no scaling on the axis -/
noncomputable def lambda (ns : Int) (lthreed : Bool) (lamscale : ℝ) (H : Int → Half) (q : Int → ℝ) (j : Int) (X : Geo)
    (sqrtSF beta : ℝ) : Lam :=
  let m := fun f => mean ns f j
  let scale := if j = 0 then 1 else -lamscale
  let b := (1 - beta) * m (fun h => (H h).bsubv) +
    beta * (m (fun h => (H h).gvv / (H h).gsqrt) * X.lu_e + m (fun h => q h * ((H h).gvv / (H h).gsqrt)) * X.lu_o +
      if lthreed then m (fun h => (H h).guv * (H h).bsupu) else 0)
  let d := m fun h => (H h).bsubu
  ⟨scale * b, scale * b * sqrtSF, scale * d, scale * d * sqrtSF⟩

def sameLam (lthreed : Bool) (a b : Lam) : Prop :=
  a.blmn_e = b.blmn_e ∧ a.blmn_o = b.blmn_o ∧ (lthreed → a.clmn_e = b.clmn_e ∧ a.clmn_o = b.clmn_o)

/-- integral over a surface with weights `w` -/
noncomputable def integral (n : Int) (w : Int → ℝ) (f : Int → ℝ) : ℝ := ∑ kl ∈ Ico 0 n, f kl * w kl

/-- lambda preconditioner of mode (m, n): damping factor 1/2, high-m damping √s^min(m²/256, 8); no entry on the axis
    and for (0, 0) -/
noncomputable def lambdaPrecond (ns : Int) (lthreed : Bool) (lamscale : ℝ) (nfp N : Int) (w : Int → ℝ)
    (H : Int → Int → Half) (sqrtSF : ℝ) (j m n : Int) : ℝ :=
  if j = 0 ∨ (m = 0 ∧ n = 0) then 0
  else
    let b := mean ns (fun h => integral N w fun kl => (H h kl).guu / (H h kl).gsqrt) j
    let c := mean ns (fun h => integral N w fun kl => (H h kl).gvv / (H h kl).gsqrt) j
    let d := if lthreed then mean ns (fun h => integral N w fun kl => (H h kl).guv / (H h kl).gsqrt) j else 0
    let nn : ℝ := n * nfp
    let D := nn ^ 2 * b + 2 * m * nn * (if b < 0 then -|d| else |d|) + (m : ℝ) ^ 2 * c
    1 / (2 * lamscale ^ 2) / (if D = 0 then -1 / 10 ^ 10 else D) * sqrtSF ^ min ((m : ℝ) ^ 2 / 256) 8

end Verif.Kernels.Spec
