import Verif.Nestor.GreenSum
import Verif.Nestor.Subtracted
import Verif.Fourier.Orth

/-! # The kernels of `RegularizedIntegrals` in terms of vectors -/
namespace Verif.Nestor
open Verif Finset Fourier

/-- Cartesian vector -/
@[ext] structure V3 where
  x : ℝ
  y : ℝ
  z : ℝ

namespace V3
def dot (a b : V3) : ℝ := a.x * b.x + a.y * b.y + a.z * b.z
def sub (a b : V3) : V3 := ⟨a.x - b.x, a.y - b.y, a.z - b.z⟩
noncomputable def norm (a : V3) : ℝ := √(a.dot a)
/-- rotation about the `z` axis -/
noncomputable def rot (α : ℝ) (a : V3) : V3 := ⟨a.x * Real.cos α - a.y * Real.sin α, a.x * Real.sin α + a.y * Real.cos α, a.z⟩
end V3

/-- Green function of the Laplace operator (times `4π`) -/
noncomputable def monopole (x x' : V3) : ℝ := 1 / (x.sub x').norm
/-- its derivative along the normal at the source point -/
noncomputable def dipole (x x' n' : V3) : ℝ := (x.sub x').dot n' / (x.sub x').norm ^ 3

/-- `2 tan(x/2)`, with the large number that stands for infinity at odd multiples of `π` -/
noncomputable def halfTan (x : ℝ) : ℝ := if Real.cos (x / 2) = 0 then 1e50 else 2 * Real.tan (x / 2)

theorem halfTan_period (x : ℝ) (j : Int) : halfTan (x + j * (2 * Real.pi)) = halfTan x := by
  have e : (x + j * (2 * Real.pi)) / 2 = x / 2 + j * Real.pi := by ring
  unfold halfTan
  rw [e, Real.cos_add_int_mul_pi, Real.tan_add_int_mul_pi]
  have : ((-1 : ℝ) ^ j * Real.cos (x / 2) = 0) ↔ Real.cos (x / 2) = 0 := by
    rw [mul_eq_zero]
    have : (-1 : ℝ) ^ j ≠ 0 := zpow_ne_zero _ (by norm_num)
    tauto
  simp only [this]

theorem tanEntry_eq {N l : Int} (hN : 0 < N) (hN' : N ≤ 10 ^ 15) (h0 : 0 ≤ l) (h1 : l < N) : tanEntry (Real.pi / N * l) = halfTan (2 * Real.pi * l / N) := by
  have hNr : (0 : ℝ) < N := by exact_mod_cast hN
  have hNr' : (N : ℝ) ≤ 10 ^ 15 := by exact_mod_cast hN'
  have hpi := Real.pi_pos
  have e : 2 * Real.pi * l / N / 2 = Real.pi / N * l := by ring
  unfold tanEntry halfTan
  rw [e]
  have key : |Real.pi / N * l - 0.5 * Real.pi| < 1e-15 ↔ Real.cos (Real.pi / N * l) = 0 := by
    have e2 : Real.pi / N * l - 0.5 * Real.pi = Real.pi / (2 * N) * ((2 * l - N : Int) : ℝ) := by push_cast; field_simp; ring
    by_cases hl : 2 * l - N = 0
    · have e3 : Real.pi / N * l = Real.pi / 2 := by
        have : (N : ℝ) = 2 * l := by exact_mod_cast (by omega : N = 2 * l)
        have hl0 : (l : ℝ) ≠ 0 := by intro h; rw [h] at this; simp at this; linarith
        rw [this]; field_simp
      rw [e2, hl, e3, Real.cos_pi_div_two]
      norm_num
    · constructor
      · intro h
        exfalso
        rw [e2, abs_mul, abs_of_pos (by positivity)] at h
        have h3 : (1 : ℝ) ≤ |((2 * l - N : Int) : ℝ)| := by
          rw [← Int.cast_abs]; exact_mod_cast Int.one_le_abs hl
        have h4 : (1e-15 : ℝ) ≤ Real.pi / (2 * N) := by
          rw [le_div_iff₀ (by positivity)]
          have := Real.two_le_pi
          nlinarith
        have : Real.pi / (2 * N) * 1 ≤ Real.pi / (2 * N) * |((2 * l - N : Int) : ℝ)| := mul_le_mul_of_nonneg_left h3 (by positivity)
        linarith
      · intro h
        exfalso
        have hx0 : 0 ≤ Real.pi / N * l := by
          have : (0 : ℝ) ≤ l := by exact_mod_cast h0
          positivity
        have hx1 : Real.pi / N * l ≤ Real.pi := by
          have : (l : ℝ) ≤ N := by exact_mod_cast h1.le
          rw [div_mul_eq_mul_div, div_le_iff₀ hNr]
          exact mul_le_mul_of_nonneg_left this hpi.le
        have := Real.injOn_cos ⟨hx0, hx1⟩ ⟨by positivity, by linarith⟩ (h.trans Real.cos_pi_div_two.symm)
        have h2 : (2 * l : ℝ) = N := by
          field_simp at this
          linarith
        have : (2 * l : Int) = N := by exact_mod_cast h2
        omega
  by_cases h : |Real.pi / N * l - 0.5 * Real.pi| < 1e-15
  · rw [if_pos h, if_pos (key.1 h)]
  · rw [if_neg h, if_neg (fun hc => h (key.2 hc))]

/-- the entry at a difference of indices is that of the difference of the angles -/
theorem tanEntry_diff {N i j : Int} (hN : 0 < N) (hN' : N ≤ 10 ^ 15) (hi : 0 ≤ i) (hj : j < N) :
    tanEntry (Real.pi / N * ((i - j + N).tmod N : Int)) = halfTan (2 * Real.pi * i / N - 2 * Real.pi * j / N) := by
  rw [Int.tmod_eq_emod_of_nonneg (by omega), tanEntry_eq hN hN' (Int.emod_nonneg _ hN.ne') (Int.emod_lt_of_pos _ hN)]
  have hNr : (N : ℝ) ≠ 0 := by exact_mod_cast hN.ne'
  have e : (((i - j + N) % N : Int) : ℝ) = i - j + N - N * ((i - j + N) / N : Int) := by
    have := Int.emod_def (i - j + N) N
    rw [this]; push_cast; ring
  have e2 : 2 * Real.pi * (((i - j + N) % N : Int) : ℝ) / N
      = (2 * Real.pi * i / N - 2 * Real.pi * j / N) + ((1 - (i - j + N) / N : Int) : ℝ) * (2 * Real.pi) := by
    rw [e]; push_cast; field_simp; ring
  rw [e2, halfTan_period]

/-- `halfTan` away from the mask -/
theorem form_eq_tanForm (a b d u v : ℝ) (hu : Real.cos (u / 2) ≠ 0) (hv : Real.cos (v / 2) ≠ 0) :
    GCtx.form a b d (halfTan u) (halfTan v) = tanForm a b d u v := by
  unfold GCtx.form tanForm halfTan
  rw [if_neg hu, if_neg hv]

namespace GCtx

/-- the arrays of `SurfaceGeometry` are those of a surface with points `X` and normal vectors `N` -/
structure Describes (c : GCtx) (X N : Int → V3) : Prop where
  x : ∀ kl, 0 ≤ kl → kl < c.thetaByZeta → c.sg.rcosuv kl = (X kl).x
  y : ∀ kl, 0 ≤ kl → kl < c.thetaByZeta → c.sg.rsinuv kl = (X kl).y
  z : ∀ kl, 0 ≤ kl → kl < c.thetaByZeta → c.sg.z1b kl = (X kl).z
  sq : ∀ kl, 0 ≤ kl → kl < c.thetaByZeta → c.sg.rzb2 kl = (X kl).dot (X kl)
  r0 : ∀ klp, c.ztMin ≤ klp → klp < c.ztMax → c.sg.r1b klp ≠ 0
  nx : ∀ klp, c.ztMin ≤ klp → klp < c.ztMax →
    c.sg.snr (klp - c.ztMin) * ((X klp).x / c.sg.r1b klp) - c.sg.snv (klp - c.ztMin) * ((X klp).y / c.sg.r1b klp) = (N klp).x
  ny : ∀ klp, c.ztMin ≤ klp → klp < c.ztMax →
    c.sg.snr (klp - c.ztMin) * ((X klp).y / c.sg.r1b klp) + c.sg.snv (klp - c.ztMin) * ((X klp).x / c.sg.r1b klp) = (N klp).y
  nz : ∀ klp, c.ztMin ≤ klp → klp < c.ztMax → c.sg.snz (klp - c.ztMin) = (N klp).z
  drv : ∀ klp, c.ztMin ≤ klp → klp < c.ztMax → c.sg.drv (klp - c.ztMin) = -(X klp).dot (N klp)

variable {c : GCtx} {X N : Int → V3}

theorem dist_eq (d : c.Describes X N) {klp kl : Int} (g0 : 0 ≤ klp) (g1 : klp < c.thetaByZeta)
    (k0 : 0 ≤ kl) (k1 : kl < c.thetaByZeta) (α : ℝ) :
    c.gsave klp kl - 2 * (c.xper (Real.cos α) (Real.sin α) klp * c.sg.rcosuv kl + c.yper (Real.cos α) (Real.sin α) klp * c.sg.rsinuv kl)
      = ((X kl).sub ((X klp).rot α)).dot ((X kl).sub ((X klp).rot α)) := by
  unfold gsave xper yper V3.sub V3.rot V3.dot
  rw [d.sq kl k0 k1, d.sq klp g0 g1, d.x kl k0 k1, d.x klp g0 g1, d.y kl k0 k1, d.y klp g0 g1, d.z kl k0 k1, d.z klp g0 g1]
  unfold V3.dot
  simp only []
  linear_combination (-((X klp).x ^ 2 + (X klp).y ^ 2)) * Real.sin_sq_add_cos_sq α

theorem numer_eq (d : c.Describes X N) {klp kl : Int} (h0 : c.ztMin ≤ klp) (h1 : klp < c.ztMax) (g0 : 0 ≤ klp) (g1 : klp < c.thetaByZeta)
    (k0 : 0 ≤ kl) (k1 : kl < c.thetaByZeta) (α : ℝ) :
    c.numer (Real.cos α) (Real.sin α) klp kl = ((X kl).sub ((X klp).rot α)).dot ((N klp).rot α) := by
  have hr := d.r0 klp h0 h1
  have ex := d.nx klp h0 h1
  have ey := d.ny klp h0 h1
  have sx : c.sxsave (Real.cos α) (Real.sin α) klp = ((N klp).rot α).x := by
    unfold sxsave xper yper V3.rot
    rw [d.x klp g0 g1, d.y klp g0 g1, ← ex, ← ey]
    field_simp
    ring
  have sy : c.sysave (Real.cos α) (Real.sin α) klp = ((N klp).rot α).y := by
    unfold sysave xper yper V3.rot
    rw [d.x klp g0 g1, d.y klp g0 g1, ← ex, ← ey]
    field_simp
    ring
  unfold numer dsave
  rw [sx, sy, d.drv klp h0 h1, d.nz klp h0 h1, d.x kl k0 k1, d.y kl k0 k1, d.z kl k0 k1]
  unfold V3.sub V3.rot V3.dot
  simp only []
  linear_combination ((X klp).x * (N klp).x + (X klp).y * (N klp).y) * Real.sin_sq_add_cos_sq α

theorem dot_self_nonneg (a : V3) : 0 ≤ a.dot a := by unfold V3.dot; nlinarith [mul_self_nonneg a.x, mul_self_nonneg a.y, mul_self_nonneg a.z]

theorem green_eq (d : c.Describes X N) {klp kl : Int} (g0 : 0 ≤ klp) (g1 : klp < c.thetaByZeta)
    (k0 : 0 ≤ kl) (k1 : kl < c.thetaByZeta) (α : ℝ) :
    c.green (Real.cos α) (Real.sin α) klp kl = monopole (X kl) ((X klp).rot α) := by
  unfold green ftemp
  rw [dist_eq d g0 g1 k0 k1]
  unfold monopole V3.norm
  rw [one_div, Real.sqrt_inv, one_div]

theorem kern_eq (d : c.Describes X N) {klp kl : Int} (h0 : c.ztMin ≤ klp) (h1 : klp < c.ztMax) (g0 : 0 ≤ klp) (g1 : klp < c.thetaByZeta)
    (k0 : 0 ≤ kl) (k1 : kl < c.thetaByZeta) (α : ℝ) :
    c.kern (Real.cos α) (Real.sin α) klp kl = dipole (X kl) ((X klp).rot α) ((N klp).rot α) := by
  unfold kern ftemp
  rw [dist_eq d g0 g1 k0 k1, numer_eq d h0 h1 g0 g1 k0 k1]
  unfold dipole V3.norm
  set q := ((X kl).sub ((X klp).rot α)).dot ((X kl).sub ((X klp).rot α))
  have hq : 0 ≤ q := dot_self_nonneg _
  rw [one_div, Real.sqrt_inv]
  have : √q ^ 3 = √q * q := by rw [pow_succ, Real.sq_sqrt hq, mul_comm]
  rw [this, ← mul_inv]
  ring

end GCtx
end Verif.Nestor
