import Verif.Output.Jxb
import Verif.Output.FilterProps
import Verif.Output.FieldProps
import Verif.Sizes.Props
import Mathlib.LinearAlgebra.CrossProduct
import Mathlib.Algebra.Order.BigOperators.Ring.Finset
import Mathlib.Algebra.Order.Chebyshev

/-! # C87: the contents of the jxbout file -/
namespace Verif.Output
open Verif Verif.Fourier Finset

namespace JxbIn
variable (I : JxbIn)

theorem prof_eq (v : Int → ℝ) (j : Int) : I.prof v j = if 1 ≤ j ∧ j < I.ns - 1 then v j else 0 := by
  unfold prof
  exact (Radial.pickLoop (fun a : Int → ℝ => a j) (fun i a => upd a i (v i)) (lo := 1) (hi := I.ns - 1) (i0 := j) (fun _ => v j)
    (fun i a _ _ h => upd_ne _ _ (Ne.symm h)) (fun a _ _ => upd_same _ _ _) (fun _ => 0))

theorem prof_in (v : Int → ℝ) {j : Int} (j0 : 1 ≤ j) (j1 : j < I.ns - 1) : I.prof v j = v j := by
  rw [prof_eq, if_pos ⟨j0, j1⟩]

theorem ends_in (a : Int → ℝ) {j : Int} (j0 : 1 ≤ j) (j1 : j < I.ns - 1) : I.ends a j = a j := by
  unfold ends
  rw [upd_ne _ _ (by omega), upd_ne _ _ (by omega)]

theorem average_eq (f : Int → ℝ) : I.average f = ∑ kl ∈ Ico 0 I.s.nZnT, f kl := by
  unfold average
  rw [forRange_add, zero_add]

theorem onFull_in (hw : I.write = true) (v : Int → Int → ℝ) {j kl : Int} (j0 : 1 ≤ j) (j1 : j < I.ns - 1) (k0 : 0 ≤ kl) (k1 : kl < I.s.nZnT) :
    I.onFull v (j * I.s.nZnT + kl) = v j kl := by
  unfold onFull
  rw [if_pos hw, fillGrid_in j0 j1 k0 k1]

theorem onHalf_in (hw : I.write = true) (v : Int → Int → ℝ) {j kl : Int} (j0 : 0 ≤ j) (j1 : j < I.ns - 2) (k0 : 0 ≤ kl) (k1 : kl < I.s.nZnT) :
    I.onHalf v (j * I.s.nZnT + kl) = v j kl := by
  unfold onHalf
  rw [if_pos hw, fillGrid_in j0 (by omega) k0 k1]

end JxbIn

theorem wInt_pos {s : Sizes.Sizes} {lasym : Bool} {nfp mpol ntor ntheta nzeta mg ng : Int} (hs : Sizes.mk lasym nfp mpol ntor ntheta nzeta mg ng = .ok s) (l : Int) :
    (0 : ℝ) < Sizes.wInt s l := by
  obtain ⟨h1, h2, h3, h4, h5⟩ := nZnT_eq hs
  have a1 : (1 : ℝ) ≤ s.nZeta := by exact_mod_cast h5
  have a2 : (4 : ℝ) ≤ (s.nThetaReduced : ℝ) - 1 := by exact_mod_cast h4
  have a3 : (8 : ℝ) ≤ s.nThetaEven := by exact_mod_cast (by omega : 8 ≤ s.nThetaEven)
  unfold Sizes.wInt
  push_cast
  split_ifs <;> positivity

theorem wInt_sum {s : Sizes.Sizes} {lasym : Bool} {nfp mpol ntor ntheta nzeta mg ng : Int} (hs : Sizes.mk lasym nfp mpol ntor ntheta nzeta mg ng = .ok s) :
    ∑ kl ∈ Ico 0 s.nZnT, (Sizes.wInt s (kl.tmod s.nThetaEff) : ℝ) = 1 := by
  have := Sizes.C08_average_const lasym nfp mpol ntor ntheta nzeta mg ng s hs (1 : ℝ)
  unfold Sizes.surfaceAverage at this
  rw [forRange_add, zero_add] at this
  simpa using this

theorem grid_lt {s : Sizes.Sizes} {lasym : Bool} {nfp mpol ntor ntheta nzeta mg ng : Int} (hs : Sizes.mk lasym nfp mpol ntor ntheta nzeta mg ng = .ok s)
    {k l : Int} (k0 : 0 ≤ k) (k1 : k < s.nZeta) (l0 : 0 ≤ l) (l1 : l < s.nThetaEff) : 0 ≤ k * s.nThetaEff + l ∧ k * s.nThetaEff + l < s.nZnT := by
  rw [(nZnT_eq hs).1]
  exact kl_range k0 k1 l0 l1

section
variable {lasym : Bool} {nfp mpol ntor ntheta nzeta mg ng : Int} (I : JxbIn) (hs : Sizes.mk lasym nfp mpol ntor ntheta nzeta mg ng = .ok I.s)
include hs

/-- **C87** (currents on a surface, without `lasym`): with the filtered `B_s`, a differentiable function on the surface,
    `μ₀ √g J^u = ∂_v B_s - Δ_s B_v` and `μ₀ √g J^v = Δ_s B_u - ∂_u B_s`, Ampère's law, where `Δ_s` is the difference quotient of the neighbouring half-grid surfaces -/
theorem C87_current_partial (hl : I.s.lasym = false) (hm : I.mu_0 ≠ 0)
    (hD : I.D.bsubsu = bsubsu I.s I.s.nfp I.ns I.bsubs_full ∧ I.D.bsubsv = bsubsv I.s I.s.nfp I.ns I.bsubs_full)
    (j : Int) (j0 : 1 ≤ j) (j1 : j < I.ns - 1) :
    ∃ F : ℝ → ℝ → ℝ, OddFilter I.s (onGrid I.s I.bsubs_full j) F ∧
      ∀ k l, 0 ≤ k → k < I.s.nZeta → 0 ≤ l → l < I.s.nThetaEff → ∃ du dv,
        HasDerivAt (fun θ => F θ (phiGrid I.s k)) du (thetaGrid I.s l) ∧
        HasDerivAt (fun φ => F (thetaGrid I.s l) φ) dv (phiGrid I.s k) ∧
        I.mu_0 * onGrid I.s I.itheta j k l = dv - (onGrid I.s (I.R.gridH .bsubv) j k l - onGrid I.s (I.R.gridH .bsubv) (j - 1) k l) / I.deltaS ∧
        I.mu_0 * onGrid I.s I.izeta j k l = (onGrid I.s (I.R.gridH .bsubu) j k l - onGrid I.s (I.R.gridH .bsubu) (j - 1) k l) / I.deltaS - du := by
  obtain ⟨F, hF, h⟩ := (C86_derivatives_partial hs hl I.ns I.bsubs_full j (by omega) (by omega)).2
  refine ⟨F, hF, fun k l k0 k1 l0 l1 => ?_⟩
  obtain ⟨g0, g1⟩ := grid_lt hs k0 k1 l0 l1
  obtain ⟨h1, h2⟩ := h k l k0 k1 l0 l1
  refine ⟨_, _, h1, h2, ?_, ?_⟩
  · unfold onGrid JxbIn.itheta
    rw [fillGrid_in j0 j1 g0 g1]
    simp only [JxbIn.ithetaAt, JxbIn.h, hD.2]
    field_simp
  · have e : I.izeta (j * I.s.nZnT + (k * I.s.nThetaEff + l)) = I.izetaAt j (k * I.s.nThetaEff + l) := by
      unfold JxbIn.izeta
      rw [extrapolate_eq I.s I.ns _ j _ g0 g1]
      simp only
      rw [upd_ne _ _ (by omega), upd_ne _ _ (by omega), fillGrid_in j0 j1 g0 g1]
    unfold onGrid
    rw [e]
    simp only [JxbIn.izetaAt, JxbIn.h, hD.1]
    field_simp
    ring

/-- **C87** fails for the radial current: with the filtered `B_u`, `B_v`, Ampère's law is `μ₀ √g J^s = ∂_u B_v - ∂_v B_u`; what is written, scaled by `V'`, is the
    negative of this -/
theorem C87_radial_current_fails (hl : I.s.lasym = false) (hw : I.write = true) (hm : I.mu_0 ≠ 0) (hV : ∀ j, I.R.profH .dVdsH j ≠ 0) (bu bv : Int → ℝ)
    (hD : I.D.bsubuv = bsubuv I.s I.s.nfp (I.ns - 1) bu ∧ I.D.bsubvu = bsubvu I.s I.s.nfp (I.ns - 1) bv)
    (j : Int) (j0 : 0 ≤ j) (j1 : j < I.ns - 2) :
    ∃ Fu Fv : ℝ → ℝ → ℝ, EvenFilter I.s (onGrid I.s bu j) Fu ∧ EvenFilter I.s (onGrid I.s bv j) Fv ∧
      ∀ k l, 0 ≤ k → k < I.s.nZeta → 0 ≤ l → l < I.s.nThetaEff → ∃ duBv dvBu,
        HasDerivAt (fun θ => Fv θ (phiGrid I.s k)) duBv (thetaGrid I.s l) ∧
        HasDerivAt (fun φ => Fu (thetaGrid I.s l) φ) dvBu (phiGrid I.s k) ∧
        I.mu_0 * (4 * Real.pi ^ 2 * I.R.profH .dVdsH j) * onGrid I.s I.jsups3 j k l = -(duBv - dvBu) := by
  obtain ⟨Fu, hFu, hu⟩ := (C86_derivatives_partial hs hl (I.ns - 1) bu j (by omega) (by omega)).1
  obtain ⟨Fv, hFv, hv⟩ := (C86_derivatives_partial hs hl (I.ns - 1) bv j (by omega) (by omega)).1
  refine ⟨Fu, Fv, hFu, hFv, fun k l k0 k1 l0 l1 => ?_⟩
  obtain ⟨g0, g1⟩ := grid_lt hs k0 k1 l0 l1
  refine ⟨_, _, (hv k l k0 k1 l0 l1).2.1, (hu k l k0 k1 l0 l1).2.2, ?_⟩
  unfold onGrid JxbIn.jsups3
  rw [I.onHalf_in hw _ j0 j1 g0 g1]
  have hp := Real.pi_ne_zero
  have hVj := hV j
  simp only [JxbIn.dnorm1, hD.1, hD.2]
  field_simp
  ring

/-- **C87** (force): `jcrossb` is `(J × B)·e_s / V'` with the full-grid field, `jxb_gradp` is the residual `((J × B)·e_s - dp/ds) / V'`, and `avforce` is its average -/
theorem C87_force (hw : I.write = true) (j : Int) (j0 : 1 ≤ j) (j1 : j < I.ns - 1) :
    (∀ kl, 0 ≤ kl → kl < I.s.nZnT →
      I.jcrossb (j * I.s.nZnT + kl) = I.jsupu3 (j * I.s.nZnT + kl) * I.bsupv3 (j * I.s.nZnT + kl) - I.jsupv3 (j * I.s.nZnT + kl) * I.bsupu3 (j * I.s.nZnT + kl) ∧
      I.jxb_gradp (j * I.s.nZnT + kl) = I.jcrossb (j * I.s.nZnT + kl) - I.pprim j) ∧
    I.pprim j = (I.R.profH .presH j - I.R.profH .presH (j - 1)) / (I.mu_0 * I.deltaS) * (2 / (4 * Real.pi ^ 2 * (I.R.profH .dVdsH j + I.R.profH .dVdsH (j - 1)))) ∧
    I.avforce j = ∑ kl ∈ Ico 0 I.s.nZnT, I.jxb_gradp (j * I.s.nZnT + kl) * Sizes.wInt I.s (kl.tmod I.s.nThetaEff) := by
  have hp : I.pprim j = I.pprime_ovp j := by
    unfold JxbIn.pprim
    rw [I.ends_in _ j0 j1, I.prof_in _ j0 j1, I.average_eq, ← Finset.mul_sum]
    have := wInt_sum hs
    unfold JxbIn.w
    rw [this, mul_one]
  refine ⟨?_, ?_, ?_⟩
  · intro kl k0 k1
    unfold JxbIn.jcrossb JxbIn.jsupu3 JxbIn.jsupv3 JxbIn.bsupu3 JxbIn.bsupv3 JxbIn.jxb_gradp
    simp only [I.onFull_in hw _ j0 j1 k0 k1, hp]
    refine ⟨?_, trivial⟩
    unfold JxbIn.jxb
    ring
  · rw [hp]
    unfold JxbIn.pprime_ovp JxbIn.pprime JxbIn.ovp JxbIn.dnorm1
    simp only
    have := Real.pi_ne_zero
    field_simp
  · unfold JxbIn.avforce
    rw [I.prof_in _ j0 j1, I.average_eq]
    refine Finset.sum_congr rfl fun kl hk => ?_
    rw [Finset.mem_Ico] at hk
    unfold JxbIn.jxb_gradp
    rw [I.onFull_in hw _ j0 j1 hk.1 hk.2]
    rfl

/-- **C87** (parallel current): `⟨J·B⟩² ≤ ⟨J_∥²⟩ ⟨B²⟩` -/
theorem C87_parallel (j : Int) (j0 : 1 ≤ j) (j1 : j < I.ns - 1) (hq : ∀ kl, 0 ≤ kl → kl < I.s.nZnT → 0 < I.sign_of_jacobian * I.sqgb2 j kl) :
    I.jdotb j ^ 2 ≤ I.jpar2 j * I.bdotb j := by
  unfold JxbIn.jdotb JxbIn.jpar2 JxbIn.bdotb
  rw [I.ends_in _ j0 j1, I.ends_in _ j0 j1, I.prof_in _ j0 j1, I.prof_in _ j0 j1, I.prof_in _ j0 j1, I.average_eq, I.average_eq, I.average_eq]
  unfold JxbIn.tjnorm
  set σ := I.sign_of_jacobian
  have cs := Finset.sum_mul_sq_le_sq_mul_sq (Ico 0 I.s.nZnT) (fun kl => I.bdotkAt j kl * Real.sqrt (I.w kl / (σ * I.sqgb2 j kl))) (fun kl => Real.sqrt (σ * I.sqgb2 j kl * I.w kl))
  have hw (kl : Int) : 0 < I.w kl := wInt_pos hs _
  have e1 : ∑ kl ∈ Ico 0 I.s.nZnT, I.bdotkAt j kl * Real.sqrt (I.w kl / (σ * I.sqgb2 j kl)) * Real.sqrt (σ * I.sqgb2 j kl * I.w kl) = ∑ kl ∈ Ico 0 I.s.nZnT, I.bdotkAt j kl * I.w kl := by
    refine Finset.sum_congr rfl fun kl hk => ?_
    rw [Finset.mem_Ico] at hk
    have q := hq kl hk.1 hk.2
    have a1 : σ ≠ 0 := left_ne_zero_of_mul q.ne'
    have a2 : I.sqgb2 j kl ≠ 0 := right_ne_zero_of_mul q.ne'
    rw [mul_assoc, ← Real.sqrt_mul (div_nonneg (hw kl).le q.le)]
    congr 1
    rw [show I.w kl / (σ * I.sqgb2 j kl) * (σ * I.sqgb2 j kl * I.w kl) = I.w kl ^ 2 by field_simp, Real.sqrt_sq (hw kl).le]
  have e2 : ∑ kl ∈ Ico 0 I.s.nZnT, (I.bdotkAt j kl * Real.sqrt (I.w kl / (σ * I.sqgb2 j kl))) ^ 2 = ∑ kl ∈ Ico 0 I.s.nZnT, I.bdotkAt j kl ^ 2 * (I.w kl / (σ * I.sqgb2 j kl)) := by
    refine Finset.sum_congr rfl fun kl hk => ?_
    rw [Finset.mem_Ico] at hk
    rw [mul_pow, Real.sq_sqrt (div_nonneg (hw kl).le (hq kl hk.1 hk.2).le)]
  have e3 : ∑ kl ∈ Ico 0 I.s.nZnT, (Real.sqrt (σ * I.sqgb2 j kl * I.w kl)) ^ 2 = ∑ kl ∈ Ico 0 I.s.nZnT, σ * I.sqgb2 j kl * I.w kl := by
    refine Finset.sum_congr rfl fun kl hk => ?_
    rw [Finset.mem_Ico] at hk
    rw [Real.sq_sqrt (mul_nonneg (hq kl hk.1 hk.2).le (hw kl).le)]
  rw [e1, e2, e3] at cs
  have f2 : ∑ kl ∈ Ico 0 I.s.nZnT, I.bdotkAt j kl ^ 2 * (I.w kl / (σ * I.sqgb2 j kl)) = σ⁻¹ * ∑ kl ∈ Ico 0 I.s.nZnT, I.bdotkAt j kl * I.bdotkAt j kl * I.w kl / I.sqgb2 j kl := by
    rw [Finset.mul_sum]
    refine Finset.sum_congr rfl fun kl hk => ?_
    rw [Finset.mem_Ico] at hk
    have q := hq kl hk.1 hk.2
    have : σ ≠ 0 := left_ne_zero_of_mul q.ne'
    have : I.sqgb2 j kl ≠ 0 := right_ne_zero_of_mul q.ne'
    field_simp
  have f3 : ∑ kl ∈ Ico 0 I.s.nZnT, σ * I.sqgb2 j kl * I.w kl = σ * ∑ kl ∈ Ico 0 I.s.nZnT, I.sqgb2 j kl * I.w kl := by
    rw [Finset.mul_sum]
    exact Finset.sum_congr rfl fun kl hk => by ring
  rw [f2, f3] at cs
  set A := ∑ kl ∈ Ico 0 I.s.nZnT, I.bdotkAt j kl * I.w kl
  set P := ∑ kl ∈ Ico 0 I.s.nZnT, I.bdotkAt j kl * I.bdotkAt j kl * I.w kl / I.sqgb2 j kl
  set Q := ∑ kl ∈ Ico 0 I.s.nZnT, I.sqgb2 j kl * I.w kl
  by_cases hσ : σ = 0
  · rw [hσ]; simp
  · have : σ⁻¹ * P * (σ * Q) = P * Q := by field_simp
    rw [this] at cs
    calc (JxbIn.dnorm1 * (I.ovp j * σ) * A) ^ 2 = (JxbIn.dnorm1 * (I.ovp j * σ)) ^ 2 * A ^ 2 := by ring
      _ ≤ (JxbIn.dnorm1 * (I.ovp j * σ)) ^ 2 * (P * Q) := mul_le_mul_of_nonneg_left cs (sq_nonneg _)
      _ = _ := by ring

/-- **C87** (bounds): unless they are clipped, `aminfor` and `amaxfor` bound the average force residual in percent of the pressure gradient -/
theorem C87_bounds (he : 0 < I.epsilon) (j : Int) (j0 : 1 ≤ j) (j1 : j < I.ns - 1) :
    (I.amaxfor j < 999.9 → 100 * I.pnorm j * I.avforce j ≤ I.amaxfor j) ∧
    (-999.9 < I.aminfor j → I.aminfor j ≤ 100 * I.pnorm j * I.avforce j) := by
  have hsum := wInt_sum hs
  have hw (kl : Int) : 0 < I.w kl := wInt_pos hs _
  have up : ∀ n : Int, ∀ kl, 0 ≤ kl → kl < n → I.force_residual j kl * I.pnorm j ≤ forRange 0 n (fun kl acc => max acc (I.force_residual j kl * I.pnorm j)) (-I.huge) := by
    intro n kl k0 k1
    induction n, (show kl + 1 ≤ n by omega) using Int.leInduction with
    | base => rw [forRange_succ (by omega)]; exact le_max_right _ _
    | succ n hn ih => rw [forRange_succ (by omega)]; exact (ih (by omega)).trans (le_max_left _ _)
  have dn : ∀ n : Int, ∀ kl, 0 ≤ kl → kl < n → forRange 0 n (fun kl acc => min acc (I.force_residual j kl * I.pnorm j)) I.huge ≤ I.force_residual j kl * I.pnorm j := by
    intro n kl k0 k1
    induction n, (show kl + 1 ≤ n by omega) using Int.leInduction with
    | base => rw [forRange_succ (by omega)]; exact min_le_right _ _
    | succ n hn ih => rw [forRange_succ (by omega)]; exact (min_le_left _ _).trans (ih (by omega))
  have av : I.pnorm j * I.avforce j = ∑ kl ∈ Ico 0 I.s.nZnT, I.force_residual j kl * I.pnorm j * I.w kl := by
    unfold JxbIn.avforce
    rw [I.prof_in _ j0 j1, I.average_eq, Finset.mul_sum]
    exact Finset.sum_congr rfl fun kl _ => by ring
  have one : ∑ kl ∈ Ico 0 I.s.nZnT, I.w kl = 1 := hsum
  constructor
  · intro h
    have e : I.amaxfor j = 100 * I.force_residual_max j := by
      unfold JxbIn.amaxfor at h ⊢
      rw [I.prof_in _ j0 j1] at h ⊢
      rw [min_eq_left]
      by_contra hc
      rw [min_eq_right (not_le.1 hc).le] at h
      norm_num at h
    rw [e, mul_assoc, av]
    refine mul_le_mul_of_nonneg_left ?_ (by norm_num)
    calc ∑ kl ∈ Ico 0 I.s.nZnT, I.force_residual j kl * I.pnorm j * I.w kl ≤ ∑ kl ∈ Ico 0 I.s.nZnT, I.force_residual_max j * I.w kl := by
          refine Finset.sum_le_sum fun kl hk => ?_
          rw [Finset.mem_Ico] at hk
          exact mul_le_mul_of_nonneg_right (up _ kl hk.1 hk.2) (hw kl).le
      _ = I.force_residual_max j := by rw [← Finset.mul_sum, one, mul_one]
  · intro h
    have e : I.aminfor j = 100 * I.force_residual_min j := by
      unfold JxbIn.aminfor at h ⊢
      rw [I.prof_in _ j0 j1] at h ⊢
      rw [max_eq_left]
      by_contra hc
      rw [max_eq_right (not_le.1 hc).le] at h
      norm_num at h
    rw [e, mul_assoc, av]
    refine mul_le_mul_of_nonneg_left ?_ (by norm_num)
    calc I.force_residual_min j = ∑ kl ∈ Ico 0 I.s.nZnT, I.force_residual_min j * I.w kl := by rw [← Finset.mul_sum, one, mul_one]
      _ ≤ _ := by
          refine Finset.sum_le_sum fun kl hk => ?_
          rw [Finset.mem_Ico] at hk
          exact mul_le_mul_of_nonneg_right (dn _ kl hk.1 hk.2) (hw kl).le

end


/-! ## the perpendicular current -/

/-- the current perpendicular to the field, `J_⊥ = B × ∇p / B²`, with `∇s = e_u × e_v / √g` and `∇p = p' ∇s` -/
noncomputable def jPerp (p : ℝ) (es eu ev B : Fin 3 → ℝ) : Fin 3 → ℝ :=
  (1 / (B ⬝ᵥ B)) • crossProduct B ((p / (es ⬝ᵥ crossProduct eu ev)) • crossProduct eu ev)

/-- two neighbouring surfaces with the same geometry and the same field, and different pressure -/
structure Uniform (I : JxbIn) (j kl : Int) (es eu ev : Fin 3 → ℝ) (Bu Bv : ℝ) : Prop where
  gsqrt : ∀ i, i = j ∨ i = j - 1 → I.h .gsqrt i kl = es ⬝ᵥ crossProduct eu ev
  guu : ∀ i, i = j ∨ i = j - 1 → I.h .guu i kl = eu ⬝ᵥ eu
  guv : ∀ i, i = j ∨ i = j - 1 → I.h .guv i kl = eu ⬝ᵥ ev
  gvv : ∀ i, i = j ∨ i = j - 1 → I.h .gvv i kl = ev ⬝ᵥ ev
  bsubu : ∀ i, i = j ∨ i = j - 1 → I.h .bsubu i kl = eu ⬝ᵥ (Bu • eu + Bv • ev)
  bsubv : ∀ i, i = j ∨ i = j - 1 → I.h .bsubv i kl = ev ⬝ᵥ (Bu • eu + Bv • ev)
  total : ∀ i, i = j ∨ i = j - 1 → I.h .total_pressure i kl = ((Bu • eu + Bv • ev) ⬝ᵥ (Bu • eu + Bv • ev)) / 2 + I.R.profH .presH i

theorem uniform_kp2 {I : JxbIn} {j kl : Int} {es eu ev : Fin 3 → ℝ} {Bu Bv : ℝ} (U : Uniform I j kl es eu ev Bu Bv) :
    I.kp2 j kl = (I.pprime j / ((es ⬝ᵥ crossProduct eu ev) * ((Bu • eu + Bv • ev) ⬝ᵥ (Bu • eu + Bv • ev)))) ^ 2 *
      ((ev ⬝ᵥ (Bu • eu + Bv • ev)) ^ 2 * (eu ⬝ᵥ eu) + 2 * (eu ⬝ᵥ (Bu • eu + Bv • ev)) * (ev ⬝ᵥ (Bu • eu + Bv • ev)) * (eu ⬝ᵥ ev) +
        (eu ⬝ᵥ (Bu • eu + Bv • ev)) ^ 2 * (ev ⬝ᵥ ev)) := by
  have hq : I.sqgb2 j kl = (es ⬝ᵥ crossProduct eu ev) * ((Bu • eu + Bv • ev) ⬝ᵥ (Bu • eu + Bv • ev)) := by
    unfold JxbIn.sqgb2
    simp only [U.gsqrt j (Or.inl rfl), U.gsqrt (j - 1) (Or.inr rfl), U.total j (Or.inl rfl), U.total (j - 1) (Or.inr rfl)]
    ring
  unfold JxbIn.kp2 JxbIn.kperpu JxbIn.kperpv
  simp only [hq, U.guu j (Or.inl rfl), U.guu (j - 1) (Or.inr rfl), U.guv j (Or.inl rfl), U.guv (j - 1) (Or.inr rfl), U.gvv j (Or.inl rfl), U.gvv (j - 1) (Or.inr rfl),
    U.bsubu j (Or.inl rfl), U.bsubu (j - 1) (Or.inr rfl), U.bsubv j (Or.inl rfl), U.bsubv (j - 1) (Or.inr rfl)]
  ring

theorem jPerp_sq (p : ℝ) (es eu ev B : Fin 3 → ℝ) : jPerp p es eu ev B ⬝ᵥ jPerp p es eu ev B =
    (p / ((es ⬝ᵥ crossProduct eu ev) * (B ⬝ᵥ B))) ^ 2 * ((ev ⬝ᵥ B) ^ 2 * (eu ⬝ᵥ eu) - 2 * (eu ⬝ᵥ B) * (ev ⬝ᵥ B) * (eu ⬝ᵥ ev) + (eu ⬝ᵥ B) ^ 2 * (ev ⬝ᵥ ev)) := by
  unfold jPerp
  rw [map_smul, smul_smul, smul_dotProduct, dotProduct_smul, smul_eq_mul, smul_eq_mul, ← mul_assoc]
  congr 1
  · ring
  · simp only [cross_apply, dotProduct, Fin.sum_univ_three, Matrix.cons_val_zero, Matrix.cons_val_one, Matrix.cons_val_two, Matrix.head_cons, Matrix.tail_cons, Matrix.cons_val]
    ring

/-- `jPerp` is perpendicular to the field -/
theorem jPerp_perp (p : ℝ) (es eu ev B : Fin 3 → ℝ) : jPerp p es eu ev B ⬝ᵥ B = 0 := by
  unfold jPerp
  rw [map_smul, smul_dotProduct, smul_dotProduct, show crossProduct B (crossProduct eu ev) ⬝ᵥ B = 0 from (dotProduct_comm _ B).trans (dot_self_cross B _)]
  simp

/-- **C87** (perpendicular current): where `e_u · e_v = 0`, or the field has only one covariant component, the square that is averaged in `jperp2` is that of the perpendicular
    current.  In general its mixed term has the wrong sign (`C87_perpendicular_fails`) -/
theorem C87_perpendicular_partial {I : JxbIn} {j kl : Int} {es eu ev : Fin 3 → ℝ} {Bu Bv : ℝ} (U : Uniform I j kl es eu ev Bu Bv)
    (h : (eu ⬝ᵥ (Bu • eu + Bv • ev)) * (ev ⬝ᵥ (Bu • eu + Bv • ev)) * (eu ⬝ᵥ ev) = 0) :
    I.kp2 j kl = jPerp (I.pprime j) es eu ev (Bu • eu + Bv • ev) ⬝ᵥ jPerp (I.pprime j) es eu ev (Bu • eu + Bv • ev) := by
  rw [uniform_kp2 U, jPerp_sq]
  congr 1
  linear_combination 4 * h

/-- **C87** fails: `e_u = (1, 0, 0)`, `e_v = (1, 1, 0)`, `B = e_v`, `p' = 1`: the perpendicular current has the square 1/2, the code gets 5/2 -/
theorem C87_perpendicular_fails (I : JxbIn) (j kl : Int) (U : Uniform I j kl ![0, 0, 1] ![1, 0, 0] ![1, 1, 0] 0 1) (hp : I.pprime j = 1) :
    2 * (jPerp (I.pprime j) ![0, 0, 1] ![1, 0, 0] ![1, 1, 0] ((0 : ℝ) • ![1, 0, 0] + (1 : ℝ) • ![1, 1, 0]) ⬝ᵥ
      jPerp (I.pprime j) ![0, 0, 1] ![1, 0, 0] ![1, 1, 0] ((0 : ℝ) • ![1, 0, 0] + (1 : ℝ) • ![1, 1, 0])) = 1 ∧ 2 * I.kp2 j kl = 5 := by
  rw [uniform_kp2 U, jPerp_sq, hp]
  constructor <;>
  · simp only [cross_apply, dotProduct, Fin.sum_univ_three, Pi.add_apply, Pi.smul_apply, smul_eq_mul, Matrix.cons_val_zero, Matrix.cons_val_one, Matrix.cons_val_two, Matrix.head_cons, Matrix.tail_cons, Matrix.cons_val]
    norm_num

/-! ## the ends of the profiles -/

/-- **C87** (ends): with four surfaces or more the surface averages continue linearly to the axis and the boundary -/
theorem C87_ends_partial (I : JxbIn) (h4 : 4 ≤ I.ns) (v : Int → ℝ) :
    let f := I.ends (I.prof v)
    f 1 - f 0 = f 2 - f 1 ∧ f (I.ns - 1) - f (I.ns - 2) = f (I.ns - 2) - f (I.ns - 3) := by
  intro f
  have i (j : Int) (j0 : 1 ≤ j) (j1 : j < I.ns - 1) : f j = I.prof v j := I.ends_in _ j0 j1
  have f0 : f 0 = 2 * I.prof v 1 - I.prof v 2 := by
    show upd _ _ _ 0 = _
    rw [upd_ne _ _ (by omega), upd_same]
  have fe : f (I.ns - 1) = 2 * I.prof v (I.ns - 2) - I.prof v (I.ns - 3) := by
    show upd _ _ _ (I.ns - 1) = _
    rw [upd_same, upd_ne _ _ (by omega), upd_ne _ _ (by omega)]
  rw [f0, fe, i 1 (by omega) (by omega), i 2 (by omega) (by omega), i (I.ns - 2) (by omega) (by omega), i (I.ns - 3) (by omega) (by omega)]
  constructor <;> ring

/-- **C87** fails with three surfaces: whatever the value of the only interior surface is, the axis gets twice this value and the boundary zero -/
theorem C87_ends_fails (I : JxbIn) (h3 : I.ns = 3) (v : Int → ℝ) :
    I.ends (I.prof v) 0 = 2 * v 1 ∧ I.ends (I.prof v) 1 = v 1 ∧ I.ends (I.prof v) 2 = 0 := by
  have p1 : I.prof v 1 = v 1 := I.prof_in v (by omega) (by omega)
  have p2 : I.prof v 2 = 0 := by rw [I.prof_eq, if_neg (by omega)]
  refine ⟨?_, ?_, ?_⟩
  · show upd _ _ _ 0 = _
    rw [upd_ne _ _ (by omega), upd_same, p1, p2, sub_zero]
  · rw [I.ends_in _ (by omega) (by omega), p1]
  · show upd _ _ _ 2 = _
    rw [h3, show (3 : Int) - 1 = 2 from rfl, upd_same, show (3 : Int) - 2 = 1 from rfl, show (3 : Int) - 3 = 0 from rfl, upd_ne _ _ (by omega), upd_same, p1, p2]
    ring

/-! ## the hypotheses are met -/

/-- constant half-grid fields with pressure falling linearly -/
noncomputable def jxbEx (s : Sizes.Sizes) : JxbIn where
  s := s
  ns := 5
  deltaS := 1 / 4
  mu_0 := 1
  epsilon := 1 / 1000
  huge := 1000
  sign_of_jacobian := -1
  R := { Results.zero with
    profH := fun c j => match c with | .presH => j / 4 | .dVdsH => 1 | _ => 0
    gridH := fun c i => match c with
      | .gsqrt => -1
      | .total_pressure => 2 + ((i / s.nZnT : Int) : ℝ) / 4
      | .bsubu => i
      | _ => 0 }
  D := { bsubsu := bsubsu s s.nfp 5 (fun i => i), bsubsv := bsubsv s s.nfp 5 (fun i => i), bsubuv := bsubuv s s.nfp 4 (fun i => i), bsubvu := bsubvu s s.nfp 4 (fun i => i) }
  bsubs_full := fun i => i
  write := true

example : ∃ I : JxbIn, Sizes.mk false 5 6 4 0 36 0 0 = .ok I.s ∧ I.s.lasym = false ∧ I.mu_0 ≠ 0 ∧ I.write = true ∧ 4 ≤ I.ns ∧ (∀ j, I.R.profH .dVdsH j ≠ 0) ∧ 0 < I.epsilon ∧
    (I.D.bsubsu = bsubsu I.s I.s.nfp I.ns I.bsubs_full ∧ I.D.bsubsv = bsubsv I.s I.s.nfp I.ns I.bsubs_full) ∧
    (∀ kl, 0 ≤ kl → kl < I.s.nZnT → 0 < I.sign_of_jacobian * I.sqgb2 2 kl) := by
  obtain ⟨s, hs⟩ : ∃ s, Sizes.mk false 5 6 4 0 36 0 0 = .ok s := ⟨_, rfl⟩
  refine ⟨jxbEx s, hs, by cases hs; decide, by simp [jxbEx], rfl, by simp [jxbEx], by simp [jxbEx], by simp [jxbEx], ⟨rfl, rfl⟩, ?_⟩
  intro kl k0 k1
  have hz : 0 < s.nZnT := by cases hs; decide
  have k1' : kl < s.nZnT := k1
  have e (j : Int) : (j * s.nZnT + kl) / s.nZnT = j := by
    rw [add_comm, Int.add_mul_ediv_right _ _ hz.ne', Int.ediv_eq_zero_of_lt k0 k1', zero_add]
  have e2 := e 2
  have e1 := e (2 - 1)
  simp only [JxbIn.sqgb2, JxbIn.h, jxbEx]
  rw [e2, e1]
  norm_num

/-- neighbouring surfaces as `Uniform` asks, with the vectors of `C87_perpendicular_fails` -/
example (s : Sizes.Sizes) : ∃ (I : JxbIn), Uniform I 1 0 ![0, 0, 1] ![1, 0, 0] ![1, 1, 0] 0 1 ∧ I.pprime 1 = 1 := by
  refine ⟨{ jxbEx s with
    R := { Results.zero with
      profH := fun c j => match c with | .presH => j / 4 | _ => 0
      gridH := fun c i => match c with
        | .gsqrt => 1
        | .guu => 1 | .guv => 1 | .gvv => 2 | .bsubu => 1 | .bsubv => 2
        | .total_pressure => if i = 1 then 1 + 1 / 4 else 1
        | _ => 0 } , s := { s with nZnT := 1 } }, ?_, ?_⟩
  · constructor <;> rintro i (rfl | rfl) <;> simp [JxbIn.h, cross_apply, dotProduct, Fin.sum_univ_three, Matrix.cons_val] <;> norm_num
  · simp [JxbIn.pprime, jxbEx]

end Verif.Output
