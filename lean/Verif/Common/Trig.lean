import Verif.Common.FlatSum
import Mathlib.Analysis.SpecialFunctions.Trigonometric.Basic
import Mathlib.Analysis.SpecialFunctions.Complex.Log
import Mathlib.Algebra.Field.GeomSum
import Mathlib.Tactic.LinearCombination
import Mathlib.Algebra.BigOperators.Field

/-!
# Discrete orthogonality of trigonometric functions on equidistant grids
-/
namespace Verif
open Finset

theorem geom_root_sum (N : ℕ) (z : ℂ) (hN : z ^ N = 1) (h1 : z ≠ 1) : ∑ l ∈ range N, z ^ l = 0 := by
  have := geom_sum_mul z N
  rw [hN, sub_self] at this
  rcases mul_eq_zero.1 this with h | h
  · exact h
  · exact absurd (sub_eq_zero.1 h) h1

theorem exp_sum (N : ℕ) (hN : 0 < N) (p : ℤ) :
    ∑ l ∈ range N, Complex.exp (((2 * Real.pi * p * l / N : ℝ) : ℂ) * Complex.I) =
      if (N : ℤ) ∣ p then (N : ℂ) else 0 := by
  have hN0 : (N : ℂ) ≠ 0 := by exact_mod_cast hN.ne'
  have e : ∀ l : ℕ, Complex.exp (((2 * Real.pi * p * l / N : ℝ) : ℂ) * Complex.I) =
      Complex.exp (2 * Real.pi * p / N * Complex.I) ^ l := by
    intro l
    rw [← Complex.exp_nat_mul]
    congr 1
    push_cast
    field_simp
  simp only [e]
  split
  · rename_i h
    obtain ⟨q, rfl⟩ := h
    have : Complex.exp (2 * Real.pi * ((N * q : ℤ) : ℂ) / N * Complex.I) = 1 := by
      rw [Complex.exp_eq_one_iff]
      refine ⟨q, ?_⟩
      push_cast
      field_simp
    rw [this]; simp
  · rename_i h
    apply geom_root_sum
    · rw [← Complex.exp_nat_mul, Complex.exp_eq_one_iff]
      refine ⟨p, ?_⟩
      field_simp
    · intro hc
      rw [Complex.exp_eq_one_iff] at hc
      obtain ⟨q, hq⟩ := hc
      apply h
      refine ⟨q, ?_⟩
      have hpi : (Real.pi : ℂ) ≠ 0 := by exact_mod_cast Real.pi_ne_zero
      have h2 : (2 : ℂ) * Real.pi * Complex.I ≠ 0 := by
        simp [hpi, Complex.I_ne_zero]
      have : (p : ℂ) = N * q := by
        have h3 : (p : ℂ) * (2 * Real.pi * Complex.I) = N * q * (2 * Real.pi * Complex.I) := by
          field_simp at hq
          linear_combination (2 * Real.pi * Complex.I) * hq
        exact mul_right_cancel₀ h2 h3
      exact_mod_cast this

theorem sum_Ico_toNat (N : ℤ) (f : ℤ → ℝ) : ∑ l ∈ Ico 0 N, f l = ∑ l ∈ range N.toNat, f l := by
  refine Finset.sum_nbij' (fun j => j.toNat) (fun j => (j : ℤ)) ?_ ?_ ?_ ?_ ?_
  · intro j h; rw [Finset.mem_Ico] at h; rw [Finset.mem_range]; omega
  · intro j h; rw [Finset.mem_Ico]; rw [Finset.mem_range] at h; omega
  · intro j h; rw [Finset.mem_Ico] at h; omega
  · intro j _; simp
  · intro j h; rw [Finset.mem_Ico] at h; congr 1; omega

/-- `Σ_{l<N} cos(2π p l / N) = N` if `N ∣ p`, else `0` -/
theorem cos_sum (N : ℤ) (hN : 0 < N) (p : ℤ) :
    ∑ l ∈ Ico 0 N, Real.cos (2 * Real.pi * p * l / N) = if N ∣ p then (N : ℝ) else 0 := by
  obtain ⟨n, rfl⟩ := Int.eq_ofNat_of_zero_le hN.le
  rw [sum_Ico_toNat]
  have h := congrArg Complex.re (exp_sum n (by omega) p)
  rw [Complex.re_sum] at h
  simp only [Complex.exp_ofReal_mul_I_re] at h
  simp only [Int.toNat_natCast, Int.cast_natCast] at *
  rw [h]
  split <;> simp

/-- `Σ_{l<N} sin(2π p l / N) = 0` -/
theorem sin_sum (N : ℤ) (hN : 0 < N) (p : ℤ) :
    ∑ l ∈ Ico 0 N, Real.sin (2 * Real.pi * p * l / N) = 0 := by
  obtain ⟨n, rfl⟩ := Int.eq_ofNat_of_zero_le hN.le
  rw [sum_Ico_toNat]
  have h := congrArg Complex.im (exp_sum n (by omega) p)
  rw [Complex.im_sum] at h
  simp only [Complex.exp_ofReal_mul_I_im] at h
  simp only [Int.toNat_natCast, Int.cast_natCast] at *
  rw [h]
  split <;> simp

theorem cos_mul_cos' (a b : ℝ) : Real.cos a * Real.cos b = (Real.cos (a - b) + Real.cos (a + b)) / 2 := by
  rw [Real.cos_sub, Real.cos_add]; ring
theorem sin_mul_sin' (a b : ℝ) : Real.sin a * Real.sin b = (Real.cos (a - b) - Real.cos (a + b)) / 2 := by
  rw [Real.cos_sub, Real.cos_add]; ring
theorem sin_mul_cos' (a b : ℝ) : Real.sin a * Real.cos b = (Real.sin (a - b) + Real.sin (a + b)) / 2 := by
  rw [Real.sin_sub, Real.sin_add]; ring

section
variable (N : ℤ) (hN : 0 < N) (p q : ℤ)

private theorem arg_sub (l : ℤ) : (p : ℝ) * (2 * Real.pi * l / N) - q * (2 * Real.pi * l / N) =
    2 * Real.pi * ((p - q : ℤ) : ℝ) * l / N := by push_cast; ring
private theorem arg_add (l : ℤ) : (p : ℝ) * (2 * Real.pi * l / N) + q * (2 * Real.pi * l / N) =
    2 * Real.pi * ((p + q : ℤ) : ℝ) * l / N := by push_cast; ring
include hN

theorem cos_cos_sum :
    ∑ l ∈ Ico 0 N, Real.cos (p * (2 * Real.pi * l / N)) * Real.cos (q * (2 * Real.pi * l / N)) =
      ((if N ∣ p - q then (N : ℝ) else 0) + (if N ∣ p + q then (N : ℝ) else 0)) / 2 := by
  simp only [cos_mul_cos', arg_sub, arg_add]
  rw [← Finset.sum_div, Finset.sum_add_distrib, cos_sum N hN, cos_sum N hN]

theorem sin_sin_sum :
    ∑ l ∈ Ico 0 N, Real.sin (p * (2 * Real.pi * l / N)) * Real.sin (q * (2 * Real.pi * l / N)) =
      ((if N ∣ p - q then (N : ℝ) else 0) - (if N ∣ p + q then (N : ℝ) else 0)) / 2 := by
  simp only [sin_mul_sin', arg_sub, arg_add]
  rw [← Finset.sum_div, Finset.sum_sub_distrib, cos_sum N hN, cos_sum N hN]

theorem sin_cos_sum :
    ∑ l ∈ Ico 0 N, Real.sin (p * (2 * Real.pi * l / N)) * Real.cos (q * (2 * Real.pi * l / N)) = 0 := by
  simp only [sin_mul_cos', arg_sub, arg_add]
  rw [← Finset.sum_div, Finset.sum_add_distrib, sin_sum N hN, sin_sum N hN]; simp
end

/-- divisibility of small differences and sums -/
theorem dvd_small {N p : ℤ} (h1 : -N < p) (h2 : p < N) : N ∣ p ↔ p = 0 := by
  constructor
  · rintro ⟨q, rfl⟩
    have : q = 0 := by
      by_contra hq
      rcases lt_or_gt_of_ne hq with h | h
      · nlinarith
      · nlinarith
    simp [this]
  · rintro rfl; simp

end Verif
