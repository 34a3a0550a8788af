import Mathlib.Analysis.SpecialFunctions.Trigonometric.Arctan
import Verif.Nestor.Rational

/-! # Fourier modes along a ray through the singular point -/
namespace Verif.Nestor
open MeasureTheory Complex

/-- `∫ cos(m u + n v) / ((1 + tan²(u/2)) (1 + tan²(v/2))) dr` along `tan(u/2) = a r`, `tan(v/2) = b r` -/
noncomputable def modeInt (a b : ℝ) (m n : ℕ) : ℝ :=
  ∫ r : ℝ, Real.cos (m * (2 * Real.arctan (a * r)) + n * (2 * Real.arctan (b * r))) / ((1 + (a * r) ^ 2) * (1 + (b * r) ^ 2))

theorem cay_exp (a r : ℝ) : cay a r = exp (I * ((2 * Real.arctan (a * r) : ℝ) : ℂ)) := by
  have hp : (1 + (a * r) ^ 2) ≠ 0 := by positivity
  have hc : Real.cos (2 * Real.arctan (a * r)) = (1 - (a * r) ^ 2) / (1 + (a * r) ^ 2) := by
    rw [Real.cos_two_mul, Real.cos_sq_arctan]; field_simp; ring
  have hs : Real.sin (2 * Real.arctan (a * r)) = 2 * (a * r) / (1 + (a * r) ^ 2) := by
    have : Real.sin (Real.arctan (a * r)) = (a * r) * Real.cos (Real.arctan (a * r)) := by
      rw [Real.sin_arctan, Real.cos_arctan]; ring
    rw [Real.sin_two_mul, this]
    have h2 := Real.cos_sq_arctan (a * r)
    have : 2 * ((a * r) * Real.cos (Real.arctan (a * r))) * Real.cos (Real.arctan (a * r))
        = 2 * (a * r) * Real.cos (Real.arctan (a * r)) ^ 2 := by ring
    rw [this, h2]; ring
  rw [mul_comm I, exp_mul_I, ← ofReal_cos, ← ofReal_sin, hc, hs]
  unfold cay
  have h1 : ((1 + (a * r) ^ 2 : ℝ) : ℂ) ≠ 0 := by exact_mod_cast hp
  have hn := lin_ne (-a) r
  rw [div_eq_iff hn]
  have key : (1 + I * ((a : ℂ) * r)) * (1 + ((a : ℂ) * r) ^ 2)
      = ((1 - ((a : ℂ) * r) ^ 2) + 2 * ((a : ℂ) * r) * I) * (1 - I * ((a : ℂ) * r)) := by
    linear_combination 2 * ((a : ℂ) * r) ^ 2 * I_sq
  have e1 : lin a r = 1 + I * ((a : ℂ) * r) := by unfold lin; push_cast; ring
  have e2 : lin (-a) r = 1 - I * ((a : ℂ) * r) := by unfold lin; push_cast; ring
  rw [e1, e2]
  push_cast at h1 ⊢
  generalize (a : ℂ) * r = x at *
  rw [div_mul_eq_mul_div, ← add_div, div_mul_eq_mul_div, eq_div_iff h1]
  exact key

theorem mode_re (a b r : ℝ) (m n : ℕ) :
    Real.cos (m * (2 * Real.arctan (a * r)) + n * (2 * Real.arctan (b * r))) / ((1 + (a * r) ^ 2) * (1 + (b * r) ^ 2))
      = (cay a r ^ m * cay b r ^ n / ((lin a r * lin (-a) r) * (lin b r * lin (-b) r))).re := by
  rw [lin_mul, lin_mul, ← ofReal_mul, div_ofReal_re, cay_exp, cay_exp, ← exp_nat_mul, ← exp_nat_mul, ← exp_add]
  congr 1
  have : (m : ℂ) * (I * ((2 * Real.arctan (a * r) : ℝ) : ℂ)) + (n : ℂ) * (I * ((2 * Real.arctan (b * r) : ℝ) : ℂ))
      = ((m * (2 * Real.arctan (a * r)) + n * (2 * Real.arctan (b * r)) : ℝ) : ℂ) * I := by
    push_cast; ring
  rw [this, exp_ofReal_mul_I_re]

theorem half_succ (a r : ℝ) (m : ℕ) :
    cay a r ^ (m + 1) / (lin a r * lin (-a) r) = (cay a r ^ (m + 1) + cay a r ^ m) / (2 * lin (-a) r) := by
  have h1 := lin_ne a r
  have h2 := lin_ne (-a) r
  have e : cay a r / (lin a r * lin (-a) r) = (cay a r + 1) / (2 * lin (-a) r) := by
    unfold cay
    field_simp
    unfold lin; push_cast; ring
  rw [pow_succ]
  linear_combination (cay a r ^ m) * e

theorem half_zero (a r : ℝ) : 1 / (lin a r * lin (-a) r) = (1 / lin (-a) r + 1 / lin a r) / 2 := by
  have h1 := lin_ne a r
  have h2 := lin_ne (-a) r
  field_simp
  unfold lin; push_cast; ring

section
variable {a b : ℝ} (ha : a ≠ 0) (hb : b ≠ 0)
include ha hb

/-- integral of four terms -/
theorem integral_four (a1 b1 a2 b2 a3 b3 a4 b4 : ℝ) (h1 : a1 ≠ 0) (h2 : b1 ≠ 0) (h3 : a2 ≠ 0) (h4 : b2 ≠ 0) (h5 : a3 ≠ 0)
    (h6 : b3 ≠ 0) (h7 : a4 ≠ 0) (h8 : b4 ≠ 0) (m1 n1 m2 n2 m3 n3 m4 n4 m n : ℕ)
    (h : ∀ r, cay a r ^ m * cay b r ^ n / ((lin a r * lin (-a) r) * (lin b r * lin (-b) r))
      = ((1 / 4 : ℝ) : ℂ) * (cay a1 r ^ m1 * cay b1 r ^ n1 / (lin (-a1) r * lin (-b1) r)
        + cay a2 r ^ m2 * cay b2 r ^ n2 / (lin (-a2) r * lin (-b2) r)
        + cay a3 r ^ m3 * cay b3 r ^ n3 / (lin (-a3) r * lin (-b3) r)
        + cay a4 r ^ m4 * cay b4 r ^ n4 / (lin (-a4) r * lin (-b4) r))) :
    modeInt a b m n = 1 / 4 * (ratInt a1 b1 m1 n1 + ratInt a2 b2 m2 n2 + ratInt a3 b3 m3 n3 + ratInt a4 b4 m4 n4) := by
  unfold modeInt
  have i1 := integrable_re (integrable_term h1 h2 m1 n1)
  have i2 := integrable_re (integrable_term h3 h4 m2 n2)
  have i3 := integrable_re (integrable_term h5 h6 m3 n3)
  have i4 := integrable_re (integrable_term h7 h8 m4 n4)
  have j2 : Integrable fun r => (cay a1 r ^ m1 * cay b1 r ^ n1 / (lin (-a1) r * lin (-b1) r)).re
    + (cay a2 r ^ m2 * cay b2 r ^ n2 / (lin (-a2) r * lin (-b2) r)).re := i1.add i2
  have j3 : Integrable fun r => (cay a1 r ^ m1 * cay b1 r ^ n1 / (lin (-a1) r * lin (-b1) r)).re
    + (cay a2 r ^ m2 * cay b2 r ^ n2 / (lin (-a2) r * lin (-b2) r)).re
    + (cay a3 r ^ m3 * cay b3 r ^ n3 / (lin (-a3) r * lin (-b3) r)).re := j2.add i3
  unfold ratInt
  rw [← integral_add i1 i2, ← integral_add j2 i3, ← integral_add j3 i4, ← integral_const_mul]
  refine integral_congr_ae (ae_of_all _ fun r => ?_)
  beta_reduce
  rw [mode_re, h r, Complex.re_ofReal_mul, Complex.add_re, Complex.add_re, Complex.add_re]

theorem modeInt_succ_succ (m n : ℕ) : modeInt a b (m + 1) (n + 1)
    = 1 / 4 * (ratInt a b (m + 1) (n + 1) + ratInt a b (m + 1) n + ratInt a b m (n + 1) + ratInt a b m n) := by
  refine integral_four ha hb _ _ _ _ _ _ _ _ ha hb ha hb ha hb ha hb _ _ _ _ _ _ _ _ _ _ fun r => ?_
  have e1 := half_succ a r m
  have e2 := half_succ b r n
  have : cay a r ^ (m + 1) * cay b r ^ (n + 1) / ((lin a r * lin (-a) r) * (lin b r * lin (-b) r))
      = (cay a r ^ (m + 1) / (lin a r * lin (-a) r)) * (cay b r ^ (n + 1) / (lin b r * lin (-b) r)) := by
    rw [div_mul_div_comm]
  rw [this, e1, e2]
  have h1 := lin_ne (-a) r
  have h2 := lin_ne (-b) r
  push_cast
  field_simp
  ring

theorem modeInt_succ_zero (m : ℕ) : modeInt a b (m + 1) 0
    = 1 / 4 * (ratInt a b (m + 1) 0 + ratInt a b m 0 + ratInt a (-b) (m + 1) 0 + ratInt a (-b) m 0) := by
  have hb' := neg_ne_zero.2 hb
  refine integral_four ha hb _ _ _ _ _ _ _ _ ha hb ha hb ha hb' ha hb' _ _ _ _ _ _ _ _ _ _ fun r => ?_
  have e1 := half_succ a r m
  have e2 := half_zero b r
  have : cay a r ^ (m + 1) * cay b r ^ 0 / ((lin a r * lin (-a) r) * (lin b r * lin (-b) r))
      = (cay a r ^ (m + 1) / (lin a r * lin (-a) r)) * (1 / (lin b r * lin (-b) r)) := by
    rw [div_mul_div_comm, pow_zero]
  rw [this, e1, e2]
  have h1 := lin_ne (-a) r
  have h2 := lin_ne (-b) r
  have h3 := lin_ne b r
  rw [neg_neg]
  push_cast
  simp only [pow_zero]
  field_simp
  ring

theorem modeInt_swap (m n : ℕ) : modeInt a b m n = modeInt b a n m := by
  unfold modeInt
  refine integral_congr_ae (ae_of_all _ fun r => ?_)
  beta_reduce
  rw [add_comm (m * (2 * Real.arctan (a * r))), mul_comm (1 + (a * r) ^ 2)]

theorem modeInt_zero_zero : modeInt a b 0 0
    = 1 / 4 * (ratInt a b 0 0 + ratInt a (-b) 0 0 + ratInt (-a) b 0 0 + ratInt (-a) (-b) 0 0) := by
  have hb' := neg_ne_zero.2 hb
  have ha' := neg_ne_zero.2 ha
  refine integral_four ha hb _ _ _ _ _ _ _ _ ha hb ha hb' ha' hb ha' hb' _ _ _ _ _ _ _ _ _ _ fun r => ?_
  have e1 := half_zero a r
  have e2 := half_zero b r
  have : cay a r ^ 0 * cay b r ^ 0 / ((lin a r * lin (-a) r) * (lin b r * lin (-b) r))
      = (1 / (lin a r * lin (-a) r)) * (1 / (lin b r * lin (-b) r)) := by
    rw [div_mul_div_comm, pow_zero, pow_zero]
  rw [this, e1, e2]
  have h1 := lin_ne (-a) r
  have h2 := lin_ne (-b) r
  have h3 := lin_ne b r
  have h4 := lin_ne a r
  rw [neg_neg, neg_neg]
  push_cast
  simp only [pow_zero]
  field_simp
  ring
end

theorem modeInt_neg_right (a b : ℝ) (m : ℕ) : modeInt a (-b) m 0 = modeInt a b m 0 := by
  unfold modeInt
  refine integral_congr_ae (ae_of_all _ fun r => ?_)
  beta_reduce
  rw [Nat.cast_zero, zero_mul, zero_mul, neg_mul, neg_sq]

theorem modeInt_neg_left (a b : ℝ) (n : ℕ) : modeInt a (-b) 0 n = modeInt a b 0 n := by
  unfold modeInt
  refine integral_congr_ae (ae_of_all _ fun r => ?_)
  beta_reduce
  rw [Nat.cast_zero, zero_mul, neg_mul, neg_sq, Real.arctan_neg, ← Real.cos_neg]
  congr 2
  ring

theorem modeInt_neg (a b : ℝ) (m n : ℕ) : modeInt (-a) (-b) m n = modeInt a b m n := by
  unfold modeInt
  refine integral_congr_ae (ae_of_all _ fun r => ?_)
  beta_reduce
  rw [neg_mul, neg_mul, neg_sq, neg_sq, Real.arctan_neg, Real.arctan_neg, ← Real.cos_neg]
  congr 2
  ring

theorem ratInt_neg (a b : ℝ) (m n : ℕ) : ratInt (-a) (-b) m n = ratInt a b m n := by
  unfold ratInt
  rw [← integral_neg_eq_self]
  refine integral_congr_ae (ae_of_all _ fun r => ?_)
  have h : ∀ c : ℝ, lin (-c) (-r) = lin c r := by intro c; unfold lin; push_cast; ring
  have h' : ∀ c : ℝ, lin c (-r) = lin (-c) r := by intro c; unfold lin; push_cast; ring
  have h2 : ∀ c : ℝ, cay (-c) (-r) = cay c r := by intro c; unfold cay; rw [h, neg_neg, h']
  beta_reduce
  rw [h2, h2, neg_neg, neg_neg, h', h']

/-- The modes `cos(m u - n v)` along the ray with slope `t`: the polynomial of the coefficients `cmns`. -/
theorem modeInt_minus {t : ℝ} (h1 : -1 < t) (h2 : t < 1) (h0 : t ≠ 0) (m n : ℕ) :
    modeInt (1 - t) (-(1 + t)) m n = Real.pi / 2 * pmns m n t := by
  have ha : (0 : ℝ) < 1 - t := by linarith
  have hb : (0 : ℝ) < 1 + t := by linarith
  have hb' : -(1 + t) ≠ 0 := neg_ne_zero.2 hb.ne'
  have ha' : -(1 - t) ≠ 0 := neg_ne_zero.2 ha.ne'
  have hab : (1 + t) ≠ 1 - t := by intro h; apply h0; linarith
  have ro := fun m n => ratInt_opposite h1 h2 m n
  have rs := fun m n => ratInt_same ha hb hab m n
  rcases m with _ | m <;> rcases n with _ | n
  · rw [modeInt_zero_zero ha.ne' hb', neg_neg, ratInt_neg, rs, ro]
    have e : ratInt (-(1 - t)) (1 + t) 0 0 = ratInt (1 - t) (-(1 + t)) 0 0 := by
      rw [← ratInt_neg (1 - t), neg_neg]
    rw [e, ro, pmns]; ring
  · rw [modeInt_swap ha.ne' hb', modeInt_succ_zero hb' ha.ne', ratInt_neg, ratInt_neg, ← ratInt_swap (1 - t), ← ratInt_swap (1 - t),
      ← ratInt_swap (1 - t), ← ratInt_swap (1 - t), rs, rs, ro, ro, pmns]
    ring
  · rw [modeInt_succ_zero ha.ne' hb', neg_neg, rs, rs, ro, ro, pmns]; ring
  · rw [modeInt_succ_succ ha.ne' hb', ro, ro, ro, ro, pmns]; ring

/-- The modes `cos(m u + n v)` along the ray with slope `t`: nothing, unless one of the mode numbers is zero. -/
theorem modeInt_plus {t : ℝ} (h1 : -1 < t) (h2 : t < 1) (h0 : t ≠ 0) (m n : ℕ) :
    modeInt (1 - t) (1 + t) m n = if m = 0 ∨ n = 0 then Real.pi / 2 * pmns m n t else 0 := by
  have ha : (0 : ℝ) < 1 - t := by linarith
  have hb : (0 : ℝ) < 1 + t := by linarith
  have hab : (1 + t) ≠ 1 - t := by intro h; apply h0; linarith
  have rs := fun m n => ratInt_same ha hb hab m n
  rcases m with _ | m
  · rw [if_pos (by simp), ← modeInt_neg_left, modeInt_minus h1 h2 h0]
  · rcases n with _ | n
    · rw [if_pos (by simp), ← modeInt_neg_right, modeInt_minus h1 h2 h0]
    · rw [if_neg (by omega), modeInt_succ_succ ha.ne' hb.ne', rs, rs, rs, rs]; ring

end Verif.Nestor
