import Mathlib.Analysis.SpecialFunctions.ImproperIntegrals
import Mathlib.Analysis.SpecialFunctions.Trigonometric.Arctan
import Mathlib.MeasureTheory.Integral.IntegralEqImproper
import Mathlib.Analysis.Complex.Basic
import Verif.Nestor.Poly

/-! # Integrals of rational functions over the line that generate the polynomials -/
namespace Verif.Nestor
open MeasureTheory Complex Filter Topology

/-- `1 + i a r` -/
noncomputable def lin (a r : ℝ) : ℂ := 1 + I * (a * r : ℝ)

/-- `(1 + i a r) / (1 - i a r)` -/
noncomputable def cay (a r : ℝ) : ℂ := lin a r / lin (-a) r

theorem lin_re (a r : ℝ) : (lin a r).re = 1 := by simp [lin]
theorem lin_im (a r : ℝ) : (lin a r).im = a * r := by simp [lin]

theorem lin_ne (a r : ℝ) : lin a r ≠ 0 := by
  intro h
  have := congrArg Complex.re h
  rw [lin_re] at this
  simp at this

theorem lin_normSq (a r : ℝ) : normSq (lin a r) = 1 + (a * r) ^ 2 := by
  rw [normSq_apply, lin_re, lin_im]; ring

theorem lin_mul (a r : ℝ) : lin a r * lin (-a) r = ((1 + (a * r) ^ 2 : ℝ) : ℂ) := by
  unfold lin
  push_cast
  linear_combination -((a : ℂ) * r) ^ 2 * I_mul_I

theorem cay_norm (a r : ℝ) : ‖cay a r‖ = 1 := by
  have h : ‖lin a r‖ = ‖lin (-a) r‖ := by
    rw [← sq_eq_sq₀ (norm_nonneg _) (norm_nonneg _), ← normSq_eq_norm_sq, ← normSq_eq_norm_sq, lin_normSq, lin_normSq]; ring
  unfold cay
  rw [norm_div, h, div_self (norm_ne_zero_iff.2 (lin_ne _ _))]

theorem cay_neg (a r : ℝ) : cay (-a) r = (cay a r)⁻¹ := by unfold cay; rw [inv_div, neg_neg]

theorem continuous_lin (a : ℝ) : Continuous (lin a) := by unfold lin; fun_prop

theorem continuous_cay (a : ℝ) : Continuous (cay a) :=
  (continuous_lin a).div (continuous_lin (-a)) fun _ => lin_ne _ _

theorem lin_norm_ge {a : ℝ} (r : ℝ) : min 1 |a| * √(1 + r ^ 2) ≤ ‖lin a r‖ := by
  have h0 : (0 : ℝ) ≤ min 1 |a| := le_min zero_le_one (abs_nonneg _)
  rw [← Real.sqrt_sq h0, ← Real.sqrt_mul (sq_nonneg _), Complex.norm_def, lin_normSq]
  apply Real.sqrt_le_sqrt
  have h1 : (min 1 |a|) ^ 2 ≤ 1 := by
    have := min_le_left 1 |a|; nlinarith
  have h2 : (min 1 |a|) ^ 2 ≤ a ^ 2 := by
    rw [← sq_abs a]; exact pow_le_pow_left₀ h0 (min_le_right _ _) 2
  nlinarith [mul_le_mul_of_nonneg_right h2 (sq_nonneg r)]

/-- rational functions with a factor `1 / ((1 + i a r) (1 + i b r))` are integrable -/
theorem integrable_rat {a b : ℝ} (ha : a ≠ 0) (hb : b ≠ 0) (f : ℝ → ℂ) (hf : Continuous f) (C : ℝ) (hC : ∀ r, ‖f r‖ ≤ C) :
    Integrable fun r => f r / (lin a r * lin b r) := by
  have ma : (0 : ℝ) < min 1 |a| := lt_min one_pos (abs_pos.2 ha)
  have mb : (0 : ℝ) < min 1 |b| := lt_min one_pos (abs_pos.2 hb)
  refine Integrable.mono' (integrable_inv_one_add_sq.const_mul (C / (min 1 |a| * min 1 |b|))) ?_ ?_
  · exact (hf.div ((continuous_lin a).mul (continuous_lin b)) fun r => mul_ne_zero (lin_ne _ _) (lin_ne _ _)).aestronglyMeasurable
  · refine ae_of_all _ fun r => ?_
    have hC0 : 0 ≤ C := le_trans (norm_nonneg _) (hC r)
    have hs : √(1 + r ^ 2) * √(1 + r ^ 2) = 1 + r ^ 2 := Real.mul_self_sqrt (by positivity)
    have hs0 : 0 < √(1 + r ^ 2) := Real.sqrt_pos.2 (by positivity)
    rw [norm_div, norm_mul]
    have hle : (min 1 |a| * min 1 |b|) * (1 + r ^ 2) ≤ ‖lin a r‖ * ‖lin b r‖ := by
      calc (min 1 |a| * min 1 |b|) * (1 + r ^ 2) = (min 1 |a| * √(1 + r ^ 2)) * (min 1 |b| * √(1 + r ^ 2)) := by
            rw [mul_mul_mul_comm, hs]
        _ ≤ _ := mul_le_mul (lin_norm_ge r) (lin_norm_ge r) (by positivity) (norm_nonneg _)
    calc ‖f r‖ / (‖lin a r‖ * ‖lin b r‖) ≤ C / ((min 1 |a| * min 1 |b|) * (1 + r ^ 2)) := by
          apply div_le_div₀ hC0 (hC r) (by positivity) hle
      _ = C / (min 1 |a| * min 1 |b|) * (1 + r ^ 2)⁻¹ := by field_simp

theorem tendsto_inv_lin (a : ℝ) (ha : a ≠ 0) (l : Filter ℝ) (hl : Tendsto (fun r : ℝ => |r|) l atTop) :
    Tendsto (fun r => (lin a r)⁻¹) l (𝓝 0) := by
  refine tendsto_inv₀_cobounded.comp ?_
  rw [← tendsto_norm_atTop_iff_cobounded]
  refine tendsto_atTop_mono (f := fun r => |a| * |r|) (fun r => ?_) (Tendsto.const_mul_atTop (abs_pos.2 ha) hl)
  have := Complex.abs_im_le_norm (lin a r)
  rwa [lin_im, abs_mul] at this

theorem cay_tendsto (a : ℝ) (ha : a ≠ 0) (l : Filter ℝ) (hl : Tendsto (fun r : ℝ => |r|) l atTop) :
    Tendsto (cay a) l (𝓝 (-1)) := by
  have e : cay a = fun r => 2 * (lin (-a) r)⁻¹ - 1 := by
    funext r
    unfold cay
    have := lin_ne (-a) r
    have h2 : lin a r = 2 - lin (-a) r := by unfold lin; push_cast; ring
    rw [h2]; field_simp
  rw [e]
  have := ((tendsto_inv_lin (-a) (neg_ne_zero.2 ha) l hl).const_mul 2).sub_const (1 : ℂ)
  simpa using this

theorem cay_hasDerivAt (a r : ℝ) : HasDerivAt (cay a) (2 * I * a / (lin (-a) r * lin (-a) r)) r := by
  have h : ∀ a : ℝ, HasDerivAt (lin a) (I * a) r := by
    intro a
    have h1 : HasDerivAt (fun r : ℝ => ((a * r : ℝ) : ℂ)) (a : ℂ) r := by
      have := ((hasDerivAt_id r).const_mul a).ofReal_comp
      simpa using this
    exact (h1.const_mul I).const_add 1
  have := (h a).div (h (-a)) (lin_ne _ _)
  have hn := lin_ne (-a) r
  refine this.congr_deriv ?_
  have h2 : lin a r = 2 - lin (-a) r := by unfold lin; push_cast; ring
  rw [h2]
  field_simp
  push_cast
  ring

/-- powers of the Cayley factor times its derivative integrate to zero -/
theorem integral_cay_deriv (a : ℝ) (ha : a ≠ 0) (m : ℕ) :
    ∫ r : ℝ, cay a r ^ m / (lin (-a) r * lin (-a) r) = 0 := by
  have habot : Tendsto (fun r : ℝ => |r|) atBot atTop := tendsto_abs_atBot_atTop
  have hatop : Tendsto (fun r : ℝ => |r|) atTop atTop := tendsto_abs_atTop_atTop
  have hint := integrable_rat (neg_ne_zero.2 ha) (neg_ne_zero.2 ha) (fun r => cay a r ^ m) ((continuous_cay a).pow m) 1
    (fun r => by rw [norm_pow, cay_norm, one_pow])
  have hd : ∀ r, HasDerivAt (fun r => cay a r ^ (m + 1)) ((2 * I * a * (m + 1)) * (cay a r ^ m / (lin (-a) r * lin (-a) r))) r := by
    intro r
    have := (cay_hasDerivAt a r).pow (m + 1)
    refine this.congr_deriv ?_
    rw [Nat.add_sub_cancel]
    push_cast
    ring
  have := integral_of_hasDerivAt_of_tendsto hd (hint.const_mul _) ((cay_tendsto a ha _ habot).pow (m + 1))
    ((cay_tendsto a ha _ hatop).pow (m + 1))
  rw [integral_const_mul, sub_self, mul_eq_zero] at this
  refine this.resolve_left ?_
  have h1 : ((m : ℂ) + 1) ≠ 0 := by exact_mod_cast Nat.succ_ne_zero m
  have h2 : (a : ℂ) ≠ 0 := by exact_mod_cast ha
  simp [h1, h2]

/-- `∫ X^m Y^n / (p q)` -/
noncomputable def ratInt (a b : ℝ) (m n : ℕ) : ℝ := ∫ r : ℝ, (cay a r ^ m * cay b r ^ n / (lin (-a) r * lin (-b) r)).re

theorem integrable_term {a b : ℝ} (ha : a ≠ 0) (hb : b ≠ 0) (m n : ℕ) :
    Integrable fun r => cay a r ^ m * cay b r ^ n / (lin (-a) r * lin (-b) r) :=
  integrable_rat (neg_ne_zero.2 ha) (neg_ne_zero.2 hb) (fun r => cay a r ^ m * cay b r ^ n)
    (((continuous_cay a).pow m).mul ((continuous_cay b).pow n)) 1
    (fun r => by rw [norm_mul, norm_pow, norm_pow, cay_norm, cay_norm, one_pow, one_pow, one_mul])

theorem re_integral {f : ℝ → ℂ} (hf : Integrable f) : ∫ r, (f r).re = (∫ r, f r).re := integral_re hf

theorem integrable_re {f : ℝ → ℂ} (hf : Integrable f) : Integrable fun r => (f r).re := hf.re

theorem ratInt_both {a b : ℝ} (ha : a ≠ 0) (hb : b ≠ 0) (m n : ℕ) :
    (b - a) * ratInt a b (m + 1) (n + 1)
      = -(a + b) * ratInt a b (m + 1) n + (a + b) * ratInt a b m (n + 1) + (b - a) * ratInt a b m n := by
  unfold ratInt
  have i1 := integrable_re (integrable_term ha hb (m + 1) n)
  have i2 := integrable_re (integrable_term ha hb m (n + 1))
  have i3 := integrable_re (integrable_term ha hb m n)
  have i12 : Integrable fun r => -(a + b) * (cay a r ^ (m + 1) * cay b r ^ n / (lin (-a) r * lin (-b) r)).re
      + (a + b) * (cay a r ^ m * cay b r ^ (n + 1) / (lin (-a) r * lin (-b) r)).re := (i1.const_mul _).add (i2.const_mul _)
  rw [← integral_const_mul, ← integral_const_mul, ← integral_const_mul, ← integral_const_mul,
    ← integral_add (i1.const_mul _) (i2.const_mul _), ← integral_add i12 (i3.const_mul _)]
  refine integral_congr_ae (ae_of_all _ fun r => ?_)
  simp only [← Complex.re_ofReal_mul, ← Complex.add_re]
  congr 1
  have h : ((b - a : ℝ) : ℂ) * (cay a r * cay b r)
      = ((-(a + b) : ℝ) : ℂ) * cay a r + ((a + b : ℝ) : ℂ) * cay b r + ((b - a : ℝ) : ℂ) := by
    unfold cay
    have h1 := lin_ne (-a) r
    have h2 := lin_ne (-b) r
    field_simp
    unfold lin
    push_cast
    ring
  simp only [pow_succ]
  linear_combination (cay a r ^ m * cay b r ^ n / (lin (-a) r * lin (-b) r)) * h

theorem ratInt_left {a b : ℝ} (ha : a ≠ 0) (hb : b ≠ 0) (m : ℕ) :
    (b - a) * ratInt a b (m + 1) 0 = (a + b) * ratInt a b m 0 := by
  unfold ratInt
  have i1 := integrable_re (integrable_term ha hb m 0)
  have hi := integrable_rat (neg_ne_zero.2 ha) (neg_ne_zero.2 ha) (fun r => cay a r ^ m) ((continuous_cay a).pow m) 1
    (fun r => by rw [norm_pow, cay_norm, one_pow])
  have h0 : ∫ r, (cay a r ^ m / (lin (-a) r * lin (-a) r)).re = 0 := by
    rw [re_integral hi, integral_cay_deriv a ha m]; rfl
  have e : ∀ r, (b - a) * (cay a r ^ (m + 1) * cay b r ^ 0 / (lin (-a) r * lin (-b) r)).re
      = (a + b) * (cay a r ^ m * cay b r ^ 0 / (lin (-a) r * lin (-b) r)).re
        + (-2 * a) * (cay a r ^ m / (lin (-a) r * lin (-a) r)).re := by
    intro r
    simp only [← Complex.re_ofReal_mul, ← Complex.add_re]
    congr 1
    have h : ((b - a : ℝ) : ℂ) * (cay a r / (lin (-a) r * lin (-b) r))
        = ((a + b : ℝ) : ℂ) * (1 / (lin (-a) r * lin (-b) r)) + ((-2 * a : ℝ) : ℂ) * (1 / (lin (-a) r * lin (-a) r)) := by
      unfold cay
      have h1 := lin_ne (-a) r
      have h2 := lin_ne (-b) r
      field_simp
      unfold lin
      push_cast
      ring
    simp only [pow_succ, pow_zero]
    linear_combination (cay a r ^ m) * h
  rw [← integral_const_mul]
  simp_rw [e]
  rw [integral_add (i1.const_mul _) ((integrable_re hi).const_mul _), integral_const_mul, integral_const_mul, h0]
  ring

theorem ratInt_swap (a b : ℝ) (m n : ℕ) : ratInt a b m n = ratInt b a n m := by
  unfold ratInt
  refine integral_congr_ae (ae_of_all _ fun r => ?_)
  beta_reduce
  rw [mul_comm (cay a r ^ m), mul_comm (lin (-a) r)]

theorem ratInt_right {a b : ℝ} (ha : a ≠ 0) (hb : b ≠ 0) (n : ℕ) :
    (b - a) * ratInt a b 0 (n + 1) = -(a + b) * ratInt a b 0 n := by
  have := ratInt_left hb ha n
  rw [ratInt_swap a b 0 (n + 1), ratInt_swap a b 0 n]
  linear_combination -this

theorem integral_lorentz (a : ℝ) (ha : a ≠ 0) : ∫ r : ℝ, a * (1 + (a * r) ^ 2)⁻¹ = Real.pi * (a * |a⁻¹|) := by
  rw [integral_const_mul, Measure.integral_comp_mul_left (fun x : ℝ => (1 + x ^ 2)⁻¹) a, integral_univ_inv_one_add_sq, smul_eq_mul]
  ring

theorem integrable_lorentz (a : ℝ) (ha : a ≠ 0) : Integrable fun r : ℝ => a * (1 + (a * r) ^ 2)⁻¹ :=
  ((integrable_inv_one_add_sq.comp_mul_left' ha).const_mul a)

theorem ratInt_zero {a b : ℝ} (ha : a ≠ 0) (hb : b ≠ 0) :
    (b - a) * ratInt a b 0 0 = Real.pi * (b * |b⁻¹|) - Real.pi * (a * |a⁻¹|) := by
  unfold ratInt
  rw [← integral_lorentz a ha, ← integral_lorentz b hb, ← integral_sub (integrable_lorentz b hb) (integrable_lorentz a ha),
    ← integral_const_mul]
  refine integral_congr_ae (ae_of_all _ fun r => ?_)
  beta_reduce
  have h : ((b - a : ℝ) : ℂ) * (1 / (lin (-a) r * lin (-b) r)) = (b : ℂ) * (1 / lin (-b) r) - (a : ℂ) * (1 / lin (-a) r) := by
    have h1 := lin_ne (-a) r
    have h2 := lin_ne (-b) r
    field_simp
    unfold lin
    push_cast
    ring
  have hr : ∀ c : ℝ, (1 / lin (-c) r).re = (1 + (c * r) ^ 2)⁻¹ := by
    intro c
    rw [one_div, Complex.inv_re, lin_normSq, lin_re, one_div, neg_mul, neg_sq]
  rw [pow_zero, pow_zero, one_mul, ← Complex.re_ofReal_mul, h, Complex.sub_re, Complex.re_ofReal_mul, Complex.re_ofReal_mul, hr, hr]

/-- opposite half planes: the polynomials -/
theorem ratInt_opposite {t : ℝ} (h1 : -1 < t) (h2 : t < 1) (m n : ℕ) :
    ratInt (1 - t) (-(1 + t)) m n = Real.pi * pmn m n t := by
  have ha : (1 - t) ≠ 0 := by linarith
  have hb : -(1 + t) ≠ 0 := by linarith
  refine pmn_unique ?_ (fun m => ?_) (fun n => ?_) (fun m n => ?_) m n
  · have := ratInt_zero ha hb
    have pa : 0 < (1 - t)⁻¹ := inv_pos.2 (by linarith)
    have pb : (-(1 + t))⁻¹ < 0 := inv_lt_zero.2 (by linarith)
    rw [abs_of_pos pa, abs_of_neg pb, mul_inv_cancel₀ ha, mul_neg,
      mul_inv_cancel₀ hb] at this
    linear_combination -this / 2
  · linear_combination -(ratInt_left ha hb m) / 2
  · linear_combination -(ratInt_right ha hb n) / 2
  · linear_combination -(ratInt_both ha hb m n) / 2

/-- the same half plane: zero -/
theorem ratInt_same {a b : ℝ} (ha : 0 < a) (hb : 0 < b) (hab : b ≠ a) (m n : ℕ) : ratInt a b m n = 0 := by
  have hne : b - a ≠ 0 := sub_ne_zero.2 hab
  have hz : ∀ x : ℝ, (b - a) * x = 0 → x = 0 := fun x hx => (mul_eq_zero.1 hx).resolve_left hne
  have h0 : ratInt a b 0 0 = 0 := by
    apply hz
    rw [ratInt_zero ha.ne' hb.ne', abs_of_pos (inv_pos.2 ha), abs_of_pos (inv_pos.2 hb), mul_inv_cancel₀ ha.ne', mul_inv_cancel₀ hb.ne']
    ring
  have hm : ∀ m, ratInt a b m 0 = 0 := by
    intro m
    induction m with
    | zero => exact h0
    | succ m ih => apply hz; rw [ratInt_left ha.ne' hb.ne', ih, mul_zero]
  induction n generalizing m with
  | zero => exact hm m
  | succ n ihn =>
    induction m with
    | zero => apply hz; rw [ratInt_right ha.ne' hb.ne', ihn, mul_zero]
    | succ m ihm => apply hz; rw [ratInt_both ha.ne' hb.ne', ihn, ihn, ihm]; ring

end Verif.Nestor
