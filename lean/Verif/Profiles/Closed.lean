import Verif.Profiles.Horner
import Mathlib.Analysis.SpecialFunctions.Pow.Continuity
import Mathlib.Analysis.Real.Pi.Bounds

/-!
# C53: closed-form profiles take the documented values on the axis and at the edge
-/
namespace Verif.Profiles
open Verif

/-- `nice_quadratic`: `a0` on the axis, `a1` at the edge, `a2` is the offset from the mean at `s = 1/2` -/
theorem C53_nice_quadratic (c : RVec) :
    evalNiceQuadratic c 0 = coef c 0 ∧ evalNiceQuadratic c 1 = coef c 1 ∧
    evalNiceQuadratic c (1 / 2) = (coef c 0 + coef c 1) / 2 + coef c 2 := by
  unfold evalNiceQuadratic
  refine ⟨by ring, by ring, by ring⟩

/-- `two_power`: `a0` on the axis, 0 at the edge -/
theorem C53_two_power (q : Quadrature) (c : RVec) (hn : 3 ≤ c.n) (h1 : c.v 1 ≠ 0) (h2 : c.v 2 ≠ 0) :
    evalTwoPower q c 0 false = c.v 0 ∧ evalTwoPower q c 1 false = 0 ∧ evalTwoPower q c 0 true = 0 := by
  have hn' : ¬ c.n < 3 := by omega
  unfold evalTwoPower
  simp only [hn', if_false]
  refine ⟨?_, ?_, ?_⟩
  · simp [Real.zero_rpow h1]
  · simp [Real.zero_rpow h2]
  · simp

/-- for a non-negative amplitude and positive exponents, `two_power` falls monotonically from `a0` to 0 -/
theorem C53_two_power_antitone (q : Quadrature) (c : RVec) (hn : 3 ≤ c.n) (h0 : 0 ≤ c.v 0) (h1 : 0 ≤ c.v 1)
    (h2 : 0 ≤ c.v 2) (x y : ℝ) (hx : 0 ≤ x) (hxy : x ≤ y) (hy : y ≤ 1) :
    evalTwoPower q c y false ≤ evalTwoPower q c x false := by
  have hn' : ¬ c.n < 3 := by omega
  unfold evalTwoPower
  simp only [hn', if_false, if_true]
  refine mul_le_mul_of_nonneg_left ?_ h0
  refine Real.rpow_le_rpow ?_ ?_ h2
  · have := Real.rpow_le_one (hx.trans hxy) hy h1
    linarith
  · have := Real.rpow_le_rpow hx hxy h1
    linarith

example : ∃ c : RVec, 3 ≤ c.n ∧ 0 ≤ c.v 0 ∧ c.v 1 ≠ 0 ∧ c.v 2 ≠ 0 ∧ 0 ≤ c.v 1 ∧ 0 ≤ c.v 2 :=
  ⟨⟨3, fun i => if i = 0 then 5 else if i = 1 then 1 else 2⟩, by norm_num⟩

/-- `gauss_trunc`: `a0` on the axis, 0 at the edge; the enclosed current is 0 on the axis -/
theorem C53_gauss_trunc (q : Quadrature) (c : RVec) (hn : 2 ≤ c.n) (h1 : c.v 1 ≠ 0) :
    evalGaussTrunc q c 0 false = c.v 0 ∧ evalGaussTrunc q c 1 false = 0 ∧ evalGaussTrunc q c 0 true = 0 := by
  have hn' : ¬ c.n < 2 := by omega
  unfold evalGaussTrunc
  simp only [hn', if_false]
  refine ⟨?_, by simp, by simp⟩
  have he : 1 - Real.exp (-((1 / c.v 1) ^ 2)) ≠ 0 := by
    have : Real.exp (-((1 / c.v 1) ^ 2)) < 1 := by
      rw [Real.exp_lt_one_iff]
      have : 0 < (1 / c.v 1) ^ 2 := by positivity
      linarith
    linarith
  simp only [if_true, zero_div, ne_eq, OfNat.ofNat_ne_zero, not_false_eq_true, zero_pow, neg_zero, Real.exp_zero]
  exact div_mul_cancel₀ _ he

theorem lorentz_one_ne (w p q : ℝ) (hw : w ≠ 0) (hq : q ≠ 0) : 1 - lorentz w p q 1 ≠ 0 := by
  unfold lorentz
  have hw2 : 0 < 1 / (w * w) := one_div_pos.2 (mul_self_pos.2 hw)
  have hp : 0 < (1 / (w * w)) ^ p := Real.rpow_pos_of_pos hw2 p
  intro h
  have h1 : (1 + (1 / (w * w)) ^ p) ^ q = 1 := by
    have hpos : 0 < (1 + (1 / (w * w)) ^ p) ^ q := Real.rpow_pos_of_pos (by linarith) q
    have : 1 / (1 + (1 / (w * w)) ^ p) ^ q = 1 := by linarith
    rw [div_eq_one_iff_eq hpos.ne'] at this
    exact this.symm
  rcases lt_or_gt_of_ne hq with h2 | h2
  · have := Real.rpow_lt_one_of_one_lt_of_neg (show 1 < 1 + (1 / (w * w)) ^ p by linarith) h2
    linarith
  · have := Real.one_lt_rpow (show 1 < 1 + (1 / (w * w)) ^ p by linarith) h2
    linarith

theorem tanh_lt {a b : ℝ} (h : a < b) : Real.tanh a < Real.tanh b := by
  rw [Real.tanh_eq_sinh_div_cosh, Real.tanh_eq_sinh_div_cosh,
    div_lt_div_iff₀ (Real.cosh_pos a) (Real.cosh_pos b)]
  have h1 : 0 < Real.sinh (b - a) := by
    rw [Real.sinh_eq]
    have := Real.exp_lt_exp.2 (show -(b - a) < b - a by linarith)
    linarith
  rw [Real.sinh_sub] at h1
  linarith

/-- `two_lorentz`: `a0` on the axis, 0 at the edge -/
theorem C53_two_lorentz (c : RVec) (hn : 8 ≤ c.n) (h2 : c.v 2 ≠ 0) (h3 : c.v 3 ≠ 0) (h4 : c.v 4 ≠ 0)
    (h5 : c.v 5 ≠ 0) (h6 : c.v 6 ≠ 0) (h7 : c.v 7 ≠ 0) :
    evalTwoLorentz c 0 = c.v 0 ∧ evalTwoLorentz c 1 = 0 := by
  have hn' : ¬ c.n < 8 := by omega
  unfold evalTwoLorentz
  simp only [hn', if_false]
  refine ⟨?_, by simp⟩
  have a := lorentz_one_ne (c.v 2) (c.v 3) (c.v 4) h2 h4
  have b := lorentz_one_ne (c.v 5) (c.v 6) (c.v 7) h5 h7
  have e1 : lorentz (c.v 2) (c.v 3) (c.v 4) 0 = 1 := by simp [lorentz, Real.zero_rpow h3]
  have e2 : lorentz (c.v 5) (c.v 6) (c.v 7) 0 = 1 := by simp [lorentz, Real.zero_rpow h6]
  rw [e1, e2, mul_div_assoc, mul_div_assoc, div_self a, div_self b]
  ring

example : ∃ c : RVec, 8 ≤ c.n ∧ ∀ i, c.v i ≠ 0 := ⟨⟨8, fun i => if i = 1 then 1/2 else 2⟩, by norm_num, by
  intro i; dsimp only; split <;> norm_num⟩

/-- `two_power_gs` vanishes at the edge and equals `two_power` if there are no Gaussian peaks -/
theorem C53_two_power_gs (q : Quadrature) (c : RVec) (hn : 3 ≤ c.n) (b : Bool) (x : ℝ) :
    (c.v 2 ≠ 0 → evalTwoPowerGs q c 1 false = 0) ∧
    ((∀ i, 3 ≤ i → c.v i = 0) → evalTwoPowerGs q c x b = evalTwoPower q c x b) := by
  have c0 : coef c 0 = c.v 0 := by unfold coef; rw [if_pos (by omega)]
  have c1 : coef c 1 = c.v 1 := by unfold coef; rw [if_pos (by omega)]
  have c2 : coef c 2 = c.v 2 := by unfold coef; rw [if_pos (by omega)]
  constructor
  · intro h2
    unfold evalTwoPowerGs
    rw [if_neg (by omega)]
    simp only [if_true, twoPowerGsRaw, c2, Real.one_rpow, sub_self, Real.zero_rpow h2, mul_zero, zero_mul]
  · intro hz
    have raw : ∀ s, twoPowerGsRaw c s = c.v 0 * (1 - s ^ c.v 1) ^ c.v 2 := by
      intro s
      unfold twoPowerGsRaw
      rw [c0, c1, c2]
      have : ∀ k : Int, 1 ≤ k → coef c (3 * k) = 0 := by
        intro k hk; unfold coef; split
        · exact hz _ (by omega)
        · rfl
      have hg : forRange 1 7 (fun k (g : ℝ) =>
          open Classical in
          if coef c (3 * k) ≠ 0 then
            g + coef c (3 * k) * Real.exp (-(((s - coef c (3 * k + 1)) / coef c (3 * k + 2)) ^ 2))
          else g) 1 = 1 := by
        refine forRange_inv (lo := 1) (hi := 7) (by omega) _ _ (fun _ (g : ℝ) => g = 1) rfl ?_
        intro k g hk _ hg
        rw [this k hk]; simp [hg]
      dsimp only at hg ⊢
      rw [hg, mul_one]
    have hn' : ¬ c.n < 3 := by omega
    unfold evalTwoPowerGs evalTwoPower
    cases b
    · simp [raw, hn']
    · simp only [hn', raw, if_false, Bool.true_eq_false, mul_assoc]

/-- `pedestal`: at the edge the pressure is the polynomial; on the axis an active pedestal adds its height -/
theorem C53_pedestal_pressure (c : RVec) :
    evalPedestalPressure c 1 = ∑ k ∈ Finset.range 16, coef c k ∧
    (0 < coef c 19 → evalPedestalPressure c 0 = coef c 0 + coef c 17) ∧
    (coef c 19 ≤ 0 → ∀ x, evalPedestalPressure c x = ∑ k ∈ Finset.range 16, coef c k * x ^ k) := by
  have hp : ∀ x, forRangeRev 0 16 (fun i value => x * value + coef c i) 0 =
      ∑ k ∈ Finset.range 16, coef c k * x ^ k := fun x => by simpa using horner0 16 (coef c) x
  refine ⟨?_, ?_, ?_⟩
  · unfold evalPedestalPressure
    simp only [hp, Real.sqrt_one, sub_self, mul_zero, add_zero, one_pow, mul_one]
  · intro hw
    unfold evalPedestalPressure
    have hne : ¬ coef c 19 ≤ 0 := not_le.2 hw
    have ht : Real.tanh (2 * (coef c 18 - 1) / coef c 19) < Real.tanh (2 * coef c 18 / coef c 19) := by
      apply tanh_lt
      apply div_lt_div_of_pos_right _ hw
      linarith
    have hd : Real.tanh (2 * coef c 18 / coef c 19) - Real.tanh (2 * (coef c 18 - 1) / coef c 19) ≠ 0 := by
      linarith
    simp only [hp, hne, if_false, Real.sqrt_zero, sub_zero]
    have hs : ∑ k ∈ Finset.range 16, coef c k * (0 : ℝ) ^ k = coef c 0 := by
      rw [Finset.sum_range_succ']
      simp
    rw [hs]
    field_simp
  · intro hw x
    unfold evalPedestalPressure
    simp only [hp, hw, if_true, zero_mul, add_zero]

/-- `pedestal`: the step of an active pedestal is centred at normalised radius `√x = coef c 18` (where the tanh
    vanishes) and, for a positive height, the step part falls monotonically -/
theorem C53_pedestal_step (c : RVec) (hw : 0 < coef c 19) :
    (0 ≤ coef c 18 → evalPedestalPressure c (coef c 18 ^ 2) = ∑ k ∈ Finset.range 16, coef c k * (coef c 18 ^ 2) ^ k
      + coef c 17 * (-Real.tanh (2 * (coef c 18 - 1) / coef c 19))
        / (Real.tanh (2 * coef c 18 / coef c 19) - Real.tanh (2 * (coef c 18 - 1) / coef c 19))) ∧
    (0 ≤ coef c 17 → ∀ x y, 0 ≤ x → x ≤ y →
      evalPedestalPressure c y - ∑ k ∈ Finset.range 16, coef c k * y ^ k
        ≤ evalPedestalPressure c x - ∑ k ∈ Finset.range 16, coef c k * x ^ k) := by
  have hp : ∀ x, forRangeRev 0 16 (fun i value => x * value + coef c i) 0 =
      ∑ k ∈ Finset.range 16, coef c k * x ^ k := fun x => by simpa using horner0 16 (coef c) x
  have hne : ¬ coef c 19 ≤ 0 := not_le.2 hw
  have ht : Real.tanh (2 * (coef c 18 - 1) / coef c 19) < Real.tanh (2 * coef c 18 / coef c 19) := by
    apply tanh_lt
    apply div_lt_div_of_pos_right _ hw
    linarith
  refine ⟨fun h18 => ?_, fun h17 x y hx hxy => ?_⟩
  · unfold evalPedestalPressure
    simp only [hp, hne, if_false, Real.sqrt_sq h18, sub_self, mul_zero, zero_div, Real.tanh_zero]
    ring
  · unfold evalPedestalPressure
    simp only [hp, hne, if_false]
    have h1 : Real.tanh (2 * (coef c 18 - Real.sqrt y) / coef c 19)
        ≤ Real.tanh (2 * (coef c 18 - Real.sqrt x) / coef c 19) := by
      rcases (Real.sqrt_le_sqrt hxy).eq_or_lt with e | e
      · rw [e]
      · apply le_of_lt
        apply tanh_lt
        apply div_lt_div_of_pos_right _ hw
        linarith
    have h2 : 0 ≤ 1 / (Real.tanh (2 * coef c 18 / coef c 19) - Real.tanh (2 * (coef c 18 - 1) / coef c 19))
        * coef c 17 := mul_nonneg (div_nonneg zero_le_one (by linarith)) h17
    have := mul_le_mul_of_nonneg_left (sub_le_sub_right h1
      (Real.tanh (2 * (coef c 18 - 1) / coef c 19))) h2
    linarith

/-- a pedestal of height 3 centred at 1/2 with width 1/4 -/
example : ∃ c : RVec, 0 < coef c 19 ∧ 0 ≤ coef c 18 ∧ 0 ≤ coef c 17 :=
  ⟨⟨21, fun i => if i = 19 then 1/4 else if i = 18 then 1/2 else if i = 17 then 3 else 0⟩, by
    norm_num [coef], by norm_num [coef], by norm_num [coef]⟩

/-- `pedestal`: the enclosed current is 0 on the axis -/
theorem C53_pedestal_current (c : RVec) : evalPedestalCurrent c 0 = 0 := by
  unfold evalPedestalCurrent
  simp

/-- `rational`: the value times the denominator polynomial is the numerator polynomial -/
theorem C53_rational (c : RVec) (x : ℝ)
    (hd : ∑ k ∈ Finset.range (c.n - 10).toNat, coef c (10 + k) * x ^ k ≠ 0) :
    evalRational c x * ∑ k ∈ Finset.range (c.n - 10).toNat, coef c (10 + k) * x ^ k =
      ∑ k ∈ Finset.range 10, coef c k * x ^ k := by
  have hn : 10 ≤ c.n := by
    by_contra h
    have : (c.n - 10).toNat = 0 := by omega
    rw [this] at hd; simp at hd
  unfold evalRational
  have h1 := horner0 10 (coef c) x
  have h2 := horner 10 c.n hn (coef c) x
  simp only [h1, h2, ne_eq, hd, not_false_eq_true, if_true]
  rw [div_mul_cancel₀ _ hd]
  rfl

/-! ## `sum_atan` -/

/-- full claim for `sum_atan` (continuity at the edge) is false; left of the edge the profile tends to
    `a0 + a1 π/2`, but its value at the edge is `a0 + a1` -/
theorem C53_sum_atan_limit_partial (c : RVec) (hn : c.n = 5) (h2 : 0 < c.v 2) (h4 : 0 < c.v 4) :
    Filter.Tendsto (evalSumAtan c) (nhdsWithin 1 (Set.Iio 1)) (nhds (c.v 0 + c.v 1 * (Real.pi / 2))) ∧
    evalSumAtan c 1 = c.v 0 + c.v 1 := by
  constructor
  · have hev : (fun x => c.v 0 + atanTerm c 1 x) =ᶠ[nhdsWithin 1 (Set.Iio 1)] evalSumAtan c := by
      filter_upwards [self_mem_nhdsWithin] with x hx
      have hx' : ¬ x ≥ 1 := not_le.2 hx
      simp [evalSumAtan, hn, hx']
    refine Filter.Tendsto.congr' hev ?_
    refine Filter.Tendsto.const_add _ ?_
    unfold atanTerm
    refine Filter.Tendsto.const_mul _ ?_
    refine (Real.tendsto_arctan_atTop.mono_right nhdsWithin_le_nhds).comp ?_
    refine Filter.Tendsto.pos_mul_atTop (C := c.v 2) h2 ?_ ?_
    · have hc : ContinuousAt (fun x : ℝ => c.v (1 + 1) * x ^ c.v (1 + 2)) 1 := by
        refine ContinuousAt.mul continuousAt_const ?_
        exact Real.continuousAt_rpow_const 1 _ (Or.inl one_ne_zero)
      have := hc.tendsto.mono_left (nhdsWithin_le_nhds (s := Set.Iio 1))
      simpa using this
    · refine Filter.Tendsto.inv_tendsto_nhdsGT_zero ?_
      rw [tendsto_nhdsWithin_iff]
      constructor
      · have hc : ContinuousAt (fun x : ℝ => (1 - x) ^ c.v (1 + 3)) 1 := by
          refine ContinuousAt.rpow_const (by fun_prop) (Or.inr ?_)
          exact h4.le
        have := hc.tendsto.mono_left (nhdsWithin_le_nhds (s := Set.Iio 1))
        have e : ((1 : ℝ) - 1) ^ c.v (1 + 3) = 0 := by
          rw [sub_self]; exact Real.zero_rpow h4.ne'
        rwa [e] at this
      · filter_upwards [self_mem_nhdsWithin] with x hx
        exact Real.rpow_pos_of_pos (by simpa using hx) _
  · simp [evalSumAtan, hn]

/-- F14: `sum_atan` jumps at the edge for every choice of coefficients with `a1 ≠ 0` -/
theorem C53_sum_atan_jump (c : RVec) (hn : c.n = 5) (h1 : c.v 1 ≠ 0) (h2 : 0 < c.v 2) (h4 : 0 < c.v 4) :
    ¬ ContinuousAt (evalSumAtan c) 1 := by
  intro hc
  obtain ⟨hl, hv⟩ := C53_sum_atan_limit_partial c hn h2 h4
  have h := tendsto_nhds_unique hl (hc.tendsto.mono_left nhdsWithin_le_nhds)
  rw [hv] at h
  have : c.v 1 * (Real.pi / 2 - 1) = 0 := by linarith
  rcases mul_eq_zero.1 this with h' | h'
  · exact h1 h'
  · have := Real.pi_gt_three; linarith

example : ∃ c : RVec, c.n = 5 ∧ c.v 1 ≠ 0 ∧ 0 < c.v 2 ∧ 0 < c.v 4 := ⟨⟨5, fun _ => 1⟩, by norm_num⟩

end Verif.Profiles
