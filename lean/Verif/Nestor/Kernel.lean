import Mathlib.MeasureTheory.Function.JacobianOneDim
import Mathlib.MeasureTheory.Integral.Prod
import Mathlib.Analysis.SpecialFunctions.Trigonometric.ArctanDeriv
import Verif.Nestor.Line

/-!
# Fourier integrals of a singular kernel over the square

The kernel is a function of `x = tan(u/2)`, `y = tan(v/2)` that is homogeneous of degree -1.
-/
namespace Verif.Nestor
open MeasureTheory Set

/-- a kernel that is homogeneous of degree -1, continuous and bounded away from the origin -/
structure Homogeneous (k : ℝ → ℝ → ℝ) : Prop where
  hom : ∀ x s : ℝ, x ≠ 0 → k x (x * s) = k 1 s / |x|
  cont : Continuous (k 1)
  bound : ∃ C : ℝ, ∀ s, |k 1 s| ≤ C / √(1 + s ^ 2)

/-- integral over the period in terms of the half-angle tangent -/
theorem integral_tan_half (c : ℝ) (hc : c ≠ 0) (g : ℝ → ℝ) :
    ∫ v in Ioo (-Real.pi) Real.pi, g v = ∫ s : ℝ, |2 * c / (1 + (c * s) ^ 2)| * g (2 * Real.arctan (c * s)) := by
  have himg : (fun s : ℝ => 2 * Real.arctan (c * s)) '' univ = Ioo (-Real.pi) Real.pi := by
    ext v
    simp only [image_univ, mem_range, mem_Ioo]
    constructor
    · rintro ⟨s, rfl⟩
      have h1 := Real.arctan_lt_pi_div_two (c * s)
      have h2 := Real.neg_pi_div_two_lt_arctan (c * s)
      constructor <;> linarith
    · rintro ⟨h1, h2⟩
      refine ⟨Real.tan (v / 2) / c, ?_⟩
      rw [mul_div_cancel₀ _ hc, Real.arctan_tan (by linarith) (by linarith)]
      ring
  rw [← himg, integral_image_eq_integral_abs_deriv_smul MeasurableSet.univ (f' := fun s => 2 * c / (1 + (c * s) ^ 2)), setIntegral_univ]
  · rfl
  · intro s _
    have h1 : HasDerivAt (fun s : ℝ => c * s) c s := by simpa using (hasDerivAt_id s).const_mul c
    have := ((h1.arctan).const_mul 2)
    refine (this.congr_deriv ?_).hasDerivWithinAt
    ring
  · intro s _ s' _ h
    have h : 2 * Real.arctan (c * s) = 2 * Real.arctan (c * s') := h
    have := Real.arctan_injective (mul_left_cancel₀ two_ne_zero h)
    exact mul_left_cancel₀ hc this

/-- the weight `1 / ((1 + (a r)²) (1 + (b r)²))` -/
noncomputable def wgt (a b r : ℝ) : ℝ := 1 / ((1 + (a * r) ^ 2) * (1 + (b * r) ^ 2))

theorem wgt_nonneg (a b r : ℝ) : 0 ≤ wgt a b r := by unfold wgt; positivity

theorem continuous_wgt (a b : ℝ) : Continuous (wgt a b) := by
  unfold wgt
  exact continuous_const.div (by fun_prop) fun r => by positivity

theorem integrable_wgt {a : ℝ} (ha : a ≠ 0) (b : ℝ) : Integrable (wgt a b) := by
  have h1 : Integrable fun r : ℝ => (1 + (a * r) ^ 2)⁻¹ := integrable_inv_one_add_sq.comp_mul_left' ha
  refine h1.mono' (continuous_wgt a b).aestronglyMeasurable (ae_of_all _ fun r => ?_)
  rw [Real.norm_of_nonneg (wgt_nonneg a b r), ← one_div]
  unfold wgt
  apply one_div_le_one_div_of_le (by positivity)
  nlinarith [sq_nonneg (b * r), mul_nonneg (sq_nonneg (a * r)) (sq_nonneg (b * r))]

/-- phase along the ray -/
noncomputable def ph (a b : ℝ) (m n : ℕ) (r : ℝ) : ℝ := m * (2 * Real.arctan (a * r)) + n * (2 * Real.arctan (b * r))

theorem continuous_ph (a b : ℝ) (m n : ℕ) : Continuous (ph a b m n) := by
  unfold ph
  have := Real.continuous_arctan
  fun_prop

theorem ph_neg (a b : ℝ) (m n : ℕ) (r : ℝ) : ph a b m n (-r) = - ph a b m n r := by
  unfold ph; rw [mul_neg, mul_neg, Real.arctan_neg, Real.arctan_neg]; ring

theorem wgt_neg (a b r : ℝ) : wgt a b (-r) = wgt a b r := by unfold wgt; rw [mul_neg, mul_neg, neg_sq, neg_sq]

theorem modeInt_eq (a b : ℝ) (m n : ℕ) : modeInt a b m n = ∫ r, Real.cos (ph a b m n r) * wgt a b r := by
  unfold modeInt wgt ph
  refine integral_congr_ae (ae_of_all _ fun r => ?_)
  beta_reduce
  rw [mul_one_div]

/-- a phase shift only multiplies by its cosine -/
theorem phase_integral {a : ℝ} (ha : a ≠ 0) (b : ℝ) (m n : ℕ) (φ : ℝ) :
    ∫ r, Real.cos (φ + ph a b m n r) * wgt a b r = Real.cos φ * modeInt a b m n := by
  have i1 : Integrable fun r => Real.cos (ph a b m n r) * wgt a b r :=
    (integrable_wgt ha b).bdd_mul (c := 1) (Real.continuous_cos.comp (continuous_ph a b m n)).aestronglyMeasurable
      (ae_of_all _ fun r => by rw [Real.norm_eq_abs]; exact Real.abs_cos_le_one _)
  have i2 : Integrable fun r => Real.sin (ph a b m n r) * wgt a b r :=
    (integrable_wgt ha b).bdd_mul (c := 1) (Real.continuous_sin.comp (continuous_ph a b m n)).aestronglyMeasurable
      (ae_of_all _ fun r => by rw [Real.norm_eq_abs]; exact Real.abs_sin_le_one _)
  have hs : ∫ r, Real.sin (ph a b m n r) * wgt a b r = 0 := by
    have := integral_neg_eq_self (fun r => Real.sin (ph a b m n r) * wgt a b r) volume
    simp_rw [ph_neg, wgt_neg, Real.sin_neg, neg_mul] at this
    rw [integral_neg] at this
    linarith
  have e : ∀ r, Real.cos (φ + ph a b m n r) * wgt a b r
      = Real.cos φ * (Real.cos (ph a b m n r) * wgt a b r) - Real.sin φ * (Real.sin (ph a b m n r) * wgt a b r) := by
    intro r; rw [Real.cos_add]; ring
  simp_rw [e]
  rw [integral_sub (i1.const_mul _) (i2.const_mul _), integral_const_mul, integral_const_mul, hs, modeInt_eq]
  ring

theorem wgt_modeInt (a b : ℝ) : ∫ r, wgt a b r = modeInt a b 0 0 := by
  rw [modeInt_eq]
  refine integral_congr_ae (ae_of_all _ fun r => ?_)
  simp [ph]

/-- scaling of the ray parameter -/
theorem modeInt_scale (a b c : ℝ) (hc : 0 < c) (m n : ℕ) : modeInt a b m n = c * modeInt (a * c) (b * c) m n := by
  rw [modeInt_eq, modeInt_eq]
  have := Measure.integral_comp_mul_left (fun r => Real.cos (ph a b m n r) * wgt a b r) c
  have e : ∀ r, Real.cos (ph a b m n (c * r)) * wgt a b (c * r) = Real.cos (ph (a * c) (b * c) m n r) * wgt (a * c) (b * c) r := by
    intro r; unfold ph wgt; rw [mul_assoc a c r, mul_assoc b c r]
  simp_rw [e] at this
  rw [this, abs_of_pos (inv_pos.2 hc), smul_eq_mul, ← mul_assoc, mul_inv_cancel₀ hc.ne', one_mul]

/-- `∫ 1 / ((1 + x²) (1 + s² x²)) = π / (1 + |s|)` -/
theorem weight_integral (s : ℝ) (h0 : s ≠ 0) (h1 : |s| ≠ 1) : ∫ r, wgt 1 s r = Real.pi / (1 + |s|) := by
  have e : ∀ r, wgt 1 s r = wgt 1 |s| r := by
    intro r; unfold wgt; rw [mul_pow s, mul_pow |s|, sq_abs]
  simp_rw [e]
  have hs : 0 < |s| := abs_pos.2 h0
  have hp : (0 : ℝ) < 1 + |s| := by positivity
  have c1 : (0 : ℝ) < 2 / (1 + |s|) := by positivity
  rw [wgt_modeInt, modeInt_scale 1 |s| (2 / (1 + |s|)) c1]
  set t : ℝ := 1 - 2 / (1 + |s|) with ht
  have e1 : 1 * (2 / (1 + |s|)) = 1 - t := by rw [ht]; ring
  have e2 : |s| * (2 / (1 + |s|)) = 1 + t := by rw [ht]; field_simp; ring
  have e3 : t = (|s| - 1) / (1 + |s|) := by rw [ht]; field_simp; ring
  rw [e1, e2, modeInt_plus, if_pos (by simp), pmns, pmn_zero_right, pow_zero]
  · field_simp
  · rw [ht]
    have : 2 / (1 + |s|) < 2 := by rw [div_lt_iff₀ hp]; linarith
    linarith
  · rw [ht]; linarith
  · rw [e3]
    exact div_ne_zero (sub_ne_zero.2 h1) hp.ne'

/-- integrand in the variables `s = y / x` and `x` -/
noncomputable def rayFun (k : ℝ → ℝ → ℝ) (e φ : ℝ) (m n : ℕ) (s x : ℝ) : ℝ :=
  4 * k 1 s * (Real.cos (φ + ph 1 (e * s) m n x) * wgt 1 (e * s) x)

theorem rayFun_cont {k : ℝ → ℝ → ℝ} (hk : Homogeneous k) (e φ : ℝ) (m n : ℕ) :
    Continuous (Function.uncurry (rayFun k e φ m n)) := by
  unfold Function.uncurry rayFun ph wgt
  have h1 := Real.continuous_arctan
  have h2 := hk.cont
  have h3 : Continuous fun p : ℝ × ℝ => 1 / ((1 + (1 * p.2) ^ 2) * (1 + (e * p.1 * p.2) ^ 2)) :=
    continuous_const.div (by fun_prop) fun p => by positivity
  refine ((continuous_const.mul (h2.comp continuous_fst))).mul (Continuous.mul ?_ h3)
  fun_prop

theorem ae_ne (a : ℝ) : ∀ᵐ s : ℝ, s ≠ a := by simp [ae_iff]

theorem rayFun_integrable {k : ℝ → ℝ → ℝ} (hk : Homogeneous k) {e : ℝ} (he : |e| = 1) (φ : ℝ) (m n : ℕ) :
    Integrable (Function.uncurry (rayFun k e φ m n)) (volume.prod volume) := by
  have hc := (rayFun_cont hk e φ m n).aestronglyMeasurable (μ := (volume : Measure ℝ).prod volume)
  have hb : ∀ s x, ‖rayFun k e φ m n s x‖ ≤ 4 * |k 1 s| * wgt 1 (e * s) x := by
    intro s x
    unfold rayFun
    rw [norm_mul, norm_mul, norm_mul, Real.norm_of_nonneg (wgt_nonneg _ _ _), Real.norm_eq_abs, Real.norm_eq_abs, Real.norm_eq_abs]
    have h1 := Real.abs_cos_le_one (φ + ph 1 (e * s) m n x)
    have h2 := wgt_nonneg 1 (e * s) x
    rw [abs_of_pos (by norm_num : (0 : ℝ) < 4)]
    calc 4 * |k 1 s| * (|Real.cos (φ + ph 1 (e * s) m n x)| * wgt 1 (e * s) x) ≤ 4 * |k 1 s| * (1 * wgt 1 (e * s) x) :=
          mul_le_mul_of_nonneg_left (mul_le_mul_of_nonneg_right h1 h2) (by positivity)
      _ = _ := by ring
  have hi : ∀ s, Integrable fun x => 4 * |k 1 s| * wgt 1 (e * s) x := fun s => (integrable_wgt one_ne_zero (e * s)).const_mul _
  have hx : ∀ s, Integrable fun x => rayFun k e φ m n s x := by
    intro s
    refine (hi s).mono' ?_ (ae_of_all _ fun x => hb s x)
    have : Continuous fun x => rayFun k e φ m n s x := (rayFun_cont hk e φ m n).comp (Continuous.prodMk continuous_const continuous_id)
    exact this.aestronglyMeasurable
  obtain ⟨C, hC⟩ := hk.bound
  rw [integrable_prod_iff hc]
  refine ⟨ae_of_all _ hx, ?_⟩
  refine Integrable.mono' (integrable_inv_one_add_sq.const_mul (4 * C * Real.pi)) hc.norm.integral_prod_right' ?_
  filter_upwards [ae_ne 0, ae_ne 1, ae_ne (-1)] with s h0 h1 h2
  have habs : |e * s| = |s| := by rw [abs_mul, he, one_mul]
  have hne : e * s ≠ 0 := by rw [← abs_pos, habs]; exact abs_pos.2 h0
  have h3 : |s| ≠ 1 := by
    intro h
    rcases abs_choice s with h' | h' <;> rw [h'] at h
    · exact h1 h
    · exact h2 (by linarith)
  rw [Real.norm_of_nonneg (integral_nonneg fun x => norm_nonneg _)]
  calc ∫ x, ‖Function.uncurry (rayFun k e φ m n) (s, x)‖ ≤ ∫ x, 4 * |k 1 s| * wgt 1 (e * s) x :=
        integral_mono (hx s).norm (hi s) fun x => hb s x
    _ = 4 * |k 1 s| * (Real.pi / (1 + |s|)) := by
        rw [integral_const_mul, weight_integral (e * s) hne (by rw [habs]; exact h3), habs]
    _ ≤ 4 * C * Real.pi * (1 + s ^ 2)⁻¹ := by
        have hs0 : (0 : ℝ) < √(1 + s ^ 2) := Real.sqrt_pos.2 (by positivity)
        have hs1 : √(1 + s ^ 2) ≤ 1 + |s| := by
          rw [Real.sqrt_le_left (by positivity), add_sq, sq_abs]
          nlinarith [abs_nonneg s]
        have hk1 := hC s
        have hC0 : 0 ≤ C := by
          have := le_trans (abs_nonneg _) hk1
          rwa [le_div_iff₀ hs0, zero_mul] at this
        have hpi := Real.pi_pos
        have hss : √(1 + s ^ 2) * √(1 + s ^ 2) = 1 + s ^ 2 := Real.mul_self_sqrt (by positivity)
        calc 4 * |k 1 s| * (Real.pi / (1 + |s|)) ≤ 4 * (C / √(1 + s ^ 2)) * (Real.pi / √(1 + s ^ 2)) := by
              apply mul_le_mul
              · linarith
              · exact div_le_div_of_nonneg_left hpi.le hs0 hs1
              · positivity
              · positivity
          _ = 4 * C * Real.pi * (√(1 + s ^ 2) * √(1 + s ^ 2))⁻¹ := by field_simp
          _ = _ := by rw [hss]

/-- positive half line as image of the interval -/
theorem integral_moebius (g : ℝ → ℝ) :
    ∫ s in Ioi (0 : ℝ), g s = ∫ t in Ioo (-1 : ℝ) 1, 2 / (1 - t) ^ 2 * g ((1 + t) / (1 - t)) := by
  have himg : (fun t : ℝ => (1 + t) / (1 - t)) '' Ioo (-1) 1 = Ioi 0 := by
    ext s
    simp only [mem_image, mem_Ioo, mem_Ioi]
    constructor
    · rintro ⟨t, ⟨h1, h2⟩, rfl⟩
      exact div_pos (by linarith) (by linarith)
    · intro hs
      have hp : (0 : ℝ) < s + 1 := by linarith
      refine ⟨(s - 1) / (s + 1), ⟨?_, ?_⟩, ?_⟩
      · rw [lt_div_iff₀ hp]; linarith
      · rw [div_lt_iff₀ hp]; linarith
      · have e1 : 1 + (s - 1) / (s + 1) = 2 * s / (s + 1) := by field_simp; ring
        have e2 : 1 - (s - 1) / (s + 1) = 2 / (s + 1) := by field_simp; ring
        rw [e1, e2]; field_simp
  rw [← himg, integral_image_eq_integral_abs_deriv_smul measurableSet_Ioo (f' := fun t => 2 / (1 - t) ^ 2)]
  · refine setIntegral_congr_fun measurableSet_Ioo fun t ht => ?_
    have : (0 : ℝ) < 2 / (1 - t) ^ 2 := by
      have : (0 : ℝ) < 1 - t := by linarith [ht.2]
      positivity
    beta_reduce
    rw [abs_of_pos this, smul_eq_mul]
  · intro t ht
    have hne : (1 - t) ≠ 0 := by linarith [ht.2]
    have h1 : HasDerivAt (fun t : ℝ => 1 + t) 1 t := (hasDerivAt_id t).const_add 1
    have h2 : HasDerivAt (fun t : ℝ => 1 - t) (-1) t := (hasDerivAt_id t).const_sub 1
    refine ((h1.div h2 hne).congr_deriv ?_).hasDerivWithinAt
    congr 1; ring
  · intro t ht t' ht' h
    have h : (1 + t) / (1 - t) = (1 + t') / (1 - t') := h
    have hne : (1 - t) ≠ 0 := by linarith [ht.2]
    have hne' : (1 - t') ≠ 0 := by linarith [ht'.2]
    rw [div_eq_div_iff hne hne'] at h
    linarith

/-- The Fourier integral of a homogeneous kernel over the square as a one-dimensional integral. -/
theorem kernel_integral {k : ℝ → ℝ → ℝ} (hk : Homogeneous k) {e : ℝ} (he : e = 1 ∨ e = -1) (φ : ℝ) (m n : ℕ) :
    ∫ u in Ioo (-Real.pi) Real.pi, ∫ v in Ioo (-Real.pi) Real.pi,
        Real.cos (φ + (m * u + e * (n * v))) * k (Real.tan (u / 2)) (Real.tan (v / 2))
      = Real.cos φ * (8 * (∫ t in Ioo (-1 : ℝ) 1, k (1 - t) (1 + t) * modeInt (1 - t) (e * (1 + t)) m n)
        + 8 * ∫ t in Ioo (-1 : ℝ) 1, k (1 - t) (-(1 + t)) * modeInt (1 - t) (-(e * (1 + t))) m n) := by
  have he1 : |e| = 1 := by rcases he with rfl | rfl <;> simp
  have harc : ∀ x s : ℝ, e * Real.arctan (x * s) = Real.arctan (e * s * x) := by
    intro x s
    rcases he with rfl | rfl
    · rw [one_mul, one_mul, mul_comm]
    · rw [neg_one_mul, ← Real.arctan_neg]; congr 1; ring
  have he2 : e ^ 2 = 1 := by rcases he with rfl | rfl <;> norm_num
  have hA : ∫ u in Ioo (-Real.pi) Real.pi, ∫ v in Ioo (-Real.pi) Real.pi,
        Real.cos (φ + (m * u + e * (n * v))) * k (Real.tan (u / 2)) (Real.tan (v / 2))
      = ∫ x : ℝ, ∫ s : ℝ, rayFun k e φ m n s x := by
    rw [integral_tan_half 1 one_ne_zero]
    refine integral_congr_ae ?_
    filter_upwards [ae_ne 0] with x hx
    rw [integral_tan_half x hx, ← integral_const_mul]
    refine integral_congr_ae (ae_of_all _ fun s => ?_)
    beta_reduce
    rw [mul_div_cancel_left₀ _ two_ne_zero, mul_div_cancel_left₀ _ two_ne_zero, Real.tan_arctan, Real.tan_arctan, one_mul,
      hk.hom x s hx]
    unfold rayFun ph wgt
    have e1 : φ + (m * (2 * Real.arctan x) + e * (n * (2 * Real.arctan (x * s))))
        = φ + (m * (2 * Real.arctan (1 * x)) + n * (2 * Real.arctan (e * s * x))) := by
      rw [← harc, one_mul]; ring
    have e2 : (e * s * x) ^ 2 = (x * s) ^ 2 := by
      rw [mul_pow, mul_pow, mul_pow, he2]; ring
    have hxa : |x| ≠ 0 := abs_ne_zero.2 hx
    have p1 : (0 : ℝ) < 1 + x ^ 2 := by positivity
    have p2 : (0 : ℝ) < 1 + (x * s) ^ 2 := by positivity
    rw [e1, e2, abs_div, abs_div, abs_of_pos p1, abs_of_pos p2, abs_mul, abs_mul, one_mul, abs_one,
      abs_of_pos (by norm_num : (0 : ℝ) < 2)]
    field_simp
    ring
  have hint := rayFun_integrable hk he1 φ m n
  have hB : ∫ x : ℝ, ∫ s : ℝ, rayFun k e φ m n s x = ∫ s : ℝ, 4 * Real.cos φ * (k 1 s * modeInt 1 (e * s) m n) := by
    rw [← integral_integral_swap hint]
    refine integral_congr_ae (ae_of_all _ fun s => ?_)
    beta_reduce
    unfold rayFun
    rw [integral_const_mul, phase_integral one_ne_zero]
    ring
  have hG : Integrable fun s => k 1 s * modeInt 1 (e * s) m n := by
    have := (rayFun_integrable hk he1 0 m n).integral_prod_left
    have h2 : (fun s => ∫ x, Function.uncurry (rayFun k e 0 m n) (s, x)) = fun s => 4 * (k 1 s * modeInt 1 (e * s) m n) := by
      funext s
      show ∫ x, rayFun k e 0 m n s x = _
      unfold rayFun
      rw [integral_const_mul, phase_integral one_ne_zero, Real.cos_zero]
      ring
    rw [h2] at this
    have h3 := this.const_mul (1 / 4)
    refine h3.congr (ae_of_all _ fun s => ?_)
    beta_reduce
    ring
  have side : ∀ δ : ℝ, δ = 1 ∨ δ = -1 → (∫ s in Ioi (0 : ℝ), k 1 (δ * s) * modeInt 1 (e * (δ * s)) m n)
      = 2 * ∫ t in Ioo (-1 : ℝ) 1, k (1 - t) (δ * (1 + t)) * modeInt (1 - t) (δ * (e * (1 + t))) m n := by
    intro δ _
    rw [integral_moebius, ← integral_const_mul]
    refine setIntegral_congr_fun measurableSet_Ioo fun t ht => ?_
    have hp : (0 : ℝ) < 1 - t := by linarith [ht.2]
    beta_reduce
    have e1 := hk.hom (1 - t) (δ * ((1 + t) / (1 - t))) hp.ne'
    have e2 : (1 - t) * (δ * ((1 + t) / (1 - t))) = δ * (1 + t) := by field_simp
    rw [e2, abs_of_pos hp, eq_div_iff hp.ne'] at e1
    have e3 : e * (δ * ((1 + t) / (1 - t))) * (1 - t) = δ * (e * (1 + t)) := by field_simp
    rw [modeInt_scale 1 _ (1 - t) hp, one_mul, e3, ← e1]
    field_simp
  have hsplit := (integral_add_compl (measurableSet_Iic (a := (0 : ℝ))) hG)
  rw [compl_Iic] at hsplit
  have s1 := side 1 (Or.inl rfl)
  have s2 := side (-1) (Or.inr rfl)
  have hneg := integral_comp_neg_Ioi (0 : ℝ) (fun s => k 1 s * modeInt 1 (e * s) m n)
  rw [neg_zero] at hneg
  simp only [one_mul] at s1
  simp only [neg_one_mul] at s2
  rw [hA, hB, integral_const_mul, ← hsplit, ← hneg, s1, s2]
  ring

/-- `cos(φ + m u - n v)`, both mode numbers positive or not -/
theorem kernel_minus {k : ℝ → ℝ → ℝ} (hk : Homogeneous k) (φ : ℝ) (m n : ℕ) :
    ∫ u in Ioo (-Real.pi) Real.pi, ∫ v in Ioo (-Real.pi) Real.pi,
        Real.cos (φ + (m * u - n * v)) * k (Real.tan (u / 2)) (Real.tan (v / 2))
      = 4 * Real.pi * Real.cos φ * ((∫ t in Ioo (-1 : ℝ) 1, k (1 - t) (1 + t) * pmns m n t)
        + if m = 0 ∨ n = 0 then ∫ t in Ioo (-1 : ℝ) 1, k (1 - t) (-(1 + t)) * pmns m n t else 0) := by
  have := kernel_integral hk (Or.inr rfl : (-1 : ℝ) = 1 ∨ (-1 : ℝ) = -1) φ m n
  simp only [neg_one_mul, ← sub_eq_add_neg, neg_neg] at this
  rw [this]
  have h0 : ∀ᵐ t : ℝ ∂volume.restrict (Ioo (-1) 1), t ≠ 0 := ae_restrict_of_ae (ae_ne 0)
  have c1 : ∫ t in Ioo (-1 : ℝ) 1, k (1 - t) (1 + t) * modeInt (1 - t) (-(1 + t)) m n
      = Real.pi / 2 * ∫ t in Ioo (-1 : ℝ) 1, k (1 - t) (1 + t) * pmns m n t := by
    rw [← integral_const_mul]
    refine integral_congr_ae ?_
    filter_upwards [h0, ae_restrict_mem measurableSet_Ioo] with t h ht
    rw [modeInt_minus ht.1 ht.2 h]; ring
  have c2 : ∫ t in Ioo (-1 : ℝ) 1, k (1 - t) (-(1 + t)) * modeInt (1 - t) (1 + t) m n
      = Real.pi / 2 * if m = 0 ∨ n = 0 then ∫ t in Ioo (-1 : ℝ) 1, k (1 - t) (-(1 + t)) * pmns m n t else 0 := by
    have : ∫ t in Ioo (-1 : ℝ) 1, k (1 - t) (-(1 + t)) * modeInt (1 - t) (1 + t) m n
        = ∫ t in Ioo (-1 : ℝ) 1, k (1 - t) (-(1 + t)) * if m = 0 ∨ n = 0 then Real.pi / 2 * pmns m n t else 0 := by
      refine integral_congr_ae ?_
      filter_upwards [h0, ae_restrict_mem measurableSet_Ioo] with t h ht
      rw [modeInt_plus ht.1 ht.2 h]
    rw [this]
    by_cases h : m = 0 ∨ n = 0
    · simp only [if_pos h]
      rw [← integral_const_mul]
      refine integral_congr_ae (ae_of_all _ fun t => ?_)
      beta_reduce
      ring
    · simp only [if_neg h, mul_zero, integral_zero]
  rw [c1, c2]
  ring

/-- `cos(φ + m u + n v)` -/
theorem kernel_plus {k : ℝ → ℝ → ℝ} (hk : Homogeneous k) (φ : ℝ) (m n : ℕ) :
    ∫ u in Ioo (-Real.pi) Real.pi, ∫ v in Ioo (-Real.pi) Real.pi,
        Real.cos (φ + (m * u + n * v)) * k (Real.tan (u / 2)) (Real.tan (v / 2))
      = 4 * Real.pi * Real.cos φ * ((if m = 0 ∨ n = 0 then ∫ t in Ioo (-1 : ℝ) 1, k (1 - t) (1 + t) * pmns m n t else 0)
        + ∫ t in Ioo (-1 : ℝ) 1, k (1 - t) (-(1 + t)) * pmns m n t) := by
  have := kernel_integral hk (Or.inl rfl : (1 : ℝ) = 1 ∨ (1 : ℝ) = -1) φ m n
  simp only [one_mul] at this
  rw [this]
  have h0 : ∀ᵐ t : ℝ ∂volume.restrict (Ioo (-1) 1), t ≠ 0 := ae_restrict_of_ae (ae_ne 0)
  have c1 : ∫ t in Ioo (-1 : ℝ) 1, k (1 - t) (-(1 + t)) * modeInt (1 - t) (-(1 + t)) m n
      = Real.pi / 2 * ∫ t in Ioo (-1 : ℝ) 1, k (1 - t) (-(1 + t)) * pmns m n t := by
    rw [← integral_const_mul]
    refine integral_congr_ae ?_
    filter_upwards [h0, ae_restrict_mem measurableSet_Ioo] with t h ht
    rw [modeInt_minus ht.1 ht.2 h]; ring
  have c2 : ∫ t in Ioo (-1 : ℝ) 1, k (1 - t) (1 + t) * modeInt (1 - t) (1 + t) m n
      = Real.pi / 2 * if m = 0 ∨ n = 0 then ∫ t in Ioo (-1 : ℝ) 1, k (1 - t) (1 + t) * pmns m n t else 0 := by
    have : ∫ t in Ioo (-1 : ℝ) 1, k (1 - t) (1 + t) * modeInt (1 - t) (1 + t) m n
        = ∫ t in Ioo (-1 : ℝ) 1, k (1 - t) (1 + t) * if m = 0 ∨ n = 0 then Real.pi / 2 * pmns m n t else 0 := by
      refine integral_congr_ae ?_
      filter_upwards [h0, ae_restrict_mem measurableSet_Ioo] with t h ht
      rw [modeInt_plus ht.1 ht.2 h]
    rw [this]
    by_cases h : m = 0 ∨ n = 0
    · simp only [if_pos h]
      rw [← integral_const_mul]
      refine integral_congr_ae (ae_of_all _ fun t => ?_)
      beta_reduce
      ring
    · simp only [if_neg h, mul_zero, integral_zero]
  rw [c1, c2]
  ring

end Verif.Nestor
