import Verif.Nestor.Kernel
import Verif.Nestor.Tl

/-! # Integrals of the subtracted kernels against the modes

`RegularizedIntegrals::update` subtracts `ga1` and `ga1 * ga2` from the kernels of the surface integrals; what it subtracts has
to be added back by `SingularIntegrals`. Here the integrals of what is subtracted are computed. -/
namespace Verif.Nestor
open MeasureTheory Set

/-- a quadratic form in `tanu = 2 tan(u/2)`, `tanv = 2 tan(v/2)`, `regularized_integrals.cc:149-159` -/
noncomputable def tanForm (a b2 c u v : ℝ) : ℝ :=
  a * (2 * Real.tan (u / 2)) * (2 * Real.tan (u / 2)) + b2 * (2 * Real.tan (u / 2)) * (2 * Real.tan (v / 2))
    + c * (2 * Real.tan (v / 2)) * (2 * Real.tan (v / 2))

/-- `ga1`, subtracted from `1 / |x - x'|`, `regularized_integrals.cc:163` -/
noncomputable def ga1 (f : Forms) (u v : ℝ) : ℝ := 1 / √(tanForm f.a f.b2 f.c u v)

/-- `ga2`, `regularized_integrals.cc:162` -/
noncomputable def ga2 (f : Forms) (u v : ℝ) : ℝ := tanForm f.A f.B2 f.C u v / tanForm f.a f.b2 f.c u v

/-- the form `4 (a x² + b2 x y + c y²)` -/
def qf (a b2 c x y : ℝ) : ℝ := a * (2 * x) * (2 * x) + b2 * (2 * x) * (2 * y) + c * (2 * y) * (2 * y)

theorem qf_hom (a b2 c x s : ℝ) : qf a b2 c x (x * s) = x ^ 2 * qf a b2 c 1 s := by unfold qf; ring

theorem qf_minus (a b2 c t : ℝ) : qf a b2 c (1 - t) (1 + t) = 4 * quad (a - b2 + c) (c - a) (a + b2 + c) t := by unfold qf quad; ring
theorem qf_plus (a b2 c t : ℝ) : qf a b2 c (1 - t) (-(1 + t)) = 4 * quad (a + b2 + c) (c - a) (a - b2 + c) t := by unfold qf quad; ring

theorem qf_lower {f : Forms} (h : f.Regular) : ∃ lam : ℝ, 0 < lam ∧ ∀ s : ℝ, lam * (1 + s ^ 2) ≤ qf f.a f.b2 f.c 1 s := by
  have ha := h.a
  have hc := h.cpos
  have hd := h.det
  refine ⟨(4 * f.a * f.c - f.b2 ^ 2) / (f.a + f.c), by apply div_pos <;> linarith, fun s => ?_⟩
  set lam := (4 * f.a * f.c - f.b2 ^ 2) / (4 * (f.a + f.c)) with hl
  have e : (4 * f.a * f.c - f.b2 ^ 2) / (f.a + f.c) = 4 * lam := by rw [hl]; field_simp
  have hs : lam * (4 * (f.a + f.c)) = 4 * f.a * f.c - f.b2 ^ 2 := by rw [hl]; field_simp
  have hlp : 0 < lam := by rw [hl]; apply div_pos <;> linarith
  have hla : lam < f.a := by
    have : lam * (4 * (f.a + f.c)) < f.a * (4 * (f.a + f.c)) := by rw [hs]; nlinarith [sq_nonneg f.b2]
    exact lt_of_mul_lt_mul_right this (by linarith)
  rw [e]
  unfold qf
  have key : 0 ≤ (f.a - lam) * ((f.a - lam) + f.b2 * s + (f.c - lam) * s ^ 2) := by
    have : (f.a - lam) * ((f.a - lam) + f.b2 * s + (f.c - lam) * s ^ 2) = ((f.a - lam) + f.b2 * s / 2) ^ 2 + lam ^ 2 * s ^ 2 := by
      have h4 : (f.a - lam) * (f.c - lam) = f.b2 ^ 2 / 4 + lam ^ 2 := by nlinarith
      linear_combination s ^ 2 * h4
    rw [this]; positivity
  have := nonneg_of_mul_nonneg_right key (by linarith : 0 < f.a - lam)
  nlinarith

theorem qf_upper (A B2 C s : ℝ) : |qf A B2 C 1 s| ≤ 4 * (|A| + |B2| + |C|) * (1 + s ^ 2) := by
  have e : qf A B2 C 1 s = 4 * (A + B2 * s + C * s ^ 2) := by unfold qf; ring
  have hs : |s| ≤ 1 + s ^ 2 := by
    rw [abs_le]; constructor <;> nlinarith [sq_nonneg (s - 1), sq_nonneg (s + 1)]
  rw [e, abs_mul]
  have h1 : |A + B2 * s + C * s ^ 2| ≤ |A| + |B2| * |s| + |C| * s ^ 2 := by
    refine (abs_add_le _ _).trans (add_le_add ((abs_add_le _ _).trans (le_of_eq ?_)) (le_of_eq ?_))
    · rw [abs_mul]
    · rw [abs_mul, abs_of_nonneg (sq_nonneg s)]
  rw [abs_of_pos (by norm_num : (0 : ℝ) < 4)]
  nlinarith [abs_nonneg A, abs_nonneg B2, abs_nonneg C, mul_le_mul_of_nonneg_left hs (abs_nonneg B2), sq_nonneg s,
    mul_nonneg (abs_nonneg A) (sq_nonneg s)]

theorem sqrt_scale {x y : ℝ} : √(x ^ 2 * y) = |x| * √y := by rw [Real.sqrt_mul (sq_nonneg x), Real.sqrt_sq_eq_abs]

theorem homogeneous_first {f : Forms} (h : f.Regular) : Homogeneous fun x y => 1 / √(qf f.a f.b2 f.c x y) := by
  obtain ⟨lam, hl, hb⟩ := qf_lower h
  have hp : ∀ s : ℝ, 0 < qf f.a f.b2 f.c 1 s := fun s => lt_of_lt_of_le (by positivity) (hb s)
  refine ⟨fun x s hx => ?_, ?_, 1 / √lam, fun s => ?_⟩
  · simp only [qf_hom f.a f.b2 f.c x s, sqrt_scale, div_div, mul_comm]
  · refine Continuous.div continuous_const ?_ fun s => (Real.sqrt_pos.2 (hp s)).ne'
    unfold qf; fun_prop
  · have h1 : √(lam * (1 + s ^ 2)) ≤ √(qf f.a f.b2 f.c 1 s) := Real.sqrt_le_sqrt (hb s)
    rw [Real.sqrt_mul hl.le] at h1
    rw [abs_of_nonneg (by positivity), div_div]
    exact one_div_le_one_div_of_le (by positivity) h1

theorem homogeneous_second {f : Forms} (h : f.Regular) :
    Homogeneous fun x y => 1 / √(qf f.a f.b2 f.c x y) * (qf f.A f.B2 f.C x y / qf f.a f.b2 f.c x y) := by
  have hf := homogeneous_first h
  obtain ⟨lam, hl, hb⟩ := qf_lower h
  have hp : ∀ s : ℝ, 0 < qf f.a f.b2 f.c 1 s := fun s => lt_of_lt_of_le (by positivity) (hb s)
  obtain ⟨K, hK⟩ := hf.bound
  refine ⟨fun x s hx => ?_, ?_, K * (4 * (|f.A| + |f.B2| + |f.C|) / lam), fun s => ?_⟩
  · have h1 := hf.hom x s hx
    beta_reduce at h1 ⊢
    rw [h1, qf_hom f.A, qf_hom f.a, mul_div_mul_left _ _ (pow_ne_zero 2 hx)]
    ring
  · refine Continuous.mul hf.cont (Continuous.div ?_ ?_ fun s => (hp s).ne')
    · unfold qf; fun_prop
    · unfold qf; fun_prop
  · rw [abs_mul, abs_div (qf f.A f.B2 f.C 1 s), abs_of_pos (hp s)]
    have h1 : |qf f.A f.B2 f.C 1 s| / qf f.a f.b2 f.c 1 s ≤ 4 * (|f.A| + |f.B2| + |f.C|) / lam := by
      rw [div_le_div_iff₀ (hp s) hl]
      have hM : 0 ≤ 4 * (|f.A| + |f.B2| + |f.C|) := by positivity
      calc |qf f.A f.B2 f.C 1 s| * lam ≤ (4 * (|f.A| + |f.B2| + |f.C|) * (1 + s ^ 2)) * lam :=
            mul_le_mul_of_nonneg_right (qf_upper _ _ _ s) hl.le
        _ = 4 * (|f.A| + |f.B2| + |f.C|) * (lam * (1 + s ^ 2)) := by ring
        _ ≤ _ := mul_le_mul_of_nonneg_left (hb s) hM
    have h2 := hK s
    beta_reduce at h2
    calc _ ≤ K / √(1 + s ^ 2) * (4 * (|f.A| + |f.B2| + |f.C|) / lam) :=
          mul_le_mul h2 h1 (by have := hp s; positivity) ((abs_nonneg _).trans h2)
      _ = _ := by ring

/-- `∫ p(t) / √Q(t)` over `[-1, 1]` -/
noncomputable def tPoly (A d B : ℝ) (p : ℝ → ℝ) : ℝ := ∫ t in Ioo (-1 : ℝ) 1, p t / √(quad A d B t)
/-- `∫ p(t) P(t) / Q(t)^{3/2}` over `[-1, 1]` -/
noncomputable def sPoly (A d B A' d' B' : ℝ) (p : ℝ → ℝ) : ℝ :=
  ∫ t in Ioo (-1 : ℝ) 1, p t * quad A' d' B' t / √(quad A d B t) ^ 3

theorem sqrt_four' (x : ℝ) : √(4 * x) = 2 * √x := by
  have := @sqrt_scale 2 x
  rw [abs_of_pos (by norm_num : (0 : ℝ) < 2)] at this
  rw [← this]; norm_num

theorem first_shape (q : ℝ) (p : ℝ) : 1 / √(4 * q) * p = (1 / 2) * (p / √q) := by
  rw [sqrt_four', ← div_div]; ring

theorem second_shape {q : ℝ} (hq : 0 < q) (P p : ℝ) : 1 / √(4 * q) * (4 * P / (4 * q)) * p = (1 / 2) * (p * P / √q ^ 3) := by
  have h : √q ^ 3 = √q * q := by rw [pow_succ, Real.sq_sqrt hq.le, mul_comm]
  have := Real.sqrt_pos.2 hq
  rw [sqrt_four', h]
  field_simp

/-- **the subtracted kernel of the first kind**, mode `m u - n v` -/
theorem first_minus {f : Forms} (h : f.Regular) (φ : ℝ) (m n : ℕ) :
    ∫ u in Ioo (-Real.pi) Real.pi, ∫ v in Ioo (-Real.pi) Real.pi, Real.cos (φ + (m * u - n * v)) * ga1 f u v
      = 2 * Real.pi * Real.cos φ * (tPoly (f.a - f.b2 + f.c) (f.c - f.a) (f.a + f.b2 + f.c) (pmns m n)
        + if m = 0 ∨ n = 0 then tPoly (f.a + f.b2 + f.c) (f.c - f.a) (f.a - f.b2 + f.c) (pmns m n) else 0) := by
  have := kernel_minus (homogeneous_first h) φ m n
  simp only [qf_minus, qf_plus, first_shape, integral_const_mul] at this
  unfold tPoly
  refine Eq.trans this ?_
  split <;> ring

theorem first_plus {f : Forms} (h : f.Regular) (φ : ℝ) (m n : ℕ) :
    ∫ u in Ioo (-Real.pi) Real.pi, ∫ v in Ioo (-Real.pi) Real.pi, Real.cos (φ + (m * u + n * v)) * ga1 f u v
      = 2 * Real.pi * Real.cos φ * ((if m = 0 ∨ n = 0 then tPoly (f.a - f.b2 + f.c) (f.c - f.a) (f.a + f.b2 + f.c) (pmns m n) else 0)
        + tPoly (f.a + f.b2 + f.c) (f.c - f.a) (f.a - f.b2 + f.c) (pmns m n)) := by
  have := kernel_plus (homogeneous_first h) φ m n
  simp only [qf_minus, qf_plus, first_shape, integral_const_mul] at this
  unfold tPoly
  refine Eq.trans this ?_
  split <;> ring

theorem second_minus {f : Forms} (h : f.Regular) (φ : ℝ) (m n : ℕ) :
    ∫ u in Ioo (-Real.pi) Real.pi, ∫ v in Ioo (-Real.pi) Real.pi, Real.cos (φ + (m * u - n * v)) * (ga1 f u v * ga2 f u v)
      = 2 * Real.pi * Real.cos φ * (sPoly (f.a - f.b2 + f.c) (f.c - f.a) (f.a + f.b2 + f.c) (f.A - f.B2 + f.C) (f.C - f.A) (f.A + f.B2 + f.C) (pmns m n)
        + if m = 0 ∨ n = 0 then sPoly (f.a + f.b2 + f.c) (f.c - f.a) (f.a - f.b2 + f.c) (f.A + f.B2 + f.C) (f.C - f.A) (f.A - f.B2 + f.C) (pmns m n) else 0) := by
  have := kernel_minus (homogeneous_second h) φ m n
  simp only [qf_minus, qf_plus, second_shape (h.plus.quad_pos _), second_shape (h.minus.quad_pos _), integral_const_mul] at this
  unfold sPoly
  refine Eq.trans this ?_
  split <;> ring

theorem second_plus {f : Forms} (h : f.Regular) (φ : ℝ) (m n : ℕ) :
    ∫ u in Ioo (-Real.pi) Real.pi, ∫ v in Ioo (-Real.pi) Real.pi, Real.cos (φ + (m * u + n * v)) * (ga1 f u v * ga2 f u v)
      = 2 * Real.pi * Real.cos φ * ((if m = 0 ∨ n = 0 then sPoly (f.a - f.b2 + f.c) (f.c - f.a) (f.a + f.b2 + f.c) (f.A - f.B2 + f.C) (f.C - f.A) (f.A + f.B2 + f.C) (pmns m n) else 0)
        + sPoly (f.a + f.b2 + f.c) (f.c - f.a) (f.a - f.b2 + f.c) (f.A + f.B2 + f.C) (f.C - f.A) (f.A - f.B2 + f.C) (pmns m n)) := by
  have := kernel_plus (homogeneous_second h) φ m n
  simp only [qf_minus, qf_plus, second_shape (h.plus.quad_pos _), second_shape (h.minus.quad_pos _), integral_const_mul] at this
  unfold sPoly
  refine Eq.trans this ?_
  split <;> ring

end Verif.Nestor
