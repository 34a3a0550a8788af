import Mathlib.Analysis.SpecialFunctions.Integrals.Basic
import Mathlib.Analysis.SpecialFunctions.Sqrt
import Mathlib.Analysis.SpecialFunctions.Log.Deriv
import Mathlib.MeasureTheory.Integral.IntervalIntegral.FundThmCalculus
import Mathlib.Tactic.LinearCombination
import Mathlib.Tactic.FieldSimp

/-!
# Integrals of `t^l / √Q` and `t^l P / Q^{3/2}` over `[-1, 1]` for a positive quadratic `Q`

`tInt` and `sInt` are the specification of the recurrences of `SingularIntegrals`; nothing here refers to the model.
-/
namespace Verif.Nestor
open Real intervalIntegral

/-- `A t² + 2 d t + B` -/
def quad (A d B t : ℝ) : ℝ := A * t ^ 2 + 2 * d * t + B

/-- `∫ t^l / √(A t² + 2 d t + B)` over `[-1, 1]` -/
noncomputable def tInt (A d B : ℝ) (l : ℕ) : ℝ := ∫ t in (-1 : ℝ)..1, t ^ l / √(quad A d B t)

/-- `∫ t^l (A' t² + 2 d' t + B') / (A t² + 2 d t + B)^{3/2}` over `[-1, 1]` -/
noncomputable def sInt (A d B A' d' B' : ℝ) (l : ℕ) : ℝ :=
  ∫ t in (-1 : ℝ)..1, t ^ l * quad A' d' B' t / √(quad A d B t) ^ 3

/-- the quadratic form is positive definite -/
structure Pos (A d B : ℝ) : Prop where
  lead : 0 < A
  disc : 0 < A * B - d ^ 2

namespace Pos
variable {A d B : ℝ} (h : Pos A d B)
include h

theorem last : 0 < B := by
  have h1 := h.lead; have h2 := h.disc
  by_contra hb
  nlinarith [mul_nonneg h1.le (by linarith : 0 ≤ -B), sq_nonneg d]

theorem symm : Pos B d A := ⟨h.last, by have := h.disc; linarith⟩

theorem quad_pos (t : ℝ) : 0 < quad A d B t := by
  have h1 := h.lead; have h2 := h.disc
  have e : A * quad A d B t = (A * t + d) ^ 2 + (A * B - d ^ 2) := by unfold quad; ring
  have : 0 < A * quad A d B t := by rw [e]; positivity
  exact pos_of_mul_pos_right this h1.le |> fun h => h

theorem sqrt_pos (t : ℝ) : 0 < √(quad A d B t) := Real.sqrt_pos.2 (h.quad_pos t)

theorem hasDerivAt_sqrt (t : ℝ) : HasDerivAt (fun t => √(quad A d B t)) ((A * t + d) / √(quad A d B t)) t := by
  have h1 : HasDerivAt (quad A d B) (A * (2 * t) + 2 * d) t := by
    have := (((hasDerivAt_id t).pow 2).const_mul A).add ((hasDerivAt_id t).const_mul (2 * d)) |>.add_const B
    refine HasDerivAt.congr_deriv (f := quad A d B) this ?_
    simp
  refine (h1.sqrt (h.quad_pos t).ne').congr_deriv ?_
  have := (h.sqrt_pos t).ne'
  field_simp

omit h in
theorem continuous_quad : Continuous (quad A d B) := by unfold quad; fun_prop

theorem continuous_t (l : ℕ) : Continuous fun t : ℝ => t ^ l / √(quad A d B t) :=
  (continuous_pow l).div (continuous_sqrt.comp continuous_quad) fun t => (h.sqrt_pos t).ne'

theorem continuous_s (A' d' B' : ℝ) (l : ℕ) :
    Continuous fun t : ℝ => t ^ l * quad A' d' B' t / √(quad A d B t) ^ 3 :=
  ((continuous_pow l).mul continuous_quad).div ((continuous_sqrt.comp continuous_quad).pow 3)
    fun t => pow_ne_zero _ (h.sqrt_pos t).ne'

/-- the three-term recurrence, first step -/
theorem rec_zero : A * tInt A d B 1 + d * tInt A d B 0 = √(quad A d B 1) - √(quad A d B (-1)) := by
  have := integral_eq_sub_of_hasDerivAt (a := -1) (b := 1) (fun t _ => h.hasDerivAt_sqrt t)
    (((by fun_prop : Continuous fun t : ℝ => A * t + d).div (continuous_sqrt.comp continuous_quad)
      fun t => (h.sqrt_pos t).ne').intervalIntegrable _ _)
  rw [← this]
  unfold tInt
  rw [← integral_const_mul, ← integral_const_mul, ← integral_add]
  · refine integral_congr fun t _ => ?_
    ring
  · exact ((h.continuous_t 1).const_mul A).intervalIntegrable _ _
  · exact ((h.continuous_t 0).const_mul d).intervalIntegrable _ _

/-- the three-term recurrence -/
theorem rec_succ (l : ℕ) :
    ((l : ℝ) + 2) * A * tInt A d B (l + 2) + (2 * l + 3) * d * tInt A d B (l + 1) + (l + 1) * B * tInt A d B l
      = √(quad A d B 1) - (-1) ^ (l + 1) * √(quad A d B (-1)) := by
  have hd : ∀ t : ℝ, HasDerivAt (fun t => t ^ (l + 1) * √(quad A d B t))
      (((l : ℝ) + 2) * A * (t ^ (l + 2) / √(quad A d B t)) + (2 * l + 3) * d * (t ^ (l + 1) / √(quad A d B t))
        + (l + 1) * B * (t ^ l / √(quad A d B t))) t := by
    intro t
    have h1 := (hasDerivAt_pow (l + 1) t).mul (h.hasDerivAt_sqrt t)
    refine h1.congr_deriv ?_
    have hs := (h.sqrt_pos t).ne'
    have hq : √(quad A d B t) ^ 2 = quad A d B t := Real.sq_sqrt (h.quad_pos t).le
    field_simp
    rw [hq]
    unfold quad
    push_cast
    ring
  have hc : ∀ k : ℕ, ∀ x : ℝ, IntervalIntegrable (fun t : ℝ => x * (t ^ k / √(quad A d B t))) MeasureTheory.volume (-1) 1 :=
    fun k x => ((h.continuous_t k).const_mul x).intervalIntegrable _ _
  have := integral_eq_sub_of_hasDerivAt (a := -1) (b := 1) (fun t _ => hd t)
    (((hc _ _).add (hc _ _)).add (hc _ _))
  rw [integral_add ((hc _ _).add (hc _ _)) (hc _ _), integral_add (hc _ _) (hc _ _), integral_const_mul, integral_const_mul,
    integral_const_mul] at this
  unfold tInt
  rw [this]
  simp

theorem arg_pos (t : ℝ) : 0 < √A * √(quad A d B t) + A * t + d := by
  have h1 := h.lead; have h2 := h.disc
  have e : (√A * √(quad A d B t)) ^ 2 = (A * t + d) ^ 2 + (A * B - d ^ 2) := by
    rw [mul_pow, Real.sq_sqrt h1.le, Real.sq_sqrt (h.quad_pos t).le]; unfold quad; ring
  have hp : 0 < √A * √(quad A d B t) := mul_pos (Real.sqrt_pos.2 h1) (h.sqrt_pos t)
  have : |A * t + d| < √A * √(quad A d B t) := by
    rw [← abs_of_pos hp]
    exact sq_lt_sq.1 (by rw [e]; linarith)
  have := (abs_lt.1 this).1
  linarith

/-- the integral `T_0` -/
theorem zero : tInt A d B 0
    = Real.log ((√A * √(quad A d B 1) + A + d) / (√A * √(quad A d B (-1)) - A + d)) / √A := by
  have h1 := h.lead
  have hs := (Real.sqrt_pos.2 h1)
  have hd : ∀ t : ℝ, HasDerivAt (fun t => Real.log (√A * √(quad A d B t) + A * t + d) / √A)
      (t ^ 0 / √(quad A d B t)) t := by
    intro t
    have h3 := ((((h.hasDerivAt_sqrt t).const_mul (√A)).add ((hasDerivAt_id t).const_mul A)).add_const d).log
      (h.arg_pos t).ne'
    refine (h3.div_const (√A)).congr_deriv ?_
    have h4 := (h.arg_pos t).ne'
    have h5 := (h.sqrt_pos t).ne'
    have h6 : √A ^ 2 = A := Real.sq_sqrt h1.le
    simp only [id, Pi.add_apply]
    field_simp
    linear_combination (-√(quad A d B t)) * h6
  have := integral_eq_sub_of_hasDerivAt (a := -1) (b := 1) (fun t _ => hd t)
    ((h.continuous_t 0).intervalIntegrable _ _)
  unfold tInt
  rw [this]
  have p1 := h.arg_pos 1
  have p2 := h.arg_pos (-1)
  have e1 : √A * √(quad A d B 1) + A * 1 + d = √A * √(quad A d B 1) + A + d := by ring
  have e2 : √A * √(quad A d B (-1)) + A * (-1) + d = √A * √(quad A d B (-1)) - A + d := by ring
  rw [e1] at p1 ⊢
  rw [e2] at p2 ⊢
  rw [Real.log_div p1.ne' p2.ne']
  ring

/-- the integrals `S_l`, for any `R0`, `R1`, `Ra` that solve the linear equations of the coefficients -/
theorem s_eq {A' d' B' R0 R1 Ra : ℝ} (e2 : Ra * A = A') (e1 : 2 * d * Ra - d * R1 + A * R0 = 2 * d')
    (e0 : B * Ra - B * R1 + d * R0 = B') (l : ℕ) :
    sInt A d B A' d' B' l = (R1 * l + Ra) * tInt A d B l + R0 * l * tInt A d B (l - 1)
      - (R0 + R1) / √(quad A d B 1) + (-1) ^ l * (R0 - R1) / √(quad A d B (-1)) := by
  have hd : ∀ t : ℝ, HasDerivAt (fun t => t ^ l * (R1 * t + R0) / √(quad A d B t))
      ((R1 * l + Ra) * (t ^ l / √(quad A d B t)) + R0 * l * (t ^ (l - 1) / √(quad A d B t))
        - t ^ l * quad A' d' B' t / √(quad A d B t) ^ 3) t := by
    intro t
    have hs := (h.sqrt_pos t).ne'
    have hq : √(quad A d B t) ^ 2 = quad A d B t := Real.sq_sqrt (h.quad_pos t).le
    have h1 := (((hasDerivAt_pow l t).mul (((hasDerivAt_id t).const_mul R1).add_const R0)).div (h.hasDerivAt_sqrt t) hs)
    refine h1.congr_deriv ?_
    simp only [id, Pi.mul_apply]
    have key : quad A' d' B' t = (Ra - R1) * quad A d B t + (R1 * t + R0) * (A * t + d) := by
      unfold quad; linear_combination (-t ^ 2) * e2 - t * e1 - e0
    have hl : (l : ℝ) * t ^ (l - 1) * t = l * t ^ l := by
      rcases l with - | k
      · simp
      · simp only [Nat.add_sub_cancel]; ring
    rw [key]
    field_simp
    rw [hq]
    linear_combination (quad A d B t * R1) * hl
  have c1 := ((h.continuous_t l).const_mul (R1 * l + Ra)).intervalIntegrable (-1) 1 (μ := MeasureTheory.volume)
  have c2 := ((h.continuous_t (l - 1)).const_mul (R0 * l)).intervalIntegrable (-1) 1 (μ := MeasureTheory.volume)
  have c3 := (h.continuous_s A' d' B' l).intervalIntegrable (-1) 1 (μ := MeasureTheory.volume)
  have := integral_eq_sub_of_hasDerivAt (a := -1) (b := 1) (fun t _ => hd t) ((c1.add c2).sub c3)
  rw [integral_sub (c1.add c2) c3, integral_add c1 c2, integral_const_mul, integral_const_mul] at this
  unfold tInt sInt
  have e : ∀ x y z : ℝ, x - y = z → y = x - z := fun x y z h => by linarith
  rw [e _ _ _ this]
  simp only [one_pow]
  ring

end Pos

end Verif.Nestor
