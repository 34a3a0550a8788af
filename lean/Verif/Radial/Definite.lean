import Verif.Radial.Assembled
import Verif.Tridiag.Props
import Mathlib.Algebra.QuadraticDiscriminant
import Mathlib.Algebra.Order.BigOperators.Group.Finset
import Mathlib.Tactic.Positivity
import Mathlib.Tactic.FieldSimp

/-! # The form is definite; pivots -/
namespace Verif.Radial
open Verif Finset

/-- pivots which do not vanish give minors which do not vanish -/
theorem minor_ne {K : Type} [Field K] (a d b : Int → K) (jMin : Int) {n : ℕ} (h : ∀ i < n, Tridiag.piv a d b jMin i ≠ 0) :
    ∀ i ≤ n, Tridiag.minor a d b jMin i ≠ 0 := by
  have key : ∀ i, i < n → Tridiag.minor a d b jMin i ≠ 0 ∧ Tridiag.minor a d b jMin (i + 1) = Tridiag.piv a d b jMin i * Tridiag.minor a d b jMin i := by
    intro i
    induction i with
    | zero => intro _; simp [Tridiag.minor, Tridiag.piv]
    | succ i ih =>
      intro hi
      obtain ⟨h1, h2⟩ := ih (by omega)
      have hp := h i (by omega)
      refine ⟨by rw [h2]; exact mul_ne_zero hp h1, ?_⟩
      simp only [Tridiag.minor, Tridiag.piv]
      rw [h2]
      field_simp
  intro i hi
  cases i with
  | zero => simp [Tridiag.minor]
  | succ i =>
    obtain ⟨h1, h2⟩ := key i (by omega)
    rw [h2]
    exact mul_ne_zero (h i (by omega)) h1

/-- what the equations need of a state: a Jacobian of negative sign, positive major radius and total pressure, a grid, and in no cell may the
poloidal derivative of the coordinate vanish on the whole surface -/
structure Glob.Phys (G : Glob) (S : Pair) : Prop where
  tau : ∀ j kl, 0 ≤ j → j < G.ns - 1 → 0 ≤ kl → kl < G.s.nZnT → G.tau j kl < 0
  r12 : ∀ j kl, 0 ≤ j → j < G.ns - 1 → 0 ≤ kl → kl < G.s.nZnT → 0 < G.r12 j kl
  P : ∀ j kl, 0 ≤ j → j < G.ns - 1 → 0 ≤ kl → kl < G.s.nZnT → 0 < G.P j kl
  gsqrt : ∀ j kl, 0 ≤ j → j < G.ns - 1 → 0 ≤ kl → kl < G.s.nZnT → G.gsqrt j kl < 0
  grid : 1 ≤ G.s.nZeta ∧ 2 ≤ G.s.nThetaReduced ∧ 1 ≤ G.s.nThetaEven
  deltaS : 0 < G.deltaS
  even : ∀ σ j, 0 ≤ j → j < G.ns - 1 → ∃ kl, 0 ≤ kl ∧ kl < G.s.nZnT ∧ (S σ).xu12 j kl ≠ 0
  odd : ∀ σ j, 0 ≤ j → j < G.ns - 1 → ∃ kl, 0 ≤ kl ∧ kl < G.s.nZnT ∧ G.dRad (S σ) true (unit (j + 1)) j kl ≠ 0

namespace Glob
variable {G : Glob} {S : Pair}

theorem Phys.wInt (h : G.Phys S) (l : Int) : (0 : ℝ) < Sizes.wInt G.s l := by
  obtain ⟨h1, h2, h3⟩ := h.grid
  have a : (0 : ℝ) < 1 / ((G.s.nZeta * (G.s.nThetaReduced - 1) : Int) : ℝ) := by
    refine one_div_pos.2 (Int.cast_pos.2 (mul_pos (by omega) (by omega)))
  have b : (0 : ℝ) < 1 / ((G.s.nZeta * G.s.nThetaEven : Int) : ℝ) := by
    refine one_div_pos.2 (Int.cast_pos.2 (mul_pos (by omega) (by omega)))
  unfold Sizes.wInt
  simp only []
  split <;> split <;> linarith

theorem Phys.W_pos (h : G.Phys S) {j kl : Int} (a : 0 ≤ j) (b : j < G.ns - 1) (k0 : 0 ≤ kl) (k1 : kl < G.s.nZnT) : 0 < G.W j kl := by
  unfold W
  have h1 := h.tau j kl a b k0 k1
  have h2 := h.r12 j kl a b k0 k1
  have h3 := h.P j kl a b k0 k1
  have h4 := h.wInt (kl.tmod G.s.nThetaEff)
  have : G.r12 j kl * G.P j kl / G.tau j kl < 0 := div_neg_of_pos_of_neg (mul_pos h2 h3) h1
  exact mul_pos (by linarith) h4

theorem Phys.Wn_nonneg (h : G.Phys S) {j kl : Int} (a : 0 ≤ j) (b : j < G.ns - 1) (k0 : 0 ≤ kl) (k1 : kl < G.s.nZnT) : 0 ≤ G.Wn j kl := by
  unfold Wn
  have h1 := h.gsqrt j kl a b k0 k1
  have h4 := h.wInt (kl.tmod G.s.nThetaEff)
  have : G.bsupv j kl ^ 2 * G.gsqrt j kl ≤ 0 := mul_nonpos_of_nonneg_of_nonpos (sq_nonneg _) h1.le
  exact mul_nonneg (by linarith) h4.le

theorem Phys.p_nonneg (h : G.Phys S) (X : GCoord) (m n : Int) {j : Int} (a : 0 ≤ j) (b : j < G.ns - 1) : 0 ≤ G.p X m n j := by
  rw [p_eq]
  refine sum_nonneg fun kl hk => ?_
  have hk := mem_Ico.1 hk
  have h1 := (h.W_pos a b hk.1 hk.2).le
  have h2 := h.Wn_nonneg a b hk.1 hk.2
  positivity

theorem Phys.p_pos (h : G.Phys S) (σ : Side) (m n : Int) (hm : m % 2 ≠ 1) {j : Int} (a : 0 ≤ j) (b : j < G.ns - 1) : 0 < G.p (S σ) m n j := by
  rw [p_eq]
  obtain ⟨kl, k0, k1, hx⟩ := h.even σ j a b
  refine sum_pos' (fun kl hk => ?_) ⟨kl, mem_Ico.2 ⟨k0, k1⟩, ?_⟩
  · have hk := mem_Ico.1 hk
    have h1 := (h.W_pos a b hk.1 hk.2).le
    have h2 := h.Wn_nonneg a b hk.1 hk.2
    positivity
  · have h1 := h.W_pos a b k0 k1
    have h2 := h.Wn_nonneg a b k0 k1
    have hd := h.deltaS
    have h3 : 0 < G.rad0 (S σ) (decide (m % 2 = 1)) j kl ^ 2 := by
      refine pow_pos_of_ne ?_
      simp only [rad0, hm, decide_false, Bool.false_eq_true, if_false]
      exact neg_ne_zero.2 (div_ne_zero hx hd.ne')
    have h4 : 0 < G.W j kl * (G.rad0 (S σ) (decide (m % 2 = 1)) j kl ^ 2 + m ^ 2 * G.pol0 (S σ) (decide (m % 2 = 1)) j kl ^ 2) :=
      mul_pos h1 (by positivity)
    positivity
where
  pow_pos_of_ne {x : ℝ} (h : x ≠ 0) : 0 < x ^ 2 := by positivity

theorem Phys.r_pos (h : G.Phys S) (σ : Side) (m n : Int) {j : Int} (a : 0 ≤ j) (b : j < G.ns - 1) : 0 < G.r (S σ) m n j := by
  rw [r_eq]
  have hd := h.deltaS
  have key : ∃ kl, 0 ≤ kl ∧ kl < G.s.nZnT ∧ G.rad1 (S σ) (decide (m % 2 = 1)) j kl ≠ 0 := by
    by_cases hm : m % 2 = 1
    · obtain ⟨kl, k0, k1, hx⟩ := h.odd σ j a b
      refine ⟨kl, k0, k1, ?_⟩
      rw [dRad_eq] at hx
      simp only [unit, show ¬ (j = j + 1) by omega, if_false, if_true, mul_zero, mul_one, zero_add] at hx
      simpa only [hm, decide_true] using hx
    · obtain ⟨kl, k0, k1, hx⟩ := h.even σ j a b
      refine ⟨kl, k0, k1, ?_⟩
      simp only [rad1, hm, decide_false, Bool.false_eq_true, if_false]
      exact div_ne_zero hx hd.ne'
  obtain ⟨kl, k0, k1, hx⟩ := key
  refine sum_pos' (fun kl hk => ?_) ⟨kl, mem_Ico.2 ⟨k0, k1⟩, ?_⟩
  · have hk := mem_Ico.1 hk
    have h1 := (h.W_pos a b hk.1 hk.2).le
    have h2 := h.Wn_nonneg a b hk.1 hk.2
    positivity
  · have h1 := h.W_pos a b k0 k1
    have h2 := h.Wn_nonneg a b k0 k1
    have h4 : 0 < G.W j kl * (G.rad1 (S σ) (decide (m % 2 = 1)) j kl ^ 2 + m ^ 2 * G.pol1 (S σ) (decide (m % 2 = 1)) j kl ^ 2) :=
      mul_pos h1 (by positivity)
    positivity

theorem Phys.q_sq (h : G.Phys S) (X : GCoord) (m n : Int) {j : Int} (a : 0 ≤ j) (b : j < G.ns - 1) : G.q X m n j ^ 2 ≤ G.p X m n j * G.r X m n j := by
  have key : ∀ t : ℝ, 0 ≤ G.p X m n j * (t * t) + 2 * G.q X m n j * t + G.r X m n j := by
    intro t
    rw [p_eq, q_eq, r_eq]
    simp only [mul_sum, sum_mul, ← sum_add_distrib]
    refine sum_nonneg fun kl hk => ?_
    have hk := mem_Ico.1 hk
    have h1 := (h.W_pos a b hk.1 hk.2).le
    have h2 := h.Wn_nonneg a b hk.1 hk.2
    generalize decide (m % 2 = 1) = o
    have e : (G.W j kl * (G.rad0 X o j kl ^ 2 + m ^ 2 * G.pol0 X o j kl ^ 2) + G.Wn j kl * (n * G.s.nfp) ^ 2) * (t * t)
        + 2 * (G.W j kl * (G.rad0 X o j kl * G.rad1 X o j kl + m ^ 2 * (G.pol0 X o j kl * G.pol1 X o j kl))) * t
        + (G.W j kl * (G.rad1 X o j kl ^ 2 + m ^ 2 * G.pol1 X o j kl ^ 2) + G.Wn j kl * (n * G.s.nfp) ^ 2)
        = G.W j kl * ((G.rad0 X o j kl * t + G.rad1 X o j kl) ^ 2 + m ^ 2 * (G.pol0 X o j kl * t + G.pol1 X o j kl) ^ 2)
          + G.Wn j kl * ((n * G.s.nfp) ^ 2 * (t ^ 2 + 1)) := by ring
    rw [e]
    positivity
  have := discrim_le_zero key
  unfold discrim at this
  nlinarith

/-- equality for the mode (0, 0) -/
theorem q_sq_00 (X : GCoord) (j : Int) : G.q X 0 0 j = -G.p X 0 0 j ∧ G.r X 0 0 j = G.p X 0 0 j := by
  rw [p_eq, q_eq, r_eq]
  constructor
  · rw [← sum_neg_distrib]
    refine sum_congr rfl fun kl _ => ?_
    simp [rad0, rad1]
    left; ring
  · refine sum_congr rfl fun kl _ => ?_
    simp [rad0, rad1]

end Glob

/-- step of the elimination -/
theorem pivot_strict {P p q r : ℝ} (hp : 0 ≤ p) (hP : p < P) (hr : 0 < r) (hq : q ^ 2 ≤ p * r) : 0 < r - q ^ 2 / P := by
  have hP0 : 0 < P := lt_of_le_of_lt hp hP
  have h1 : q ^ 2 / P ≤ p * r / P := div_le_div_of_nonneg_right hq hP0.le
  have h2 : p * r / P < r := by
    rw [div_lt_iff₀ hP0]
    nlinarith
  linarith

theorem pivot_weak {P p q r : ℝ} (hp : 0 < p) (hP : p ≤ P) (hr : 0 ≤ r) (hq : q ^ 2 ≤ p * r) : 0 ≤ r - q ^ 2 / P := by
  have hP0 : 0 < P := lt_of_lt_of_le hp hP
  have h1 : q ^ 2 / P ≤ p * r / P := div_le_div_of_nonneg_right hq hP0.le
  have h2 : p * r / P ≤ r := by
    rw [div_le_iff₀ hP0]
    nlinarith
  linarith

end Verif.Radial
