import Verif.PySimsopt.Model
import Mathlib.Algebra.BigOperators.Field
import Mathlib.Tactic.Linarith
import Mathlib.Tactic.Ring
import Mathlib.Tactic.FieldSimp
import Mathlib.Tactic.NormNum
import Mathlib.Tactic.Positivity
import Mathlib.Tactic.LinearCombination

/-! # C105: averages and extrapolations of the wrapper -/
namespace Verif.PySimsopt
open Verif

theorem sHalfGrid_eq (ns : Nat) (hns : 2 ≤ ns) (j : Nat) : sHalfGrid ns j = (j + 1 / 2) / (ns - 1) := by
  have h2 : (2 : ℝ) ≤ (ns : ℝ) := by exact_mod_cast hns
  have h3 : (ns : ℝ) - 1 ≠ 0 := by linarith
  unfold sHalfGrid
  field_simp
  ring

theorem sum_half (n : Nat) : ∑ j ∈ Finset.range n, ((j : ℝ) + 1 / 2) = (n : ℝ) ^ 2 / 2 := by
  induction n with
  | zero => simp
  | succ n ih => rw [Finset.sum_range_succ, ih]; push_cast; ring

/-- **C105** the mean iota: between the smallest and the largest value, and for a profile linear in `s` the exact average
    over the normalised flux -/
theorem C105_mean_iota (ns : Nat) (hns : 2 ≤ ns) (iotas : Nat → ℝ) :
    (∀ lo hi, (∀ j, 1 ≤ j → j < ns → lo ≤ iotas j ∧ iotas j ≤ hi) → lo ≤ meanIota ns iotas ∧ meanIota ns iotas ≤ hi) ∧
    (∀ a b : ℝ, (∀ j, j < ns - 1 → iotas (j + 1) = a + b * ((j + 1 / 2) / (ns - 1))) → meanIota ns iotas = a + b / 2) := by
  have hn : ((ns - 1 : Nat) : ℝ) = (ns : ℝ) - 1 := by rw [Nat.cast_sub (by omega)]; simp
  have h2 : (2 : ℝ) ≤ (ns : ℝ) := by exact_mod_cast hns
  have h3 : (0 : ℝ) < (ns : ℝ) - 1 := by linarith
  constructor
  · intro lo hi h
    unfold meanIota
    rw [hn, le_div_iff₀ h3, div_le_iff₀ h3]
    have e : ∀ c : ℝ, ∑ _j ∈ Finset.range (ns - 1), c = c * ((ns : ℝ) - 1) := by
      intro c; rw [Finset.sum_const, Finset.card_range, nsmul_eq_mul, hn]; ring
    constructor
    · rw [← e]
      exact Finset.sum_le_sum fun j hj => (h (j + 1) (by omega) (by have := Finset.mem_range.1 hj; omega)).1
    · rw [← e]
      exact Finset.sum_le_sum fun j hj => (h (j + 1) (by omega) (by have := Finset.mem_range.1 hj; omega)).2
  · intro a b h
    unfold meanIota
    rw [Finset.sum_congr rfl (fun j hj => h j (Finset.mem_range.1 hj)), Finset.sum_add_distrib, ← Finset.mul_sum, ← Finset.sum_div,
      sum_half, hn, Finset.sum_const, Finset.card_range, nsmul_eq_mul, hn]
    field_simp

/-- the specification of the line fitted by `np.polynomial.Polynomial.fit(s, iota, deg=1)`: no other line is closer -/
def IsFit (n : Nat) (x y : Nat → ℝ) (a b : ℝ) : Prop :=
  ∀ a' b', ∑ j ∈ Finset.range n, (y j - (a * x j + b)) ^ 2 ≤ ∑ j ∈ Finset.range n, (y j - (a' * x j + b')) ^ 2

/-- **C105** the mean shear: the slope of any least-squares line through the half-grid values is
    `sum (s - mean s) iota / sum (s - mean s)^2` with mean `1/2`, so it is exact for a linear iota and unchanged by a constant -/
theorem C105_mean_shear (ns : Nat) (hns : 3 ≤ ns) (iota : Nat → ℝ) (a b : ℝ) (h : IsFit (ns - 1) (sHalfGrid ns) iota a b) :
    a * ∑ j ∈ Finset.range (ns - 1), (sHalfGrid ns j - 1 / 2) ^ 2 = ∑ j ∈ Finset.range (ns - 1), (sHalfGrid ns j - 1 / 2) * iota j ∧
    0 < ∑ j ∈ Finset.range (ns - 1), (sHalfGrid ns j - 1 / 2) ^ 2 ∧
    (∀ c d : ℝ, (∀ j, j < ns - 1 → iota j = c + d * sHalfGrid ns j) → a = d) := by
  have hn : ((ns - 1 : Nat) : ℝ) = (ns : ℝ) - 1 := by rw [Nat.cast_sub (by omega)]; simp
  have h2 : (3 : ℝ) ≤ (ns : ℝ) := by exact_mod_cast hns
  have h3 : (0 : ℝ) < (ns : ℝ) - 1 := by linarith
  have hz : ∑ j ∈ Finset.range (ns - 1), (sHalfGrid ns j - 1 / 2) = 0 := by
    rw [Finset.sum_sub_distrib, Finset.sum_congr rfl (fun j _ => sHalfGrid_eq ns (by omega) j), ← Finset.sum_div, sum_half, hn,
      Finset.sum_const, Finset.card_range, nsmul_eq_mul, hn]
    field_simp
    ring
  set S := ∑ j ∈ Finset.range (ns - 1), (sHalfGrid ns j - 1 / 2) ^ 2 with hS
  have hpos : 0 < S := by
    refine Finset.sum_pos' (fun j _ => sq_nonneg _) ⟨0, Finset.mem_range.2 (by omega), ?_⟩
    have : sHalfGrid ns 0 - 1 / 2 < 0 := by
      rw [sHalfGrid_eq ns (by omega)]
      have : ((0 : Nat) + 1 / 2 : ℝ) / ((ns : ℝ) - 1) < 1 / 2 := by
        rw [div_lt_iff₀ h3]; push_cast; linarith
      linarith
    nlinarith
  set R := ∑ j ∈ Finset.range (ns - 1), (sHalfGrid ns j - 1 / 2) * (iota j - (a * sHalfGrid ns j + b)) with hR
  have quad : ∀ t : ℝ, 0 ≤ t ^ 2 * S - 2 * t * R := by
    intro t
    have := h (a + t) (b - t * (1 / 2))
    have e : ∀ j, (iota j - ((a + t) * sHalfGrid ns j + (b - t * (1 / 2)))) ^ 2 =
        (iota j - (a * sHalfGrid ns j + b)) ^ 2 + t ^ 2 * (sHalfGrid ns j - 1 / 2) ^ 2 -
          2 * t * ((sHalfGrid ns j - 1 / 2) * (iota j - (a * sHalfGrid ns j + b))) := fun j => by ring
    simp only [e] at this
    rw [Finset.sum_sub_distrib, Finset.sum_add_distrib, ← Finset.mul_sum, ← Finset.mul_sum] at this
    linarith
  have hR0 : R = 0 := by
    have := quad (R / S)
    have e : (R / S) ^ 2 * S - 2 * (R / S) * R = -(R ^ 2 / S) := by field_simp; ring
    rw [e] at this
    have h5 : R ^ 2 / S ≤ 0 := by linarith
    have h6 : R ^ 2 ≤ 0 := by
      by_contra hc
      have : 0 < R ^ 2 / S := div_pos (lt_of_not_ge hc) hpos
      linarith
    exact pow_eq_zero_iff (two_ne_zero) |>.1 (le_antisymm h6 (sq_nonneg R))
  have main : a * S = ∑ j ∈ Finset.range (ns - 1), (sHalfGrid ns j - 1 / 2) * iota j := by
    have e : ∀ j, (sHalfGrid ns j - 1 / 2) * (iota j - (a * sHalfGrid ns j + b)) =
        (sHalfGrid ns j - 1 / 2) * iota j - a * (sHalfGrid ns j - 1 / 2) ^ 2 - (a / 2 + b) * (sHalfGrid ns j - 1 / 2) := fun j => by ring
    have : R = ∑ j ∈ Finset.range (ns - 1), (sHalfGrid ns j - 1 / 2) * iota j - a * S := by
      rw [hR]
      simp only [e]
      rw [Finset.sum_sub_distrib, Finset.sum_sub_distrib, ← Finset.mul_sum, ← Finset.mul_sum, hz]
      ring
    linarith
  refine ⟨main, hpos, fun c d hl => ?_⟩
  have : ∑ j ∈ Finset.range (ns - 1), (sHalfGrid ns j - 1 / 2) * iota j = d * S := by
    have e : ∀ j ∈ Finset.range (ns - 1), (sHalfGrid ns j - 1 / 2) * iota j =
        d * (sHalfGrid ns j - 1 / 2) ^ 2 + (c + d / 2) * (sHalfGrid ns j - 1 / 2) := fun j hj => by
      rw [hl j (Finset.mem_range.1 hj)]; ring
    rw [Finset.sum_congr rfl e, Finset.sum_add_distrib, ← Finset.mul_sum, ← Finset.mul_sum, hz]
    ring
  rw [this] at main
  exact mul_right_cancel₀ hpos.ne' main

/-- a line through data on it is a fit -/
example : IsFit 2 (sHalfGrid 3) (fun j => 1 + 2 * sHalfGrid 3 j) 2 1 := by
  intro a' b'
  have : ∑ j ∈ Finset.range 2, ((1 + 2 * sHalfGrid 3 j) - (2 * sHalfGrid 3 j + 1)) ^ 2 = 0 :=
    Finset.sum_eq_zero fun j _ => by ring
  rw [this]
  exact Finset.sum_nonneg fun j _ => sq_nonneg _

/-- **C105** the vacuum well: if the volume derivative is linear in `s`, the number is `(V'(0) - V'(1)) / V'(0)`, and it does
    not depend on the scale of the Jacobian or on its sign -/
theorem C105_vacuum_well (ns : Nat) (hns : 3 ≤ ns) (g : Nat → ℝ) (a b : ℝ) (ha : 0 < a)
    (h : ∀ j, 1 ≤ j → j < ns → |g j| = a + b * ((j - 1 / 2) / (ns - 1))) :
    vacuumWell ns g = (a - (a + b)) / a ∧ ∀ c : ℝ, c ≠ 0 → vacuumWell ns (fun j => c * g j) = vacuumWell ns g := by
  have h2 : (3 : ℝ) ≤ (ns : ℝ) := by exact_mod_cast hns
  have h3 : (ns : ℝ) - 1 ≠ 0 := by linarith
  constructor
  · have e1 : ((ns - 2 + 1 : Nat) : ℝ) = (ns : ℝ) - 1 := by rw [show ns - 2 + 1 = ns - 1 by omega, Nat.cast_sub (by omega)]; simp
    have e2 : ((ns - 3 + 1 : Nat) : ℝ) = (ns : ℝ) - 2 := by rw [show ns - 3 + 1 = ns - 2 by omega, Nat.cast_sub (by omega)]; simp
    unfold vacuumWell
    simp only
    rw [h (0 + 1) (by omega) (by omega), h (1 + 1) (by omega) (by omega), h (ns - 2 + 1) (by omega) (by omega),
      h (ns - 3 + 1) (by omega) (by omega), e1, e2]
    push_cast
    have hp : Real.pi ≠ 0 := Real.pi_ne_zero
    have d0 : 1.5 * (4 * Real.pi * Real.pi * (a + b * (((1 : ℝ) - 1 / 2) / (ns - 1)))) -
        0.5 * (4 * Real.pi * Real.pi * (a + b * (((2 : ℝ) - 1 / 2) / (ns - 1)))) = 4 * Real.pi * Real.pi * a := by
      field_simp; ring
    have d1 : 1.5 * (4 * Real.pi * Real.pi * (a + b * (((ns : ℝ) - 1 - 1 / 2) / (ns - 1)))) -
        0.5 * (4 * Real.pi * Real.pi * (a + b * (((ns : ℝ) - 2 - 1 / 2) / (ns - 1)))) = 4 * Real.pi * Real.pi * (a + b) := by
      field_simp; ring
    rw [d0, d1]
    field_simp
  · intro c hc
    have hc' : |c| ≠ 0 := abs_ne_zero.2 hc
    unfold vacuumWell
    simp only [abs_mul]
    have e : ∀ x y : ℝ, 1.5 * (4 * Real.pi * Real.pi * (|c| * x)) - 0.5 * (4 * Real.pi * Real.pi * (|c| * y)) =
        |c| * (1.5 * (4 * Real.pi * Real.pi * x) - 0.5 * (4 * Real.pi * Real.pi * y)) := fun x y => by ring
    rw [e, e, ← mul_sub, mul_div_mul_left _ _ hc']

example : ∀ j : Nat, 1 ≤ j → j < 5 → |(-(2 : ℝ) - ((j : ℝ) - 1 / 2) / ((5 : Nat) - 1))| = 2 + 1 * ((j - 1 / 2) / ((5 : Nat) - 1)) := by
  intro j h1 _
  have : (1 : ℝ) ≤ j := by exact_mod_cast h1
  have hq : (0 : ℝ) ≤ ((j : ℝ) - 1 / 2) / ((5 : Nat) - 1) := by push_cast; apply div_nonneg <;> linarith
  rw [abs_of_neg (by linarith)]; ring

/-- **C105** the external current: the poloidal current function extrapolated to the boundary, in amperes; exact if the
    function is linear in the outermost cell -/
theorem C105_external_current (ns : Nat) (hns : 3 ≤ ns) (bvco : Nat → ℝ) (a b : ℝ)
    (h : ∀ j, j = ns - 2 ∨ j = ns - 1 → bvco j = a + b * ((j - 1 / 2) / (ns - 1))) :
    externalCurrent ns bvco * (4 * Real.pi * (1 / 10 ^ 7)) = 2 * Real.pi * (a + b) := by
  have h2 : (3 : ℝ) ≤ (ns : ℝ) := by exact_mod_cast hns
  have h3 : (ns : ℝ) - 1 ≠ 0 := by linarith
  unfold externalCurrent
  simp only
  rw [h (ns - 1) (Or.inr rfl), h (ns - 2) (Or.inl rfl), Nat.cast_sub (by omega), Nat.cast_sub (by omega)]
  push_cast
  have hp : Real.pi ≠ 0 := Real.pi_ne_zero
  norm_num
  field_simp
  ring

end Verif.PySimsopt
