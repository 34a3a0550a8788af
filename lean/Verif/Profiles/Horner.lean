import Verif.Profiles.Model
import Mathlib.Analysis.Calculus.Deriv.Pow
import Mathlib.Analysis.Calculus.Deriv.Mul
import Mathlib.MeasureTheory.Integral.IntervalIntegral.FundThmCalculus
import Mathlib.Analysis.SpecialFunctions.Integrals.Basic

/-! Helper lemmas for the polynomial profiles. -/
namespace Verif.Profiles
open Verif

/-- Horner's method -/
theorem horner (lo hi : Int) (h : lo ≤ hi) (a : Int → ℝ) (x : ℝ) :
    forRangeRev lo hi (fun i t => x * t + a i) 0 =
      ∑ k ∈ Finset.range (hi - lo).toNat, a (lo + k) * x ^ k := by
  refine forRangeRev_inv (lo := lo) (hi := hi) h _ _
    (fun i (r : ℝ) => r = ∑ k ∈ Finset.range (hi - i).toNat, a (i + k) * x ^ k) ?_ ?_
  · simp
  · intro i r hi1 hi2 hr
    have e : (hi - i).toNat = (hi - (i + 1)).toNat + 1 := by omega
    rw [e, Finset.sum_range_succ', hr, Finset.mul_sum]
    simp only [pow_zero, mul_one, Int.natCast_zero, add_zero, Nat.cast_zero]
    congr 1
    refine Finset.sum_congr rfl fun k _ => ?_
    have : i + ((k + 1 : ℕ) : Int) = i + 1 + k := by push_cast; ring
    rw [this]; ring

theorem forRangeRev_neg {S : Type*} (lo hi : Int) (h : hi ≤ lo) (f : Int → S → S) (s : S) :
    forRangeRev lo hi f s = s := by
  unfold forRangeRev
  rw [irange_empty h]; rfl

theorem horner0 (n : Int) (a : Int → ℝ) (x : ℝ) :
    forRangeRev 0 n (fun i t => x * t + a i) 0 = ∑ k ∈ Finset.range n.toNat, a k * x ^ k := by
  by_cases h : 0 ≤ n
  · rw [horner 0 n h]; simp
  · rw [forRangeRev_neg _ _ (by omega)]
    have : n.toNat = 0 := by omega
    simp [this]

theorem hornerI (n : Int) (a : Int → ℝ) (x : ℝ) :
    forRangeRev 0 n (fun i t => (t + a i) * x) 0 = ∑ k ∈ Finset.range n.toNat, a k * x ^ (k + 1) := by
  by_cases h : 0 ≤ n
  · have := forRangeRev_inv (lo := 0) (hi := n) h (fun i t => (t + a i) * x) 0
      (fun i (r : ℝ) => r = ∑ k ∈ Finset.range (n - i).toNat, a (i + k) * x ^ (k + 1)) (by simp) (by
        intro i r hi1 hi2 hr
        have e : (n - i).toNat = (n - (i + 1)).toNat + 1 := by omega
        rw [e, Finset.sum_range_succ', hr, add_mul, Finset.sum_mul]
        simp only [zero_add, pow_one, Nat.cast_zero, add_zero]
        congr 1
        refine Finset.sum_congr rfl fun k _ => ?_
        have : i + ((k + 1 : ℕ) : Int) = i + 1 + k := by push_cast; ring
        rw [this]; ring)
    rw [this]; simp
  · rw [forRangeRev_neg _ _ (by omega)]
    have : n.toNat = 0 := by omega
    simp [this]

end Verif.Profiles
