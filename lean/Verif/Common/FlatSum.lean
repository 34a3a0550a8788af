import Verif.Common.Loop
import Mathlib.Algebra.BigOperators.Ring.Finset
import Mathlib.Algebra.BigOperators.Group.Finset.Sigma
import Mathlib.Tactic.Ring
import Mathlib.Tactic.Linarith

namespace Verif
open Finset

theorem flat_div {a b kl : Int} (hb : 0 < b) (h0 : 0 ≤ kl) (h1 : kl < a * b) :
    0 ≤ kl / b ∧ kl / b < a ∧ 0 ≤ kl % b ∧ kl % b < b ∧ (kl / b) * b + kl % b = kl := by
  refine ⟨Int.ediv_nonneg h0 hb.le, ?_, Int.emod_nonneg _ hb.ne', Int.emod_lt_of_pos _ hb, ?_⟩
  · exact Int.ediv_lt_of_lt_mul hb h1
  · have := Int.mul_ediv_add_emod kl b; linarith

/-- summing over the flat index `kl = k*b + l` is summing over `k` and `l` -/
theorem flat_sum {a b : Int} (hb : 0 < b) {M : Type*} [AddCommMonoid M] (F : Int → Int → M) :
    ∑ kl ∈ Finset.Ico 0 (a * b), F (kl / b) (kl % b) =
      ∑ k ∈ Finset.Ico 0 a, ∑ l ∈ Finset.Ico 0 b, F k l := by
  rw [← Finset.sum_product']
  refine Finset.sum_nbij' (fun kl => (kl / b, kl % b)) (fun p => p.1 * b + p.2) ?_ ?_ ?_ ?_ ?_
  · intro kl h
    rw [Finset.mem_Ico] at h
    obtain ⟨h1, h2, h3, h4, _⟩ := flat_div hb h.1 h.2
    simp [Finset.mem_product, Finset.mem_Ico]
    exact ⟨⟨h1, h2⟩, h3, h4⟩
  · rintro ⟨k, l⟩ h
    simp only [Finset.mem_product, Finset.mem_Ico] at h
    obtain ⟨⟨h1, h2⟩, h3, h4⟩ := h
    simp only [Finset.mem_Ico]
    have : (k + 1) * b ≤ a * b := Int.mul_le_mul_of_nonneg_right (by omega) hb.le
    have e : (k + 1) * b = k * b + b := by ring
    have := Int.mul_nonneg h1 hb.le
    omega
  · intro kl h
    rw [Finset.mem_Ico] at h
    exact (flat_div hb h.1 h.2).2.2.2.2
  · rintro ⟨k, l⟩ h
    simp only [Finset.mem_product, Finset.mem_Ico] at h
    obtain ⟨⟨h1, h2⟩, h3, h4⟩ := h
    have e1 : (k * b + l) / b = k := by
      rw [add_comm, Int.add_mul_ediv_right _ _ hb.ne', Int.ediv_eq_zero_of_lt h3 h4, zero_add]
    have e2 : (k * b + l) % b = l := by
      rw [add_comm, Int.add_mul_emod_self_right, Int.emod_eq_of_lt h3 h4]
    simp [e1, e2]
  · intro kl _; rfl

/-- reversing a sum over `[a, b)` -/
theorem sum_Ico_reflect (a b : Int) {M : Type*} [AddCommMonoid M] (f : Int → M) :
    ∑ j ∈ Finset.Ico a b, f j = ∑ j ∈ Finset.Ico a b, f (a + b - 1 - j) := by
  refine Finset.sum_nbij' (fun j => a + b - 1 - j) (fun j => a + b - 1 - j) ?_ ?_ ?_ ?_ ?_
  · intro j h; rw [Finset.mem_Ico] at *; omega
  · intro j h; rw [Finset.mem_Ico] at *; omega
  · intro j _; ring
  · intro j _; ring
  · intro j _; congr 1; ring

theorem sum_Ico_split {a b c : Int} (h1 : a ≤ b) (h2 : b ≤ c) {M : Type*} [AddCommMonoid M]
    (f : Int → M) : ∑ j ∈ Finset.Ico a c, f j = ∑ j ∈ Finset.Ico a b, f j + ∑ j ∈ Finset.Ico b c, f j := by
  rw [← Finset.sum_union]
  · congr 1; ext j; simp only [Finset.mem_Ico, Finset.mem_union]; omega
  · rw [Finset.disjoint_left]; intro j; simp only [Finset.mem_Ico]; omega

theorem sum_Ico_shift (a b d : Int) {M : Type*} [AddCommMonoid M] (f : Int → M) :
    ∑ j ∈ Finset.Ico (a + d) (b + d), f j = ∑ j ∈ Finset.Ico a b, f (j + d) := by
  refine Finset.sum_nbij' (fun j => j - d) (fun j => j + d) ?_ ?_ ?_ ?_ ?_
  · intro j h; rw [Finset.mem_Ico] at *; omega
  · intro j h; rw [Finset.mem_Ico] at *; omega
  · intro j _; ring
  · intro j _; ring
  · intro j _; congr 1; ring

end Verif
