import Verif.Multigrid.Spec
import Mathlib.Tactic.FieldSimp
import Mathlib.Tactic.LinearCombination

namespace Verif.Multigrid
open Verif

/-! ## the interval -/

theorem js1_bounds {no nn j : Int} (hno : 3 ≤ no) (hnn : 3 ≤ nn) (h0 : 0 ≤ j) (h1 : j < nn) :
    (0 ≤ js1 no nn j ∧ js1 no nn j < no) ∧ js1 no nn j * (nn - 1) ≤ j * (no - 1) ∧
      j * (no - 1) < (js1 no nn j + 1) * (nn - 1) := by
  have hp : 0 ≤ j * (no - 1) := mul_nonneg h0 (by omega)
  unfold js1
  rw [Int.tdiv_eq_ediv_of_nonneg hp]
  have hd : 0 < nn - 1 := by omega
  have e1 := Int.ediv_mul_le (j * (no - 1)) (show nn - 1 ≠ 0 by omega)
  have e2 := Int.lt_ediv_add_one_mul_self (j * (no - 1)) hd
  refine ⟨⟨Int.ediv_nonneg hp hd.le, ?_⟩, e1, e2⟩
  by_contra hge
  have h2 : no * (nn - 1) ≤ j * (no - 1) / (nn - 1) * (nn - 1) :=
    mul_le_mul_of_nonneg_right (by omega) hd.le
  have h3 : j * (no - 1) ≤ (nn - 1) * (no - 1) := mul_le_mul_of_nonneg_right (by omega) (by omega)
  nlinarith

theorem stencil_within (scheme : Scheme) {no nn j : Int} (hno : 3 ≤ no) (hnn : 3 ≤ nn) (h0 : 0 ≤ j)
    (h1 : j < nn) : (stencil scheme no nn j).Within no := by
  obtain ⟨⟨b0, b1⟩, _, _⟩ := js1_bounds hno hnn h0 h1
  unfold stencil
  dsimp only
  by_cases hc : scheme = .linear ∨ no < 4
  · rw [if_pos hc]
    refine ⟨by norm_num, ?_⟩
    intro k k0 k1
    dsimp only
    split <;> omega
  · rw [if_neg hc]
    refine ⟨by norm_num, ?_⟩
    intro k k0 k1
    dsimp only at *
    unfold base
    omega

/-- radial position of surface `j` on a grid of `ns` surfaces -/
noncomputable def pos (ns j : Int) : ℝ := (j : ℝ) / ((ns : ℝ) - 1)

theorem ns_pos {ns : Int} (h : 3 ≤ ns) : (0 : ℝ) < (ns : ℝ) - 1 := by
  have : (3 : ℝ) ≤ ns := by exact_mod_cast h
  linarith

theorem pos_nonneg {ns j : Int} (h : 3 ≤ ns) (hj : 0 ≤ j) : 0 ≤ pos ns j :=
  div_nonneg (by exact_mod_cast hj) (ns_pos h).le

theorem pos_lt {ns i j : Int} (h : 3 ≤ ns) (hij : i < j) : pos ns i < pos ns j := by
  unfold pos
  exact div_lt_div_of_pos_right (by exact_mod_cast hij) (ns_pos h)

/-- the old grid interval contains the new position -/
theorem bracket {no nn j : Int} (hno : 3 ≤ no) (hnn : 3 ≤ nn) (h0 : 0 ≤ j) (h1 : j < nn) :
    pos no (js1 no nn j) ≤ pos nn j ∧ pos nn j < pos no (js1 no nn j + 1) := by
  obtain ⟨_, e1, e2⟩ := js1_bounds hno hnn h0 h1
  have p1 := ns_pos hno
  have p2 := ns_pos hnn
  unfold pos
  constructor
  · rw [div_le_div_iff₀ p1 p2]
    have : (((js1 no nn j) * (nn - 1) : Int) : ℝ) ≤ ((j * (no - 1) : Int) : ℝ) := by exact_mod_cast e1
    push_cast at this; exact this
  · rw [div_lt_div_iff₀ p2 p1]
    have : ((j * (no - 1) : Int) : ℝ) < (((js1 no nn j + 1) * (nn - 1) : Int) : ℝ) := by exact_mod_cast e2
    push_cast at this ⊢; exact this

/-! ## linear scheme -/

/-- fraction of the interval -/
noncomputable def frac (no nn j : Int) : ℝ := (pos nn j - pos no (js1 no nn j)) * ((no : ℝ) - 1)

theorem frac_bounds {no nn j : Int} (hno : 3 ≤ no) (hnn : 3 ≤ nn) (h0 : 0 ≤ j) (h1 : j < nn) :
    0 ≤ frac no nn j ∧ frac no nn j < 1 := by
  obtain ⟨e1, e2⟩ := bracket hno hnn h0 h1
  have p1 := ns_pos hno
  unfold frac
  constructor
  · exact mul_nonneg (by linarith) p1.le
  · have e : pos no (js1 no nn j + 1) = pos no (js1 no nn j) + 1 / ((no : ℝ) - 1) := by
      unfold pos; push_cast; rw [add_div]
    rw [e] at e2
    have : (pos nn j - pos no (js1 no nn j)) * ((no : ℝ) - 1) < 1 / ((no : ℝ) - 1) * ((no : ℝ) - 1) :=
      mul_lt_mul_of_pos_right (by linarith) p1
    rwa [one_div_mul_cancel p1.ne'] at this

theorem sum_two (f : Int → ℝ) : ∑ k ∈ Finset.Ico 0 2, f k = f 0 + f 1 := by
  rw [show (2 : Int) = 0 + 1 + 1 by norm_num, sum_Ico_int_succ (by norm_num), sum_Ico_int_succ (by norm_num)]
  simp

theorem sum_four (f : Int → ℝ) : ∑ k ∈ Finset.Ico 0 4, f k = f 0 + f 1 + f 2 + f 3 := by
  rw [show (4 : Int) = 0 + 1 + 1 + 1 + 1 by norm_num, sum_Ico_int_succ (by norm_num),
    sum_Ico_int_succ (by norm_num), sum_Ico_int_succ (by norm_num), sum_Ico_int_succ (by norm_num)]
  simp

theorem linear_sum {scheme : Scheme} {no nn j : Int} (hs : scheme = .linear ∨ no < 4) (hno : 3 ≤ no)
    (hnn : 3 ≤ nn) (h0 : 0 ≤ j) (h1 : j < nn) (g : Int → ℝ) :
    (∑ k ∈ Finset.Ico 0 (stencil scheme no nn j).size,
      (stencil scheme no nn j).weight k * g ((stencil scheme no nn j).at_ k))
      = (1 - frac no nn j) * g (js1 no nn j) + frac no nn j * g (min (js1 no nn j + 1) (no - 1)) := by
  obtain ⟨b1, b2⟩ := frac_bounds hno hnn h0 h1
  have e : ((j : ℝ) / ((nn : ℝ) - 1) - (js1 no nn j : ℝ) * (1 / ((no : ℝ) - 1))) / (1 / ((no : ℝ) - 1))
      = frac no nn j := by
    unfold frac pos
    rw [div_div_eq_mul_div, div_one, mul_one_div]
  unfold stencil
  dsimp only
  rw [if_pos hs]
  dsimp only
  rw [sum_two, e, max_eq_right b1, min_eq_right b2.le]
  simp

/-! ## cubic schemes -/

theorem lagrange_eq (node : Int → ℝ) (t : ℝ) :
    lagrangeWeight node t 0 = (t - node 1) / (node 0 - node 1) * ((t - node 2) / (node 0 - node 2)) *
      ((t - node 3) / (node 0 - node 3)) ∧
    lagrangeWeight node t 1 = (t - node 0) / (node 1 - node 0) * ((t - node 2) / (node 1 - node 2)) *
      ((t - node 3) / (node 1 - node 3)) ∧
    lagrangeWeight node t 2 = (t - node 0) / (node 2 - node 0) * ((t - node 1) / (node 2 - node 1)) *
      ((t - node 3) / (node 2 - node 3)) ∧
    lagrangeWeight node t 3 = (t - node 0) / (node 3 - node 0) * ((t - node 1) / (node 3 - node 1)) *
      ((t - node 2) / (node 3 - node 2)) := by
  have e : irange 0 4 = [0, 1, 2, 3] := by decide
  unfold lagrangeWeight forRange
  rw [e]
  refine ⟨?_, ?_, ?_, ?_⟩ <;> simp

/-- the weights reproduce polynomials up to degree three -/
theorem lagrange_cubic (node : Int → ℝ) (t c0 c1 c2 c3 : ℝ) (h01 : node 0 ≠ node 1) (h02 : node 0 ≠ node 2)
    (h03 : node 0 ≠ node 3) (h12 : node 1 ≠ node 2) (h13 : node 1 ≠ node 3) (h23 : node 2 ≠ node 3) :
    (∑ k ∈ Finset.Ico 0 4, lagrangeWeight node t k *
      (c0 + c1 * node k + c2 * node k ^ 2 + c3 * node k ^ 3))
      = c0 + c1 * t + c2 * t ^ 2 + c3 * t ^ 3 := by
  obtain ⟨l0, l1, l2, l3⟩ := lagrange_eq node t
  rw [sum_four, l0, l1, l2, l3]
  generalize node 0 = a at *
  generalize node 1 = b at *
  generalize node 2 = c at *
  generalize node 3 = d at *
  have k01 : a - b ≠ 0 := sub_ne_zero.2 h01
  have k02 : a - c ≠ 0 := sub_ne_zero.2 h02
  have k03 : a - d ≠ 0 := sub_ne_zero.2 h03
  have k12 : b - c ≠ 0 := sub_ne_zero.2 h12
  have k13 : b - d ≠ 0 := sub_ne_zero.2 h13
  have k23 : c - d ≠ 0 := sub_ne_zero.2 h23
  rw [show b - a = -(a - b) by ring, show c - a = -(a - c) by ring, show c - b = -(b - c) by ring,
    show d - a = -(a - d) by ring, show d - b = -(b - d) by ring, show d - c = -(c - d) by ring]
  field_simp
  ring

/-- the weights pick the value at a node -/
theorem lagrange_node (node : Int → ℝ) (g : Int → ℝ) (i : Int) (hi : 0 ≤ i ∧ i < 4)
    (h01 : node 0 ≠ node 1) (h02 : node 0 ≠ node 2)
    (h03 : node 0 ≠ node 3) (h12 : node 1 ≠ node 2) (h13 : node 1 ≠ node 3) (h23 : node 2 ≠ node 3) :
    (∑ k ∈ Finset.Ico 0 4, lagrangeWeight node (node i) k * g k) = g i := by
  obtain ⟨l0, l1, l2, l3⟩ := lagrange_eq node (node i)
  rw [sum_four, l0, l1, l2, l3]
  have k01 := sub_ne_zero.2 h01
  have k02 := sub_ne_zero.2 h02
  have k03 := sub_ne_zero.2 h03
  have k12 := sub_ne_zero.2 h12
  have k13 := sub_ne_zero.2 h13
  have k23 := sub_ne_zero.2 h23
  have m01 := sub_ne_zero.2 h01.symm
  have m02 := sub_ne_zero.2 h02.symm
  have m03 := sub_ne_zero.2 h03.symm
  have m12 := sub_ne_zero.2 h12.symm
  have m13 := sub_ne_zero.2 h13.symm
  have m23 := sub_ne_zero.2 h23.symm
  have : i = 0 ∨ i = 1 ∨ i = 2 ∨ i = 3 := by omega
  rcases this with rfl | rfl | rfl | rfl
  · simp [div_self k01, div_self k02, div_self k03]
  · simp [div_self m01, div_self k12, div_self k13]
  · simp [div_self m02, div_self m12, div_self k23]
  · simp [div_self m03, div_self m13, div_self m23]

/-- interpolation variable of a scheme -/
noncomputable def var (scheme : Scheme) (s : ℝ) : ℝ := if scheme = .cubicRho then Real.sqrt s else s

theorem var_lt (scheme : Scheme) {a b : ℝ} (ha : 0 ≤ a) (h : a < b) : var scheme a < var scheme b := by
  unfold var; split
  · exact Real.sqrt_lt_sqrt ha h
  · exact h

theorem cubic_sum {scheme : Scheme} {no nn j : Int} (hs : ¬ (scheme = .linear ∨ no < 4)) (g : Int → ℝ) :
    (∑ k ∈ Finset.Ico 0 (stencil scheme no nn j).size,
      (stencil scheme no nn j).weight k * g ((stencil scheme no nn j).at_ k))
      = ∑ k ∈ Finset.Ico 0 4, lagrangeWeight (fun k => var scheme (pos no (base no (js1 no nn j) + k)))
          (var scheme (pos nn j)) k * g (base no (js1 no nn j) + k) := by
  have e : (fun k : Int => if scheme = .cubicRho
      then Real.sqrt (((base no (js1 no nn j) + k : Int) : ℝ) * (1 / ((no : ℝ) - 1)))
      else ((base no (js1 no nn j) + k : Int) : ℝ) * (1 / ((no : ℝ) - 1)))
      = fun k => var scheme (pos no (base no (js1 no nn j) + k)) := by
    funext k
    unfold var pos
    rw [mul_one_div]
  have e2 : (if scheme = .cubicRho then Real.sqrt ((j : ℝ) / ((nn : ℝ) - 1)) else (j : ℝ) / ((nn : ℝ) - 1))
      = var scheme (pos nn j) := rfl
  unfold stencil
  dsimp only
  rw [if_neg hs]
  dsimp only
  rw [e, e2]

theorem node_ne (scheme : Scheme) {no b i k : Int} (hno : 3 ≤ no) (hb : 0 ≤ b) (hi : 0 ≤ i) (hik : i < k) :
    var scheme (pos no (b + i)) ≠ var scheme (pos no (b + k)) :=
  (var_lt scheme (pos_nonneg hno (by omega)) (pos_lt hno (by omega))).ne

theorem base_bounds {no j1 : Int} (h4 : 4 ≤ no) (h0 : 0 ≤ j1) (h1 : j1 < no) :
    0 ≤ base no j1 ∧ base no j1 + 4 ≤ no ∧ base no j1 ≤ j1 ∧ j1 < base no j1 + 4 ∧
      (j1 < no - 1 → j1 + 1 < base no j1 + 4) := by
  unfold base; omega

end Verif.Multigrid
