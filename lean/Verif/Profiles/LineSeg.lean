import Verif.Profiles.Model
import Mathlib.MeasureTheory.Integral.IntervalIntegral.FundThmCalculus
import Mathlib.Analysis.SpecialFunctions.Integrals.Basic

/-!
# C31: line segments

The code does not implement the piecewise-linear interpolant between the knots (F12, F13). What holds is
proved here (`_partial`), what does not hold is shown by counterexamples.
-/
namespace Verif.Profiles
open Verif

/-- strictly increasing knots -/
def Increasing (k : RVec) : Prop := ∀ i j, 0 ≤ i → i < j → j < k.n → k.v i < k.v j

/-- specification: `f` is the piecewise-linear interpolant of the data -/
def IsPiecewiseLinear (k y : RVec) (f : ℝ → ℝ) : Prop :=
  ∀ i, 0 ≤ i → i + 1 < k.n → ∀ x, k.v i ≤ x → x ≤ k.v (i + 1) →
    f x = y.v i + (x - k.v i) / (k.v (i + 1) - k.v i) * (y.v (i + 1) - y.v i)

/-! ## helpers -/

theorem lowerBound_eq (k : RVec) (x : ℝ) (i : Int) (h0 : 0 ≤ i) (hn : i ≤ k.n)
    (hl : ∀ j, 0 ≤ j → j < i → k.v j < x) (hr : ∀ j, i ≤ j → j < k.n → x ≤ k.v j) :
    lowerBound k x = i := by
  unfold lowerBound
  have := forRange_inv (lo := 0) (hi := k.n) (by omega)
    (fun j (c : Int) => open Classical in if k.v j < x then c + 1 else c) 0
    (fun j (c : Int) => c = min j i) (by omega) (by
      intro j c hj1 hj2 hc
      by_cases hji : j < i
      · have := hl j hj1 hji
        simp only [this, if_true]; omega
      · have := hr j (by omega) hj2
        simp only [not_lt.2 this, if_false]; omega)
  rw [this]; omega

theorem Increasing.le {k : RVec} (h : Increasing k) {i j : Int} (h0 : 0 ≤ i) (hij : i ≤ j) (hj : j < k.n) :
    k.v i ≤ k.v j := by
  rcases eq_or_lt_of_le hij with rfl | h'
  · exact le_rfl
  · exact (h i j h0 h' hj).le

/-- every position in the range lies in a segment `(k_i, k_{i+1}]` or at the first knot -/
theorem segment_exists (k : RVec) (n : Nat) (x : ℝ) (h0 : k.v 0 < x) (h1 : x ≤ k.v n) :
    ∃ i : Nat, i < n ∧ k.v i < x ∧ x ≤ k.v ((i : Int) + 1) := by
  induction n with
  | zero => simp at h1; linarith
  | succ n ih =>
    by_cases h : x ≤ k.v n
    · obtain ⟨i, a, b, c⟩ := ih h
      exact ⟨i, by omega, b, c⟩
    · exact ⟨n, by omega, lt_of_not_ge h, by push_cast at h1; exact h1⟩

theorem integrateSegment_ok {x0 x1 y0 y1 : ℝ} (h : x0 < x1) :
    integrateSegment x0 x1 y0 y1 = .ok ((x1 - x0) * (y0 + y1) / 2) := by
  have hne : x1 - x0 ≠ 0 := by linarith
  unfold integrateSegment fdiv
  simp only [hne, if_false, Outcome.bind_ok, Outcome.pure_eq]
  congr 1
  field_simp
  ring

/-! ## the profile -/

/-- exact at every knot and clamped outside. Missing: between the knots (false). -/
theorem C31_knots_and_clamp_partial (k y : RVec) (hk : Increasing k) (hn : 2 ≤ k.n) (he : y.n = k.n) :
    (∀ i, 0 ≤ i → i < k.n → evalLineSegment k y (k.v i) = y.v i) ∧
    (∀ x, x ≤ k.v 0 → evalLineSegment k y x = y.v 0) ∧
    (∀ x, k.v (k.n - 1) ≤ x → evalLineSegment k y x = y.v (k.n - 1)) := by
  have hc : ¬ (k.n < 2 ∨ k.n ≠ y.n) := by omega
  refine ⟨?_, ?_, ?_⟩
  · intro i h0 h1
    have hl : lowerBound k (k.v i) = i := lowerBound_eq k _ i h0 (by omega)
      (fun j a b => hk j i a b h1) (fun j a b => hk.le h0 a b)
    unfold evalLineSegment
    simp only [hc, if_false, hl]
    by_cases h : i ≥ k.n - 1
    · have : i = k.n - 1 := by omega
      rw [if_pos h, this]
    · rw [if_neg h]
      by_cases h2 : i = 0
      · rw [if_pos h2, h2]
      · rw [if_neg h2]; simp
  · intro x hx
    have hl : lowerBound k x = 0 := lowerBound_eq k _ 0 le_rfl (by omega)
      (fun j a b => by omega) (fun j a b => hx.trans (hk.le le_rfl a b))
    unfold evalLineSegment
    simp only [hc, if_false, hl]
    rw [if_neg (by omega)]; simp
  · intro x hx
    have hl : lowerBound k x ≥ k.n - 1 := by
      rcases eq_or_lt_of_le hx with h | h
      · rw [lowerBound_eq k _ (k.n - 1) (by omega) (by omega) (fun j a b => by
          rw [← h]; exact hk j _ a b (by omega)) (fun j a b => by
          have : j = k.n - 1 := by omega
          rw [this, h])]
      · rw [lowerBound_eq k _ k.n (by omega) (by omega) (fun j a b =>
          lt_of_le_of_lt (hk.le a (by omega) (by omega)) h) (fun j a b => by omega)]
        omega
    unfold evalLineSegment
    simp only [hc, if_false]
    rw [if_pos hl]

/-- what is computed between the knots: the line of the *following* segment, extended to the left; on the
    last segment the last value -/
theorem C31_actual (k y : RVec) (hk : Increasing k) (hn : 2 ≤ k.n) (he : y.n = k.n) (i : Int) (h0 : 0 ≤ i)
    (h1 : i + 1 < k.n) (x : ℝ) (hx0 : k.v i < x) (hx1 : x ≤ k.v (i + 1)) :
    (i + 2 < k.n → evalLineSegment k y x =
      y.v (i + 1) + (x - k.v (i + 1)) / (k.v (i + 2) - k.v (i + 1)) * (y.v (i + 2) - y.v (i + 1))) ∧
    (i + 2 = k.n → evalLineSegment k y x = y.v (k.n - 1)) := by
  have hc : ¬ (k.n < 2 ∨ k.n ≠ y.n) := by omega
  have hl : lowerBound k x = i + 1 := lowerBound_eq k _ (i + 1) (by omega) (by omega)
      (fun j a b => lt_of_le_of_lt (hk.le a (by omega) (by omega)) hx0)
      (fun j a b => hx1.trans (hk.le (by omega) a b))
  unfold evalLineSegment
  simp only [hc, if_false, hl]
  constructor
  · intro h2
    rw [if_neg (by omega), if_neg (by omega)]
    have e : i + 1 + 1 = i + 2 := by ring
    rw [e]; ring
  · intro h2
    rw [if_pos (by omega)]

/-- the profile is the interpolant exactly for constant data: if it is, all values are equal -/
theorem C31_only_constant (k y : RVec) (hk : Increasing k) (hn : 2 ≤ k.n) (he : y.n = k.n)
    (h : IsPiecewiseLinear k y (evalLineSegment k y)) : ∀ i, 0 ≤ i → i < k.n → y.v i = y.v (k.n - 1) := by
  have key : ∀ m : Nat, (m : Int) < k.n → y.v (k.n - 1 - m) = y.v (k.n - 1) := by
    intro m
    induction m using Nat.strong_induction_on with
    | _ m ih =>
      intro hm
      rcases Nat.eq_zero_or_pos m with rfl | hpos
      · simp
      · have hlt := hk (k.n - 1 - m) (k.n - 1 - m + 1) (by omega) (by omega) (by omega)
        set a := k.v (k.n - 1 - m) with ha
        set b := k.v (k.n - 1 - m + 1) with hb
        have hx0 : a < (a + b) / 2 := by linarith
        have hx1 : (a + b) / 2 ≤ b := by linarith
        have h1 := h (k.n - 1 - m) (by omega) (by omega) ((a + b) / 2) hx0.le hx1
        obtain ⟨hA, hB⟩ := C31_actual k y hk hn he (k.n - 1 - m) (by omega) (by omega) ((a + b) / 2) hx0 hx1
        have e1 : y.v (k.n - 1 - m + 1) = y.v (k.n - 1) := by
          have := ih (m - 1) (by omega) (by omega)
          rw [← this]; congr 1; omega
        have hval : evalLineSegment k y ((a + b) / 2) = y.v (k.n - 1) := by
          by_cases hm1 : m = 1
          · exact hB (by omega)
          · rw [hA (by omega), e1]
            have e2 : y.v (k.n - 1 - m + 2) = y.v (k.n - 1) := by
              have := ih (m - 2) (by omega) (by omega)
              rw [← this]; congr 1; omega
            rw [e2]; ring
        rw [hval, e1, ← ha, ← hb] at h1
        have hne : b - a ≠ 0 := by linarith
        field_simp at h1
        have h3 : (b - a) * (y.v (k.n - 1) - y.v (k.n - 1 - m)) = 0 := by nlinarith
        rcases mul_eq_zero.1 h3 with h4 | h4
        · exact absurd h4 hne
        · linarith
  intro i h0 h1
  have := key (k.n - 1 - i).toNat (by omega)
  rw [← this]; congr 1; omega

/-- data of the counterexamples: knots 0, 1/2, 1 with the values 0, 1, 0 -/
noncomputable def hatK : RVec := ⟨3, fun i => i / 2⟩
noncomputable def hatY : RVec := ⟨3, fun i => if i = 1 then 1 else 0⟩

theorem hatK_increasing : Increasing hatK := by
  intro i j _ h _
  have : (i : ℝ) < j := by exact_mod_cast h
  simp only [hatK]; linarith

/-- F12: at `x = 1/4` the hat function has the value 1/2, the code gives 3/2, which is not even between the
    data values; at 3/4 it gives 0 instead of 1/2 -/
theorem C31_not_interpolant :
    evalLineSegment hatK hatY (1 / 4) = 3 / 2 ∧ evalLineSegment hatK hatY (3 / 4) = 0 ∧
    ∀ f, IsPiecewiseLinear hatK hatY f → f (1 / 4) = 1 / 2 ∧ f (3 / 4) = 1 / 2 := by
  refine ⟨?_, ?_, ?_⟩
  · have := (C31_actual hatK hatY hatK_increasing (by simp [hatK]) rfl 0 (by omega) (by simp [hatK]) (1 / 4)
      (by norm_num [hatK]) (by norm_num [hatK])).1 (by simp [hatK])
    rw [this]; norm_num [hatK, hatY]
  · have := (C31_actual hatK hatY hatK_increasing (by simp [hatK]) rfl 1 (by omega) (by simp [hatK]) (3 / 4)
      (by norm_num [hatK]) (by norm_num [hatK])).2 (by simp [hatK])
    rw [this]; norm_num [hatK, hatY]
  · intro f hf
    refine ⟨?_, ?_⟩
    · rw [hf 0 (by omega) (by simp [hatK]) (1 / 4) (by norm_num [hatK]) (by norm_num [hatK])]
      norm_num [hatK, hatY]
    · rw [hf 1 (by omega) (by simp [hatK]) (3 / 4) (by norm_num [hatK]) (by norm_num [hatK])]
      norm_num [hatK, hatY]

/-! ## the integrated profile -/

/-- the integral of the interpolant over the first `i` segments -/
theorem integral_PL (k y : RVec) (hk : Increasing k) (f : ℝ → ℝ) (hf : IsPiecewiseLinear k y f) (i : Nat)
    (hi : (i : Int) < k.n) :
    IntervalIntegrable f MeasureTheory.volume (k.v 0) (k.v i) ∧
    ∫ t in (k.v 0)..(k.v i), f t =
      ∑ j ∈ Finset.Ico (0 : Int) i, (k.v (j + 1) - k.v j) * (y.v j + y.v (j + 1)) / 2 := by
  induction i with
  | zero => simp
  | succ i ih =>
    obtain ⟨ih1, ih2⟩ := ih (by push_cast at hi ⊢; omega)
    push_cast at hi
    have hlt := hk i (i + 1) (by omega) (by omega) hi
    have hne : k.v ((i : Int) + 1) - k.v i ≠ 0 := by linarith
    set g : ℝ → ℝ := fun x => y.v i + (x - k.v i) / (k.v ((i : Int) + 1) - k.v i) * (y.v ((i : Int) + 1) - y.v i) with hg
    have heq : Set.EqOn f g (Set.uIcc (k.v i) (k.v ((i : Int) + 1))) := by
      intro x hx
      rw [Set.uIcc_of_le hlt.le] at hx
      exact hf i (by omega) hi x hx.1 hx.2
    have hgi : IntervalIntegrable g MeasureTheory.volume (k.v i) (k.v ((i : Int) + 1)) :=
      Continuous.intervalIntegrable (by fun_prop) _ _
    have hfi : IntervalIntegrable f MeasureTheory.volume (k.v i) (k.v ((i : Int) + 1)) :=
      (IntervalIntegrable.congr (fun x hx => (heq (Set.uIoc_subset_uIcc hx)).symm) hgi)
    have hInt : ∫ t in (k.v i)..(k.v ((i : Int) + 1)), f t =
        (k.v ((i : Int) + 1) - k.v i) * (y.v i + y.v ((i : Int) + 1)) / 2 := by
      rw [intervalIntegral.integral_congr heq]
      have hF : ∀ x ∈ Set.uIcc (k.v i) (k.v ((i : Int) + 1)), HasDerivAt
          (fun x => y.v i * x + (x - k.v i) ^ 2 / 2 / (k.v ((i : Int) + 1) - k.v i) * (y.v ((i : Int) + 1) - y.v i))
          (g x) x := by
        intro x _
        have h1 : HasDerivAt (fun x : ℝ => (x - k.v i) ^ 2) (2 * (x - k.v i)) x := by
          have := ((hasDerivAt_id x).sub_const (k.v i)).fun_pow 2
          simpa using this
        have h3 := ((hasDerivAt_id x).const_mul (y.v i)).add
          (((h1.div_const 2).div_const (k.v ((i : Int) + 1) - k.v i)).mul_const (y.v ((i : Int) + 1) - y.v i))
        refine h3.congr_deriv ?_
        rw [hg]; simp only [mul_one]; ring
      rw [intervalIntegral.integral_eq_sub_of_hasDerivAt hF hgi]
      field_simp
      ring
    push_cast
    refine ⟨ih1.trans hfi, ?_⟩
    rw [← intervalIntegral.integral_add_adjacent_intervals ih1 hfi, ih2, hInt,
      sum_Ico_int_succ (by omega)]

/-- the loop over the complete segments -/
theorem segLoop_spec (k y : RVec) (hk : Increasing k) (x : ℝ) (i : Int) (h0 : 0 ≤ i) (hi : i < k.n)
    (hl : ∀ j, 0 ≤ j → j < i → x > k.v (j + 1)) (hr : i < k.n - 1 → ¬ x > k.v (i + 1))
    (fuel : Nat) (idx : Int) (r : ℝ) (hidx0 : 0 ≤ idx) (hidx : idx ≤ i) (hf : i - idx < fuel) :
    segLoop k y x fuel idx r = .ok (i, r + ∑ j ∈ Finset.Ico idx i,
      (k.v (j + 1) - k.v j) * (y.v j + y.v (j + 1)) / 2) := by
  induction fuel generalizing idx r with
  | zero => omega
  | succ fuel ih =>
    unfold segLoop
    rcases eq_or_lt_of_le hidx with rfl | hlt
    · rw [if_neg (by intro h; exact hr h.1 h.2)]
      simp
    · rw [if_pos ⟨by omega, hl idx hidx0 hlt⟩, integrateSegment_ok (hk idx (idx + 1) hidx0 (by omega) (by omega))]
      simp only [Outcome.bind_ok]
      rw [ih (idx + 1) _ (by omega) (by omega) (by omega), sum_Ico_int_first hlt, add_assoc]

/-- inside the knot range: complete segments plus, for the segment containing `x`, the trapezoid with the
    values at *both ends of the segment* -/
theorem C31_integrated_actual (k y : RVec) (hk : Increasing k) (hn : 2 ≤ k.n) (he : y.n = k.n) (i : Int)
    (h0 : 0 ≤ i) (h1 : i + 1 < k.n) (x : ℝ) (hx0 : k.v i < x) (hx1 : x ≤ k.v (i + 1)) :
    evalLineSegmentIntegrated k y x = .ok
      (∑ j ∈ Finset.Ico 0 i, (k.v (j + 1) - k.v j) * (y.v j + y.v (j + 1)) / 2 +
        (x - k.v i) * (y.v i + y.v (i + 1)) / 2) := by
  have hc : ¬ (k.n < 2 ∨ k.n ≠ y.n) := by omega
  have hx : ¬ x ≤ k.v 0 := not_le.2 (lt_of_le_of_lt (hk.le le_rfl h0 (by omega)) hx0)
  have hlast : ¬ x > k.v (k.n - 1) := not_lt.2 (hx1.trans (hk.le (by omega) (by omega) (by omega)))
  unfold evalLineSegmentIntegrated
  simp only [hc, if_false, hx]
  rw [segLoop_spec k y hk x i h0 (by omega)
    (fun j a b => lt_of_le_of_lt (hk.le (by omega) (by omega) (by omega)) hx0) (fun _ => not_lt.2 hx1)
    _ 0 0 le_rfl h0 (by omega)]
  simp only [Outcome.bind_ok]
  rw [if_neg (by omega), min_eq_left hx1, integrateSegment_ok hx0]
  simp only [Outcome.bind_ok, hlast, if_false, Outcome.pure_eq, zero_add]

/-- at a knot the integrated profile is the integral of the interpolant from the first knot. Missing: between
    the knots (`C31_integrated_wrong`), beyond the last knot (`C31_integrated_ub`), and for a first knot
    that is not 0 the part from 0 to the first knot. -/
theorem C31_integrated_partial (k y : RVec) (hk : Increasing k) (hn : 2 ≤ k.n) (he : y.n = k.n) (f : ℝ → ℝ)
    (hf : IsPiecewiseLinear k y f) (i : Nat) (h0 : 0 < i) (h1 : (i : Int) < k.n) :
    evalLineSegmentIntegrated k y (k.v i) = .ok (∫ t in (k.v 0)..(k.v i), f t) := by
  have e : ((i : Int) - 1) + 1 = i := by ring
  have hlt := hk (i - 1) i (by omega) (by omega) h1
  have := C31_integrated_actual k y hk hn he (i - 1) (by omega) (by omega) (k.v i) hlt (by rw [e])
  rw [this, (integral_PL k y hk f hf i h1).2, e]
  congr 1
  have e2 : (i : Int) = (i - 1) + 1 := by ring
  conv_rhs => rw [e2]
  rw [sum_Ico_int_succ (by omega)]
  simp only [e]

/-- between the knots the error is `(x - k_i) (y_{i+1} - f(x)) / 2` -/
theorem C31_integrated_error (k y : RVec) (hk : Increasing k) (hn : 2 ≤ k.n) (he : y.n = k.n) (f : ℝ → ℝ)
    (hf : IsPiecewiseLinear k y f) (i : Nat) (h1 : (i : Int) + 1 < k.n) (x : ℝ) (hx0 : k.v i < x)
    (hx1 : x ≤ k.v (i + 1)) :
    evalLineSegmentIntegrated k y x = .ok
      ((∫ t in (k.v 0)..(k.v i), f t) + (x - k.v i) * (y.v i + f x) / 2 +
        (x - k.v i) * (y.v (i + 1) - f x) / 2) := by
  rw [C31_integrated_actual k y hk hn he i (by omega) h1 x hx0 hx1, (integral_PL k y hk f hf i (by omega)).2]
  congr 1; ring

/-- F13: knots 0, 1 and values 0, 1: the integral up to 1/2 is 1/8, the code gives 1/4 -/
theorem C31_integrated_wrong :
    evalLineSegmentIntegrated ⟨2, fun i => i⟩ ⟨2, fun i => i⟩ (1 / 2) = .ok (1 / 4) ∧
    IsPiecewiseLinear ⟨2, fun i => i⟩ ⟨2, fun i => i⟩ (fun x => x) ∧
    ∫ t in (0 : ℝ)..(1 / 2), t = 1 / 8 := by
  have hk : Increasing ⟨2, fun i => (i : ℝ)⟩ := fun i j _ h _ => by
    dsimp only; exact_mod_cast h
  refine ⟨?_, ?_, ?_⟩
  · rw [C31_integrated_actual _ _ hk (by simp) rfl 0 (by omega) (by simp) (1 / 2) (by norm_num) (by norm_num)]
    norm_num
  · intro i h0 h1 x _ _
    have : i = 0 := by simp at h1; omega
    subst this
    norm_num
  · rw [integral_id]; norm_num

/-- F13: beyond the last knot the code reads past the end of the knot array -/
theorem C31_integrated_ub (k y : RVec) (hk : Increasing k) (hn : 2 ≤ k.n) (he : y.n = k.n) (x : ℝ)
    (hx : k.v (k.n - 1) < x) : evalLineSegmentIntegrated k y x = .ub "splineKnots[n]" := by
  have hc : ¬ (k.n < 2 ∨ k.n ≠ y.n) := by omega
  have hx0 : ¬ x ≤ k.v 0 := not_le.2 (lt_of_le_of_lt (hk.le le_rfl (by omega) (by omega)) hx)
  unfold evalLineSegmentIntegrated
  simp only [hc, if_false, hx0]
  rw [segLoop_spec k y hk x (k.n - 1) (by omega) (by omega)
    (fun j a b => lt_of_le_of_lt (hk.le (by omega) (by omega) (by omega)) hx) (fun h => by omega)
    _ 0 0 le_rfl (by omega) (by omega)]
  simp only [Outcome.bind_ok]
  rw [if_pos (by omega)]

/-- F13: on the axis, `0 / 0` -/
theorem C31_integrated_axis (k y : RVec) (hn : 2 ≤ k.n) (he : y.n = k.n) (h0 : 0 ≤ k.v 0) :
    evalLineSegmentIntegrated k y 0 = .throws "not a number" := by
  have hc : ¬ (k.n < 2 ∨ k.n ≠ y.n) := by omega
  unfold evalLineSegmentIntegrated
  simp only [hc, if_false, h0, if_true]
  unfold integrateSegment fdiv
  simp

example : Increasing hatK ∧ 2 ≤ hatK.n ∧ hatY.n = hatK.n ∧ hatK.v (hatK.n - 1) < 2 ∧ 0 ≤ hatK.v 0 :=
  ⟨hatK_increasing, by simp [hatK], rfl, by norm_num [hatK], by norm_num [hatK]⟩

end Verif.Profiles
