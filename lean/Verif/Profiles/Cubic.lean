import Verif.Profiles.CubicLemmas

/-!
# C32, C54: cubic-spline profiles
-/
namespace Verif.Profiles
open Verif

/-- data accepted by the cubic spline: at least four strictly increasing knots, as many values -/
structure SplineData (k y : RVec) : Prop where
  incr : Increasing k
  four : 4 ≤ k.n
  same : y.n = k.n

theorem SplineData.diff {k y : RVec} (h : SplineData k y) {i : Int} (h0 : 0 ≤ i) (h1 : i + 1 < k.n) :
    k.v (i + 1) - k.v i ≠ 0 := by
  have := h.incr i (i + 1) h0 (by omega) h1
  linarith

theorem evalCubic_pieces (k y : RVec) (h : SplineData k y) :
    IsPieces k (evalCubic k y) (cPiece k.v y.v (buildCubic k.n k.v y.v)) := by
  intro i h0 h1 x ha hb
  have hc : ¬ (k.n < 4 ∨ k.n ≠ y.n) := by have := h.four; have := h.same; omega
  have hr : ¬ (x < k.v 0 ∨ x > k.v (k.n - 1)) := by
    rw [not_or]
    exact ⟨not_lt.2 ((h.incr.le le_rfl h0 (by omega)).trans ha),
      not_lt.2 (hb.trans (h.incr.le (by omega) (by omega) (by omega)))⟩
  have hform : evalCubic k y x =
      cPiece k.v y.v (buildCubic k.n k.v y.v) (cubicLowerIndex k.n k.v x) x := by
    unfold evalCubic
    simp only [hc, hr, if_false]
    rfl
  rw [hform]
  rcases cubicLowerIndex_eq k h.incr (by have := h.four; omega) x i h0 h1 ha hb with e | ⟨rfl, e, h2⟩
  · rw [e]
  · rw [e, cPiece_right _ _ _ _ (h.diff h0 h1), cPiece_left _ _ _ _ (h.diff (by omega) (by omega))]

/-- the integral over the complete intervals before `i` -/
noncomputable def cPrefix (k y z : Int → ℝ) (i : Int) : ℝ :=
  ∑ j ∈ Finset.Ico 0 i, ((1 / 2) * (k (j + 1) - k j) * (y (j + 1) + y j) -
    ((k (j + 1) - k j) * (k (j + 1) - k j) * (k (j + 1) - k j)) * (z (j + 1) + z j) / 24)

theorem evalCubicIntegrated_pieces (k y : RVec) (h : SplineData k y) :
    IsPieces k (evalCubicIntegrated k y) (fun i x =>
      cInt k.v y.v (buildCubic k.n k.v y.v) i x + cPrefix k.v y.v (buildCubic k.n k.v y.v) i) := by
  intro i h0 h1 x ha hb
  have hc : ¬ (k.n < 4 ∨ k.n ≠ y.n) := by have := h.four; have := h.same; omega
  have hr : ¬ (x < k.v 0 ∨ x > k.v (k.n - 1)) := by
    rw [not_or]
    exact ⟨not_lt.2 ((h.incr.le le_rfl h0 (by omega)).trans ha),
      not_lt.2 (hb.trans (h.incr.le (by omega) (by omega) (by omega)))⟩
  have hform : evalCubicIntegrated k y x =
      cInt k.v y.v (buildCubic k.n k.v y.v) (cubicLowerIndex k.n k.v x) x +
        cPrefix k.v y.v (buildCubic k.n k.v y.v) (cubicLowerIndex k.n k.v x) := by
    unfold evalCubicIntegrated cPrefix
    simp only [hc, hr, if_false]
    rw [forRange_add, zero_add]
    rfl
  rw [hform]
  rcases cubicLowerIndex_eq k h.incr (by have := h.four; omega) x i h0 h1 ha hb with e | ⟨rfl, e, h2⟩
  · rw [e]
  · beta_reduce
    rw [e, cInt_left, cInt_right _ _ _ _ (h.diff h0 h1)]
    unfold cPrefix
    rw [sum_Ico_int_succ h0]
    ring

/-- the spline passes through every knot -/
theorem C32_interpolates (k y : RVec) (h : SplineData k y) (i : Int) (h0 : 0 ≤ i) (h1 : i < k.n) :
    evalCubic k y (k.v i) = y.v i := by
  by_cases hl : i + 1 < k.n
  · rw [evalCubic_pieces k y h i h0 hl (k.v i) le_rfl (h.incr.le h0 (by omega) hl),
      cPiece_left _ _ _ _ (h.diff h0 hl)]
  · have h4 := h.four
    have e : i = (i - 1) + 1 := by ring
    rw [e, evalCubic_pieces k y h (i - 1) (by omega) (by omega) _
      (h.incr.le (by omega) (by omega) (by omega)) le_rfl,
      cPiece_right _ _ _ _ (h.diff (by omega) (by omega))]

/-- inside the knot range the integrated profile has the profile as its derivative, also at the knots -/
theorem C32_integrated_hasDerivAt (k y : RVec) (h : SplineData k y) (x : ℝ) (h0 : k.v 0 < x)
    (h1 : x < k.v (k.n - 1)) : HasDerivAt (evalCubicIntegrated k y) (evalCubic k y x) x := by
  refine glue k h.incr (by have := h.four; omega) _ _ _ _ (evalCubicIntegrated_pieces k y h)
    (evalCubic_pieces k y h) ?_ x h0 h1
  intro i a b t
  exact (cInt_hasDerivAt _ _ _ _ (h.diff a b) t).add_const _

/-- the integrated profile is the integral of the profile from the first knot, on the whole knot range -/
theorem C32_integrated_partial (k y : RVec) (h : SplineData k y) (x : ℝ) (h0 : k.v 0 ≤ x)
    (h1 : x ≤ k.v (k.n - 1)) : evalCubicIntegrated k y x = ∫ t in (k.v 0)..x, evalCubic k y t := by
  have h4 := h.four
  refine pieces_integral k h.incr (by omega) _ _ _ _ (evalCubicIntegrated_pieces k y h)
    (evalCubic_pieces k y h) ?_ ?_ ?_ ?_ x h0 h1
  · intro i a b
    exact (continuous_iff_continuousAt.2 fun t => (cInt_hasDerivAt _ _ _ _ (h.diff a b) t).continuousAt).add
      continuous_const
  · intro i a b
    exact continuous_iff_continuousAt.2 fun t => (cPiece_hasDerivAt _ _ _ _ (h.diff a b) t).continuousAt
  · intro i a b t
    exact (cInt_hasDerivAt _ _ _ _ (h.diff a b) t).add_const _
  · rw [evalCubicIntegrated_pieces k y h 0 le_rfl (by omega) _ le_rfl (h.incr.le le_rfl (by omega) (by omega))]
    beta_reduce
    rw [cInt_left]
    simp [cPrefix]

/-- F27: beyond the last knot the integrated profile (an enclosed current) falls to 0 -/
theorem C32_integrated_drops (k y : RVec) (h : SplineData k y) :
    (∀ x, k.v (k.n - 1) < x → evalCubicIntegrated k y x = 0) ∧
    ((∫ t in (k.v 0)..(k.v (k.n - 1)), evalCubic k y t) ≠ 0 →
      ¬ ContinuousAt (evalCubicIntegrated k y) (k.v (k.n - 1))) := by
  have hz : ∀ x, k.v (k.n - 1) < x → evalCubicIntegrated k y x = 0 := by
    intro x hx
    have hc : ¬ (k.n < 4 ∨ k.n ≠ y.n) := by have := h.four; have := h.same; omega
    have hr : (x < k.v 0 ∨ x > k.v (k.n - 1)) := Or.inr hx
    unfold evalCubicIntegrated
    simp only [hc, hr, if_true, if_false]
  refine ⟨hz, fun hne hcont => hne ?_⟩
  have h4 := h.four
  rw [← C32_integrated_partial k y h _ (h.incr.le le_rfl (by omega) (by omega)) le_rfl]
  have h1 : Filter.Tendsto (evalCubicIntegrated k y) (nhdsWithin (k.v (k.n - 1)) (Set.Ioi (k.v (k.n - 1))))
      (nhds (evalCubicIntegrated k y (k.v (k.n - 1)))) := hcont.tendsto.mono_left nhdsWithin_le_nhds
  have h2 : Filter.Tendsto (evalCubicIntegrated k y) (nhdsWithin (k.v (k.n - 1)) (Set.Ioi (k.v (k.n - 1))))
      (nhds 0) := by
    refine Filter.Tendsto.congr' ?_ tendsto_const_nhds
    filter_upwards [self_mem_nhdsWithin] with x hx
    exact (hz x hx).symm
  exact tendsto_nhds_unique h1 h2

/-! ## smoothness -/

open Classical in
/-- the derivative of the spline: piece derivative in the interval that contains the position -/
noncomputable def cubicDeriv (k y : RVec) (x : ℝ) : ℝ :=
  cPiece' k.v y.v (buildCubic k.n k.v y.v) (cubicLowerIndex k.n k.v x) x

noncomputable def cubicDeriv2 (k y : RVec) (x : ℝ) : ℝ :=
  cPiece'' k.v (buildCubic k.n k.v y.v) (cubicLowerIndex k.n k.v x) x

theorem cPiece'_match (k y : RVec) (h : SplineData k y) (i : Int) (h0 : 0 ≤ i) (h1 : i + 2 < k.n) :
    cPiece' k.v y.v (buildCubic k.n k.v y.v) i (k.v (i + 1)) =
      cPiece' k.v y.v (buildCubic k.n k.v y.v) (i + 1) (k.v (i + 1)) := by
  obtain ⟨_, hs, _⟩ := buildCubic_system k y h.incr h.four
  have := hs (i + 1) (by omega) (by omega)
  unfold sigma splineRhs at this
  have e1 : i + 1 + 1 = i + 2 := by ring
  have e2 : i + 1 - 1 = i := by ring
  rw [e1, e2] at this
  have d1 := h.diff h0 (by omega)
  have d2 := h.diff (i := i + 1) (by omega) (by omega)
  rw [e1] at d2
  have d3 : k.v (i + 2) - k.v i ≠ 0 := by
    have := h.incr i (i + 2) h0 (by omega) (by omega)
    linarith
  set z := buildCubic k.n k.v y.v
  unfold cPiece'
  rw [e1]
  simp only [sub_self, zero_div, div_self d1, div_self d2]
  have e3 : k.v (i + 2) - k.v i = (k.v (i + 2) - k.v (i + 1)) + (k.v (i + 1) - k.v i) := by ring
  rw [e3] at this d3
  set p := k.v (i + 1) - k.v i
  set q := k.v (i + 2) - k.v (i + 1)
  clear_value p q z
  have t2 : p * z i + 2 * (q + p) * z (i + 1) + q * z (i + 2) =
      6 * ((y.v (i + 2) - y.v (i + 1)) / q - (y.v (i + 1) - y.v i) / p) := by
    have t3 : (q + p) * (p / (q + p) * z i + 2 * z (i + 1) + (1 - p / (q + p)) * z (i + 2)) =
        (q + p) * (6 * ((y.v (i + 2) - y.v (i + 1)) / q - (y.v (i + 1) - y.v i) / p) / (q + p)) := by rw [this]
    rw [mul_div_cancel₀ _ d3] at t3
    rw [← t3]
    field_simp
    ring
  linarith

theorem cubicDeriv_pieces (k y : RVec) (h : SplineData k y) :
    IsPieces k (cubicDeriv k y) (cPiece' k.v y.v (buildCubic k.n k.v y.v)) := by
  intro i h0 h1 x ha hb
  unfold cubicDeriv
  rcases cubicLowerIndex_eq k h.incr (by have := h.four; omega) x i h0 h1 ha hb with e | ⟨rfl, e, h2⟩
  · rw [e]
  · rw [e, cPiece'_match k y h i h0 h2]

theorem cubicDeriv2_pieces (k y : RVec) (h : SplineData k y) :
    IsPieces k (cubicDeriv2 k y) (cPiece'' k.v (buildCubic k.n k.v y.v)) := by
  intro i h0 h1 x ha hb
  unfold cubicDeriv2
  rcases cubicLowerIndex_eq k h.incr (by have := h.four; omega) x i h0 h1 ha hb with e | ⟨rfl, e, h2⟩
  · rw [e]
  · have e1 : i + 1 + 1 = i + 2 := by ring
    have d2 := h.diff (i := i + 1) (by omega) (by omega)
    rw [e]
    unfold cPiece''
    simp [div_self (h.diff h0 h1), div_self d2]

/-- the spline is twice continuously differentiable on the open knot range; its second derivative is
    continuous on the closed range; its end slopes are those of the parabola through the three nearest
    points -/
theorem C54_cubic_C2 (k y : RVec) (h : SplineData k y) :
    ∃ d d2 : ℝ → ℝ,
      (∀ x, k.v 0 < x → x < k.v (k.n - 1) → HasDerivAt (evalCubic k y) (d x) x) ∧
      (∀ x, k.v 0 < x → x < k.v (k.n - 1) → HasDerivAt d (d2 x) x) ∧
      ContinuousOn (evalCubic k y) (Set.Icc (k.v 0) (k.v (k.n - 1))) ∧
      ContinuousOn d (Set.Icc (k.v 0) (k.v (k.n - 1))) ∧
      ContinuousOn d2 (Set.Icc (k.v 0) (k.v (k.n - 1))) ∧
      d (k.v 0) = yp1 k.v y.v ∧ d (k.v (k.n - 1)) = ypn k.n k.v y.v := by
  have h4 := h.four
  have hn' : ((k.n - 1).toNat : Int) = k.n - 1 := by omega
  have c0 := pieces_continuousOn k h.incr _ _ (evalCubic_pieces k y h) (fun i a b =>
    continuous_iff_continuousAt.2 fun t => (cPiece_hasDerivAt _ _ _ _ (h.diff a b) t).continuousAt)
    (k.n - 1).toNat (by omega)
  have c1 := pieces_continuousOn k h.incr _ _ (cubicDeriv_pieces k y h) (fun i a b =>
    continuous_iff_continuousAt.2 fun t => (cPiece'_hasDerivAt _ _ _ _ (h.diff a b) t).continuousAt)
    (k.n - 1).toNat (by omega)
  have c2 := pieces_continuousOn k h.incr _ _ (cubicDeriv2_pieces k y h) (fun i a b => by
    unfold cPiece''; fun_prop) (k.n - 1).toNat (by omega)
  rw [hn'] at c0 c1 c2
  obtain ⟨s1, _, s3⟩ := buildCubic_system k y h.incr h.four
  refine ⟨cubicDeriv k y, cubicDeriv2 k y, ?_, ?_, c0, c1, c2, ?_, ?_⟩
  · exact fun x a b => glue k h.incr (by omega) _ _ _ _ (evalCubic_pieces k y h) (cubicDeriv_pieces k y h)
      (fun i p q t => cPiece_hasDerivAt _ _ _ _ (h.diff p q) t) x a b
  · exact fun x a b => glue k h.incr (by omega) _ _ _ _ (cubicDeriv_pieces k y h) (cubicDeriv2_pieces k y h)
      (fun i p q t => cPiece'_hasDerivAt _ _ _ _ (h.diff p q) t) x a b
  · have d := h.diff (i := 0) le_rfl (by omega)
    rw [cubicDeriv_pieces k y h 0 le_rfl (by omega) _ le_rfl (h.incr.le le_rfl (by omega) (by omega))]
    unfold cPiece'
    simp only [zero_add] at d ⊢
    simp only [sub_self, zero_div, div_self d]
    set z := buildCubic k.n k.v y.v
    have : (2 * z 0 + z 1) * (k.v 1 - k.v 0) = 6 * ((y.v 1 - y.v 0) / (k.v 1 - k.v 0) - yp1 k.v y.v) := by
      rw [s1]; field_simp
    linarith
  · have e : k.n - 2 + 1 = k.n - 1 := by ring
    have d := h.diff (i := k.n - 2) (by omega) (by omega)
    have := cubicDeriv_pieces k y h (k.n - 2) (by omega) (by omega) (k.v (k.n - 2 + 1))
      (h.incr.le (by omega) (by omega) (by omega)) le_rfl
    rw [e] at this d
    rw [this]
    unfold cPiece'
    rw [e]
    simp only [sub_self, zero_div, div_self d]
    set z := buildCubic k.n k.v y.v
    have : (z (k.n - 2) + 2 * z (k.n - 1)) * (k.v (k.n - 1) - k.v (k.n - 2)) =
        6 * (ypn k.n k.v y.v - (y.v (k.n - 1) - y.v (k.n - 2)) / (k.v (k.n - 1) - k.v (k.n - 2))) := by
      rw [s3]; field_simp
    linarith

/-- specification of the end slopes: derivative at the end of the parabola through the three nearest points -/
theorem C54_end_slopes (k y : RVec) (h : SplineData k y) (a b c : ℝ) :
    ((∀ i, 0 ≤ i → i ≤ 2 → y.v i = a + b * k.v i + c * k.v i ^ 2) → yp1 k.v y.v = b + 2 * c * k.v 0) ∧
    ((∀ i, k.n - 3 ≤ i → i < k.n → y.v i = a + b * k.v i + c * k.v i ^ 2) →
      ypn k.n k.v y.v = b + 2 * c * k.v (k.n - 1)) := by
  have h4 := h.four
  constructor
  · intro hp
    have d1 := h.incr 0 1 (by omega) (by omega) (by omega)
    have d2 := h.incr 1 2 (by omega) (by omega) (by omega)
    have n1 : k.v 1 - k.v 0 ≠ 0 := by linarith
    have n2 : k.v 2 - k.v 1 ≠ 0 := by linarith
    have n3 : k.v 2 - k.v 0 ≠ 0 := by linarith
    unfold yp1
    rw [hp 0 (by omega) (by omega), hp 1 (by omega) (by omega), hp 2 (by omega) (by omega)]
    field_simp
    ring
  · intro hp
    have d1 := h.incr (k.n - 3) (k.n - 2) (by omega) (by omega) (by omega)
    have d2 := h.incr (k.n - 2) (k.n - 1) (by omega) (by omega) (by omega)
    have n1 : k.v (k.n - 3) - k.v (k.n - 2) ≠ 0 := by linarith
    have n2 : k.v (k.n - 2) - k.v (k.n - 1) ≠ 0 := by linarith
    have n3 : k.v (k.n - 3) - k.v (k.n - 1) ≠ 0 := by linarith
    unfold ypn
    rw [hp (k.n - 3) (by omega) (by omega), hp (k.n - 2) (by omega) (by omega), hp (k.n - 1) (by omega) (by omega)]
    field_simp
    ring

/-- a solution of the homogeneous spline system is zero (maximum principle) -/
theorem spline_homogeneous (k : RVec) (hk : Increasing k) (hn : 4 ≤ k.n) (w : Int → ℝ) (h0 : 2 * w 0 + w 1 = 0)
    (hi : ∀ i, 1 ≤ i → i < k.n - 1 → sigma k.v i * w (i - 1) + 2 * w i + (1 - sigma k.v i) * w (i + 1) = 0)
    (h1 : w (k.n - 2) + 2 * w (k.n - 1) = 0) : ∀ i, 0 ≤ i → i < k.n → w i = 0 := by
  obtain ⟨m, hm, hmax⟩ := Finset.exists_max_image (Finset.Ico (0 : Int) k.n) (fun i => |w i|)
    ⟨0, by simp; omega⟩
  rw [Finset.mem_Ico] at hm
  have hM : ∀ i, 0 ≤ i → i < k.n → |w i| ≤ |w m| := fun i a b => hmax i (Finset.mem_Ico.2 ⟨a, b⟩)
  have hzero : |w m| ≤ 0 := by
    by_cases hm0 : m = 0
    · subst hm0
      have a := hM 1 (by omega) (by omega)
      have : w 1 = -2 * w 0 := by linarith
      rw [this, abs_mul] at a
      norm_num at a
      have := abs_nonneg (w 0); simpa using (by linarith : |w 0| ≤ 0)
    · by_cases hm1 : m = k.n - 1
      · subst hm1
        have a := hM (k.n - 2) (by omega) (by omega)
        have : w (k.n - 2) = -2 * w (k.n - 1) := by linarith
        rw [this, abs_mul] at a
        norm_num at a
        have := abs_nonneg (w (k.n - 1)); linarith
      · have e := hi m (by omega) (by omega)
        have e1 := hk (m - 1) m (by omega) (by omega) (by omega)
        have e2 := hk m (m + 1) (by omega) (by omega) (by omega)
        have hs0 : 0 < sigma k.v m := by
          unfold sigma; apply div_pos <;> linarith
        have hs1 : sigma k.v m < 1 := by
          unfold sigma; rw [div_lt_one (by linarith)]; linarith
        have a := hM (m - 1) (by omega) (by omega)
        have b := hM (m + 1) (by omega) (by omega)
        have e3 : 2 * w m = -(sigma k.v m * w (m - 1)) - (1 - sigma k.v m) * w (m + 1) := by linarith
        have e4 : 2 * |w m| ≤ sigma k.v m * |w (m - 1)| + (1 - sigma k.v m) * |w (m + 1)| := by
          calc 2 * |w m| = |2 * w m| := by rw [abs_mul]; norm_num
            _ = |-(sigma k.v m * w (m - 1)) - (1 - sigma k.v m) * w (m + 1)| := by rw [e3]
            _ ≤ |-(sigma k.v m * w (m - 1))| + |(1 - sigma k.v m) * w (m + 1)| := abs_sub _ _
            _ = _ := by rw [abs_neg, abs_mul, abs_mul, abs_of_pos hs0, abs_of_pos (by linarith : 0 < 1 - sigma k.v m)]
        nlinarith
  intro i a b
  have := hM i a b
  have := abs_nonneg (w i)
  exact abs_eq_zero.1 (by linarith)

/-- the spline reproduces every quadratic polynomial -/
theorem C54_reproduces_quadratics (k y : RVec) (h : SplineData k y) (a b c : ℝ)
    (hy : ∀ i, 0 ≤ i → i < k.n → y.v i = a + b * k.v i + c * k.v i ^ 2) (x : ℝ) (h0 : k.v 0 ≤ x)
    (h1 : x ≤ k.v (k.n - 1)) : evalCubic k y x = a + b * x + c * x ^ 2 := by
  have h4 := h.four
  obtain ⟨s1, s2, s3⟩ := buildCubic_system k y h.incr h.four
  obtain ⟨p1, pn⟩ := C54_end_slopes k y h a b c
  rw [p1 (fun i p q => hy i p (by omega)), hy 0 (by omega) (by omega), hy 1 (by omega) (by omega)] at s1
  rw [pn (fun i p q => hy i (by omega) (by omega)), hy (k.n - 1) (by omega) (by omega),
    hy (k.n - 2) (by omega) (by omega)] at s3
  set z := buildCubic k.n k.v y.v with hz
  have hconst : ∀ i, 0 ≤ i → i < k.n → z i - 2 * c = 0 := by
    refine spline_homogeneous k h.incr h.four (fun i => z i - 2 * c) ?_ ?_ ?_
    · have d := h.diff (i := 0) le_rfl (by omega)
      rw [zero_add] at d
      have : 6 / (k.v 1 - k.v 0) * ((a + b * k.v 1 + c * k.v 1 ^ 2 - (a + b * k.v 0 + c * k.v 0 ^ 2)) /
          (k.v 1 - k.v 0) - (b + 2 * c * k.v 0)) = 6 * c := by
        field_simp; ring
      linarith
    · intro i q1 q2
      have d1 := h.diff (i := i - 1) (by omega) (by omega)
      have d2 := h.diff (i := i) (by omega) (by omega)
      rw [sub_add_cancel] at d1
      have d3 : k.v (i + 1) - k.v (i - 1) ≠ 0 := by
        have := h.incr (i - 1) (i + 1) (by omega) (by omega) (by omega)
        linarith
      have e := s2 i q1 q2
      unfold splineRhs at e
      rw [hy (i + 1) (by omega) (by omega), hy i (by omega) (by omega), hy (i - 1) (by omega) (by omega)] at e
      have : 6 * ((a + b * k.v (i + 1) + c * k.v (i + 1) ^ 2 - (a + b * k.v i + c * k.v i ^ 2)) /
            (k.v (i + 1) - k.v i) -
          (a + b * k.v i + c * k.v i ^ 2 - (a + b * k.v (i - 1) + c * k.v (i - 1) ^ 2)) /
            (k.v i - k.v (i - 1))) / (k.v (i + 1) - k.v (i - 1)) = 6 * c := by
        field_simp; ring
      rw [this] at e
      linarith
    · have d := h.diff (i := k.n - 2) (by omega) (by omega)
      have ee : k.n - 2 + 1 = k.n - 1 := by ring
      rw [ee] at d
      have : 6 / (k.v (k.n - 1) - k.v (k.n - 2)) * (b + 2 * c * k.v (k.n - 1) -
          (a + b * k.v (k.n - 1) + c * k.v (k.n - 1) ^ 2 - (a + b * k.v (k.n - 2) + c * k.v (k.n - 2) ^ 2)) /
          (k.v (k.n - 1) - k.v (k.n - 2))) = 6 * c := by
        field_simp; ring
      linarith
  obtain ⟨r0, r1, r2, r3⟩ := cubicLowerIndex_spec k (by omega) x h0
  set i := cubicLowerIndex k.n k.v x
  have hxr : x ≤ k.v (i + 1) := by
    rcases r3 with e | e
    · rw [e]; exact h1
    · exact e.le
  rw [evalCubic_pieces k y h i r0 r1 x r2 hxr, ← hz]
  have zi : z i = 2 * c := by linarith [hconst i r0 (by omega)]
  have zi1 : z (i + 1) = 2 * c := by linarith [hconst (i + 1) (by omega) r1]
  have d := h.diff r0 r1
  unfold cPiece
  rw [zi, zi1, hy i r0 (by omega), hy (i + 1) (by omega) r1]
  field_simp
  ring

/-- five equidistant knots and quadratic values meet the hypotheses -/
example : SplineData ⟨5, fun i => i / 4⟩ ⟨5, fun i => (i / 4) ^ 2⟩ :=
  ⟨fun i j _ h _ => by
    have : (i : ℝ) < j := by exact_mod_cast h
    dsimp only; linarith, by simp, rfl⟩

end Verif.Profiles
