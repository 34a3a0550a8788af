import Verif.Profiles.Cubic
import Verif.Common.FlatSum

/-!
# C33, C55: Akima-spline profiles
-/
namespace Verif.Profiles
open Verif

/-! ## helper lemmas -/

theorem akX_knot (n : Int) (k : Int → ℝ) (f : Int) (h0 : 1 ≤ f) (h1 : f ≤ n) : akX n k f = k (f - 1) := by
  unfold akX
  rw [if_neg (by omega), if_neg (by omega), if_neg (by omega), if_neg (by omega)]

theorem akY_knot (n : Int) (k y : Int → ℝ) (f : Int) (h0 : 1 ≤ f) (h1 : f ≤ n) : akY n k y f = y (f - 1) := by
  unfold akY
  dsimp only
  rw [if_neg (by omega), if_neg (by omega)]

/-- piece of the spline on the interval between the knots `j` and `j + 1` -/
noncomputable def akPiece (k y : RVec) (j : Int) (x : ℝ) : ℝ :=
  let dx := x - k.v j
  y.v j + dx * (akT k.n k.v y.v (j + 1) + dx * (akC k.n k.v y.v (j + 1) + akD k.n k.v y.v (j + 1) * dx))

noncomputable def akPiece' (k y : RVec) (j : Int) (x : ℝ) : ℝ :=
  let dx := x - k.v j
  akT k.n k.v y.v (j + 1) + 2 * akC k.n k.v y.v (j + 1) * dx + 3 * akD k.n k.v y.v (j + 1) * dx ^ 2

theorem akPiece_hasDerivAt (k y : RVec) (j : Int) (x : ℝ) : HasDerivAt (akPiece k y j) (akPiece' k y j x) x := by
  unfold akPiece akPiece'
  have hb : HasDerivAt (fun x => x - k.v j) 1 x := (hasDerivAt_id x).sub_const (k.v j)
  have h1 := (hb.const_mul (akD k.n k.v y.v (j + 1))).const_add (akC k.n k.v y.v (j + 1))
  have h2 := (hb.fun_mul h1).const_add (akT k.n k.v y.v (j + 1))
  have h3 := (hb.fun_mul h2).const_add (y.v j)
  refine h3.congr_deriv ?_
  ring

noncomputable def akInt (k y : RVec) (j : Int) (x : ℝ) : ℝ :=
  let dx := x - k.v j
  dx * (y.v j + dx * ((1 / 2) * akT k.n k.v y.v (j + 1) +
    dx * ((1 / 3) * akC k.n k.v y.v (j + 1) + (1 / 4) * akD k.n k.v y.v (j + 1) * dx)))

theorem akInt_hasDerivAt (k y : RVec) (j : Int) (x : ℝ) : HasDerivAt (akInt k y j) (akPiece k y j x) x := by
  unfold akPiece akInt
  have hb : HasDerivAt (fun x => x - k.v j) 1 x := (hasDerivAt_id x).sub_const (k.v j)
  have h1 := (hb.const_mul ((1 / 4) * akD k.n k.v y.v (j + 1))).const_add ((1 / 3) * akC k.n k.v y.v (j + 1))
  have h2 := (hb.fun_mul h1).const_add ((1 / 2) * akT k.n k.v y.v (j + 1))
  have h3 := hb.fun_mul ((hb.fun_mul h2).const_add (y.v j))
  refine h3.congr_deriv ?_
  ring

section data
variable {k y : RVec} (h : SplineData k y)
include h

theorem akM_eq {j : Int} (h0 : 0 ≤ j) (h1 : j + 1 < k.n) :
    akM k.n k.v y.v (j + 1) = (y.v (j + 1) - y.v j) / (k.v (j + 1) - k.v j) := by
  unfold akM
  rw [akX_knot _ _ _ (by omega) (by omega), akX_knot _ _ _ (by omega) (by omega),
    akY_knot _ _ _ _ (by omega) (by omega), akY_knot _ _ _ _ (by omega) (by omega)]
  simp only [add_sub_cancel_right]

theorem akC_eq {j : Int} (h0 : 0 ≤ j) (h1 : j + 1 < k.n) : akC k.n k.v y.v (j + 1) =
    (3 * ((y.v (j + 1) - y.v j) / (k.v (j + 1) - k.v j)) - akT k.n k.v y.v (j + 2) - 2 * akT k.n k.v y.v (j + 1)) /
      (k.v (j + 1) - k.v j) := by
  unfold akC
  rw [akM_eq h h0 h1, akX_knot _ _ _ (by omega) (by omega), akX_knot _ _ _ (by omega) (by omega)]
  have e : j + 1 + 1 = j + 2 := by ring
  have e' : j + 2 - 1 = j + 1 := by ring
  simp only [add_sub_cancel_right, e, e']

theorem akD_eq {j : Int} (h0 : 0 ≤ j) (h1 : j + 1 < k.n) : akD k.n k.v y.v (j + 1) =
    (akT k.n k.v y.v (j + 2) + akT k.n k.v y.v (j + 1) - 2 * ((y.v (j + 1) - y.v j) / (k.v (j + 1) - k.v j))) /
      ((k.v (j + 1) - k.v j) * (k.v (j + 1) - k.v j)) := by
  unfold akD
  rw [akM_eq h h0 h1, akX_knot _ _ _ (by omega) (by omega), akX_knot _ _ _ (by omega) (by omega)]
  have e : j + 1 + 1 = j + 2 := by ring
  have e' : j + 2 - 1 = j + 1 := by ring
  simp only [add_sub_cancel_right, e, e']

theorem akPiece_right {j : Int} (h0 : 0 ≤ j) (h1 : j + 1 < k.n) : akPiece k y j (k.v (j + 1)) = y.v (j + 1) := by
  have d := h.diff h0 h1
  unfold akPiece
  rw [akC_eq h h0 h1, akD_eq h h0 h1]
  field_simp
  ring

theorem akPiece'_right {j : Int} (h0 : 0 ≤ j) (h1 : j + 1 < k.n) :
    akPiece' k y j (k.v (j + 1)) = akT k.n k.v y.v (j + 2) := by
  have d := h.diff h0 h1
  unfold akPiece'
  rw [akC_eq h h0 h1, akD_eq h h0 h1]
  field_simp
  ring

theorem akInterval_eq {j : Int} (h0 : 0 ≤ j) (h1 : j + 1 < k.n) :
    akInterval k.n k.v y.v (j + 1) = akInt k y j (k.v (j + 1)) := by
  unfold akInterval akInt akA akB
  rw [akX_knot _ _ _ (by omega) (by omega), akX_knot _ _ _ (by omega) (by omega),
    akY_knot _ _ _ _ (by omega) (by omega)]
  simp only [add_sub_cancel_right]
  ring

/-- the search loop finds the interval -/
theorem akFind {j : Int} (h0 : 0 ≤ j) (h1 : j + 1 < k.n) {x : ℝ} (ha : k.v j ≤ x) (hb : x < k.v (j + 1)) :
    forRange 1 k.n (akStep k.n k.v y.v x) none = some (akPiece k y j x) := by
  have := forRange_inv (lo := 1) (hi := k.n) (by omega) (akStep k.n k.v y.v x) none
    (fun i (o : Option ℝ) => (i ≤ j + 1 → o = none) ∧ (j + 1 < i → o = some (akPiece k y j x)))
    ⟨fun _ => rfl, fun hh => by omega⟩ (by
      intro i o hi1 hi2 ⟨c1, c2⟩
      unfold akStep
      by_cases hlt : i < j + 1
      · rw [c1 (by omega)]
        have hx : ¬ (x ≥ akX k.n k.v i ∧ x < akX k.n k.v (i + 1)) := by
          rw [akX_knot _ _ (i + 1) (by omega) (by omega), add_sub_cancel_right]
          intro hc
          have := h.incr.le (i := i) (j := j) (by omega) (by omega) (by omega)
          linarith [hc.2]
        simp only [hx, if_false]
        exact ⟨fun _ => by simp, fun hh => by omega⟩
      · by_cases heq : i = j + 1
        · subst heq
          rw [c1 le_rfl]
          have hx : (x ≥ akX k.n k.v (j + 1) ∧ x < akX k.n k.v (j + 1 + 1)) := by
            rw [akX_knot _ _ (j + 1 + 1) (by omega) (by omega), akX_knot _ _ (j + 1) (by omega) (by omega)]
            simp only [add_sub_cancel_right]
            exact ⟨ha, hb⟩
          simp only [hx, and_self, if_true]
          refine ⟨fun hh => by omega, fun _ => ?_⟩
          unfold akPiece akA akB
          rw [akX_knot _ _ (j + 1) (by omega) (by omega), akY_knot _ _ _ _ (by omega) (by omega)]
          simp only [add_sub_cancel_right]
        · rw [c2 (by omega)]
          exact ⟨fun hh => by omega, fun _ => by simp⟩)
  exact this.2 (by omega)

theorem evalAkima_pieces : IsPieces k (evalAkima k y) (akPiece k y) := by
  intro i h0 h1 x ha hb
  have h4 := h.four
  have hc : ¬ (k.n < 4 ∨ k.n ≠ y.n) := by have := h.same; omega
  have x1 : akX k.n k.v 1 = k.v 0 := by rw [akX_knot _ _ _ (by omega) (by omega)]; simp
  have xn : akX k.n k.v k.n = k.v (k.n - 1) := by rw [akX_knot _ _ _ (by omega) (by omega)]
  have hr : ¬ (x < k.v 0 ∨ x > k.v (k.n - 1)) := by
    rw [not_or]
    exact ⟨not_lt.2 ((h.incr.le le_rfl h0 (by omega)).trans ha),
      not_lt.2 (hb.trans (h.incr.le (by omega) (by omega) (by omega)))⟩
  unfold evalAkima
  simp only [hc, if_false, x1, xn, hr]
  by_cases hx : x = k.v (k.n - 1)
  · rw [if_pos hx]
    have hi : i + 1 = k.n - 1 := by
      by_contra hne
      have := h.incr (i + 1) (k.n - 1) (by omega) (by omega) (by omega)
      linarith
    rw [hx, ← hi, akPiece_right h h0 h1]
  · rw [if_neg hx]
    rcases lt_or_eq_of_le hb with hlt | heq
    · rw [akFind h h0 h1 ha hlt]; rfl
    · have h2 : i + 2 < k.n := by
        by_contra hne
        have : i + 1 = k.n - 1 := by omega
        rw [this] at heq
        exact hx heq
      have h2' : i + 1 + 1 < k.n := by omega
      rw [akFind h (j := i + 1) (by omega) h2' heq.ge (by
        rw [heq]; exact h.incr _ _ (by omega) (by omega) h2')]
      subst heq
      rw [akPiece_right h h0 h1]
      simp [akPiece]

theorem akFindInt {j : Int} (h0 : 0 ≤ j) (h1 : j + 1 < k.n) {x : ℝ} (ha : k.v j ≤ x) (hb : x < k.v (j + 1)) :
    (forRange 1 k.n (akIntStep k.n k.v y.v x) (0, none)).2 = some
      (∑ i ∈ Finset.Ico 0 j, akInt k y i (k.v (i + 1)) + akInt k y j x) := by
  have := forRange_inv (lo := 1) (hi := k.n) (by omega) (akIntStep k.n k.v y.v x) (0, none)
    (fun i (s : ℝ × Option ℝ) =>
      (i ≤ j + 1 → s = (∑ l ∈ Finset.Ico 0 (i - 1), akInt k y l (k.v (l + 1)), none)) ∧
      (j + 1 < i → s.2 = some (∑ i ∈ Finset.Ico 0 j, akInt k y i (k.v (i + 1)) + akInt k y j x)))
    ⟨fun _ => by simp, fun hh => by omega⟩ (by
      intro i s hi1 hi2 ⟨c1, c2⟩
      unfold akIntStep
      by_cases hlt : i < j + 1
      · rw [c1 (by omega)]
        have hx : x ≥ akX k.n k.v (i + 1) := by
          rw [akX_knot _ _ (i + 1) (by omega) (by omega), add_sub_cancel_right]
          exact (h.incr.le (i := i) (j := j) (by omega) (by omega) (by omega)).trans ha
        simp only [hx, if_true]
        refine ⟨fun _ => ?_, fun hh => by omega⟩
        have e : i = (i - 1) + 1 := by ring
        have e2 := akInterval_eq h (j := i - 1) (by omega) (by omega)
        rw [← e] at e2
        rw [e2, show i + 1 - 1 = (i - 1) + 1 by ring, sum_Ico_int_succ (by omega), ← e]
      · by_cases heq : i = j + 1
        · subst heq
          rw [c1 le_rfl]
          have hx : ¬ x ≥ akX k.n k.v (j + 1 + 1) := by
            rw [akX_knot _ _ (j + 1 + 1) (by omega) (by omega)]
            simp only [add_sub_cancel_right]
            exact not_le.2 hb
          simp only [hx, if_false]
          refine ⟨fun hh => by omega, fun _ => ?_⟩
          unfold akInt akA akB
          rw [akX_knot _ _ (j + 1) (by omega) (by omega), akY_knot _ _ _ _ (by omega) (by omega)]
          simp only [add_sub_cancel_right]
        · have := c2 (by omega)
          rw [this]
          exact ⟨fun hh => by omega, fun _ => this⟩)
  exact this.2 (by omega)

theorem evalAkimaIntegrated_pieces : IsPieces k (evalAkimaIntegrated k y)
    (fun j x => ∑ i ∈ Finset.Ico 0 j, akInt k y i (k.v (i + 1)) + akInt k y j x) := by
  intro i h0 h1 x ha hb
  have h4 := h.four
  have hc : ¬ (k.n < 4 ∨ k.n ≠ y.n) := by have := h.same; omega
  have x1 : akX k.n k.v 1 = k.v 0 := by rw [akX_knot _ _ _ (by omega) (by omega)]; simp
  have xn : akX k.n k.v k.n = k.v (k.n - 1) := by rw [akX_knot _ _ _ (by omega) (by omega)]
  have hx0 : k.v 0 ≤ x := (h.incr.le le_rfl h0 (by omega)).trans ha
  unfold evalAkimaIntegrated
  simp only [hc, if_false, x1, xn]
  by_cases hx : x ≥ k.v (k.n - 1)
  · rw [if_pos hx]
    have hi : i + 1 = k.n - 1 := by
      by_contra hne
      have := h.incr (i + 1) (k.n - 1) (by omega) (by omega) (by omega)
      linarith
    have hxe : x = k.v (i + 1) := le_antisymm hb (by rw [hi]; exact hx)
    rw [hxe, forRange_add, zero_add, ← sum_Ico_int_succ h0, hi]
    have e := sum_Ico_shift 0 (k.n - 1) 1 (fun i => akInterval k.n k.v y.v i)
    rw [zero_add, sub_add_cancel] at e
    rw [e]
    refine Finset.sum_congr rfl fun l hl => ?_
    rw [Finset.mem_Ico] at hl
    exact akInterval_eq h hl.1 (by omega)
  · rw [if_neg hx]
    by_cases hx1 : x ≤ k.v 0
    · rw [if_pos hx1]
      have hxe : x = k.v 0 := le_antisymm hx1 hx0
      have hi : i = 0 := by
        by_contra hne
        have := h.incr 0 i (by omega) (by omega) (by omega)
        linarith
      subst hi
      rw [hxe]; simp [akInt]
    · rw [if_neg hx1]
      rcases lt_or_eq_of_le hb with hlt | heq
      · rw [akFindInt h h0 h1 ha hlt]; rfl
      · have h2 : i + 1 + 1 < k.n := by
          by_contra hne
          have : i + 1 = k.n - 1 := by omega
          rw [this] at heq
          exact hx heq.ge
        rw [akFindInt h (j := i + 1) (by omega) h2 heq.ge (by
          rw [heq]; exact h.incr _ _ (by omega) (by omega) h2)]
        subst heq
        rw [sum_Ico_int_succ h0]
        simp [akInt]

end data

/-! ## C33 -/

/-- the spline passes through every knot -/
theorem C33_interpolates (k y : RVec) (h : SplineData k y) (i : Int) (h0 : 0 ≤ i) (h1 : i < k.n) :
    evalAkima k y (k.v i) = y.v i := by
  by_cases hl : i + 1 < k.n
  · rw [evalAkima_pieces h i h0 hl (k.v i) le_rfl (h.incr.le h0 (by omega) hl)]
    simp [akPiece]
  · have h4 := h.four
    have e : i = (i - 1) + 1 := by ring
    rw [e, evalAkima_pieces h (i - 1) (by omega) (by omega) _
      (h.incr.le (by omega) (by omega) (by omega)) le_rfl, akPiece_right h (by omega) (by omega)]

/-- derivative of the spline -/
noncomputable def akDeriv (k y : RVec) (x : ℝ) : ℝ := akPiece' k y (cubicLowerIndex k.n k.v x) x

theorem akDeriv_pieces (k y : RVec) (h : SplineData k y) : IsPieces k (akDeriv k y) (akPiece' k y) := by
  intro i h0 h1 x ha hb
  unfold akDeriv
  rcases cubicLowerIndex_eq k h.incr (by have := h.four; omega) x i h0 h1 ha hb with e | ⟨rfl, e, h2⟩
  · rw [e]
  · rw [e, akPiece'_right h h0 h1]
    have e2 : i + 1 + 1 = i + 2 := by ring
    simp [akPiece', e2]

/-- the spline is continuously differentiable: it has a derivative in the open knot range, which is
    continuous on the closed range -/
theorem C33_continuous_slope (k y : RVec) (h : SplineData k y) :
    ∃ d : ℝ → ℝ, (∀ x, k.v 0 < x → x < k.v (k.n - 1) → HasDerivAt (evalAkima k y) (d x) x) ∧
      ContinuousOn d (Set.Icc (k.v 0) (k.v (k.n - 1))) ∧
      ContinuousOn (evalAkima k y) (Set.Icc (k.v 0) (k.v (k.n - 1))) := by
  have h4 := h.four
  have hn' : ((k.n - 1).toNat : Int) = k.n - 1 := by omega
  have c0 := pieces_continuousOn k h.incr _ _ (evalAkima_pieces h) (fun i a b =>
    continuous_iff_continuousAt.2 fun t => (akPiece_hasDerivAt k y i t).continuousAt) (k.n - 1).toNat (by omega)
  have c1 := pieces_continuousOn k h.incr _ _ (akDeriv_pieces k y h) (fun i a b => by
    unfold akPiece'; fun_prop) (k.n - 1).toNat (by omega)
  rw [hn'] at c0 c1
  exact ⟨akDeriv k y, fun x a b => glue k h.incr (by omega) _ _ _ _ (evalAkima_pieces h)
    (akDeriv_pieces k y h) (fun i _ _ t => akPiece_hasDerivAt k y i t) x a b, c1, c0⟩

/-- inside the knot range the integrated profile has the profile as its derivative -/
theorem C33_integrated_hasDerivAt (k y : RVec) (h : SplineData k y) (x : ℝ) (h0 : k.v 0 < x)
    (h1 : x < k.v (k.n - 1)) : HasDerivAt (evalAkimaIntegrated k y) (evalAkima k y x) x := by
  refine glue k h.incr (by have := h.four; omega) _ _ _ _ (evalAkimaIntegrated_pieces h)
    (evalAkima_pieces h) ?_ x h0 h1
  intro i a b t
  exact (akInt_hasDerivAt k y i t).const_add _

theorem evalAkimaIntegrated_in_range (k y : RVec) (h : SplineData k y) (x : ℝ) (h0 : k.v 0 ≤ x)
    (h1 : x ≤ k.v (k.n - 1)) : evalAkimaIntegrated k y x = ∫ t in (k.v 0)..x, evalAkima k y t := by
  have h4 := h.four
  refine pieces_integral k h.incr (by omega) _ _ _ _ (evalAkimaIntegrated_pieces h)
    (evalAkima_pieces h) ?_ ?_ ?_ ?_ x h0 h1
  · intro i a b
    exact continuous_const.add
      (continuous_iff_continuousAt.2 fun t => (akInt_hasDerivAt k y i t).continuousAt)
  · intro i a b
    exact continuous_iff_continuousAt.2 fun t => (akPiece_hasDerivAt k y i t).continuousAt
  · intro i a b t
    exact (akInt_hasDerivAt k y i t).const_add _
  · rw [evalAkimaIntegrated_pieces h 0 le_rfl (by omega) _ le_rfl (h.incr.le le_rfl (by omega) (by omega))]
    simp [akInt]

/-- the integrated profile is the integral of the profile from the first knot, and constant outside the
    knot range -/
theorem C33_integrated (k y : RVec) (h : SplineData k y) (x : ℝ) :
    (k.v 0 ≤ x → x ≤ k.v (k.n - 1) → evalAkimaIntegrated k y x = ∫ t in (k.v 0)..x, evalAkima k y t) ∧
    (k.v (k.n - 1) ≤ x →
      evalAkimaIntegrated k y x = ∫ t in (k.v 0)..(k.v (k.n - 1)), evalAkima k y t) ∧
    (x ≤ k.v 0 → evalAkimaIntegrated k y x = 0) := by
  have h4 := h.four
  have hlt := h.incr 0 (k.n - 1) le_rfl (by omega) (by omega)
  have hc : ¬ (k.n < 4 ∨ k.n ≠ y.n) := by have := h.same; omega
  have x1 : akX k.n k.v 1 = k.v 0 := by rw [akX_knot _ _ _ (by omega) (by omega)]; simp
  have xn : akX k.n k.v k.n = k.v (k.n - 1) := by rw [akX_knot _ _ _ (by omega) (by omega)]
  refine ⟨evalAkimaIntegrated_in_range k y h x, fun hx => ?_, fun hx => ?_⟩
  · rw [← evalAkimaIntegrated_in_range k y h _ hlt.le le_rfl]
    unfold evalAkimaIntegrated
    simp only [hc, if_false, xn]
    rw [if_pos hx, if_pos le_rfl]
  · unfold evalAkimaIntegrated
    simp only [hc, if_false, x1, xn]
    rw [if_neg (by rw [ge_iff_le, not_le]; linarith), if_pos hx]

/-- the integrated profile is continuous everywhere -/
theorem C33_integrated_continuous (k y : RVec) (h : SplineData k y) : Continuous (evalAkimaIntegrated k y) := by
  have h4 := h.four
  have hlt := h.incr 0 (k.n - 1) le_rfl (by omega) (by omega)
  have hn' : ((k.n - 1).toNat : Int) = k.n - 1 := by omega
  have c := pieces_continuousOn k h.incr _ _ (evalAkimaIntegrated_pieces h) (fun i a b =>
    continuous_const.add
      (continuous_iff_continuousAt.2 fun t => (akInt_hasDerivAt k y i t).continuousAt)) (k.n - 1).toNat (by omega)
  rw [hn'] at c
  have e : evalAkimaIntegrated k y = fun x => Set.IccExtend hlt.le (Set.domRestrict _ (evalAkimaIntegrated k y)) x := by
    funext x
    obtain ⟨_, hb, hc⟩ := C33_integrated k y h x
    rcases le_total x (k.v 0) with hx | hx
    · rw [Set.IccExtend_of_le_left _ _ hx, hc hx]
      exact ((C33_integrated k y h _).2.2 le_rfl).symm
    · rcases le_total x (k.v (k.n - 1)) with hx' | hx'
      · rw [Set.IccExtend_of_mem _ _ ⟨hx, hx'⟩]; rfl
      · rw [Set.IccExtend_of_right_le _ _ hx', hb hx']
        exact ((C33_integrated k y h _).2.1 le_rfl).symm
  rw [e]
  exact Continuous.Icc_extend' (continuousOn_iff_continuous_domRestrict.1 c)

/-! ## C55 -/

/-- the spline reproduces straight lines -/
theorem C55_reproduces_lines (k y : RVec) (h : SplineData k y) (a b : ℝ)
    (hy : ∀ i, 0 ≤ i → i < k.n → y.v i = a + b * k.v i) (x : ℝ) (h0 : k.v 0 ≤ x) (h1 : x ≤ k.v (k.n - 1)) :
    evalAkima k y x = a + b * x := by
  have h4 := h.four
  have hs : ∀ f, 1 ≤ f → f < k.n → akSlope k.n k.v y.v f = b := by
    intro f f0 f1
    have d := h.incr (f - 1) f (by omega) (by omega) (by omega)
    unfold akSlope
    rw [akX_knot _ _ _ (by omega) (by omega), akX_knot _ _ _ (by omega) (by omega),
      hy f (by omega) f1, hy (f - 1) (by omega) (by omega), add_sub_cancel_right,
      div_eq_iff (by linarith)]
    ring
  have hY : ∀ f, -1 ≤ f → f ≤ k.n + 2 → akY k.n k.v y.v f = a + b * akX k.n k.v f := by
    intro f f0 f1
    have e1 : akX k.n k.v 1 = k.v 0 := by rw [akX_knot _ _ _ (by omega) (by omega)]; simp
    have en : akX k.n k.v k.n = k.v (k.n - 1) := by rw [akX_knot _ _ _ (by omega) (by omega)]
    unfold akY
    dsimp only
    rw [hs 1 (by omega) (by omega), hs 2 (by omega) (by omega), hs (k.n - 1) (by omega) (by omega),
      hs (k.n - 2) (by omega) (by omega)]
    by_cases c1 : f = 0 ∨ f = -1
    · rw [if_pos c1, hy 0 (by omega) (by omega), e1]; ring
    · rw [if_neg c1]
      by_cases c2 : f = k.n + 1 ∨ f = k.n + 2
      · rw [if_pos c2, hy (k.n - 1) (by omega) (by omega), en]; ring
      · rw [if_neg c2, hy (f - 1) (by omega) (by omega), akX_knot _ _ _ (by omega) (by omega)]
  have hXlt : ∀ f, -1 ≤ f → f ≤ k.n + 1 → akX k.n k.v f < akX k.n k.v (f + 1) := by
    intro f f0 f1
    have a1 := h.incr 0 1 (by omega) (by omega) (by omega)
    have a2 := h.incr 1 2 (by omega) (by omega) (by omega)
    have b1 := h.incr (k.n - 3) (k.n - 2) (by omega) (by omega) (by omega)
    have b2 := h.incr (k.n - 2) (k.n - 1) (by omega) (by omega) (by omega)
    rcases (by omega : f = -1 ∨ f = 0 ∨ f = k.n + 1 ∨ f = k.n ∨ (1 ≤ f ∧ f < k.n)) with rfl | rfl | rfl | rfl | ⟨c1, c2⟩
    · simp only [akX]; norm_num
      linarith
    · simp only [akX]; norm_num
      rw [if_neg (by omega), if_neg (by omega)]
      linarith
    · unfold akX
      rw [if_neg (by omega), if_neg (by omega), if_neg (by omega), if_pos rfl, if_neg (by omega),
        if_neg (by omega), if_pos (by ring)]
      linarith
    · unfold akX
      rw [if_neg (by omega), if_neg (by omega), if_neg (by omega), if_neg (by omega), if_neg (by omega),
        if_neg (by omega), if_neg (by omega), if_pos rfl]
      linarith
    · rw [akX_knot _ _ _ c1 (by omega), akX_knot _ _ _ (by omega) (by omega), add_sub_cancel_right]
      exact h.incr _ _ (by omega) (by omega) (by omega)
  have hM : ∀ f, -1 ≤ f → f ≤ k.n + 1 → akM k.n k.v y.v f = b := by
    intro f f0 f1
    have := hXlt f f0 f1
    unfold akM
    rw [hY f (by omega) (by omega), hY (f + 1) (by omega) (by omega), div_eq_iff (by linarith)]
    ring
  have hT : ∀ f, 1 ≤ f → f ≤ k.n → akT k.n k.v y.v f = b := by
    intro f f0 f1
    have d1 : akDM k.n k.v y.v f = 0 := by
      unfold akDM; rw [hM f (by omega) (by omega), hM (f + 1) (by omega) (by omega)]; simp
    have d2 : akDM k.n k.v y.v (f - 2) = 0 := by
      unfold akDM; rw [hM (f - 2) (by omega) (by omega), hM (f - 2 + 1) (by omega) (by omega)]; simp
    have p : akP k.n k.v y.v f = 0 := by unfold akP; simp [d1, d2]
    have q : akQ k.n k.v y.v f = 0 := by unfold akQ; simp [d1, d2]
    unfold akT
    have hpos : (0 : ℝ) < dblMin := by unfold dblMin; positivity
    rw [p, q, if_pos (by simpa using hpos), hM (f - 1) (by omega) (by omega), hM f (by omega) (by omega)]
    ring
  obtain ⟨r0, r1, r2, r3⟩ := cubicLowerIndex_spec k (by omega) x h0
  set i := cubicLowerIndex k.n k.v x
  have hxr : x ≤ k.v (i + 1) := by
    rcases r3 with e | e
    · rw [e]; exact h1
    · exact e.le
  rw [evalAkima_pieces h i r0 r1 x r2 hxr]
  have d := h.diff r0 r1
  unfold akPiece
  rw [akC_eq h r0 r1, akD_eq h r0 r1, hT (i + 1) (by omega) (by omega), hT (i + 2) (by omega) (by omega),
    hy i r0 (by omega), hy (i + 1) (by omega) r1]
  field_simp
  ring

/-- the data seen from the other end -/
noncomputable def reflectK (k : RVec) : RVec := ⟨k.n, fun i => -k.v (k.n - 1 - i)⟩
noncomputable def reflectY (y : RVec) : RVec := ⟨y.n, fun i => y.v (y.n - 1 - i)⟩

theorem reflect_data (k y : RVec) (h : SplineData k y) : SplineData (reflectK k) (reflectY y) := by
  refine ⟨?_, h.four, h.same⟩
  intro i j h0 h1 h2
  simp only [reflectK] at h2 ⊢
  have := h.incr (k.n - 1 - j) (k.n - 1 - i) (by omega) (by omega) (by omega)
  linarith

section reflect
variable {k y : RVec} (h : SplineData k y)
include h

theorem akX_reflect {f : Int} (h0 : -1 ≤ f) (h1 : f ≤ k.n + 2) :
    akX k.n (reflectK k).v f = - akX k.n k.v (k.n + 1 - f) := by
  have h4 := h.four
  unfold akX reflectK
  dsimp only
  rcases (by omega : f = -1 ∨ f = 0 ∨ f = k.n + 2 ∨ f = k.n + 1 ∨ (1 ≤ f ∧ f ≤ k.n)) with rfl | rfl | rfl | rfl | ⟨c1, c2⟩
  · rw [if_pos rfl, if_neg (by omega), if_neg (by omega), if_pos (by ring)]
    rw [show k.n - 1 - 0 = k.n - 1 by ring, show k.n - 1 - 2 = k.n - 3 by ring]; ring
  · rw [if_neg (by omega), if_pos rfl, if_neg (by omega), if_neg (by omega), if_neg (by omega), if_pos (by ring)]
    rw [show k.n - 1 - 0 = k.n - 1 by ring, show k.n - 1 - 1 = k.n - 2 by ring,
      show k.n - 1 - 2 = k.n - 3 by ring]; ring
  · rw [if_neg (by omega), if_neg (by omega), if_pos rfl, if_pos (by ring)]
    rw [show k.n - 1 - (k.n - 1) = 0 by ring, show k.n - 1 - (k.n - 3) = 2 by ring]; ring
  · rw [if_neg (by omega), if_neg (by omega), if_neg (by omega), if_pos rfl, if_neg (by omega), if_pos (by ring)]
    rw [show k.n - 1 - (k.n - 1) = 0 by ring, show k.n - 1 - (k.n - 2) = 1 by ring,
      show k.n - 1 - (k.n - 3) = 2 by ring]; ring
  · rw [if_neg (by omega), if_neg (by omega), if_neg (by omega), if_neg (by omega), if_neg (by omega),
      if_neg (by omega), if_neg (by omega), if_neg (by omega)]
    congr 2; ring

theorem akSlope_reflect {f : Int} (h0 : 1 ≤ f) (h1 : f < k.n) :
    akSlope k.n (reflectK k).v (reflectY y).v f = - akSlope k.n k.v y.v (k.n - f) := by
  have hs := h.same
  unfold akSlope
  rw [akX_reflect h (by omega) (by omega), akX_reflect h (by omega) (by omega)]
  simp only [reflectY, hs]
  rw [show k.n - 1 - f = k.n - f - 1 by ring, show k.n - 1 - (f - 1) = k.n - f by ring,
    show k.n + 1 - (f + 1) = k.n - f by ring, show k.n + 1 - f = k.n - f + 1 by ring, ← neg_div,
    neg_sub_neg, neg_sub]

theorem akY_reflect {f : Int} (h0 : -1 ≤ f) (h1 : f ≤ k.n + 2) :
    akY k.n (reflectK k).v (reflectY y).v f = akY k.n k.v y.v (k.n + 1 - f) := by
  have h4 := h.four
  have hs := h.same
  have X1 := akX_reflect h (f := 1) (by omega) (by omega)
  have X2 := akX_reflect h (f := 2) (by omega) (by omega)
  have X3 := akX_reflect h (f := 3) (by omega) (by omega)
  have Xn := akX_reflect h (f := k.n) (by omega) (by omega)
  have Xn1 := akX_reflect h (f := k.n - 1) (by omega) (by omega)
  have Xn2 := akX_reflect h (f := k.n - 2) (by omega) (by omega)
  have Xf := akX_reflect h h0 h1
  have S1 := akSlope_reflect h (f := 1) (by omega) (by omega)
  have S2 := akSlope_reflect h (f := 2) (by omega) (by omega)
  have Sn1 := akSlope_reflect h (f := k.n - 1) (by omega) (by omega)
  have Sn2 := akSlope_reflect h (f := k.n - 2) (by omega) (by omega)
  rw [show k.n + 1 - 1 = k.n by ring] at X1
  rw [show k.n + 1 - 2 = k.n - 1 by ring] at X2
  rw [show k.n + 1 - 3 = k.n - 2 by ring] at X3
  rw [show k.n + 1 - k.n = 1 by ring] at Xn
  rw [show k.n + 1 - (k.n - 1) = 2 by ring] at Xn1
  rw [show k.n + 1 - (k.n - 2) = 3 by ring] at Xn2
  rw [show k.n - (k.n - 1) = 1 by ring] at Sn1
  rw [show k.n - (k.n - 2) = 2 by ring] at Sn2
  have Y0 : (reflectY y).v 0 = y.v (k.n - 1) := by simp only [reflectY, hs]; congr 1; ring
  have Yn : (reflectY y).v (k.n - 1) = y.v 0 := by simp only [reflectY, hs]; congr 1; ring
  have Yf : (reflectY y).v (f - 1) = y.v (k.n - f) := by simp only [reflectY, hs]; congr 1; ring
  unfold akY
  dsimp only
  rw [X1, X2, X3, Xn, Xn1, Xn2, Xf, S1, S2, Sn1, Sn2, Y0, Yn, Yf]
  rcases (by omega : (f = 0 ∨ f = -1) ∨ (f = k.n + 1 ∨ f = k.n + 2) ∨ (1 ≤ f ∧ f ≤ k.n)) with c | c | c
  · rw [if_pos c, if_neg (by omega), if_pos (by omega)]
    have e : (-akSlope k.n k.v y.v (k.n - 2) - -akSlope k.n k.v y.v (k.n - 1)) /
        (-akX k.n k.v (k.n - 2) - -akX k.n k.v k.n) =
        (akSlope k.n k.v y.v (k.n - 1) - akSlope k.n k.v y.v (k.n - 2)) /
        (akX k.n k.v k.n - akX k.n k.v (k.n - 2)) := by rw [neg_sub_neg, neg_sub_neg]
    rw [e]; ring
  · rw [if_neg (by omega), if_pos c, if_pos (by omega)]
    have e : (-akSlope k.n k.v y.v 1 - -akSlope k.n k.v y.v 2) /
        (-akX k.n k.v 1 - -akX k.n k.v 3) =
        (akSlope k.n k.v y.v 2 - akSlope k.n k.v y.v 1) /
        (akX k.n k.v 3 - akX k.n k.v 1) := by rw [neg_sub_neg, neg_sub_neg]
    rw [e]; ring
  · rw [if_neg (by omega), if_neg (by omega), if_neg (by omega), if_neg (by omega)]
    congr 1; ring

theorem akM_reflect {f : Int} (h0 : -1 ≤ f) (h1 : f ≤ k.n + 1) :
    akM k.n (reflectK k).v (reflectY y).v f = - akM k.n k.v y.v (k.n - f) := by
  unfold akM
  rw [akX_reflect h (by omega) (by omega), akX_reflect h (by omega) (by omega),
    akY_reflect h (by omega) (by omega), akY_reflect h (by omega) (by omega),
    show k.n + 1 - (f + 1) = k.n - f by ring, show k.n + 1 - f = k.n - f + 1 by ring, ← neg_div,
    neg_sub_neg, neg_sub]

theorem akDM_reflect {f : Int} (h0 : -1 ≤ f) (h1 : f ≤ k.n) :
    akDM k.n (reflectK k).v (reflectY y).v f = akDM k.n k.v y.v (k.n - 1 - f) := by
  unfold akDM
  rw [akM_reflect h (by omega) (by omega), akM_reflect h (by omega) (by omega),
    show k.n - (f + 1) = k.n - 1 - f by ring, show k.n - 1 - f + 1 = k.n - f by ring, neg_sub_neg]

theorem akT_reflect {i : Int} (h0 : 1 ≤ i) (h1 : i ≤ k.n) :
    akT k.n (reflectK k).v (reflectY y).v i = - akT k.n k.v y.v (k.n + 1 - i) := by
  have d1 := akDM_reflect h (f := i) (by omega) (by omega)
  have d2 := akDM_reflect h (f := i - 2) (by omega) (by omega)
  rw [show k.n - 1 - (i - 2) = k.n + 1 - i by ring] at d2
  rw [show k.n - 1 - i = k.n + 1 - i - 2 by ring] at d1
  have p : akP k.n (reflectK k).v (reflectY y).v i = akQ k.n k.v y.v (k.n + 1 - i) := by
    unfold akP akQ
    rw [d1, d2, add_comm]
  have q : akQ k.n (reflectK k).v (reflectY y).v i = akP k.n k.v y.v (k.n + 1 - i) := by
    unfold akP akQ
    rw [d1, d2, add_comm]
  unfold akT
  rw [p, q, akM_reflect h (by omega) (by omega), akM_reflect h (by omega) (by omega),
    show k.n - (i - 1) = k.n + 1 - i by ring, show k.n - i = k.n + 1 - i - 1 by ring, add_comm (akQ _ _ _ _)]
  split_ifs <;> ring

end reflect

/-- the interpolant does not depend on the orientation: reflecting the data reflects the spline -/
theorem C55_reflection (k y : RVec) (h : SplineData k y) (x : ℝ) (h0 : k.v 0 ≤ x) (h1 : x ≤ k.v (k.n - 1)) :
    evalAkima (reflectK k) (reflectY y) (-x) = evalAkima k y x := by
  have h4 := h.four
  have hs := h.same
  obtain ⟨r0, r1, r2, r3⟩ := cubicLowerIndex_spec k (by omega) x h0
  set i := cubicLowerIndex k.n k.v x
  have hxr : x ≤ k.v (i + 1) := by
    rcases r3 with e | e
    · rw [e]; exact h1
    · exact e.le
  have h' := reflect_data k y h
  have j0 : (0 : Int) ≤ k.n - 2 - i := by omega
  have j1 : k.n - 2 - i + 1 < (reflectK k).n := by simp only [reflectK]; omega
  have kl : (reflectK k).v (k.n - 2 - i) = -k.v (i + 1) := by
    simp only [reflectK]; congr 2; ring
  have kr : (reflectK k).v (k.n - 2 - i + 1) = -k.v i := by
    simp only [reflectK]; congr 2; ring
  have yl : (reflectY y).v (k.n - 2 - i) = y.v (i + 1) := by
    simp only [reflectY, hs]; congr 1; ring
  have yr : (reflectY y).v (k.n - 2 - i + 1) = y.v i := by
    simp only [reflectY, hs]; congr 1; ring
  rw [evalAkima_pieces h i r0 r1 x r2 hxr,
    evalAkima_pieces h' (k.n - 2 - i) j0 j1 (-x) (by rw [kl]; linarith) (by rw [kr]; linarith)]
  have d := h.diff r0 r1
  unfold akPiece
  rw [akC_eq h r0 r1, akD_eq h r0 r1, akC_eq h' j0 j1, akD_eq h' j0 j1]
  have hn : (reflectK k).n = k.n := rfl
  rw [hn, akT_reflect h (by omega) (by omega), akT_reflect h (by omega) (by omega), kl, kr, yl, yr,
    show k.n + 1 - (k.n - 2 - i + 2) = i + 1 by ring, show k.n + 1 - (k.n - 2 - i + 1) = i + 2 by ring]
  have e : -k.v i - -k.v (i + 1) = k.v (i + 1) - k.v i := by ring
  rw [e]
  dsimp only
  have ex : -x - -k.v (i + 1) = (k.v (i + 1) - k.v i) - (x - k.v i) := by ring
  rw [ex]
  set p := k.v (i + 1) - k.v i
  set q := x - k.v i
  field_simp
  ring

end Verif.Profiles
