import Verif.Profiles.Glue

/-! Helper lemmas for the cubic spline. -/
namespace Verif.Profiles
open Verif

/-! ## the search -/

theorem bisect_spec (xa : Int → ℝ) (x : ℝ) (hi : Int) (fuel : Nat) (klo khi : Int) (hlt : klo < khi)
    (hk : khi ≤ hi) (hf : khi - klo ≤ fuel) (h0 : xa klo ≤ x) (h1 : khi = hi ∨ x < xa khi) :
    klo ≤ bisect xa x fuel klo khi ∧ bisect xa x fuel klo khi + 1 ≤ hi ∧ xa (bisect xa x fuel klo khi) ≤ x ∧
      (bisect xa x fuel klo khi + 1 = hi ∨ x < xa (bisect xa x fuel klo khi + 1)) := by
  induction fuel generalizing klo khi with
  | zero => omega
  | succ fuel ih =>
    unfold bisect
    by_cases hc : khi - klo > 1
    · rw [if_pos hc]
      have a : klo < (khi + klo) / 2 := by omega
      have b : (khi + klo) / 2 < khi := by omega
      dsimp only
      by_cases hx : xa ((khi + klo) / 2) > x
      · rw [if_pos hx]
        exact ih klo _ a (by omega) (by push_cast at hf; omega) h0 (Or.inr hx)
      · rw [if_neg hx]
        obtain ⟨r1, r2⟩ := ih _ khi b hk (by push_cast at hf; omega) (not_lt.1 hx) h1
        exact ⟨by omega, r2⟩
    · rw [if_neg hc]
      have : khi = klo + 1 := by omega
      subst this
      refine ⟨le_rfl, hk, h0, h1⟩

theorem cubicLowerIndex_spec (k : RVec) (hn : 2 ≤ k.n) (x : ℝ) (h0 : k.v 0 ≤ x) :
    0 ≤ cubicLowerIndex k.n k.v x ∧ cubicLowerIndex k.n k.v x + 1 < k.n ∧
    k.v (cubicLowerIndex k.n k.v x) ≤ x ∧
    (cubicLowerIndex k.n k.v x + 1 = k.n - 1 ∨ x < k.v (cubicLowerIndex k.n k.v x + 1)) := by
  have := bisect_spec k.v x (k.n - 1) k.n.toNat 0 (k.n - 1) (by omega) le_rfl (by omega) h0 (Or.inl rfl)
  unfold cubicLowerIndex
  refine ⟨this.1, by omega, this.2.2⟩

/-- inside an interval the search finds it; at an interior knot it finds the interval to the right -/
theorem cubicLowerIndex_eq (k : RVec) (hk : Increasing k) (hn : 2 ≤ k.n) (x : ℝ) (i : Int) (h0 : 0 ≤ i)
    (h1 : i + 1 < k.n) (ha : k.v i ≤ x) (hb : x ≤ k.v (i + 1)) :
    cubicLowerIndex k.n k.v x = i ∨ (x = k.v (i + 1) ∧ cubicLowerIndex k.n k.v x = i + 1 ∧ i + 2 < k.n) := by
  have hx0 : k.v 0 ≤ x := (hk.le le_rfl h0 (by omega)).trans ha
  obtain ⟨c0, c1, c2, c3⟩ := cubicLowerIndex_spec k hn x hx0
  set c := cubicLowerIndex k.n k.v x with hc
  clear_value c
  by_cases hlt : c < i
  · exfalso
    rcases c3 with h | h
    · omega
    · have := hk.le (i := c + 1) (j := i) (by omega) (by omega) (by omega)
      linarith
  · by_cases hgt : i < c
    · right
      have h2 := hk.le (i := i + 1) (j := c) (by omega) (by omega) (by omega)
      have hxe : x = k.v (i + 1) := le_antisymm hb (h2.trans c2)
      have hce : c = i + 1 := by
        by_contra hne
        have := hk (i + 1) c (by omega) (by omega) (by omega)
        linarith
      exact ⟨hxe, hce, by omega⟩
    · left; omega

/-! ## the pieces -/

/-- cubic on the interval `i` with end values `y`, second derivatives `z` -/
noncomputable def cPiece (k y : Int → ℝ) (z : Int → ℝ) (i : Int) (x : ℝ) : ℝ :=
  let h := k (i + 1) - k i
  let a := (k (i + 1) - x) / h
  let b := (x - k i) / h
  a * y i + b * y (i + 1) + ((a * a * a - a) * z i + (b * b * b - b) * z (i + 1)) * (h * h) / 6

theorem cPiece_left (k y z : Int → ℝ) (i : Int) (h : k (i + 1) - k i ≠ 0) : cPiece k y z i (k i) = y i := by
  unfold cPiece
  simp only [sub_self, zero_div, div_self h]
  ring

theorem cPiece_right (k y z : Int → ℝ) (i : Int) (h : k (i + 1) - k i ≠ 0) :
    cPiece k y z i (k (i + 1)) = y (i + 1) := by
  unfold cPiece
  simp only [sub_self, zero_div, div_self h]
  ring

/-- its derivative -/
noncomputable def cPiece' (k y z : Int → ℝ) (i : Int) (x : ℝ) : ℝ :=
  let h := k (i + 1) - k i
  let a := (k (i + 1) - x) / h
  let b := (x - k i) / h
  (y (i + 1) - y i) / h + ((1 - 3 * a ^ 2) * z i + (3 * b ^ 2 - 1) * z (i + 1)) * h / 6

/-- its second derivative -/
noncomputable def cPiece'' (k z : Int → ℝ) (i : Int) (x : ℝ) : ℝ :=
  let h := k (i + 1) - k i
  (k (i + 1) - x) / h * z i + (x - k i) / h * z (i + 1)

theorem cPiece_hasDerivAt (k y z : Int → ℝ) (i : Int) (h : k (i + 1) - k i ≠ 0) (x : ℝ) :
    HasDerivAt (cPiece k y z i) (cPiece' k y z i x) x := by
  unfold cPiece cPiece'
  set hh := k (i + 1) - k i
  have ha : HasDerivAt (fun x => (k (i + 1) - x) / hh) (-1 / hh) x :=
    ((hasDerivAt_id x).const_sub (k (i + 1))).div_const hh
  have hb : HasDerivAt (fun x => (x - k i) / hh) (1 / hh) x :=
    ((hasDerivAt_id x).sub_const (k i)).div_const hh
  have h1 := (((ha.fun_mul ha).fun_mul ha).fun_sub ha).mul_const (z i)
  have h2 := (((hb.fun_mul hb).fun_mul hb).fun_sub hb).mul_const (z (i + 1))
  have h3 := (((h1.fun_add h2).mul_const (hh * hh)).div_const 6)
  have h4 := ((ha.mul_const (y i)).fun_add (hb.mul_const (y (i + 1)))).fun_add h3
  refine h4.congr_deriv ?_
  field_simp
  ring

theorem cPiece'_hasDerivAt (k y z : Int → ℝ) (i : Int) (h : k (i + 1) - k i ≠ 0) (x : ℝ) :
    HasDerivAt (cPiece' k y z i) (cPiece'' k z i x) x := by
  unfold cPiece' cPiece''
  set hh := k (i + 1) - k i
  have ha : HasDerivAt (fun x => (k (i + 1) - x) / hh) (-1 / hh) x :=
    ((hasDerivAt_id x).const_sub (k (i + 1))).div_const hh
  have hb : HasDerivAt (fun x => (x - k i) / hh) (1 / hh) x :=
    ((hasDerivAt_id x).sub_const (k i)).div_const hh
  have h1 := (((ha.fun_pow 2).const_mul 3).const_sub 1).mul_const (z i)
  have h2 := (((hb.fun_pow 2).const_mul 3).sub_const 1).mul_const (z (i + 1))
  have h4 := (((h1.fun_add h2).mul_const hh).div_const 6).const_add ((y (i + 1) - y i) / hh)
  refine h4.congr_deriv ?_
  norm_num
  field_simp
  ring

/-- the integral over a part of the interval `i`, 962-967 -/
noncomputable def cInt (k y z : Int → ℝ) (i : Int) (x : ℝ) : ℝ :=
  let h := k (i + 1) - k i
  let dx := x - k i
  let dya := y (i + 1) - y i
  let dy2a := z (i + 1) - z i
  y i * dx + (1 / 2) * dya * dx * dx / h + z i * dx * dx * (2 * dx - 3 * h) / 12 +
    dy2a * dx * dx * (dx * dx - 2 * h * h) / (h * 24)

theorem cInt_hasDerivAt (k y z : Int → ℝ) (i : Int) (h : k (i + 1) - k i ≠ 0) (x : ℝ) :
    HasDerivAt (cInt k y z i) (cPiece k y z i x) x := by
  have hxe : k (i + 1) = k i + (k (i + 1) - k i) := by ring
  unfold cInt cPiece
  set hh := k (i + 1) - k i with hhh
  have hb : HasDerivAt (fun x => x - k i) 1 x := (hasDerivAt_id x).sub_const (k i)
  have h1 := hb.const_mul (y i)
  have h2 := ((hb.const_mul ((1 / 2) * (y (i + 1) - y i))).fun_mul hb).div_const hh
  have h3 := (((hb.const_mul (z i)).fun_mul hb).fun_mul ((hb.const_mul 2).sub_const (3 * hh))).div_const 12
  have h4 := (((hb.const_mul (z (i + 1) - z i)).fun_mul hb).fun_mul
    ((hb.fun_mul hb).sub_const (2 * hh * hh))).div_const (hh * 24)
  have h5 := ((h1.fun_add h2).fun_add h3).fun_add h4
  refine h5.congr_deriv ?_
  rw [hxe]
  field_simp
  ring

theorem cInt_right (k y z : Int → ℝ) (i : Int) (h : k (i + 1) - k i ≠ 0) :
    cInt k y z i (k (i + 1)) = (1 / 2) * (k (i + 1) - k i) * (y (i + 1) + y i) -
      ((k (i + 1) - k i) * (k (i + 1) - k i) * (k (i + 1) - k i)) * (z (i + 1) + z i) / 24 := by
  unfold cInt
  dsimp only
  set hh := k (i + 1) - k i
  field_simp
  ring

theorem cInt_left (k y z : Int → ℝ) (i : Int) : cInt k y z i (k i) = 0 := by
  unfold cInt; simp

/-! ## the second derivatives -/

/-- right-hand side of the spline system -/
noncomputable def splineRhs (xa ya : Int → ℝ) (i : Int) : ℝ :=
  6 * ((ya (i + 1) - ya i) / (xa (i + 1) - xa i) - (ya i - ya (i - 1)) / (xa i - xa (i - 1))) /
    (xa (i + 1) - xa (i - 1))

noncomputable def sigma (xa : Int → ℝ) (i : Int) : ℝ := (xa i - xa (i - 1)) / (xa (i + 1) - xa (i - 1))

/-- invariant of the forward elimination -/
theorem forward_inv (k y : RVec) (hk : Increasing k) (hn : 4 ≤ k.n) (s0 : (Int → ℝ) × (Int → ℝ))
    (h0 : s0.1 0 = -1 / 2) :
    let s := forRange 1 (k.n - 1) (cubicForward k.v y.v) s0
    s.1 0 = -1 / 2 ∧ s.2 0 = s0.2 0 ∧ (∀ i, 0 ≤ i → i < k.n - 1 → -1 < s.1 i ∧ s.1 i < 0) ∧
    ∀ i, 1 ≤ i → i < k.n - 1 →
      (sigma k.v i * s.1 (i - 1) + 2) * s.1 i = sigma k.v i - 1 ∧
      (sigma k.v i * s.1 (i - 1) + 2) * s.2 i = splineRhs k.v y.v i - sigma k.v i * s.2 (i - 1) := by
  refine forRange_inv (lo := 1) (hi := k.n - 1) (by omega) (cubicForward k.v y.v) s0
    (fun m (s : (Int → ℝ) × (Int → ℝ)) => s.1 0 = -1 / 2 ∧ s.2 0 = s0.2 0 ∧
      (∀ i, 0 ≤ i → i < m → -1 < s.1 i ∧ s.1 i < 0) ∧
      ∀ i, 1 ≤ i → i < m →
      (sigma k.v i * s.1 (i - 1) + 2) * s.1 i = sigma k.v i - 1 ∧
      (sigma k.v i * s.1 (i - 1) + 2) * s.2 i = splineRhs k.v y.v i - sigma k.v i * s.2 (i - 1)) ?_ ?_
  · refine ⟨h0, rfl, ?_, fun i a b => by omega⟩
    intro i a b
    have : i = 0 := by omega
    subst this
    rw [h0]; norm_num
  · rintro m ⟨a, u⟩ hm1 hm2 ⟨i1, i2, i3, i4⟩
    dsimp only at i1 i2 i3 i4
    have e1 := hk (m - 1) m (by omega) (by omega) (by omega)
    have e2 := hk m (m + 1) (by omega) (by omega) (by omega)
    have hs0 : 0 < sigma k.v m := by
      unfold sigma; apply div_pos <;> linarith
    have hs1 : sigma k.v m < 1 := by
      unfold sigma; rw [div_lt_one (by linarith)]; linarith
    obtain ⟨b1, b2⟩ := i3 (m - 1) (by omega) (by omega)
    have hp : 1 < sigma k.v m * a (m - 1) + 2 := by nlinarith
    have hp2 : sigma k.v m * a (m - 1) + 2 < 2 := by nlinarith
    have hm0 : m ≠ 0 := by omega
    have hform : cubicForward k.v y.v m (a, u) =
      (upd a m ((sigma k.v m - 1) / (sigma k.v m * a (m - 1) + 2)),
       upd u m ((splineRhs k.v y.v m - sigma k.v m * u (m - 1)) / (sigma k.v m * a (m - 1) + 2))) := rfl
    rw [hform]
    dsimp only
    refine ⟨by rw [upd_ne _ _ hm0.symm]; exact i1, by rw [upd_ne _ _ hm0.symm]; exact i2, ?_, ?_⟩
    · intro i c1 c2
      by_cases hi : i = m
      · subst hi
        rw [upd_same]
        constructor
        · rw [lt_div_iff₀ (by linarith)]; linarith
        · exact div_neg_of_neg_of_pos (by linarith) (by linarith)
      · rw [upd_ne _ _ hi]; exact i3 i c1 (by omega)
    · intro i c1 c2
      by_cases hi : i = m
      · subst hi
        rw [upd_same, upd_same, upd_ne _ _ (show i - 1 ≠ i by omega), upd_ne _ _ (show i - 1 ≠ i by omega)]
        constructor <;> field_simp
      · rw [upd_ne _ _ hi, upd_ne _ _ hi, upd_ne _ _ (show i - 1 ≠ m by omega),
          upd_ne _ _ (show i - 1 ≠ m by omega)]
        exact i4 i c1 (by omega)

/-- the back substitution -/
theorem back_inv (n : Int) (hn : 1 ≤ n) (u y0 : Int → ℝ) :
    let z := forRangeRev 0 (n - 1) (fun j (y2 : Int → ℝ) => upd y2 j (y2 j * y2 (j + 1) + u j)) y0
    z (n - 1) = y0 (n - 1) ∧ ∀ j, 0 ≤ j → j < n - 1 → z j = y0 j * z (j + 1) + u j := by
  have := forRangeRev_inv (lo := 0) (hi := n - 1) (by omega)
    (fun j (y2 : Int → ℝ) => upd y2 j (y2 j * y2 (j + 1) + u j)) y0
    (fun m (z : Int → ℝ) => (∀ j, j < m → z j = y0 j) ∧ z (n - 1) = y0 (n - 1) ∧
      ∀ j, m ≤ j → j < n - 1 → z j = y0 j * z (j + 1) + u j) ⟨fun _ _ => rfl, rfl, fun j a b => by omega⟩ (by
        intro m z hm1 hm2 ⟨i1, i2, i3⟩
        refine ⟨fun j hj => by rw [upd_ne _ _ (by omega)]; exact i1 j (by omega),
          by rw [upd_ne _ _ (by omega)]; exact i2, fun j a b => ?_⟩
        by_cases hj : j = m
        · subst hj
          rw [upd_same, upd_ne _ _ (by omega), i1 j (by omega)]
        · rw [upd_ne _ _ hj, upd_ne _ _ (by omega)]
          exact i3 j (by omega) b)
  exact ⟨this.2.1, this.2.2⟩

/-- the second derivatives solve the spline system with the two end conditions -/
theorem buildCubic_system (k y : RVec) (hk : Increasing k) (hn : 4 ≤ k.n) :
    let z := buildCubic k.n k.v y.v
    2 * z 0 + z 1 = 6 / (k.v 1 - k.v 0) * ((y.v 1 - y.v 0) / (k.v 1 - k.v 0) - yp1 k.v y.v) ∧
    (∀ i, 1 ≤ i → i < k.n - 1 →
      sigma k.v i * z (i - 1) + 2 * z i + (1 - sigma k.v i) * z (i + 1) = splineRhs k.v y.v i) ∧
    z (k.n - 2) + 2 * z (k.n - 1) = 6 / (k.v (k.n - 1) - k.v (k.n - 2)) *
      (ypn k.n k.v y.v - (y.v (k.n - 1) - y.v (k.n - 2)) / (k.v (k.n - 1) - k.v (k.n - 2))) := by
  set s0 : (Int → ℝ) × (Int → ℝ) := (upd (fun _ => 0) 0 (-1 / 2),
    upd (fun _ => 0) 0 ((3 / (k.v 1 - k.v 0)) * ((y.v 1 - y.v 0) / (k.v 1 - k.v 0) - yp1 k.v y.v))) with hs0
  obtain ⟨f1, f2, f3, f4⟩ := forward_inv k y hk hn s0 (by rw [hs0]; simp)
  set s := forRange 1 (k.n - 1) (cubicForward k.v y.v) s0 with hs
  set un := (3 / (k.v (k.n - 1) - k.v (k.n - 2))) *
      (ypn k.n k.v y.v - (y.v (k.n - 1) - y.v (k.n - 2)) / (k.v (k.n - 1) - k.v (k.n - 2))) with hun
  set y0 := upd s.1 (k.n - 1) ((un - 1 / 2 * s.2 (k.n - 2)) / (1 / 2 * s.1 (k.n - 2) + 1)) with hy0
  obtain ⟨b1, b2⟩ := back_inv k.n (by omega) s.2 y0
  have hz : buildCubic k.n k.v y.v =
      forRangeRev 0 (k.n - 1) (fun j (y2 : Int → ℝ) => upd y2 j (y2 j * y2 (j + 1) + s.2 j)) y0 := rfl
  rw [← hz] at b1 b2
  set z := buildCubic k.n k.v y.v
  clear_value z
  have hy0s : ∀ j, j < k.n - 1 → y0 j = s.1 j := fun j hj => by rw [hy0, upd_ne _ _ (by omega)]
  have hy0n : y0 (k.n - 1) = (un - 1 / 2 * s.2 (k.n - 2)) / (1 / 2 * s.1 (k.n - 2) + 1) := by rw [hy0, upd_same]
  clear_value y0 s un s0
  dsimp only
  refine ⟨?_, ?_, ?_⟩
  · have := b2 0 le_rfl (by omega)
    rw [hy0s 0 (by omega), f1, f2, hs0] at this
    simp only [upd_same, zero_add] at this
    rw [this]; ring
  · intro i h1 h2
    obtain ⟨g1, g2⟩ := f4 i h1 h2
    have z1 := b2 i (by omega) h2
    have z0 := b2 (i - 1) (by omega) (by omega)
    rw [hy0s _ (by omega)] at z1 z0
    rw [sub_add_cancel] at z0
    rw [z0]
    have : (sigma k.v i * s.1 (i - 1) + 2) * z i = (sigma k.v i - 1) * z (i + 1) +
        (splineRhs k.v y.v i - sigma k.v i * s.2 (i - 1)) := by
      rw [z1, mul_add, ← mul_assoc, g1, g2]
    linarith
  · have z1 := b2 (k.n - 2) (by omega) (by omega)
    rw [hy0s _ (by omega), show k.n - 2 + 1 = k.n - 1 by ring] at z1
    obtain ⟨c1, c2⟩ := f3 (k.n - 2) (by omega) (by omega)
    have hd : (1 / 2 * s.1 (k.n - 2) + 1) ≠ 0 := by linarith
    rw [hy0n, eq_div_iff hd] at b1
    have : un = 1 / 2 * z (k.n - 2) + z (k.n - 1) := by rw [z1]; linarith
    rw [hun] at this
    have e : 6 / (k.v (k.n - 1) - k.v (k.n - 2)) = 2 * (3 / (k.v (k.n - 1) - k.v (k.n - 2))) := by ring
    rw [e, mul_assoc, this]; ring

end Verif.Profiles
