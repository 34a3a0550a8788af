import Verif.Nestor.Integrals
import Verif.Nestor.Vacuum
import Verif.Nestor.SurfSpec

/-! # The magnetic field of a straight segment (Biot-Savart) -/
namespace Verif.Nestor
open Verif Real intervalIntegral

/-- `∫ 1 / √Q³` over `[0, 1]` for `Q = A t² + 2 d t + B` -/
theorem cube_int {A d B : ℝ} (h : Pos A d B) :
    ∫ t in (0 : ℝ)..1, 1 / √(quad A d B t) ^ 3 = ((A + d) / √(A + 2 * d + B) - d / √B) / (A * B - d ^ 2) := by
  have hD := h.disc
  have F : ∀ t ∈ Set.uIcc (0 : ℝ) 1, HasDerivAt (fun t => (A * t + d) / √(quad A d B t) / (A * B - d ^ 2)) (1 / √(quad A d B t) ^ 3) t := by
    intro t _
    have hp := h.sqrt_pos t
    have hs : √(quad A d B t) ^ 2 = quad A d B t := Real.sq_sqrt (h.quad_pos t).le
    have h1 : HasDerivAt (fun t : ℝ => A * t + d) A t := by
      simpa using ((hasDerivAt_id t).const_mul A).add_const d
    refine ((h1.div (h.hasDerivAt_sqrt t) hp.ne').div_const _).congr_deriv ?_
    have hd' : A * B - d ^ 2 ≠ 0 := hD.ne'
    field_simp
    rw [hs]
    unfold quad
    ring
  have hc : Continuous fun t => 1 / √(quad A d B t) ^ 3 := by
    refine Continuous.div continuous_const ((Pos.continuous_quad.sqrt).pow 3) fun t => (pow_pos (h.sqrt_pos t) 3).ne'
  rw [integral_eq_sub_of_hasDerivAt F (hc.intervalIntegrable _ _)]
  unfold quad
  simp only [mul_one, one_pow, mul_zero, ne_eq, OfNat.ofNat_ne_zero, not_false_eq_true, zero_pow, zero_add]
  ring


/-- integral of a curve -/
noncomputable def V3.integral (f : ℝ → V3) : V3 := ⟨∫ t in (0 : ℝ)..1, (f t).x, ∫ t in (0 : ℝ)..1, (f t).y, ∫ t in (0 : ℝ)..1, (f t).z⟩

/-- point of the segment from `a` to `b` -/
noncomputable def seg (a b : V3) (t : ℝ) : V3 := a.add ((b.sub a).smul t)

/-- law of Biot and Savart for a current along the segment: `μ₀ I / 4π ∫ dl × (P - γ) / |P - γ|³` with `μ₀ / 4π = 10⁻⁷` -/
noncomputable def biotSavart (current : ℝ) (a b P : V3) : V3 :=
  (V3.integral fun t => ((V3.deriv (seg a b) t).cross (P.sub (seg a b t))).smul (1 / (P.sub (seg a b t)).norm ^ 3)).smul (1e-7 * current)

theorem deriv_seg (a b : V3) (t : ℝ) : V3.deriv (seg a b) t = b.sub a := by
  have h (u v : ℝ) : deriv (fun t : ℝ => u + t * v) t = v := by
    have : HasDerivAt (fun t : ℝ => u + t * v) (1 * v) t := ((hasDerivAt_id t).mul_const v).const_add u
    rw [this.deriv, one_mul]
  unfold V3.deriv seg V3.add V3.smul V3.sub
  ext
  · exact h _ _
  · exact h _ _
  · exact h _ _

/-- algebra of the Hanson-Hirshman formula -/
theorem hanson_hirshman {A d B ri rf : ℝ} (h : Pos A d B) (hi : 0 < ri) (hf : 0 < rf) (ei : ri ^ 2 = B) (ef : rf ^ 2 = A + 2 * d + B) :
    2 * (ri + rf) / (ri * rf * ((ri + rf) * (ri + rf) - A)) = ((A + d) / rf - d / ri) / (A * B - d ^ 2) := by
  have hD := h.disc
  have hw : 0 < ri * rf + (B + d) := by
    by_contra hn
    have h1 : ri * rf ≤ -(B + d) := by linarith
    have h2 : (ri * rf) ^ 2 ≤ (B + d) ^ 2 := by
      have := pow_le_pow_left₀ (mul_pos hi hf).le h1 2
      nlinarith
    have h3 : (ri * rf) ^ 2 = B * (A + 2 * d + B) := by rw [mul_pow, ei, ef]
    nlinarith
  have e : (ri + rf) * (ri + rf) - A = 2 * (ri * rf + (B + d)) := by linear_combination ei + ef
  rw [e]
  rw [div_sub_div _ _ hf.ne' hi.ne', div_div, div_eq_div_iff (by positivity) (by positivity)]
  have key : ((A + d) * ri - rf * d) * (ri * rf + (B + d)) = (ri + rf) * (A * B - d ^ 2) := by
    have e1 : ri * ri = B := by rw [← ei]; ring
    have e2 : rf * rf = A + 2 * d + B := by rw [← ef]; ring
    linear_combination ((A + d) * rf) * e1 - d * ri * e2
  linear_combination (-2 * ri * rf) * key

/-- a point off the line through the segment -/
theorem segmentField_off (current : ℝ) (a b P : V3) (h : (b.sub a).cross (P.sub a) ≠ ⟨0, 0, 0⟩) : segmentField current a b P = biotSavart current a b P := by
  set L := b.sub a with hL
  set r := P.sub a with hr
  have lag : L.dot L * r.dot r - (-(L.dot r)) ^ 2 = (L.cross r).dot (L.cross r) := by unfold V3.dot V3.cross; ring
  have hpos : 0 < (L.cross r).dot (L.cross r) := by
    rcases lt_or_eq_of_le (show 0 ≤ (L.cross r).dot (L.cross r) by unfold V3.dot; nlinarith [sq_nonneg (L.cross r).x, sq_nonneg (L.cross r).y, sq_nonneg (L.cross r).z]) with q | q
    · exact q
    · exfalso
      apply h
      unfold V3.dot at q
      ext <;> simp only [] <;> nlinarith [sq_nonneg (L.cross r).x, sq_nonneg (L.cross r).y, sq_nonneg (L.cross r).z]
  have h0 : 0 ≤ L.dot L := by unfold V3.dot; nlinarith [sq_nonneg L.x, sq_nonneg L.y, sq_nonneg L.z]
  have hp : Pos (L.dot L) (-(L.dot r)) (r.dot r) := by
    refine ⟨?_, by rw [lag]; exact hpos⟩
    rcases lt_or_eq_of_le h0 with q | q
    · exact q
    · exfalso
      rw [← q] at lag
      nlinarith [sq_nonneg (L.dot r)]
  have hB := hp.last
  have hE : 0 < L.dot L + 2 * (-(L.dot r)) + r.dot r := by
    have := hp.quad_pos 1
    unfold quad at this
    linarith
  have hh := hanson_hirshman hp (Real.sqrt_pos.2 hB) (Real.sqrt_pos.2 hE) (Real.sq_sqrt hB.le) (Real.sq_sqrt hE.le)
  rw [← cube_int hp] at hh
  have nrm (t : ℝ) : (P.sub (seg a b t)).norm = √(quad (L.dot L) (-(L.dot r)) (r.dot r) t) := by
    unfold V3.norm
    congr 1
    rw [hL, hr]
    unfold quad seg V3.dot V3.sub V3.add V3.smul
    ring
  have crs (t : ℝ) : (b.sub a).cross (P.sub (seg a b t)) = L.cross r := by
    rw [hL, hr]
    unfold seg V3.cross V3.sub V3.add V3.smul
    ext <;> (simp only []; ring)
  unfold biotSavart
  simp only [deriv_seg, crs, nrm]
  have int (x : ℝ) : ∫ t in (0 : ℝ)..1, 1 / √(quad (L.dot L) (-(L.dot r)) (r.dot r) t) ^ 3 * x
      = 2 * (√(r.dot r) + √(L.dot L + 2 * -(L.dot r) + r.dot r))
        / (√(r.dot r) * √(L.dot L + 2 * -(L.dot r) + r.dot r)
          * ((√(r.dot r) + √(L.dot L + 2 * -(L.dot r) + r.dot r)) * (√(r.dot r) + √(L.dot L + 2 * -(L.dot r) + r.dot r)) - L.dot L)) * x := by
    rw [integral_mul_const, hh]
  have e1 : √((b.x - a.x) * (b.x - a.x) + (b.y - a.y) * (b.y - a.y) + (b.z - a.z) * (b.z - a.z))
      * √((b.x - a.x) * (b.x - a.x) + (b.y - a.y) * (b.y - a.y) + (b.z - a.z) * (b.z - a.z)) = L.dot L := Real.mul_self_sqrt h0
  have e2 : √((P.x - a.x) * (P.x - a.x) + (P.y - a.y) * (P.y - a.y) + (P.z - a.z) * (P.z - a.z)) = √(r.dot r) := rfl
  have e3 : √((P.x - b.x) * (P.x - b.x) + (P.y - b.y) * (P.y - b.y) + (P.z - b.z) * (P.z - b.z)) = √(L.dot L + 2 * -(L.dot r) + r.dot r) := by
    congr 1
    rw [hL, hr]
    unfold V3.dot V3.sub
    ring
  unfold segmentField V3.integral
  simp only [e1, e2, e3]
  unfold V3.smul
  simp only [int]
  have m (x y z : ℝ) : 1e-7 * current * 2 * x / y * z = 1e-7 * current * (2 * x / y * z) := by ring
  simp only [m]
  rfl

/-- the point does not lie on the segment -/
def OffSegment (a b P : V3) : Prop := ∀ t, 0 ≤ t → t ≤ 1 → P ≠ seg a b t

theorem cross_zero {L r : V3} (hL : L ≠ ⟨0, 0, 0⟩) (h : L.cross r = ⟨0, 0, 0⟩) : ∃ t : ℝ, r = L.smul t := by
  have hx : L.y * r.z - L.z * r.y = 0 := congrArg V3.x h
  have hy : L.z * r.x - L.x * r.z = 0 := congrArg V3.y h
  have hz : L.x * r.y - L.y * r.x = 0 := congrArg V3.z h
  have hn : L.dot L ≠ 0 := by
    intro q
    apply hL
    unfold V3.dot at q
    ext <;> simp only [] <;> nlinarith [sq_nonneg L.x, sq_nonneg L.y, sq_nonneg L.z]
  refine ⟨L.dot r / L.dot L, ?_⟩
  unfold V3.smul
  ext
  · simp only []
    rw [div_mul_eq_mul_div, eq_div_iff hn]
    unfold V3.dot
    linear_combination L.z * hy - L.y * hz
  · simp only []
    rw [div_mul_eq_mul_div, eq_div_iff hn]
    unfold V3.dot
    linear_combination L.x * hz - L.z * hx
  · simp only []
    rw [div_mul_eq_mul_div, eq_div_iff hn]
    unfold V3.dot
    linear_combination L.y * hx - L.x * hy

theorem norm_eq_zero {a : V3} (h : a.norm = 0) : a = ⟨0, 0, 0⟩ := by
  have h0 : 0 ≤ a.dot a := by unfold V3.dot; nlinarith [sq_nonneg a.x, sq_nonneg a.y, sq_nonneg a.z]
  have q := (Real.sqrt_eq_zero h0).1 h
  unfold V3.dot at q
  ext <;> simp only [] <;> nlinarith [sq_nonneg a.x, sq_nonneg a.y, sq_nonneg a.z]

theorem sub_eq_zero' {a b : V3} (h : a.sub b = ⟨0, 0, 0⟩) : a = b := by
  have hx : a.x - b.x = 0 := congrArg V3.x h
  have hy : a.y - b.y = 0 := congrArg V3.y h
  have hz : a.z - b.z = 0 := congrArg V3.z h
  ext <;> linarith

theorem norm_smul (t : ℝ) (a : V3) : (a.smul t).norm = |t| * a.norm := by
  unfold V3.norm
  rw [show (a.smul t).dot (a.smul t) = t ^ 2 * a.dot a by unfold V3.smul V3.dot; ring, Real.sqrt_mul (sq_nonneg t), Real.sqrt_sq_eq_abs]

/-- off the segment no denominator of the code is zero -/
theorem segment_regular {a b P : V3} (h : OffSegment a b P) : 0 < (P.sub a).norm ∧ 0 < (P.sub b).norm ∧
    0 < ((P.sub a).norm + (P.sub b).norm) ^ 2 - (b.sub a).norm ^ 2 := by
  have ha : P ≠ a := by
    have := h 0 le_rfl zero_le_one
    unfold seg V3.add V3.smul V3.sub at this
    simpa using this
  have hb : P ≠ b := by
    have := h 1 zero_le_one le_rfl
    unfold seg V3.add V3.smul V3.sub at this
    simpa using this
  have pa : 0 < (P.sub a).norm := lt_of_le_of_ne (Real.sqrt_nonneg _) fun e => ha (sub_eq_zero' (norm_eq_zero e.symm))
  have pb : 0 < (P.sub b).norm := lt_of_le_of_ne (Real.sqrt_nonneg _) fun e => hb (sub_eq_zero' (norm_eq_zero e.symm))
  refine ⟨pa, pb, ?_⟩
  set L := b.sub a with hL
  set r := P.sub a with hr
  have sa : r.norm ^ 2 = r.dot r := Real.sq_sqrt (by unfold V3.dot; nlinarith [sq_nonneg r.x, sq_nonneg r.y, sq_nonneg r.z])
  have sb : (P.sub b).norm ^ 2 = L.dot L - 2 * L.dot r + r.dot r := by
    unfold V3.norm
    rw [Real.sq_sqrt (by unfold V3.dot; nlinarith [sq_nonneg (P.sub b).x, sq_nonneg (P.sub b).y, sq_nonneg (P.sub b).z]), hL, hr]
    unfold V3.dot V3.sub
    ring
  have sl : L.norm ^ 2 = L.dot L := Real.sq_sqrt (by unfold V3.dot; nlinarith [sq_nonneg L.x, sq_nonneg L.y, sq_nonneg L.z])
  by_cases hc : L.cross r = ⟨0, 0, 0⟩
  · by_cases hz : L = ⟨0, 0, 0⟩
    · have : L.norm = 0 := by rw [hz]; unfold V3.norm V3.dot; simp
      rw [this]
      nlinarith
    · obtain ⟨t, ht⟩ := cross_zero hz hc
      have hn : 0 < L.norm := lt_of_le_of_ne (Real.sqrt_nonneg _) fun e => hz (norm_eq_zero e.symm)
      have eb : P.sub b = L.smul (t - 1) := by
        have hx := congrArg V3.x ht
        have hy := congrArg V3.y ht
        have hz := congrArg V3.z ht
        rw [hr, hL] at *
        unfold V3.sub V3.smul at *
        simp only [] at *
        ext <;> simp only [] <;> linarith
      rw [eb, ht, norm_smul, norm_smul, ← add_mul, mul_pow]
      have out : t < 0 ∨ 1 < t := by
        by_contra q
        push Not at q
        apply h t q.1 q.2
        have hx := congrArg V3.x ht
        have hy := congrArg V3.y ht
        have hz := congrArg V3.z ht
        rw [hr, hL] at *
        unfold seg V3.add
        unfold V3.sub V3.smul at *
        simp only [] at *
        ext <;> simp only [] <;> linarith
      have : 1 < |t| + |t - 1| := by
        rcases out with q | q
        · rw [abs_of_neg q, abs_of_neg (by linarith)]; linarith
        · rw [abs_of_pos (by linarith), abs_of_pos (by linarith)]; linarith
      have h2 : 1 < (|t| + |t - 1|) ^ 2 := by nlinarith
      have h3 : 0 < L.norm ^ 2 := by positivity
      nlinarith [mul_lt_mul_of_pos_right h2 h3]
  · have lag : L.dot L * r.dot r - (L.dot r) ^ 2 = (L.cross r).dot (L.cross r) := by unfold V3.dot V3.cross; ring
    have hpos : 0 < (L.cross r).dot (L.cross r) := by
      rcases lt_or_eq_of_le (show 0 ≤ (L.cross r).dot (L.cross r) by unfold V3.dot; nlinarith [sq_nonneg (L.cross r).x, sq_nonneg (L.cross r).y, sq_nonneg (L.cross r).z]) with q | q
      · exact q
      · exfalso
        apply hc
        unfold V3.dot at q
        ext <;> simp only [] <;> nlinarith [sq_nonneg (L.cross r).x, sq_nonneg (L.cross r).y, sq_nonneg (L.cross r).z]
    have hw : 0 < r.norm * (P.sub b).norm + (r.dot r - L.dot r) := by
      by_contra hn
      have h1 : r.norm * (P.sub b).norm ≤ -(r.dot r - L.dot r) := by linarith
      have h2 := pow_le_pow_left₀ (mul_pos pa pb).le h1 2
      rw [mul_pow, sa, sb] at h2
      have e : r.dot r * (L.dot L - 2 * L.dot r + r.dot r) - (-(r.dot r - L.dot r)) ^ 2 = L.dot L * r.dot r - (L.dot r) ^ 2 := by ring
      linarith
    have e : (r.norm + (P.sub b).norm) ^ 2 - L.norm ^ 2 = 2 * (r.norm * (P.sub b).norm + (r.dot r - L.dot r)) := by linear_combination sa + sb - sl
    rw [e]
    positivity

/-- Off the segment the formula of the code is the law of Biot and Savart. -/
theorem segmentField_eq (current : ℝ) {a b P : V3} (h : OffSegment a b P) : segmentField current a b P = biotSavart current a b P := by
  by_cases hc : (b.sub a).cross (P.sub a) = ⟨0, 0, 0⟩
  · have hx : (b.y - a.y) * (P.z - a.z) - (b.z - a.z) * (P.y - a.y) = 0 := congrArg V3.x hc
    have hy : (b.z - a.z) * (P.x - a.x) - (b.x - a.x) * (P.z - a.z) = 0 := congrArg V3.y hc
    have hz : (b.x - a.x) * (P.y - a.y) - (b.y - a.y) * (P.x - a.x) = 0 := congrArg V3.z hc
    have crs (t : ℝ) : (b.sub a).cross (P.sub (seg a b t)) = ⟨0, 0, 0⟩ := by
      rw [← hc]
      unfold seg V3.cross V3.sub V3.add V3.smul
      ext <;> (simp only []; ring)
    unfold segmentField biotSavart V3.integral
    simp only [deriv_seg, crs, hx, hy, hz]
    unfold V3.smul
    simp
  · exact segmentField_off current a b P hc

end Verif.Nestor
