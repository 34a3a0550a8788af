import Verif.Nestor.Assembly
import Verif.Nestor.Line

/-!
# C73, C74: the singular integrals

What `RegularizedIntegrals` subtracts from the kernels, `SingularIntegrals` has to add back in closed form: for a point with
metric `(guu, guv, gvv)` the integral over the angles of the mode times `ga1 = 1 / √(guu tu² + guv tu tv + gvv tv²)`,
`tu = 2 tan(u/2)`, `tv = 2 tan(v/2)`. See DESIGN.md, F67: this is so for the modes with `m = 0` or `n = 0`, for the others the
sign of `guv` is reversed.
-/
namespace Verif.Nestor
open Verif Fourier Finset MeasureTheory

/-- **C73**: the coefficients `cmns` are those of the polynomial in `t` that the integral of the mode over the lines
    `tan(u/2) = (1-t) r`, `tan(v/2) = ±(1+t) r` is: `± = +` for the mode `m u - n v`; for the opposite sign the integral
    vanishes unless `m` or `n` is zero. -/
theorem C73_coefficients (nf mf : ℕ) (old : Int → ℝ) (n m : ℕ) (hn : n ≤ nf) (hm : m ≤ mf) {t : ℝ} (h1 : -1 < t) (h2 : t < 1) (h0 : t ≠ 0) :
    let poly := ∑ l ∈ range (mf + nf + 1), computeCmns nf mf (computeCmn nf mf) old (lnm nf mf l n m) * t ^ l
    (∫ r : ℝ, Real.cos (m * (2 * Real.arctan ((1 - t) * r)) - n * (2 * Real.arctan ((1 + t) * r)))
        / ((1 + ((1 - t) * r) ^ 2) * (1 + ((1 + t) * r) ^ 2)) = Real.pi / 2 * poly) ∧
    (∫ r : ℝ, Real.cos (m * (2 * Real.arctan ((1 - t) * r)) + n * (2 * Real.arctan ((1 + t) * r)))
        / ((1 + ((1 - t) * r) ^ 2) * (1 + ((1 + t) * r) ^ 2)) = if m = 0 ∨ n = 0 then Real.pi / 2 * poly else 0) := by
  intro poly
  have hp : poly = pmns m n t := cmns_poly nf mf old n m hn hm t
  have e1 := modeInt_minus h1 h2 h0 m n
  have e2 := modeInt_plus h1 h2 h0 m n
  unfold modeInt at e1 e2
  rw [hp]
  refine ⟨e1 ▸ integral_congr_ae (Filter.Eventually.of_forall fun r => ?_), e2⟩
  beta_reduce
  rw [neg_mul, Real.arctan_neg, neg_sq]
  congr 2
  ring

/-- C73: the mode `(1, 1)` at `t = 1/2` -/
example : pmns 1 1 (1 / 2) = 3 / 4 := by
  show (pmn (0 + 1) (0 + 1) _ + pmn (0 + 1) 0 _ + pmn 0 (0 + 1) _ + pmn 0 0 _) / 2 = _
  rw [pmn_succ, pmn_zero_right, pmn_zero_left, pmn_zero_right]; norm_num

namespace Ctx
variable {c : Ctx} {f : Int → Forms}

theorem cos_shift (a b g : ℝ) : Real.sin (a + b) * g = Real.cos (a - Real.pi / 2 + b) * g := by
  rw [show a - Real.pi / 2 + b = a + b - Real.pi / 2 by ring, Real.cos_sub_pi_div_two]

theorem sin_first (f : Forms) (h : f.Regular) (a : ℝ) (n m : Int) (hm : 0 ≤ m) (hnm : 0 ≤ n ∨ m ≠ 0) :
    angleInt (fun u v => Real.sin (a + (m * u - n * v)) * ga1 f u v) = 2 * Real.pi * Real.sin a * sel n m (tMinus f n m) (tPlus f n m) := by
  rw [← Real.cos_sub_pi_div_two a, ← angle_first h _ n m hm hnm]
  congr 1
  funext u v
  exact cos_shift _ _ _

theorem sin_second (f : Forms) (h : f.Regular) (a : ℝ) (n m : Int) (hm : 0 ≤ m) (hnm : 0 ≤ n ∨ m ≠ 0) :
    angleInt (fun u v => Real.sin (a + (m * u - n * v)) * (ga1 f u v * ga2 f u v))
      = 2 * Real.pi * Real.sin a * sel n m (sMinus f n m) (sPlus f n m) := by
  rw [← Real.cos_sub_pi_div_two a, ← angle_second h _ n m hm hnm]
  congr 1
  funext u v
  exact cos_shift _ _ _

/-- **C74** (right-hand side), as far as it holds: for any partition of the points over the threads, the elements of `bvec_sin`
    and `bvec_cos` are the sums over the thread's points of normal field, weight and the integral over the angles of the mode
    times the subtracted kernel `ga1`, divided by `2π`. For `m = 0` or `n = 0` the kernel is the one of the point; for the other
    modes the code integrates the kernel of the metric with the sign of `guv` reversed (`Forms.used`). -/
theorem C74_bvec_partial (g : c.Good) (p : c.Prepared f) (old : Arr) (n m : Int) (hn : |n| ≤ c.nf) (hm0 : 0 ≤ m) (hm1 : m ≤ c.mf)
    (hnm : 0 ≤ n ∨ m ≠ 0) :
    c.performUpdate old .bSin ((c.nf + n) * (c.mf + 1) + m)
      = ∑ kl ∈ Ico c.ztMin c.ztMax, c.bDotN (kl - c.ztMin) * Sizes.wInt c.s (kl / c.s.nZeta) *
        (angleInt (fun u v => Real.sin (m * (c.theta kl + u) - n * (c.zeta kl + v)) * ga1 ((f (kl - c.ztMin)).used n m) u v) / (2 * Real.pi)) ∧
    (c.s.lasym = true → c.performUpdate old .bCos ((c.nf + n) * (c.mf + 1) + m)
      = ∑ kl ∈ Ico c.ztMin c.ztMax, c.bDotN (kl - c.ztMin) * Sizes.wInt c.s (kl / c.s.nZeta) *
        (angleInt (fun u v => Real.cos (m * (c.theta kl + u) - n * (c.zeta kl + v)) * ga1 ((f (kl - c.ztMin)).used n m) u v) / (2 * Real.pi))) := by
  have hpi := Real.pi_ne_zero
  constructor
  · refine (bSin_eq g old n m hn hm0 hm1).trans (sum_congr rfl fun kl hk => ?_)
    rw [mem_Ico] at hk
    have hr := p.reg (kl - c.ztMin) (by omega) (by unfold numLocal; omega)
    rw [sumT g p n m hn hm0 hm1 (by omega) (by unfold numLocal; omega), ← used_first]
    have := sin_first _ (hr.used n m) (m * c.theta kl - n * c.zeta kl) n m hm0 hnm
    have e : (fun u v => Real.sin (m * (c.theta kl + u) - n * (c.zeta kl + v)) * ga1 ((f (kl - c.ztMin)).used n m) u v)
        = fun u v => Real.sin (m * c.theta kl - n * c.zeta kl + (m * u - n * v)) * ga1 ((f (kl - c.ztMin)).used n m) u v := by
      funext u v; congr 2; ring
    rw [e, this]
    unfold bw
    rw [(point g hk.1 hk.2).1]
    field_simp
  · intro hl
    refine (bCos_eq g hl old n m hn hm0 hm1).trans (sum_congr rfl fun kl hk => ?_)
    rw [mem_Ico] at hk
    have hr := p.reg (kl - c.ztMin) (by omega) (by unfold numLocal; omega)
    rw [sumT g p n m hn hm0 hm1 (by omega) (by unfold numLocal; omega), ← used_first]
    have := angle_first (hr.used n m) (m * c.theta kl - n * c.zeta kl) n m hm0 hnm
    have e : (fun u v => Real.cos (m * (c.theta kl + u) - n * (c.zeta kl + v)) * ga1 ((f (kl - c.ztMin)).used n m) u v)
        = fun u v => Real.cos (m * c.theta kl - n * c.zeta kl + (m * u - n * v)) * ga1 ((f (kl - c.ztMin)).used n m) u v := by
      funext u v; congr 2; ring
    rw [e, this]
    unfold bw
    rw [(point g hk.1 hk.2).1]
    field_simp

/-- **C74** (matrix), as far as it holds: in a full update the elements of `grpmn_sin` and `grpmn_cos` are the integrals of the
    mode times the subtracted kernel `ga1 ga2`, with the same reversal of the mixed coefficients for `m, n ≠ 0`. -/
theorem C74_grpmn_partial (g : c.Good) (p : c.Prepared f) (hf : c.fullUpdate = true) (old : Arr) (n m kl : Int) (hn : |n| ≤ c.nf) (hm0 : 0 ≤ m)
    (hm1 : m ≤ c.mf) (hnm : 0 ≤ n ∨ m ≠ 0) (hk : c.ztMin ≤ kl) (hk' : kl < c.ztMax) :
    c.performUpdate old .gSin (((c.nf + n) * (c.mf + 1) + m) * (c.ztMax - c.ztMin) + (kl - c.ztMin))
      = angleInt (fun u v => Real.sin (m * (c.theta kl + u) - n * (c.zeta kl + v)) *
        (ga1 ((f (kl - c.ztMin)).used n m) u v * ga2 ((f (kl - c.ztMin)).used n m) u v)) / (2 * Real.pi) ∧
    (c.s.lasym = true → c.performUpdate old .gCos (((c.nf + n) * (c.mf + 1) + m) * (c.ztMax - c.ztMin) + (kl - c.ztMin))
      = angleInt (fun u v => Real.cos (m * (c.theta kl + u) - n * (c.zeta kl + v)) *
        (ga1 ((f (kl - c.ztMin)).used n m) u v * ga2 ((f (kl - c.ztMin)).used n m) u v)) / (2 * Real.pi)) := by
  have hpi := Real.pi_ne_zero
  have hr := p.reg (kl - c.ztMin) (by omega) (by unfold numLocal; omega)
  constructor
  · refine (gSin_eq g hf old n m kl hn hm0 hm1 hk hk').trans ?_
    rw [sumS g p hf n m hn hm0 hm1 (by omega) (by unfold numLocal; omega), ← used_second]
    have := sin_second _ (hr.used n m) (m * c.theta kl - n * c.zeta kl) n m hm0 hnm
    have e : (fun u v => Real.sin (m * (c.theta kl + u) - n * (c.zeta kl + v)) *
          (ga1 ((f (kl - c.ztMin)).used n m) u v * ga2 ((f (kl - c.ztMin)).used n m) u v))
        = fun u v => Real.sin (m * c.theta kl - n * c.zeta kl + (m * u - n * v)) *
          (ga1 ((f (kl - c.ztMin)).used n m) u v * ga2 ((f (kl - c.ztMin)).used n m) u v) := by
      funext u v; congr 2; ring
    rw [e, this]
    field_simp
  · intro hl
    refine (gCos_eq g hf hl old n m kl hn hm0 hm1 hk hk').trans ?_
    rw [sumS g p hf n m hn hm0 hm1 (by omega) (by unfold numLocal; omega), ← used_second]
    have := angle_second (hr.used n m) (m * c.theta kl - n * c.zeta kl) n m hm0 hnm
    have e : (fun u v => Real.cos (m * (c.theta kl + u) - n * (c.zeta kl + v)) *
          (ga1 ((f (kl - c.ztMin)).used n m) u v * ga2 ((f (kl - c.ztMin)).used n m) u v))
        = fun u v => Real.cos (m * c.theta kl - n * c.zeta kl + (m * u - n * v)) *
          (ga1 ((f (kl - c.ztMin)).used n m) u v * ga2 ((f (kl - c.ztMin)).used n m) u v) := by
      funext u v; congr 2; ring
    rw [e, this]
    field_simp

/-- the modes `m = 0`, `n < 0`, which are not independent of those with `n > 0`, are left zero -/
theorem C74_redundant (g : c.Good) (old : Arr) (n : Int) (hn : |n| ≤ c.nf) (hneg : n < 0) :
    c.performUpdate old .bSin ((c.nf + n) * (c.mf + 1) + 0) = 0 := by
  refine (bSin_eq g old n 0 hn le_rfl g.mf0).trans (sum_eq_zero fun kl _ => ?_)
  have : ∀ p q, sel n 0 p q = 0 := by intro p q; unfold sel; rw [if_pos (Or.inl rfl), if_pos hneg]
  simp [this]

/-- **C74 fails** for the modes with `m, n ≠ 0`: a thread with one point, the point with both angles zero, of any regular metric
    with `guv > 0`: the coefficient `bvec_cos(m = 1, n = 1)` is not the integral of what was subtracted. -/
theorem C74_counterexample (g : c.Good) (p : c.Prepared f) (hl : c.s.lasym = true) (h0 : c.ztMin = 0) (h1 : c.ztMax = 1)
    (hn : 1 ≤ c.nf) (hm : 1 ≤ c.mf) (hb : 0 < (f 0).b2) (hB : 0 < c.bDotN 0 * Sizes.wInt c.s 0) (old : Arr) :
    c.performUpdate old .bCos ((c.nf + 1) * (c.mf + 1) + 1)
      > ∑ kl ∈ Ico c.ztMin c.ztMax, c.bDotN (kl - c.ztMin) * Sizes.wInt c.s (kl / c.s.nZeta) *
        (angleInt (fun u v => Real.cos ((1 : Int) * (c.theta kl + u) - (1 : Int) * (c.zeta kl + v)) * ga1 (f (kl - c.ztMin)) u v) / (2 * Real.pi)) := by
  have hr := p.reg 0 le_rfl (by unfold numLocal; omega)
  have hI : Ico c.ztMin c.ztMax = {0} := by rw [h0, h1]; rfl
  have hpi := Real.pi_pos
  have hc := bCos_eq g hl old 1 1 (by simpa using hn) (by omega) hm
  have ht : c.theta 0 = 0 := by unfold theta thetaGrid; simp
  have hz : c.zeta 0 = 0 := by unfold zeta zetaGrid; simp
  have ha := angle_first hr 0 1 1 (by omega) (Or.inl (by omega))
  have e : (fun u v => Real.cos ((1 : Int) * (c.theta 0 + u) - (1 : Int) * (c.zeta 0 + v)) * ga1 (f 0) u v)
      = fun u v => Real.cos (0 + ((1 : Int) * u - (1 : Int) * v)) * ga1 (f 0) u v := by
    funext u v; rw [ht, hz]; congr 2; ring
  have hs : ∀ p q, sel 1 1 p q = p := by intro p q; unfold sel; norm_num
  have hT := sumT g p 1 1 (by simpa using hn) (by omega) hm (i := 0) le_rfl (by unfold numLocal; omega)
  unfold posn at hc
  rw [hc, hI, sum_singleton, sum_singleton, h0, sub_zero, hT, hs, e, ha, hs, Real.cos_zero, ht, hz]
  unfold bw
  rw [h0, Int.zero_tdiv, Int.zero_ediv, sub_zero]
  simp only [mul_zero, sub_zero, Real.cos_zero, mul_one]
  rw [mul_div_cancel_left₀ _ (by positivity)]
  exact mul_lt_mul_of_pos_left (tMinus_lt hr hb) hB

/-- C74: a grid of 10 by 6 points, one thread, and a metric with `guv ≠ 0` -/
example : ∃ (c : Ctx) (f : Int → Forms), c.Good ∧ c.Prepared f ∧ c.s.lasym = true ∧ c.ztMin = 0 ∧ c.ztMax = 1 ∧ 1 ≤ c.nf ∧ 1 ≤ c.mf ∧
    0 < (f 0).b2 ∧ 0 < c.bDotN 0 * Sizes.wInt c.s 0 := by
  obtain ⟨s, hs⟩ : ∃ s, Sizes.mk true 5 2 1 0 0 0 0 = .ok s := ⟨_, rfl⟩
  have gg := goodGrid_of_mk hs
  have hs' : s.lasym = true ∧ 3 ≤ s.mnyq2 ∧ 1 ≤ s.nnyq2 ∧ s.nThetaEven = 10 ∧ s.nZeta = 6 ∧ s.nThetaReduced = 6 := by
    cases hs; decide
  obtain ⟨e1, e2, e3, e4, e5, e6⟩ := hs'
  let f : Forms := ⟨1, 1, 2, 1, 0, 1⟩
  refine ⟨{ s := s, nfp := 5, nf := 1, mf := 3, ztMin := 0, ztMax := 1, fullUpdate := true, bDotN := fun _ => 1,
            cmns := computeCmns 1 3 (computeCmn 1 3) fun _ => 0,
            pt := fun _ => preparePoint 1 3 true f ⟨⟨0, 0, 0, 0, 0, 0, 0, 0, 0, 0, 0, 0, 0, 0, 0⟩, fun _ => 0, fun _ => 0⟩ }, fun _ => f,
    ⟨gg, zero_le_one, e3, by norm_num, e2, le_rfl, zero_le_one, by simp only []; rw [e4, e5]; decide⟩,
    ⟨⟨_, rfl⟩, fun _ _ _ => ⟨by norm_num [f], by norm_num [f]⟩, fun _ _ _ => ⟨_, rfl⟩, fun _ _ _ => ?_, fun _ _ _ => ?_⟩, e1, rfl, rfl,
    le_rfl, by norm_num, by norm_num [f], ?_⟩
  · unfold useBackward
    rw [if_neg (by norm_num [f])]
    norm_num
  · unfold useBackward
    rw [if_pos (by norm_num [f])]
    simp only [f]
    have : Real.log ((1 + 1 + 2) / (1 - 1 + 2)) ≤ 1 := by
      have := Real.log_le_sub_one_of_pos (show (0 : ℝ) < (1 + 1 + 2) / (1 - 1 + 2) by norm_num)
      refine this.trans (by norm_num)
    push_cast
    linarith
  · simp only [Sizes.wInt]
    rw [e1, e4, e5, e6]
    norm_num

end Ctx
end Verif.Nestor
