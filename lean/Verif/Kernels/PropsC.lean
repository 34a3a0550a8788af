import Verif.Kernels.PropsB

/-!
# C62: the lambda force and the gradient of the magnetic energy with respect to lambda
-/
namespace Verif.Kernels
open Verif Verif.Partition Finset

variable {c : Ctx} {P : Prof} {X : Int → Int → Geo}

/-- displacement of the derivatives of lambda, the geometry stays -/
noncomputable def Spec.moveL (g d : Geo) (eps : ℝ) : Geo :=
  { g with lu_e := g.lu_e + eps * d.lu_e, lu_o := g.lu_o + eps * d.lu_o, lv_e := g.lv_e + eps * d.lv_e,
           lv_o := g.lv_o + eps * d.lv_o }

/-- power of a lambda force along a displacement -/
noncomputable def Spec.powerL (lthreed : Bool) (f : Lam) (d : Geo) : ℝ :=
  f.blmn_e * d.lu_e + f.blmn_o * d.lu_o + if lthreed then f.clmn_e * d.lv_e + f.clmn_o * d.lv_o else 0

/-- fluxes of a half-grid point for given lambda and poloidal flux -/
noncomputable def yOf (c : Ctx) (P : Prof) (Y : Int → Int → Geo) (h kl : Int) : ℝ :=
  Spec.mid (P.qH h) (geoOf c P Y h kl) (geoOf c P Y (h + 1) kl) Spec.Lu
noncomputable def xOf (c : Ctx) (P : Prof) (chip : Int → ℝ) (Y : Int → Int → Geo) (h kl : Int) : ℝ :=
  (if c.lthreed then Spec.mid (P.qH h) (geoOf c P Y h kl) (geoOf c P Y (h + 1) kl) Spec.Lv else 0) + chip h

theorem yOf_move (d : Int → Int → Geo) (h kl : Int) (e : ℝ) : yOf c P (fun j kl => Spec.moveL (X j kl) (d j kl) e) h kl =
    yOf c P X h kl + e * (c.lamscale * Spec.mid (P.qH h) (d h kl) (d (h + 1) kl) Spec.Lu) := by
  unfold yOf Spec.mid Spec.Lu geoOf lambdaPoint Spec.moveL
  cases c.lthreed
  · simp only [Bool.false_eq_true, if_false]; ring
  · simp only [if_true]; ring

theorem xOf_move (chip : Int → ℝ) (d : Int → Int → Geo) (h kl : Int) (e : ℝ) :
    xOf c P chip (fun j kl => Spec.moveL (X j kl) (d j kl) e) h kl = xOf c P chip X h kl +
      e * (if c.lthreed then c.lamscale * Spec.mid (P.qH h) (d h kl) (d (h + 1) kl) Spec.Lv else 0) := by
  unfold xOf Spec.mid Spec.Lv geoOf lambdaPoint Spec.moveL
  cases c.lthreed
  · simp only [Bool.false_eq_true, if_false]; ring
  · simp only [if_true]; ring

/-- the exact gradient with respect to lambda on surface `j` -/
noncomputable def Spec.lambdaGradient (ns : Int) (lamscale : ℝ) (H : Int → Half) (q : Int → ℝ) (j : Int) : Lam :=
  ⟨-lamscale * mean ns (fun h => (H h).bsubv) j, -lamscale * mean ns (fun h => q h * (H h).bsubv) j,
    -lamscale * mean ns (fun h => (H h).bsubu) j, -lamscale * mean ns (fun h => q h * (H h).bsubu) j⟩

theorem interval_lambda (h : Int)
    (hg : ∀ kl, 0 ≤ kl → kl < c.nZnT → Spec.gsqrt c.deltaS (P.qH h) (X h kl) (X (h + 1) kl) ≠ 0) (d : Int → Int → Geo) :
    HasDerivAt (fun e => Spec.integral c.nZnT (wt c) fun kl =>
        Spec.magnetic c.lthreed c.deltaS (P.qF h ^ 2) (P.qF (h + 1) ^ 2) (P.qH h) (X h kl) (X (h + 1) kl)
          (xOf c P (newChipOf c P X blank) (fun j kl => Spec.moveL (X j kl) (d j kl) e) h kl)
          (yOf c P (fun j kl => Spec.moveL (X j kl) (d j kl) e) h kl))
      (Spec.integral c.nZnT (wt c) fun kl => (torusHalf c P X h kl).bsubv * (c.lamscale * Spec.mid (P.qH h) (d h kl) (d (h + 1) kl) Spec.Lu) +
        if c.lthreed then (torusHalf c P X h kl).bsubu * (c.lamscale * Spec.mid (P.qH h) (d h kl) (d (h + 1) kl) Spec.Lv) else 0) 0 := by
  unfold Spec.integral
  refine HasDerivAt.fun_sum fun kl hkl => HasDerivAt.mul_const ?_ _
  rw [Finset.mem_Ico] at hkl
  have hgk := hg kl hkl.1 hkl.2
  obtain ⟨_, _, _, _, _, _, m7, m8, m9, m10⟩ := C61_metric (c := c) (P := P) (X := X) h kl
  obtain ⟨f1, f2, f3, f4, _⟩ := field_spec (c := c) (P := P) (X := X) h kl hgk
  have hy : yOf c P X h kl = (torusHalf c P X h kl).gsqrt * (torusHalf c P X h kl).bsupv := f1.symm
  have hx : xOf c P (newChipOf c P X blank) X h kl = (torusHalf c P X h kl).gsqrt * (torusHalf c P X h kl).bsupu := f2.symm
  have hg' : (torusHalf c P X h kl).gsqrt ≠ 0 := by rw [m7]; exact hgk
  simp only [xOf_move, yOf_move]
  rw [hx, hy, f3, f4]
  unfold Spec.magnetic
  rw [← m7, ← m8, ← m9, ← m10]
  generalize torusHalf c P X h kl = H at *
  generalize c.lamscale * Spec.mid (P.qH h) (d h kl) (d (h + 1) kl) Spec.Lu = b
  generalize c.lamscale * Spec.mid (P.qH h) (d h kl) (d (h + 1) kl) Spec.Lv = a
  refine hasDeriv_quad ((H.guu * (H.gsqrt * H.bsupu) ^ 2 + 2 * H.guv * (H.gsqrt * H.bsupu) * (H.gsqrt * H.bsupv) +
    H.gvv * (H.gsqrt * H.bsupv) ^ 2) / (2 * H.gsqrt)) _
    ((H.guu * (if c.lthreed then a else 0) ^ 2 + 2 * H.guv * (if c.lthreed then a else 0) * b + H.gvv * b ^ 2) / (2 * H.gsqrt))
    fun x => ?_
  cases c.lthreed
  · simp only [Bool.false_eq_true, if_false]; field_simp; ring
  · simp only [if_true]; field_simp; ring

/-- **C62**, gradient: moving lambda at fixed geometry and fixed poloidal and toroidal flux changes the energy by minus the
    power of `lambdaGradient` -/
theorem C62_gradient (hns : 1 ≤ c.ns)
    (hg : ∀ h kl, 0 ≤ h → h < c.ns - 1 → 0 ≤ kl → kl < c.nZnT → Spec.gsqrt c.deltaS (P.qH h) (X h kl) (X (h + 1) kl) ≠ 0)
    (d : Int → Int → Geo) :
    HasDerivAt (fun e => torusEnergy c P (xOf c P (newChipOf c P X blank) fun j kl => Spec.moveL (X j kl) (d j kl) e)
        (yOf c P fun j kl => Spec.moveL (X j kl) (d j kl) e) X)
      (-(c.deltaS * c.signOfJacobian * ∑ j ∈ Ico 0 c.ns, Spec.integral c.nZnT (wt c) fun kl =>
        Spec.powerL c.lthreed (Spec.lambdaGradient c.ns c.lamscale (fun h => torusHalf c P X h kl) P.qH j) (d j kl))) 0 := by
  unfold torusEnergy Spec.energy
  have hs := HasDerivAt.fun_sum (u := Ico 0 (c.ns - 1)) fun h hh =>
    (((interval_lambda (c := c) (P := P) (X := X) h (fun kl k1 k2 => by
      rw [Finset.mem_Ico] at hh; exact hg h kl hh.1 hh.2 k1 k2) d).const_mul c.signOfJacobian).add_const
      (P.mass h * Spec.volume c.deltaS c.signOfJacobian c.nZnT (wt c) (P.qH h) (X h) (X (h + 1)) ^ (1 - c.adiabaticIndex) /
        (c.adiabaticIndex - 1))).const_mul c.deltaS
  refine hs.congr_deriv ?_
  simp only [← mul_assoc]
  rw [← Finset.mul_sum, ← mul_neg, ← Finset.sum_neg_distrib]
  congr 1
  obtain ⟨f, hf⟩ : ∃ f : Int → ℝ, f = fun h => Spec.integral c.nZnT (wt c) fun kl =>
      (torusHalf c P X h kl).bsubv * c.lamscale / 2 * ((d (h + 1) kl).lu_e + P.qH h * (d (h + 1) kl).lu_o) +
        if c.lthreed then (torusHalf c P X h kl).bsubu * c.lamscale / 2 * ((d (h + 1) kl).lv_e + P.qH h * (d (h + 1) kl).lv_o) else 0 :=
    ⟨_, rfl⟩
  obtain ⟨g, hg'⟩ : ∃ g : Int → ℝ, g = fun h => Spec.integral c.nZnT (wt c) fun kl =>
      (torusHalf c P X h kl).bsubv * c.lamscale / 2 * ((d h kl).lu_e + P.qH h * (d h kl).lu_o) +
        if c.lthreed then (torusHalf c P X h kl).bsubu * c.lamscale / 2 * ((d h kl).lv_e + P.qH h * (d h kl).lv_o) else 0 := ⟨_, rfl⟩
  have hj : ∀ j ∈ Ico 0 c.ns, -(Spec.integral c.nZnT (wt c) fun kl =>
        Spec.powerL c.lthreed (Spec.lambdaGradient c.ns c.lamscale (fun h => torusHalf c P X h kl) P.qH j) (d j kl)) =
      (if 0 < j then f (j - 1) else 0) + (if j < c.ns - 1 then g j else 0) := by
    intro j hj
    rw [Finset.mem_Ico] at hj
    rw [hf, hg']
    dsimp only
    rw [show j - 1 + 1 = j by omega]
    unfold Spec.integral Spec.powerL Spec.lambdaGradient
    simp only [mean_eq hj.1 hj.2]
    rw [← Finset.sum_neg_distrib]
    by_cases e : 0 < j <;> by_cases e' : j < c.ns - 1 <;>
      simp only [e, e', if_true, if_false, add_zero, zero_add, ← Finset.sum_add_distrib]
    all_goals first
      | (refine Finset.sum_congr rfl fun kl _ => ?_
         cases c.lthreed
         · simp only [Bool.false_eq_true, if_false]; ring
         · simp only [if_true]; ring)
      | (refine Finset.sum_eq_zero fun kl _ => ?_
         cases c.lthreed
         · simp only [Bool.false_eq_true, if_false]; ring
         · simp only [if_true]; ring)
  rw [Finset.sum_congr rfl hj, sum_ends c.ns f g hns, hf, hg']
  refine Finset.sum_congr rfl fun h _ => ?_
  unfold Spec.integral
  rw [← Finset.sum_add_distrib]
  refine Finset.sum_congr rfl fun kl _ => ?_
  unfold Spec.mid Spec.Lu Spec.Lv
  cases c.lthreed
  · simp only [Bool.false_eq_true, if_false]; ring
  · simp only [if_true]; ring

/-- **C62** (partial): off the axis and where the two interpolations of `B_v` are not blended the even part of the lambda
    force is that gradient. Missing: the odd part takes √s on the surface instead of the half-grid points, so it is the
    gradient only up to the discretisation error (`C62_odd_differs`), and the blending next to the axis. -/
theorem C62_even_partial (j kl : Int) (hj : 0 < j) (hb : P.blend j = 0) :
    (torusLambda c P X j kl).blmn_e = (Spec.lambdaGradient c.ns c.lamscale (fun h => torusHalf c P X h kl) P.qH j).blmn_e ∧
    (torusLambda c P X j kl).clmn_e = (Spec.lambdaGradient c.ns c.lamscale (fun h => torusHalf c P X h kl) P.qH j).clmn_e := by
  unfold torusLambda Spec.lambda Spec.lambdaGradient
  rw [hb]
  simp only [if_neg (show ¬ j = 0 by omega)]
  constructor
  · show -c.lamscale * ((1 - 0) * Spec.mean _ _ _ + 0 * _) = _
    ring
  · trivial

/-- bounds on the odd part: it is the gradient with the √s of the neighbours replaced by the one of the surface, so the
    two differ by at most half the spacing of √s times the field -/
theorem C62_odd_error (j kl : Int) (hj : 0 < j) (hj' : j < c.ns) (hb : P.blend j = 0) (δ B : ℝ)
    (hδ : ∀ h, h = j - 1 ∨ h = j → |P.qF j - P.qH h| ≤ δ) (hB : ∀ h, |(torusHalf c P X h kl).bsubv| ≤ B) :
    |(torusLambda c P X j kl).blmn_o - (Spec.lambdaGradient c.ns c.lamscale (fun h => torusHalf c P X h kl) P.qH j).blmn_o| ≤
      |c.lamscale| * δ * B := by
  have e : (torusLambda c P X j kl).blmn_o - (Spec.lambdaGradient c.ns c.lamscale (fun h => torusHalf c P X h kl) P.qH j).blmn_o =
      -c.lamscale * (((P.qF j - P.qH (j - 1)) * (torusHalf c P X (j - 1) kl).bsubv +
        (if j < c.ns - 1 then (P.qF j - P.qH j) * (torusHalf c P X j kl).bsubv else 0)) / 2) := by
    unfold torusLambda Spec.lambda Spec.lambdaGradient
    rw [hb]
    simp only [if_neg (show ¬ j = 0 by omega), mean_eq (le_of_lt hj) hj', if_pos hj]
    split <;> ring
  have hB0 : 0 ≤ B := le_trans (abs_nonneg _) (hB j)
  have hδ0 : 0 ≤ δ := le_trans (abs_nonneg _) (hδ j (Or.inr rfl))
  rw [e, abs_mul, abs_neg, mul_assoc]
  refine mul_le_mul_of_nonneg_left ?_ (abs_nonneg _)
  have t : ∀ h, h = j - 1 ∨ h = j → |(P.qF j - P.qH h) * (torusHalf c P X h kl).bsubv| ≤ δ * B := by
    intro h hh
    rw [abs_mul]
    exact mul_le_mul (hδ h hh) (hB h) (abs_nonneg _) hδ0
  rw [abs_div, abs_two, div_le_iff₀ two_pos]
  refine le_trans (abs_add_le _ _) ?_
  have t1 := t (j - 1) (Or.inl rfl)
  have t2 : |if j < c.ns - 1 then (P.qF j - P.qH j) * (torusHalf c P X j kl).bsubv else 0| ≤ δ * B := by
    split
    · exact t j (Or.inr rfl)
    · rw [abs_zero]; exact mul_nonneg hδ0 hB0
  linarith

/-- **C62** fails for the odd part: a uniform `B_v`, no blending, √s as `evalRadialProfiles` sets it (s = j/4 on the full,
    (h + 1/2)/4 on the half grid) -/
theorem C62_odd_differs (H : Int → Half) (hH : ∀ h, (H h).bsubv = 1) (X : Geo) :
    (Spec.lambda 5 true 1 H (fun h => Real.sqrt ((h + 1 / 2) / 4)) 1 X (Real.sqrt (1 / 4)) 0).blmn_o ≠
      (Spec.lambdaGradient 5 1 H (fun h => Real.sqrt ((h + 1 / 2) / 4)) 1).blmn_o := by
  unfold Spec.lambda Spec.lambdaGradient
  simp only [mean_eq (show (0 : Int) ≤ 1 by omega) (show (1 : Int) < 5 by omega), hH]
  have h1 : Real.sqrt (1 / 4) = 1 / 2 := by
    rw [show (1 / 4 : ℝ) = (1 / 2) ^ 2 by norm_num]; exact Real.sqrt_sq (by norm_num)
  obtain ⟨a, ha⟩ : ∃ a, a = Real.sqrt ((((1 - 1 : ℤ) : ℝ) + 1 / 2) / 4) := ⟨_, rfl⟩
  obtain ⟨b, hb⟩ : ∃ b, b = Real.sqrt ((((1 : ℤ) : ℝ) + 1 / 2) / 4) := ⟨_, rfl⟩
  have a2 : a * a = 1 / 8 := by rw [ha, Real.mul_self_sqrt (by norm_num)]; norm_num
  have b2 : b * b = 3 / 8 := by rw [hb, Real.mul_self_sqrt (by norm_num)]; norm_num
  rw [← ha, ← hb, h1]
  simp only [show ¬ (1 : Int) = 0 by omega, show (1 : Int) < 5 - 1 by omega, show (0 : Int) < 1 by omega, if_true, if_false]
  intro h
  have hab : a + b = 1 := by linarith
  have : a * b = 1 / 4 := by nlinarith
  nlinarith [mul_self_nonneg (a * b)]

example (d : Int → Int → Geo) :=
  C62_gradient (c := demo) (P := ringProf) (X := torus) (by simp [demo]) (fun h kl _ _ _ _ => (ring_gsqrt h kl).ne) d

end Verif.Kernels
