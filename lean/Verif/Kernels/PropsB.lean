import Verif.Kernels.Variation

/-!
# C59 - C61: the forces are the gradient of the energy, the current constraint, the meaning of the half-grid quantities
-/
namespace Verif.Kernels
open Verif Verif.Partition Finset

variable {c : Ctx} {P : Prof} {X : Int → Int → Geo}

/-- the half-grid quantities of an evaluation at a point of the torus -/
noncomputable abbrev torusHalf (c : Ctx) (P : Prof) (X : Int → Int → Geo) (h kl : Int) : Half := halfOf c P X blank h kl

/-- `√g B^u`, `√g B^v` -/
noncomputable def fluxU (c : Ctx) (P : Prof) (X : Int → Int → Geo) (h kl : Int) : ℝ :=
  (torusHalf c P X h kl).gsqrt * (torusHalf c P X h kl).bsupu
noncomputable def fluxV (c : Ctx) (P : Prof) (X : Int → Int → Geo) (h kl : Int) : ℝ :=
  (torusHalf c P X h kl).gsqrt * (torusHalf c P X h kl).bsupv

/-! ## C61 -/

/-- **C61**: Jacobian and metric of a half-grid point are the averages of the products of the derivatives of
    `R = R_e + √s R_o`, `Z = Z_e + √s Z_o`, with the derivative of √s taken into account -/
theorem C61_metric (h kl : Int) :
    let H := torusHalf c P X h kl
    let i := X h kl
    let o := X (h + 1) kl
    let q := P.qH h
    H.r12 = Spec.mid q i o Spec.R ∧ H.ru12 = Spec.mid q i o Spec.Ru ∧ H.zu12 = Spec.mid q i o Spec.Zu ∧
    H.rs = Spec.ds c.deltaS q i o Spec.R ∧ H.zs = Spec.ds c.deltaS q i o Spec.Z ∧
    H.tau = Spec.tau c.deltaS q i o ∧ H.gsqrt = Spec.gsqrt c.deltaS q i o ∧
    H.guu = Spec.guu (P.qF h ^ 2) (P.qF (h + 1) ^ 2) q i o ∧
    H.guv = Spec.guv c.lthreed (P.qF h ^ 2) (P.qF (h + 1) ^ 2) q i o ∧
    H.gvv = Spec.gvv c.lthreed (P.qF h ^ 2) (P.qF (h + 1) ^ 2) q i o := by
  intro H i o q
  have eH : H = halfOf c P X blank h kl := rfl
  unfold halfOf fieldOf bcoPoint lamFieldOf bcontraPoint metricOf metricPoint jacobianPoint dSHalfDsInterp at eH
  dsimp only at eH
  unfold Spec.gsqrt Spec.tau Spec.guu Spec.guv Spec.gvv Spec.prod Spec.mid Spec.ds Spec.rootTerm Spec.R Spec.Z Spec.Ru Spec.Zu
    Spec.Rv Spec.Zv
  cases hl : c.lthreed
  · rw [hl] at eH
    simp only [Bool.false_eq_true, if_false] at eH ⊢
    rw [eH]
    refine ⟨?_, ?_, ?_, ?_, ?_, ?_, ?_, ?_, ?_, ?_⟩ <;> dsimp only [i, o, q, blank] <;> ring
  · rw [hl] at eH
    simp only [if_true] at eH ⊢
    rw [eH]
    refine ⟨?_, ?_, ?_, ?_, ?_, ?_, ?_, ?_, ?_, ?_⟩ <;> dsimp only [i, o, q] <;> ring

/-! ## the field -/

theorem field_spec (h kl : Int) (hg : Spec.gsqrt c.deltaS (P.qH h) (X h kl) (X (h + 1) kl) ≠ 0) :
    let H := torusHalf c P X h kl
    fluxV c P X h kl = Spec.mid (P.qH h) (geoOf c P X h kl) (geoOf c P X (h + 1) kl) Spec.Lu ∧
    fluxU c P X h kl = (if c.lthreed then Spec.mid (P.qH h) (geoOf c P X h kl) (geoOf c P X (h + 1) kl) Spec.Lv else 0) +
      newChipOf c P X blank h ∧
    H.bsubu = H.guu * H.bsupu + H.guv * H.bsupv ∧ H.bsubv = H.guv * H.bsupu + H.gvv * H.bsupv ∧
    H.totalPressure = (H.bsupu * H.bsubu + H.bsupv * H.bsubv) / 2 + presOf c P X blank h := by
  intro H
  obtain ⟨_, _, _, _, _, _, m7, _, m9, _⟩ := C61_metric (c := c) (P := P) (X := X) h kl
  have eg : (lamFieldOf c P X blank h kl).gsqrt = H.gsqrt := by
    show _ = (halfOf c P X blank h kl).gsqrt
    unfold halfOf fieldOf bcoPoint
    split <;> rfl
  have hg' : H.gsqrt ≠ 0 := by rw [m7]; exact hg
  have ev : (lamFieldOf c P X blank h kl).bsupv = Spec.mid (P.qH h) (geoOf c P X h kl) (geoOf c P X (h + 1) kl) Spec.Lu / H.gsqrt := by
    rw [← eg]
    unfold lamFieldOf bcontraPoint Spec.mid Spec.Lu
    dsimp only
    congr 1; ring
  have eu : (lamFieldOf c P X blank h kl).bsupu =
      (if c.lthreed then Spec.mid (P.qH h) (geoOf c P X h kl) (geoOf c P X (h + 1) kl) Spec.Lv else 0) / H.gsqrt := by
    rw [← eg]
    unfold lamFieldOf bcontraPoint Spec.mid Spec.Lv
    dsimp only
    split
    · congr 1; ring
    · rw [zero_div]
  have fu : H.bsupu = (lamFieldOf c P X blank h kl).bsupu + newChipOf c P X blank h / H.gsqrt := by
    rw [← eg]
    show (halfOf c P X blank h kl).bsupu = _
    unfold halfOf fieldOf bcoPoint
    split <;> rfl
  have fv : H.bsupv = (lamFieldOf c P X blank h kl).bsupv := by
    show (halfOf c P X blank h kl).bsupv = _
    unfold halfOf fieldOf bcoPoint
    split <;> rfl
  have m9' : ¬ c.lthreed → H.guv = 0 := by
    intro hl; rw [m9]; unfold Spec.guv; rw [if_neg hl]
  refine ⟨?_, ?_, ?_, ?_, ?_⟩
  · unfold fluxV
    show H.gsqrt * H.bsupv = _
    rw [fv, ev]; field_simp
  · unfold fluxU
    show H.gsqrt * H.bsupu = _
    rw [fu, eu]; field_simp
  · by_cases hl : c.lthreed
    · show (halfOf c P X blank h kl).bsubu = (halfOf c P X blank h kl).guu * (halfOf c P X blank h kl).bsupu +
        (halfOf c P X blank h kl).guv * (halfOf c P X blank h kl).bsupv
      unfold halfOf fieldOf bcoPoint
      rw [if_pos hl]
    · rw [m9' hl, zero_mul, add_zero]
      show (halfOf c P X blank h kl).bsubu = (halfOf c P X blank h kl).guu * (halfOf c P X blank h kl).bsupu
      unfold halfOf fieldOf bcoPoint
      rw [if_neg hl]
  · by_cases hl : c.lthreed
    · show (halfOf c P X blank h kl).bsubv = (halfOf c P X blank h kl).guv * (halfOf c P X blank h kl).bsupu +
        (halfOf c P X blank h kl).gvv * (halfOf c P X blank h kl).bsupv
      unfold halfOf fieldOf bcoPoint
      rw [if_pos hl]
    · rw [m9' hl, zero_mul, zero_add]
      show (halfOf c P X blank h kl).bsubv = (halfOf c P X blank h kl).gvv * (halfOf c P X blank h kl).bsupv
      unfold halfOf fieldOf bcoPoint
      rw [if_neg hl]
  · show (halfOf c P X blank h kl).totalPressure = ((halfOf c P X blank h kl).bsupu * (halfOf c P X blank h kl).bsubu +
      (halfOf c P X blank h kl).bsupv * (halfOf c P X blank h kl).bsubv) / 2 + _
    unfold halfOf magP
    dsimp only
    ring

/-! ## C60 -/

theorem current_sums (h : Int) (hg : ∀ kl, 0 ≤ kl → kl < c.nZnT → Spec.gsqrt c.deltaS (P.qH h) (X h kl) (X (h + 1) kl) ≠ 0) :
    Spec.integral c.nZnT (wt c) (fun kl => (torusHalf c P X h kl).bsubu) =
      jvOf c (lamFieldOf c P X blank h) + newChipOf c P X blank h * avgOf c (lamFieldOf c P X blank h) := by
  unfold Spec.integral jvOf avgOf
  rw [Finset.mul_sum, ← Finset.sum_add_distrib]
  refine Finset.sum_congr rfl fun kl hkl => ?_
  rw [Finset.mem_Ico] at hkl
  show (halfOf c P X blank h kl).bsubu * _ = _
  unfold halfOf fieldOf bcoPoint
  split
  · dsimp only; ring
  · dsimp only; ring

/-- **C60**, prescribed current: after the evaluation the toroidal current enclosed by every half-grid surface,
    the surface average of `B_u`, is the prescribed one -/
theorem C60_current (h : Int) (hn : c.ncurr1)
    (hg : ∀ kl, 0 ≤ kl → kl < c.nZnT → Spec.gsqrt c.deltaS (P.qH h) (X h kl) (X (h + 1) kl) ≠ 0)
    (ha : Spec.integral c.nZnT (wt c) (fun kl => (torusHalf c P X h kl).guu / (torusHalf c P X h kl).gsqrt) ≠ 0) :
    Spec.integral c.nZnT (wt c) (fun kl => (torusHalf c P X h kl).bsubu) = P.curr h := by
  have e : avgOf c (lamFieldOf c P X blank h) =
      Spec.integral c.nZnT (wt c) (fun kl => (torusHalf c P X h kl).guu / (torusHalf c P X h kl).gsqrt) := by
    unfold avgOf Spec.integral
    refine Finset.sum_congr rfl fun kl _ => ?_
    show _ = (halfOf c P X blank h kl).guu / (halfOf c P X blank h kl).gsqrt * _
    unfold halfOf fieldOf bcoPoint
    split <;> rfl
  rw [← e] at ha
  rw [current_sums h hg]
  unfold newChipOf chipOf
  rw [if_pos hn, if_pos ha]
  field_simp
  ring

/-- **C60**, prescribed iota: the poloidal flux is iota times the toroidal flux, whichever of the two was prescribed -/
theorem C60_iota (h : Int) (hp : c.ncurr1 → P.phipH h ≠ 0) :
    newChipOf c P X blank h = newIotaOf c P X blank h * P.phipH h ∧ (¬ c.ncurr1 → newIotaOf c P X blank h = P.iota h) := by
  unfold newIotaOf iotaOf newChipOf
  by_cases hn : c.ncurr1
  · have := hp hn
    simp only [hn, if_true, not_true_eq_false, false_imp_iff, and_true]
    rw [if_pos this, div_mul_cancel₀ _ this]
  · simp only [hn, Bool.false_eq_true, if_false, not_false_eq_true, true_imp_iff, and_true]
    unfold chipOf
    rw [if_neg hn]

/-- **C60**, fluxes: with lambda periodic (its derivatives average to zero) the field carries the toroidal flux
    `phipF` averaged over the two surfaces and the poloidal flux `chipH`, whatever the geometry -/
theorem C60_flux (h : Int) (hw : Spec.integral c.nZnT (wt c) (fun _ => 1) = 1)
    (hg : ∀ kl, 0 ≤ kl → kl < c.nZnT → Spec.gsqrt c.deltaS (P.qH h) (X h kl) (X (h + 1) kl) ≠ 0)
    (hu : ∀ j, Spec.integral c.nZnT (wt c) (fun kl => (X j kl).lu_e) = 0 ∧ Spec.integral c.nZnT (wt c) (fun kl => (X j kl).lu_o) = 0)
    (hv : ∀ j, Spec.integral c.nZnT (wt c) (fun kl => (X j kl).lv_e) = 0 ∧ Spec.integral c.nZnT (wt c) (fun kl => (X j kl).lv_o) = 0) :
    Spec.integral c.nZnT (wt c) (fluxV c P X h) = (P.phipF h + P.phipF (h + 1)) / 2 ∧
    Spec.integral c.nZnT (wt c) (fluxU c P X h) = newChipOf c P X blank h := by
  obtain ⟨u1, u2⟩ := hu h
  obtain ⟨u3, u4⟩ := hu (h + 1)
  obtain ⟨v1, v2⟩ := hv h
  obtain ⟨v3, v4⟩ := hv (h + 1)
  unfold Spec.integral at *
  have hw' : ∑ i ∈ Ico 0 c.nZnT, wt c i = 1 := by simpa using hw
  constructor
  · have e : ∀ kl ∈ Ico 0 c.nZnT, fluxV c P X h kl * wt c kl =
        c.lamscale / 2 * ((X h kl).lu_e * wt c kl) + c.lamscale / 2 * P.qH h * ((X h kl).lu_o * wt c kl) +
          c.lamscale / 2 * ((X (h + 1) kl).lu_e * wt c kl) + c.lamscale / 2 * P.qH h * ((X (h + 1) kl).lu_o * wt c kl) +
          (P.phipF h + P.phipF (h + 1)) / 2 * (1 * wt c kl) := by
      intro kl hkl
      rw [Finset.mem_Ico] at hkl
      rw [(field_spec h kl (hg kl hkl.1 hkl.2)).1]
      unfold Spec.mid Spec.Lu geoOf lambdaPoint
      cases c.lthreed
      · simp only [Bool.false_eq_true, if_false]; ring
      · simp only [if_true]; ring
    rw [Finset.sum_congr rfl e]
    simp only [Finset.sum_add_distrib, ← Finset.mul_sum]
    rw [u1, u2, u3, u4, hw']; ring
  · have e : ∀ kl ∈ Ico 0 c.nZnT, fluxU c P X h kl * wt c kl = (if c.lthreed then c.lamscale / 2 else 0) *
        ((X h kl).lv_e * wt c kl + P.qH h * ((X h kl).lv_o * wt c kl) +
          ((X (h + 1) kl).lv_e * wt c kl + P.qH h * ((X (h + 1) kl).lv_o * wt c kl))) +
          newChipOf c P X blank h * (1 * wt c kl) := by
      intro kl hkl
      rw [Finset.mem_Ico] at hkl
      rw [(field_spec h kl (hg kl hkl.1 hkl.2)).2.1]
      unfold Spec.mid Spec.Lv geoOf lambdaPoint
      cases c.lthreed
      · simp only [Bool.false_eq_true, if_false]; ring
      · simp only [if_true]; ring
    rw [Finset.sum_congr rfl e]
    simp only [Finset.sum_add_distrib, ← Finset.mul_sum]
    rw [v1, v2, v3, v4, hw']; ring

/-! ## C59 -/

theorem volume_spec (h : Int) : volumeOf c P X blank h =
    Spec.volume c.deltaS c.signOfJacobian c.nZnT (wt c) (P.qH h) (X h) (X (h + 1)) := by
  unfold volumeOf Spec.volume Spec.integral
  rw [mul_comm]
  congr 1
  refine Finset.sum_congr rfl fun kl _ => ?_
  have e : (metricOf c P X blank h kl).gsqrt = (torusHalf c P X h kl).gsqrt := by
    show _ = (halfOf c P X blank h kl).gsqrt
    unfold halfOf fieldOf bcoPoint lamFieldOf bcontraPoint
    split <;> rfl
  rw [e, (C61_metric (c := c) (P := P) (X := X) h kl).2.2.2.2.2.2.1]

/-- the energy of the torus at fixed mass and at the fluxes `x`, `y` -/
noncomputable def torusEnergy (c : Ctx) (P : Prof) (x y : Int → Int → ℝ) (X : Int → Int → Geo) : ℝ :=
  Spec.energy c.ns c.lthreed c.deltaS c.signOfJacobian c.adiabaticIndex c.nZnT (wt c) P.qH P.qF x y P.mass X

/-- magnetic pressure at a half-grid point -/
theorem pressure_spec (h kl : Int) (hg : Spec.gsqrt c.deltaS (P.qH h) (X h kl) (X (h + 1) kl) ≠ 0) :
    Spec.magnetic c.lthreed c.deltaS (P.qF h ^ 2) (P.qF (h + 1) ^ 2) (P.qH h) (X h kl) (X (h + 1) kl) (fluxU c P X h kl)
      (fluxV c P X h kl) = (torusHalf c P X h kl).gsqrt * ((torusHalf c P X h kl).totalPressure - presOf c P X blank h) := by
  obtain ⟨_, _, _, _, _, _, m7, m8, m9, m10⟩ := C61_metric (c := c) (P := P) (X := X) h kl
  obtain ⟨_, _, f3, f4, f5⟩ := field_spec (c := c) (P := P) (X := X) h kl hg
  unfold Spec.magnetic fluxU fluxV
  rw [f5, f3, f4, ← m8, ← m9, ← m10, ← m7]
  have hg' : (torusHalf c P X h kl).gsqrt ≠ 0 := by rw [m7]; exact hg
  field_simp
  ring

theorem power_geo (sg : ℝ) (H : Half) (q sF : ℝ) (j kl : Int) (d : Geo) :
    Spec.power c.lthreed (sideForce c.lthreed c.deltaS sg H q (geoOf c P X j kl) sF) d =
      Spec.power c.lthreed (sideForce c.lthreed c.deltaS sg H q (X j kl) sF) d := by
  unfold Spec.power sideForce geoOf lambdaPoint
  split <;> rfl

/-- derivative of the energy of one half-grid interval -/
theorem interval_deriv (hγ : c.adiabaticIndex ≠ 1) (h : Int)
    (hg : ∀ kl, 0 ≤ kl → kl < c.nZnT → Spec.gsqrt c.deltaS (P.qH h) (X h kl) (X (h + 1) kl) ≠ 0)
    (hV : 0 < Spec.volume c.deltaS c.signOfJacobian c.nZnT (wt c) (P.qH h) (X h) (X (h + 1))) (d : Int → Int → Geo) :
    HasDerivAt (fun e => c.deltaS * ((c.signOfJacobian * Spec.integral c.nZnT (wt c) fun kl =>
        Spec.magnetic c.lthreed c.deltaS (P.qF h ^ 2) (P.qF (h + 1) ^ 2) (P.qH h) (Spec.move (X h kl) (d h kl) e)
          (Spec.move (X (h + 1) kl) (d (h + 1) kl) e) (fluxU c P X h kl) (fluxV c P X h kl)) +
      P.mass h * Spec.volume c.deltaS c.signOfJacobian c.nZnT (wt c) (P.qH h) (fun kl => Spec.move (X h kl) (d h kl) e)
        (fun kl => Spec.move (X (h + 1) kl) (d (h + 1) kl) e) ^ (1 - c.adiabaticIndex) / (c.adiabaticIndex - 1)))
      (-(c.deltaS * c.signOfJacobian * Spec.integral c.nZnT (wt c) fun kl =>
        Spec.power c.lthreed (sideForce c.lthreed c.deltaS 1 (torusHalf c P X h kl) (P.qH h) (geoOf c P X h kl) (P.qF h * P.qF h)) (d h kl) +
        Spec.power c.lthreed (sideForce c.lthreed c.deltaS (-1) (torusHalf c P X h kl) (P.qH h) (geoOf c P X (h + 1) kl)
          (P.qF (h + 1) * P.qF (h + 1))) (d (h + 1) kl))) 0 := by
  have hm : HasDerivAt (fun e => Spec.integral c.nZnT (wt c) fun kl =>
      Spec.magnetic c.lthreed c.deltaS (P.qF h ^ 2) (P.qF (h + 1) ^ 2) (P.qH h) (Spec.move (X h kl) (d h kl) e)
        (Spec.move (X (h + 1) kl) (d (h + 1) kl) e) (fluxU c P X h kl) (fluxV c P X h kl))
      (∑ kl ∈ Ico 0 c.nZnT, ((dGuu (P.qF h ^ 2) (P.qF (h + 1) ^ 2) (P.qH h) (X h kl) (X (h + 1) kl) (d h kl) (d (h + 1) kl) *
            fluxU c P X h kl ^ 2 +
          2 * dGuv c.lthreed (P.qF h ^ 2) (P.qF (h + 1) ^ 2) (P.qH h) (X h kl) (X (h + 1) kl) (d h kl) (d (h + 1) kl) *
            fluxU c P X h kl * fluxV c P X h kl +
          dGvv c.lthreed (P.qF h ^ 2) (P.qF (h + 1) ^ 2) (P.qH h) (X h kl) (X (h + 1) kl) (d h kl) (d (h + 1) kl) *
            fluxV c P X h kl ^ 2) / (2 * Spec.gsqrt c.deltaS (P.qH h) (X h kl) (X (h + 1) kl)) -
        Spec.magnetic c.lthreed c.deltaS (P.qF h ^ 2) (P.qF (h + 1) ^ 2) (P.qH h) (X h kl) (X (h + 1) kl) (fluxU c P X h kl)
          (fluxV c P X h kl) / Spec.gsqrt c.deltaS (P.qH h) (X h kl) (X (h + 1) kl) *
          dG c.deltaS (P.qH h) (X h kl) (X (h + 1) kl) (d h kl) (d (h + 1) kl)) * wt c kl) 0 := by
    unfold Spec.integral
    refine HasDerivAt.fun_sum fun kl hkl => ?_
    rw [Finset.mem_Ico] at hkl
    exact (magnetic_deriv _ _ (hg kl hkl.1 hkl.2)).mul_const _
  have hv : HasDerivAt (fun e => Spec.volume c.deltaS c.signOfJacobian c.nZnT (wt c) (P.qH h)
      (fun kl => Spec.move (X h kl) (d h kl) e) (fun kl => Spec.move (X (h + 1) kl) (d (h + 1) kl) e))
      (c.signOfJacobian * Spec.integral c.nZnT (wt c) fun kl =>
        dG c.deltaS (P.qH h) (X h kl) (X (h + 1) kl) (d h kl) (d (h + 1) kl)) 0 := by
    unfold Spec.volume Spec.integral
    refine HasDerivAt.const_mul _ (HasDerivAt.fun_sum fun kl _ => ?_)
    exact gsqrt_deriv.mul_const _
  have hr := ((hv.rpow_const (p := 1 - c.adiabaticIndex) (Or.inl (by simp only [move_zero]; exact ne_of_gt hV))).const_mul
    (P.mass h)).div_const (c.adiabaticIndex - 1)
  have ht := ((hm.const_mul c.signOfJacobian).fun_add hr).const_mul c.deltaS
  refine ht.congr_deriv ?_
  simp only [move_zero]
  rw [show (1 - c.adiabaticIndex - 1 : ℝ) = -c.adiabaticIndex by ring, Real.rpow_neg hV.le]
  have hp : presOf c P X blank h = P.mass h / Spec.volume c.deltaS c.signOfJacobian c.nZnT (wt c) (P.qH h) (X h) (X (h + 1)) ^
      c.adiabaticIndex := by
    unfold presOf; rw [volume_spec]
  have hγ' : c.adiabaticIndex - 1 ≠ 0 := sub_ne_zero.mpr hγ
  have e1 : P.mass h * (c.signOfJacobian * (Spec.integral c.nZnT (wt c) fun kl =>
        dG c.deltaS (P.qH h) (X h kl) (X (h + 1) kl) (d h kl) (d (h + 1) kl)) * (1 - c.adiabaticIndex) *
      (Spec.volume c.deltaS c.signOfJacobian c.nZnT (wt c) (P.qH h) (X h) (X (h + 1)) ^ c.adiabaticIndex)⁻¹) /
        (c.adiabaticIndex - 1) = -(c.signOfJacobian * (presOf c P X blank h * Spec.integral c.nZnT (wt c) fun kl =>
        dG c.deltaS (P.qH h) (X h kl) (X (h + 1) kl) (d h kl) (d (h + 1) kl))) := by
    rw [hp]
    have := (Real.rpow_pos_of_pos hV c.adiabaticIndex).ne'
    generalize Spec.volume c.deltaS c.signOfJacobian c.nZnT (wt c) (P.qH h) (X h) (X (h + 1)) ^ c.adiabaticIndex = v at *
    generalize (Spec.integral c.nZnT (wt c) fun kl => dG c.deltaS (P.qH h) (X h kl) (X (h + 1) kl) (d h kl) (d (h + 1) kl)) = I
    field_simp
    ring
  rw [e1]
  unfold Spec.integral
  rw [show ∀ a b s p q : ℝ, (a * (s * p + -(s * q)) = -(a * s * b)) = (a * (s * (p - q)) = a * (s * -b)) by
    intro a b s p q; congr 1 <;> ring]
  congr 2
  rw [Finset.mul_sum, ← Finset.sum_sub_distrib, ← Finset.sum_neg_distrib]
  refine Finset.sum_congr rfl fun kl hkl => ?_
  rw [Finset.mem_Ico] at hkl
  have hgk := hg kl hkl.1 hkl.2
  obtain ⟨m1, m2, m3, m4, m5, m6, m7, m8, m9, m10⟩ := C61_metric (c := c) (P := P) (X := X) h kl
  have hpp := point_power (a := P.qF h ^ 2) (b := P.qF (h + 1) ^ 2) (lthreed := c.lthreed) (di := d h kl) (dou := d (h + 1) kl)
    (torusHalf c P X h kl) m1 m2 m3 m4 m5 m6
  beta_reduce
  rw [power_geo, power_geo, ← pow_two, ← pow_two, ← neg_mul, ← hpp, pressure_spec h kl hgk, ← m7]
  have hg' : (torusHalf c P X h kl).gsqrt ≠ 0 := by rw [m7]; exact hgk
  unfold fluxU fluxV
  generalize torusHalf c P X h kl = H at *
  field_simp
  ring

/-- **C59**: moving the surfaces changes the energy, at fixed mass and fixed magnetic fluxes between the surfaces, by minus
    the power of the force density: the force kernel is the exact gradient of the discretised energy -/
theorem C59_gradient (hns : 1 ≤ c.ns) (hγ : c.adiabaticIndex ≠ 1)
    (hg : ∀ h kl, 0 ≤ h → h < c.ns - 1 → 0 ≤ kl → kl < c.nZnT → Spec.gsqrt c.deltaS (P.qH h) (X h kl) (X (h + 1) kl) ≠ 0)
    (hV : ∀ h, 0 ≤ h → h < c.ns - 1 → 0 < Spec.volume c.deltaS c.signOfJacobian c.nZnT (wt c) (P.qH h) (X h) (X (h + 1)))
    (d : Int → Int → Geo) :
    HasDerivAt (fun e => torusEnergy c P (fluxU c P X) (fluxV c P X) fun j kl => Spec.move (X j kl) (d j kl) e)
      (-(c.deltaS * c.signOfJacobian * ∑ j ∈ Ico 0 c.ns, Spec.integral c.nZnT (wt c) fun kl =>
        Spec.power c.lthreed (torusForce c P X j kl) (d j kl))) 0 := by
  unfold torusEnergy Spec.energy
  have hs := HasDerivAt.fun_sum (u := Ico 0 (c.ns - 1)) fun h hh =>
    interval_deriv (c := c) (P := P) (X := X) hγ h (fun kl k1 k2 => by
      rw [Finset.mem_Ico] at hh; exact hg h kl hh.1 hh.2 k1 k2) (by rw [Finset.mem_Ico] at hh; exact hV h hh.1 hh.2) d
  refine hs.congr_deriv ?_
  rw [Finset.sum_neg_distrib, ← Finset.mul_sum]
  congr 2
  obtain ⟨f, hf⟩ : ∃ f : Int → ℝ, f = fun h => Spec.integral c.nZnT (wt c) fun kl => Spec.power c.lthreed (sideForce c.lthreed
      c.deltaS (-1) (torusHalf c P X h kl) (P.qH h) (geoOf c P X (h + 1) kl) (P.qF (h + 1) * P.qF (h + 1))) (d (h + 1) kl) :=
    ⟨_, rfl⟩
  obtain ⟨g, hg'⟩ : ∃ g : Int → ℝ, g = fun h => Spec.integral c.nZnT (wt c) fun kl => Spec.power c.lthreed (sideForce c.lthreed
      c.deltaS 1 (torusHalf c P X h kl) (P.qH h) (geoOf c P X h kl) (P.qF h * P.qF h)) (d h kl) := ⟨_, rfl⟩
  have hj : ∀ j ∈ Ico 0 c.ns, (Spec.integral c.nZnT (wt c) fun kl => Spec.power c.lthreed (torusForce c P X j kl) (d j kl)) =
      (if 0 < j then f (j - 1) else 0) + (if j < c.ns - 1 then g j else 0) := by
    intro j hj
    rw [Finset.mem_Ico] at hj
    rw [hf, hg']
    dsimp only
    rw [show j - 1 + 1 = j by omega]
    unfold Spec.integral torusForce
    simp only [power_sides (d j _) hj.1 hj.2]
    by_cases e : 0 < j <;> by_cases e' : j < c.ns - 1 <;>
      simp only [e, e', if_true, if_false, add_zero, zero_add, add_mul, zero_mul, Finset.sum_add_distrib, Finset.sum_const_zero]
  rw [Finset.sum_congr rfl hj, sum_ends c.ns f g hns, hf, hg']
  refine Finset.sum_congr rfl fun h _ => ?_
  unfold Spec.integral
  rw [← Finset.sum_add_distrib]
  exact Finset.sum_congr rfl fun kl _ => by ring

/-- sum over the surfaces of all threads -/
theorem owned_sum {M : Type} [AddCommMonoid M] {nt ns : Int} {lfreeb : Bool} {R : Int → Ranges}
    (hT : Multigrid.GoodTeam nt ns lfreeb R) (f : Int → M) :
    ∑ t ∈ Ico 0 nt, ∑ j ∈ Ico (R t).nsMinF (R t).nsMaxF, f j = ∑ j ∈ Ico 0 (numSurfacesToDistribute ns lfreeb), f j := by
  obtain ⟨h1, h2, h3, hT⟩ := hT
  obtain ⟨cover, disj, _⟩ := C01_radial_split nt ns lfreeb R (by omega) h1 hT
  rw [← Finset.sum_biUnion]
  · refine Finset.sum_congr ?_ fun _ _ => rfl
    ext j
    rw [Finset.mem_biUnion, Finset.mem_Ico, ← evolved_iff, cover j]
    constructor
    · rintro ⟨t, ht, hj⟩
      rw [Finset.mem_Ico] at ht hj
      exact ⟨t, ht, hj⟩
    · rintro ⟨t, ht, hj⟩
      exact ⟨t, Finset.mem_Ico.2 ht, Finset.mem_Ico.2 hj⟩
  · intro t ht t' ht' hne
    rw [Finset.mem_coe, Finset.mem_Ico] at ht ht'
    rw [Function.onFun, Finset.disjoint_left]
    intro j hj hj'
    rw [Finset.mem_Ico] at hj hj'
    exact hne (disj t t' j ht ht' hj hj')

theorem power_same {lthreed : Bool} {f g : Force} (h : Spec.sameForce lthreed f g) (d : Geo) :
    Spec.power lthreed f d = Spec.power lthreed g d := by
  obtain ⟨h1, h2, h3, h4, h5, h6, h7, h8, h9⟩ := h
  unfold Spec.power
  rw [h1, h2, h3, h4, h5, h6, h7, h8]
  cases lthreed
  · rfl
  · obtain ⟨a1, a2, a3, a4⟩ := h9 rfl
    rw [if_pos rfl, if_pos rfl, a1, a2, a3, a4]

/-- **C59**, team: the forces the threads of a team leave in their arrays, each on its own surfaces, are the gradient of
    the energy of the torus for every displacement that keeps the boundary of a fixed-boundary run -/
theorem C59_team {nt : Int} {R : Int → Ranges} {g : Int → Given} {geo : Int → Vec Geo} {w : Int → Work} (hc : GoodCtx c)
    (hT : Multigrid.GoodTeam nt c.ns c.lfreeb R) (hW : ∀ t, isThread nt t → Windows c (R t) P X (g t) (geo t) (w t))
    (hγ : c.adiabaticIndex ≠ 1)
    (hg : ∀ h kl, 0 ≤ h → h < c.ns - 1 → 0 ≤ kl → kl < c.nZnT → Spec.gsqrt c.deltaS (P.qH h) (X h kl) (X (h + 1) kl) ≠ 0)
    (hV : ∀ h, 0 ≤ h → h < c.ns - 1 → 0 < Spec.volume c.deltaS c.signOfJacobian c.nZnT (wt c) (P.qH h) (X h) (X (h + 1))) :
    ∃ e : Int → Evaluated, (∀ t, isThread nt t → evaluate c (R t) (g t) (geo t) (w t) = .ok (e t)) ∧
      ∀ d : Int → Int → Geo, (c.lfreeb = false → ∀ kl, d (c.ns - 1) kl = ⟨0, 0, 0, 0, 0, 0, 0, 0, 0, 0, 0, 0, 0, 0, 0, 0⟩) →
        HasDerivAt (fun ε => torusEnergy c P (fluxU c P X) (fluxV c P X) fun j kl => Spec.move (X j kl) (d j kl) ε)
          (-(c.deltaS * c.signOfJacobian * ∑ t ∈ Ico 0 nt, ∑ j ∈ Ico (R t).nsMinF (R t).nsMaxF,
            Spec.integral c.nZnT (wt c) fun kl =>
              Spec.power c.lthreed ((e t).force.val ((j - (R t).nsMinF) * c.nZnT + kl)) (d j kl))) 0 := by
  have hex : ∀ t, ∃ e, isThread nt t → evaluate c (R t) (g t) (geo t) (w t) = .ok e ∧
      ∀ j kl, owns (R t) j → 0 ≤ kl → kl < c.nZnT →
        Spec.sameForce c.lthreed (e.force.val ((j - (R t).nsMinF) * c.nZnT + kl)) (torusForce c P X j kl) := by
    intro t
    by_cases ht : isThread nt t
    · obtain ⟨e, he, hf, _⟩ := C46_evaluation hc hT ht (hW t ht)
      exact ⟨e, fun _ => ⟨he, hf⟩⟩
    · exact ⟨⟨geo t, (w t).half, (w t).dVdsH, (w t).dVdsH, (w t).dVdsH, (w t).dVdsH, 0, 0, (w t).force, (w t).lam⟩,
        fun h => absurd h ht⟩
  choose e he using hex
  refine ⟨e, fun t ht => (he t ht).1, fun d hd => ?_⟩
  have hns : 3 ≤ c.ns := by
    have := good_of_team hT (t := 0) ⟨le_refl _, by have := hT.1; omega⟩
    exact this.ns3
  refine (C59_gradient (by omega) hγ hg hV d).congr_deriv ?_
  congr 2
  have e1 : ∀ t ∈ Ico 0 nt, (∑ j ∈ Ico (R t).nsMinF (R t).nsMaxF, Spec.integral c.nZnT (wt c) fun kl =>
      Spec.power c.lthreed ((e t).force.val ((j - (R t).nsMinF) * c.nZnT + kl)) (d j kl)) =
      ∑ j ∈ Ico (R t).nsMinF (R t).nsMaxF, Spec.integral c.nZnT (wt c) fun kl =>
        Spec.power c.lthreed (torusForce c P X j kl) (d j kl) := by
    intro t ht
    rw [Finset.mem_Ico] at ht
    refine Finset.sum_congr rfl fun j hj => ?_
    rw [Finset.mem_Ico] at hj
    unfold Spec.integral
    refine Finset.sum_congr rfl fun kl hkl => ?_
    rw [Finset.mem_Ico] at hkl
    beta_reduce
    rw [power_same ((he t ht).2 j kl hj hkl.1 hkl.2)]
  rw [Finset.sum_congr rfl e1, owned_sum hT]
  unfold numSurfacesToDistribute
  cases hl : c.lfreeb
  · simp only [Bool.false_eq_true, if_false]
    have e2 : Ico 0 c.ns = Ico 0 ((c.ns - 1) + 1) := by congr 1; omega
    rw [e2, sum_Ico_int_succ (by omega)]
    simp only [hd hl]
    have : ∀ f : Force, Spec.power c.lthreed f ⟨0, 0, 0, 0, 0, 0, 0, 0, 0, 0, 0, 0, 0, 0, 0, 0⟩ = 0 := by
      intro f; unfold Spec.power; simp
    simp only [this, Spec.integral, zero_mul, Finset.sum_const_zero, add_zero]
  · simp only [if_true]

/-- **C59**, energy: what the threads of a team contribute to the magnetic and to the thermal energy adds up to that energy -/
theorem C59_energy {nt : Int} {R : Int → Ranges} {g : Int → Given} {geo : Int → Vec Geo} {w : Int → Work} (hc : GoodCtx c)
    (hT : Multigrid.GoodTeam nt c.ns c.lfreeb R) (hW : ∀ t, isThread nt t → Windows c (R t) P X (g t) (geo t) (w t))
    (hs : c.signOfJacobian = 1 ∨ c.signOfJacobian = -1)
    (hg : ∀ h kl, 0 ≤ h → h < c.ns - 1 → 0 ≤ kl → kl < c.nZnT → Spec.gsqrt c.deltaS (P.qH h) (X h kl) (X (h + 1) kl) ≠ 0)
    (hV : ∀ h, 0 ≤ h → h < c.ns - 1 → 0 < Spec.volume c.deltaS c.signOfJacobian c.nZnT (wt c) (P.qH h) (X h) (X (h + 1)))
    (hB : ∀ h, 0 ≤ h → h < c.ns - 1 → 0 ≤ c.signOfJacobian * Spec.integral c.nZnT (wt c) fun kl =>
      Spec.magnetic c.lthreed c.deltaS (P.qF h ^ 2) (P.qF (h + 1) ^ 2) (P.qH h) (X h kl) (X (h + 1) kl) (fluxU c P X h kl)
        (fluxV c P X h kl)) :
    ∃ e : Int → Evaluated, (∀ t, isThread nt t → evaluate c (R t) (g t) (geo t) (w t) = .ok (e t)) ∧
      ∑ t ∈ Ico 0 nt, (e t).localMagneticEnergy + (∑ t ∈ Ico 0 nt, (e t).localThermalEnergy) / (c.adiabaticIndex - 1) =
        torusEnergy c P (fluxU c P X) (fluxV c P X) X := by
  have hm : ∀ h kl, 0 ≤ h → h < c.ns - 1 → 0 ≤ kl → kl < c.nZnT →
      (fieldOf c P X blank h kl).gsqrt * magP (fieldOf c P X blank h kl) =
      Spec.magnetic c.lthreed c.deltaS (P.qF h ^ 2) (P.qF (h + 1) ^ 2) (P.qH h) (X h kl) (X (h + 1) kl) (fluxU c P X h kl)
        (fluxV c P X h kl) := by
    intro h kl h0 h1 k0 k1
    rw [pressure_spec h kl (hg h kl h0 h1 k0 k1)]
    show _ = (halfOf c P X blank h kl).gsqrt * ((halfOf c P X blank h kl).totalPressure - _)
    unfold halfOf
    dsimp only
    ring
  obtain ⟨e, he, h1, h2⟩ := C46_energies (P := P) (X := X) hc hT hW c.signOfJacobian hs (fun h h0 h1 => by
    refine le_of_le_of_eq (hB h h0 h1) ?_
    unfold Spec.integral
    congr 1
    refine Finset.sum_congr rfl fun kl hkl => ?_
    rw [Finset.mem_Ico] at hkl
    rw [hm h kl h0 h1 hkl.1 hkl.2])
  refine ⟨e, he, ?_⟩
  rw [h1, h2]
  unfold torusEnergy Spec.energy
  rw [mul_div_assoc, ← mul_add, div_eq_mul_inv, Finset.sum_mul, ← Finset.sum_add_distrib, Finset.mul_sum]
  refine Finset.sum_congr rfl fun h hh => ?_
  rw [Finset.mem_Ico] at hh
  congr 2
  · unfold Spec.integral
    rw [Finset.mul_sum]
    refine Finset.sum_congr rfl fun kl hkl => ?_
    rw [Finset.mem_Ico] at hkl
    rw [hm h kl hh.1 hh.2 hkl.1 hkl.2]; ring
  · unfold presOf
    rw [volume_spec]
    have hv := hV h hh.1 hh.2
    rw [Real.rpow_sub hv, Real.rpow_one]
    have := (Real.rpow_pos_of_pos hv c.adiabaticIndex).ne'
    field_simp

/-! ## concrete cases -/

/-- torus of major radius 10, elliptic derivatives given at two poloidal positions -/
noncomputable def torus (_ kl : Int) : Geo :=
  if kl % 2 = 0 then { r1_e := 10, r1_o := 1, ru_e := 0, ru_o := 0, z1_e := 0, z1_o := 0, zu_e := 0, zu_o := 1, rv_e := 0, rv_o := 0,
                       zv_e := 0, zv_o := 0, lu_e := 0, lu_o := 1, lv_e := 0, lv_o := 1 }
  else { r1_e := 10, r1_o := 0, ru_e := 0, ru_o := -1, z1_e := 0, z1_o := 1, zu_e := 0, zu_o := 0, rv_e := 0, rv_o := 0,
         zv_e := 0, zv_o := 0, lu_e := 0, lu_o := -1 / 2, lv_e := 0, lv_o := -1 / 2 }

/-- profiles of that case -/
noncomputable def ringProf : Prof where
  qH := fun _ => 1 / 2
  qF := fun j => j / 4
  phipF := fun _ => 3
  phipH := fun _ => 3
  curr := fun j => j
  mass := fun _ => 2
  blend := fun _ => 0
  chip := fun _ => 1
  iota := fun _ => 1 / 3

theorem ring_gsqrt (h kl : Int) : Spec.gsqrt demo.deltaS (ringProf.qH h) (torus h kl) (torus (h + 1) kl) < 0 := by
  unfold Spec.gsqrt Spec.tau Spec.mid Spec.ds Spec.rootTerm Spec.R Spec.Z Spec.Ru Spec.Zu torus
  dsimp only
  split <;> norm_num [demo, ringProf]

theorem demo_wt (kl : Int) : 0 < wt demo kl := by
  unfold wt demo
  dsimp only
  split <;> norm_num

theorem ring_volume (h : Int) :
    0 < Spec.volume demo.deltaS demo.signOfJacobian demo.nZnT (wt demo) (ringProf.qH h) (torus h) (torus (h + 1)) := by
  have e : demo.signOfJacobian = -1 := rfl
  unfold Spec.volume Spec.integral
  rw [e, neg_one_mul, ← Finset.sum_neg_distrib]
  refine Finset.sum_pos (fun kl _ => ?_) ⟨0, by simp [demo]⟩
  have h1 := ring_gsqrt h kl
  have h2 := demo_wt kl
  nlinarith [mul_pos (neg_pos.2 h1) h2]

/-- C59 applies to the ring for every displacement -/
example (d : Int → Int → Geo) :=
  C59_gradient (c := demo) (P := ringProf) (X := torus) (by simp [demo]) (by norm_num [demo])
    (fun h kl _ _ _ _ => (ring_gsqrt h kl).ne) (fun h _ _ => ring_volume h) d

theorem ring_guu (h kl : Int) (hh : 0 ≤ h) : 0 < Spec.guu (ringProf.qF h ^ 2) (ringProf.qF (h + 1) ^ 2) (ringProf.qH h) (torus h kl)
    (torus (h + 1) kl) := by
  have h0 : (0 : ℝ) ≤ h := by exact_mod_cast hh
  have h1 : (0 : ℝ) < (((h + 1 : ℤ) : ℝ) / 4) ^ 2 := by push_cast; positivity
  have h2 : (0 : ℝ) ≤ ((h : ℝ) / 4) ^ 2 := by positivity
  unfold Spec.guu Spec.prod Spec.Ru Spec.Zu torus ringProf
  dsimp only
  split <;> dsimp only <;> linarith

/-- C60: the current of the ring is the prescribed one, and the geometry leaves it a choice -/
example (h : Int) (hh : 0 ≤ h) :
    Spec.integral demo.nZnT (wt demo) (fun kl => (torusHalf demo ringProf torus h kl).bsubu) = h := by
  refine C60_current (c := demo) (P := ringProf) (X := torus) h rfl (fun kl _ _ => (ring_gsqrt h kl).ne) (ne_of_lt ?_)
  unfold Spec.integral
  refine Finset.sum_neg (fun kl _ => ?_) ⟨0, by simp [demo]⟩
  obtain ⟨_, _, _, _, _, _, m7, m8, _⟩ := C61_metric (c := demo) (P := ringProf) (X := torus) h kl
  beta_reduce
  rw [m7, m8]
  exact mul_neg_of_neg_of_pos (div_neg_of_pos_of_neg (ring_guu h kl hh) (ring_gsqrt h kl)) (demo_wt kl)

theorem demo_points (f : Int → ℝ) : Spec.integral demo.nZnT (wt demo) f = (f 0 + f 2) / 6 + (f 1 + f 3) / 3 := by
  unfold Spec.integral
  rw [show Ico 0 demo.nZnT = {0, 1, 2, 3} from rfl]
  rw [Finset.sum_insert (by decide), Finset.sum_insert (by decide), Finset.sum_insert (by decide), Finset.sum_singleton]
  simp only [wt, demo]
  norm_num
  ring

/-- C60: fluxes of the ring -/
example (h : Int) : Spec.integral demo.nZnT (wt demo) (fluxV demo ringProf torus h) = 3 ∧
    Spec.integral demo.nZnT (wt demo) (fluxU demo ringProf torus h) = newChipOf demo ringProf torus blank h := by
  have k := C60_flux (c := demo) (P := ringProf) (X := torus) h (by rw [demo_points]; norm_num) (fun kl _ _ => (ring_gsqrt h kl).ne)
    (fun j => by simp only [demo_points]; norm_num [torus]) (fun j => by simp only [demo_points]; norm_num [torus])
  refine ⟨k.1.trans ?_, k.2⟩
  norm_num [ringProf]

theorem ring_magnetic (h kl : Int) (hh : 0 ≤ h) (x y : ℝ) : Spec.magnetic demo.lthreed demo.deltaS (ringProf.qF h ^ 2)
    (ringProf.qF (h + 1) ^ 2) (ringProf.qH h) (torus h kl) (torus (h + 1) kl) x y ≤ 0 := by
  have h1 := ring_guu h kl hh
  have h2 := ring_gsqrt h kl
  have h3 : Spec.guv demo.lthreed (ringProf.qF h ^ 2) (ringProf.qF (h + 1) ^ 2) (ringProf.qH h) (torus h kl) (torus (h + 1) kl) = 0 := by
    unfold Spec.guv Spec.prod Spec.Ru Spec.Rv Spec.Zu Spec.Zv torus
    dsimp only
    split
    · split <;> ring
    · rfl
  have h4 : 0 ≤ Spec.gvv demo.lthreed (ringProf.qF h ^ 2) (ringProf.qF (h + 1) ^ 2) (ringProf.qH h) (torus h kl) (torus (h + 1) kl) := by
    unfold Spec.gvv Spec.prod Spec.R Spec.Rv Spec.Zv torus ringProf
    dsimp only
    split <;> split <;> dsimp only <;> nlinarith [sq_nonneg ((h : ℝ) / 4), sq_nonneg (((h + 1 : ℤ) : ℝ) / 4)]
  unfold Spec.magnetic
  rw [h3]
  refine div_nonpos_of_nonneg_of_nonpos ?_ (by linarith)
  nlinarith [mul_nonneg h1.le (sq_nonneg x), mul_nonneg h4 (sq_nonneg y)]

/-- C59: forces and energy of the ring with two threads -/
example : ∃ (R : Int → Ranges) (g : Int → Given) (geo : Int → Vec Geo) (w : Int → Work) (e : Int → Evaluated),
    (∀ t, isThread 2 t → evaluate demo (R t) (g t) (geo t) (w t) = .ok (e t)) ∧
    ∑ t ∈ Ico 0 2, (e t).localMagneticEnergy + (∑ t ∈ Ico 0 2, (e t).localThermalEnergy) / (demo.adiabaticIndex - 1) =
      torusEnergy demo ringProf (fluxU demo ringProf torus) (fluxV demo ringProf torus) torus := by
  obtain ⟨R, hR⟩ := demo_team 2 (by omega) (by omega)
  choose g geo w hw using fun t => windows_exist demo (R t) ringProf torus
  obtain ⟨e, he, hE⟩ := C59_energy demo_ctx hR (fun t _ => hw t) (Or.inr rfl) (fun h kl _ _ _ _ => (ring_gsqrt h kl).ne)
    (fun h _ _ => ring_volume h) (fun h h0 _ => by
      have e : demo.signOfJacobian = -1 := rfl
      unfold Spec.integral
      rw [e, neg_one_mul, ← Finset.sum_neg_distrib]
      refine Finset.sum_nonneg fun kl _ => ?_
      have := ring_magnetic h kl h0 (fluxU demo ringProf torus h kl) (fluxV demo ringProf torus h kl)
      nlinarith [mul_nonneg (neg_nonneg.2 this) (demo_wt kl).le])
  exact ⟨R, g, geo, w, e, he, hE⟩

end Verif.Kernels
