import Verif.Output.ShafranovProps
import Verif.Output.GeometryCases

/-!
# C95: the Shafranov integrals of a uniform pressure, bounds, and the scaling ratio
-/
namespace Verif.Output
open Verif Verif.Fourier Finset

/-- the derivative of an even function is odd -/
theorem deriv_odd {R : ℝ → ℝ → ℝ} (hd : ∀ θ φ, DifferentiableAt ℝ (fun t => R t φ) θ) (h : ∀ θ φ, R (-θ) (-φ) = R θ φ) (θ φ : ℝ) :
    deriv (fun t => R t (-φ)) (-θ) = -deriv (fun t => R t φ) θ := by
  have e : (fun t => R t (-φ)) = fun t => R (-t) φ := by
    funext t
    have := h (-t) φ
    rw [neg_neg] at this
    exact this
  rw [e]
  have h1 : HasDerivAt (fun t => R t φ) (deriv (fun t => R t φ) θ) (- -θ) := by rw [neg_neg]; exact (hd θ φ).hasDerivAt
  have h2 := h1.comp (-θ) (hasDerivAt_neg (-θ))
  refine h2.deriv.trans ?_
  ring

/-- the average of a derivative vanishes -/
theorem mean_deriv {nfp A B : Int} {f : ℝ → ℝ → ℝ} (hf : TrigPoly nfp A B f) : integralMean (fun θ φ => deriv (fun t => f t φ) θ) = 0 := by
  obtain ⟨h1, h2⟩ := hf.deriv_theta
  have e (φ : ℝ) : ∫ θ in (0 : ℝ)..2 * Real.pi, deriv (fun t => f t φ) θ = 0 := by
    have c : Continuous fun θ => deriv (fun t => f t φ) θ := h1.continuous.comp (by fun_prop : Continuous fun θ : ℝ => (θ, φ))
    rw [intervalIntegral.integral_eq_sub_of_hasDerivAt (fun θ _ => h2 θ φ) (c.intervalIntegrable _ _)]
    have := hf.per_theta 0 φ
    rw [zero_add] at this
    rw [this, sub_self]
  unfold integralMean
  simp only [e, intervalIntegral.integral_zero, zero_div]

namespace ShafIn
section
variable {I : ShafIn} {lasym : Bool} {nfp mpol ntor ntheta nzeta mg ng : Int} (hs : Sizes.mk lasym nfp mpol ntor ntheta nzeta mg ng = .ok I.s)
include hs

theorem sum_on_grid (P : ℝ) (f : ℝ → ℝ → ℝ) {A B : Int} (hA : A < I.s.nThetaEven) (hB : B < I.s.nZeta) (hf : TrigPoly I.s.nfp A B f) (hsym : I.s.lasym = false → ∀ θ φ, f (-θ) (-φ) = f θ φ)
    (hP : ∀ kl, 0 ≤ kl → kl < I.s.nZnT → I.phat kl = P) (v : Int → ℝ)
    (hv : ∀ k l, 0 ≤ k → k < I.s.nZeta → 0 ≤ l → l < I.s.nThetaEff → v (k * I.s.nThetaEff + l) = f (thetaGrid I.s l) (phiGrid I.s k)) :
    ∑ kl ∈ Ico 0 I.s.nZnT, I.phat kl * v kl * I.w kl = P * integralMean f := by
  rw [← average_exact hs hA hB hf hsym v hv, Finset.mul_sum]
  refine Finset.sum_congr rfl fun kl hk => ?_
  rw [Finset.mem_Ico] at hk
  rw [hP kl hk.1 hk.2]
  unfold GeomIn.w
  ring

/-- **C95** (uniform pressure): if `phat` is uniform, the surface integrals follow from the area `A` of the cross section and the volume `V` by Gauss's theorem: `∮ e_R·dA = 2π A`,
    `∮ R e_R·dA = 2V`, `∮ Z e_Z·dA = V`, `∮ x·dA = 3V`; the first integral with Lao's radius is `∮ R e_R·dA`.  The condition on the resolution is that of `C92_volume_partial`; the surface is traversed
    counterclockwise. -/
theorem C95_uniform_partial (S : Surface I.s) (h : Samples I.toGeomIn S) (hm : 3 * (I.s.mpol - 1) < I.s.nThetaEven) (hn : 3 * I.s.ntor < I.s.nZeta) (P : ℝ)
    (hP : ∀ kl, 0 ≤ kl → kl < I.s.nZnT → I.phat kl = P)
    (o1 : 0 < ∫ φ in (0 : ℝ)..2 * Real.pi, ∫ θ in (0 : ℝ)..2 * Real.pi, S.R θ φ * deriv (fun t => S.Z t φ) θ)
    (o2 : 0 < ∫ φ in (0 : ℝ)..2 * Real.pi, ∫ θ in (0 : ℝ)..2 * Real.pi, S.R θ φ * (S.R θ φ * deriv (fun t => S.Z t φ) θ)) :
    I.sigr0 = I.factor * P * (2 * Real.pi * I.cross_area_p) ∧ I.sigr1 = I.factor * P * (2 * I.volume_p) ∧ I.sigz1 = I.factor * P * I.volume_p ∧
    I.er = I.factor * P * (3 * I.volume_p) ∧ I.s13 = I.sigr1 ∧ I.s3 = I.sigr1 / 2 := by
  obtain ⟨g1, g2, g3, g4⟩ := resolution (I := I.toGeomIn) hs
  have hpi := Real.pi_pos
  have dR (θ φ : ℝ) := S.hR.deriv_theta.2 θ φ
  have dZ (θ φ : ℝ) := S.hZ.deriv_theta.2 θ φ
  have sZ (hl : I.s.lasym = false) (θ φ : ℝ) := deriv_even (fun θ φ => (dZ θ φ).differentiableAt) (fun θ φ => (S.sym hl θ φ).2) θ φ
  have sR (hl : I.s.lasym = false) (θ φ : ℝ) := deriv_odd (fun θ φ => (dR θ φ).differentiableAt) (fun θ φ => (S.sym hl θ φ).1) θ φ
  have t0 := S.hR.mul S.hZ.deriv_theta.1
  have t1 := S.hR.mul t0
  have t2 := (S.hR.mul S.hR.deriv_theta.1).mul S.hZ
  have A : 2 * Real.pi * I.cross_area_p = 4 * Real.pi ^ 2 * integralMean fun θ φ => S.R θ φ * deriv (fun t => S.Z t φ) θ := by
    rw [C92_area (I := I.toGeomIn) hs S h, abs_of_pos o1]
    unfold integralMean
    field_simp
  have V : 2 * I.volume_p = 4 * Real.pi ^ 2 * integralMean fun θ φ => S.R θ φ * (S.R θ φ * deriv (fun t => S.Z t φ) θ) := by
    rw [C92_volume_partial (I := I.toGeomIn) hs S h hm hn, abs_of_pos o2]
    unfold integralMean
    field_simp
  have parts : integralMean (fun θ φ => S.R θ φ * deriv (fun t => S.R t φ) θ * S.Z θ φ) = -(integralMean fun θ φ => S.R θ φ * (S.R θ φ * deriv (fun t => S.Z t φ) θ)) / 2 := by
    have z := mean_deriv (S.hR.mul (S.hR.mul S.hZ))
    have e : (fun θ φ => deriv (fun t => S.R t φ * (S.R t φ * S.Z t φ)) θ) =
        fun θ φ => 2 * (S.R θ φ * deriv (fun t => S.R t φ) θ * S.Z θ φ) + S.R θ φ * (S.R θ φ * deriv (fun t => S.Z t φ) θ) := by
      funext θ φ
      refine (((dR θ φ).mul ((dR θ φ).mul (dZ θ φ))).deriv).trans ?_
      simp only [Pi.mul_apply]
      ring
    rw [e, mean_add (nfp := I.s.nfp) (A := I.s.mpol - 1 + (I.s.mpol - 1) + (I.s.mpol - 1)) (B := I.s.ntor + I.s.ntor + I.s.ntor) (.smul 2 _ t2) (by rw [add_assoc, add_assoc]; exact t1), mean_smul] at z
    linarith
  have kr {k l : Int} (k0 : 0 ≤ k) (k1 : k < I.s.nZeta) (l0 : 0 ≤ l) (l1 : l < I.s.nThetaEff) : I.redge (k * I.s.nThetaEff + l) = S.R (thetaGrid I.s l) (phiGrid I.s k) := by
    obtain ⟨b0, b1⟩ := grid_lt hs k0 k1 l0 l1
    rw [I.redge_in b0 b1, h.r k l k0 k1 l0 l1]
  obtain ⟨e1, e2, e3, e4⟩ := I.C95_sums
  have r0 : I.sigr0 = I.factor * P * (2 * Real.pi * I.cross_area_p) := by
    rw [e1, sum_on_grid hs P _ (by omega) (by omega) t0 (fun hl θ φ => by rw [(S.sym hl θ φ).1, sZ hl]) hP (fun kl => I.redge kl * I.zu0 kl)
      (fun k l k0 k1 l0 l1 => by rw [kr k0 k1 l0 l1, h.zu0 k l k0 k1 l0 l1]), A]
    ring
  have r1 : I.sigr1 = I.factor * P * (2 * I.volume_p) := by
    rw [e2, sum_on_grid hs P _ (by omega) (by omega) t1 (fun hl θ φ => by rw [(S.sym hl θ φ).1, sZ hl]) hP (fun kl => I.redge kl * I.zu0 kl * I.redge kl)
      (fun k l k0 k1 l0 l1 => by rw [kr k0 k1 l0 l1, h.zu0 k l k0 k1 l0 l1]; ring), V]
    ring
  have r2 : I.sigz1 = I.factor * P * I.volume_p := by
    have : ∑ kl ∈ Ico 0 I.s.nZnT, I.phat kl * (-(I.redge kl * I.ru0 kl) * I.zb kl) * I.w kl = -(P * integralMean fun θ φ => S.R θ φ * deriv (fun t => S.R t φ) θ * S.Z θ φ) := by
      rw [← sum_on_grid hs P _ (by omega) (by omega) t2 (fun hl θ φ => by rw [(S.sym hl θ φ).1, (S.sym hl θ φ).2, sR hl]; ring) hP (fun kl => I.redge kl * I.ru0 kl * I.zb kl)
        (fun k l k0 k1 l0 l1 => by rw [kr k0 k1 l0 l1, h.ru0 k l k0 k1 l0 l1, h.z k l k0 k1 l0 l1]), ← Finset.sum_neg_distrib]
      refine Finset.sum_congr rfl fun kl _ => by ring
    rw [e3, this, parts, show I.volume_p = 2 * I.volume_p / 2 by ring, V]
    ring
  have r3 : I.er = I.factor * P * (3 * I.volume_p) := by unfold er; rw [r1, r2]; ring
  have hA : I.cross_area_p ≠ 0 := by
    rw [C92_area (I := I.toGeomIn) hs S h]
    exact (div_pos (abs_pos.2 o1.ne') (by positivity)).ne'
  refine ⟨r0, r1, r2, r3, ?_, by unfold s3; rw [r1, r2]; ring⟩
  unfold s13 r_lao
  rw [r3, r0, r1]
  field_simp
  ring

end

variable (I : ShafIn)

/-- **C95** (bounds of the radius): where `p + (B_pol² + B_vac² - B_φ²)/2` is non-negative and not everywhere zero, `rshaf` lies between the smallest and the largest major radius of the plasma -/
theorem C95_rshaf_bounds {B : Int → Int → ℝ} (h : I.State B) (hd : 0 < I.deltaS) (hV : ∀ j kl, 0 ≤ j → j < I.ns - 1 → 0 ≤ kl → kl < I.s.nZnT → 0 < I.dV j kl) (r0 r1 : ℝ) (hr0 : 0 < r0)
    (hr : ∀ j kl, 0 ≤ j → j < I.ns - 1 → 0 ≤ kl → kl < I.s.nZnT → r0 ≤ I.R.gridH .r12 (j * I.s.nZnT + kl) ∧ I.R.gridH .r12 (j * I.s.nZnT + kl) ≤ r1)
    (hf : ∀ j kl, 0 ≤ j → j < I.ns - 1 → 0 ≤ kl → kl < I.s.nZnT → 0 ≤ I.R.profH .presH j + (B j kl ^ 2 - (I.R.gridH .r12 (j * I.s.nZnT + kl) * I.R.gridH .bsupv (j * I.s.nZnT + kl)) ^ 2 +
      (I.rBtor / I.R.gridH .r12 (j * I.s.nZnT + kl)) ^ 2 - (I.R.gridH .r12 (j * I.s.nZnT + kl) * I.R.gridH .bsupv (j * I.s.nZnT + kl)) ^ 2) / 2)
    (j kl : Int) (j0 : 0 ≤ j) (j1 : j < I.ns - 1) (k0 : 0 ≤ kl) (k1 : kl < I.s.nZnT)
    (hne : I.R.profH .presH j + (B j kl ^ 2 - (I.R.gridH .r12 (j * I.s.nZnT + kl) * I.R.gridH .bsupv (j * I.s.nZnT + kl)) ^ 2 +
      (I.rBtor / I.R.gridH .r12 (j * I.s.nZnT + kl)) ^ 2 - (I.R.gridH .r12 (j * I.s.nZnT + kl) * I.R.gridH .bsupv (j * I.s.nZnT + kl)) ^ 2) / 2 ≠ 0) :
    r0 ≤ I.rshaf ∧ I.rshaf ≤ r1 := by
  have e := I.C95_rshaf h hd.ne'
  simp only at e
  set f := fun j kl => I.R.profH .presH j + (B j kl ^ 2 - (I.R.gridH .r12 (j * I.s.nZnT + kl) * I.R.gridH .bsupv (j * I.s.nZnT + kl)) ^ 2 +
      (I.rBtor / I.R.gridH .r12 (j * I.s.nZnT + kl)) ^ 2 - (I.R.gridH .r12 (j * I.s.nZnT + kl) * I.R.gridH .bsupv (j * I.s.nZnT + kl)) ^ 2) / 2 with hfd
  have c : 0 < 4 * Real.pi ^ 2 * I.deltaS := by have := Real.pi_pos; positivity
  have hpos : 0 < ∑ j ∈ Ico 0 (I.ns - 1), ∑ kl ∈ Ico 0 I.s.nZnT, f j kl / I.R.gridH .r12 (j * I.s.nZnT + kl) * I.dV j kl := by
    have term (j kl : Int) (j0 : 0 ≤ j) (j1 : j < I.ns - 1) (k0 : 0 ≤ kl) (k1 : kl < I.s.nZnT) : 0 ≤ f j kl / I.R.gridH .r12 (j * I.s.nZnT + kl) * I.dV j kl :=
      mul_nonneg (div_nonneg (hf j kl j0 j1 k0 k1) (hr0.le.trans (hr j kl j0 j1 k0 k1).1)) (hV j kl j0 j1 k0 k1).le
    refine Finset.sum_pos' (fun j hj => Finset.sum_nonneg fun kl hk => ?_) ⟨j, Finset.mem_Ico.2 ⟨j0, j1⟩, Finset.sum_pos' (fun kl hk => ?_) ⟨kl, Finset.mem_Ico.2 ⟨k0, k1⟩, ?_⟩⟩
    · rw [Finset.mem_Ico] at hj hk; exact term j kl hj.1 hj.2 hk.1 hk.2
    · rw [Finset.mem_Ico] at hk; exact term j kl j0 j1 hk.1 hk.2
    · exact mul_pos (div_pos (lt_of_le_of_ne (hf j kl j0 j1 k0 k1) hne.symm) (hr0.trans_le (hr j kl j0 j1 k0 k1).1)) (hV j kl j0 j1 k0 k1)
  have lo : r0 * ∑ j ∈ Ico 0 (I.ns - 1), ∑ kl ∈ Ico 0 I.s.nZnT, f j kl / I.R.gridH .r12 (j * I.s.nZnT + kl) * I.dV j kl ≤ ∑ j ∈ Ico 0 (I.ns - 1), ∑ kl ∈ Ico 0 I.s.nZnT, f j kl * I.dV j kl := by
    rw [Finset.mul_sum]
    refine Finset.sum_le_sum fun j hj => ?_
    rw [Finset.mul_sum]
    refine Finset.sum_le_sum fun kl hk => ?_
    rw [Finset.mem_Ico] at hj hk
    obtain ⟨a, _⟩ := hr j kl hj.1 hj.2 hk.1 hk.2
    have hR := hr0.trans_le a
    have hg := hV j kl hj.1 hj.2 hk.1 hk.2
    rw [← mul_assoc]
    refine mul_le_mul_of_nonneg_right ?_ hg.le
    rw [mul_div_assoc', div_le_iff₀ hR, mul_comm]
    exact mul_le_mul_of_nonneg_left a (hf j kl hj.1 hj.2 hk.1 hk.2)
  have hi : ∑ j ∈ Ico 0 (I.ns - 1), ∑ kl ∈ Ico 0 I.s.nZnT, f j kl * I.dV j kl ≤ r1 * ∑ j ∈ Ico 0 (I.ns - 1), ∑ kl ∈ Ico 0 I.s.nZnT, f j kl / I.R.gridH .r12 (j * I.s.nZnT + kl) * I.dV j kl := by
    rw [Finset.mul_sum]
    refine Finset.sum_le_sum fun j hj => ?_
    rw [Finset.mul_sum]
    refine Finset.sum_le_sum fun kl hk => ?_
    rw [Finset.mem_Ico] at hj hk
    obtain ⟨a, b⟩ := hr j kl hj.1 hj.2 hk.1 hk.2
    have hR := hr0.trans_le a
    have hg := hV j kl hj.1 hj.2 hk.1 hk.2
    rw [← mul_assoc]
    refine mul_le_mul_of_nonneg_right ?_ hg.le
    rw [mul_div_assoc', le_div_iff₀ hR, mul_comm r1]
    exact mul_le_mul_of_nonneg_left b (hf j kl hj.1 hj.2 hk.1 hk.2)
  rw [e]
  unfold GeomIn.volInt
  rw [mul_div_mul_left _ _ c.ne', le_div_iff₀ hpos, div_le_iff₀ hpos]
  exact ⟨lo, hi⟩

/-- **C95** (scaling ratio): for a uniform poloidal field `b` whose circulation around the cross section is the current `currv`, the scaling ratio is 1.  The full claim is about the current of the
    plasma: `currv` is the current of the input file, which the equilibrium need not carry, see `C95_scaling_fails`. -/
theorem C95_scaling_partial (b : ℝ) (hb : b ≠ 0) (hS : I.surf_area_p ≠ 0) (hV : I.volume_p ≠ 0) (hC : I.circum_p ≠ 0) (hu : ∀ kl, 0 ≤ kl → kl < I.s.nZnT → I.bpol2vac kl = b ^ 2)
    (hI : I.R.currv = b * I.circum_p) : I.scaling_ratio = 1 := by
  unfold scaling_ratio
  rw [I.C95_factor.2 b hS hu, hI]
  field_simp

end ShafIn

/-- the torus `R = 10 + cos θ`, `Z = sin θ` with uniform total pressure 2, without toroidal field: a poloidal field of size 2 and no pressure; the current of the input file is `c` -/
noncomputable def ringPlasma (s : Sizes.Sizes) (hm : 2 ≤ s.mpol) (hn : 0 ≤ s.ntor) (c : ℝ) : ShafIn :=
  let G := sampled (torus s hm hn 10 1 0 1 0 le_rfl (by omega) 0 (fun _ => rfl))
  { G with
    rBtor := 0
    R := { G.R with
      currv := c
      profH := fun c _ => match c with | .dVdsH => 1 | _ => 0
      gridH := fun c _ => match c with | .total_pressure => 2 | .r12 => 10 | .gsqrt => -1 | _ => 0 }
    active := false
    bSubVVac := 0
    vacuum_magnetic_pressure := fun _ => 0
    vacuum_b_phi := fun _ => 0 }

theorem ringPlasma_samples (s : Sizes.Sizes) (hm : 2 ≤ s.mpol) (hn : 0 ≤ s.ntor) (c : ℝ) : Samples (ringPlasma s hm hn c).toGeomIn (torus s hm hn 10 1 0 1 0 le_rfl (by omega) 0 (fun _ => rfl)) := by
  have h := sampled_samples (torus s hm hn 10 1 0 1 0 le_rfl (by omega) 0 (fun _ => rfl))
  exact ⟨h.r, h.z, h.zu, h.ru0, h.zu0, h.rv, h.zv⟩

section
variable {s : Sizes.Sizes} (hm : 2 ≤ s.mpol) (hn : 0 ≤ s.ntor) (c : ℝ)

theorem ringPlasma_field (kl : Int) (k0 : 0 ≤ kl) (k1 : kl < s.nZnT) : (ringPlasma s hm hn c).phat kl = 2 ∧ (ringPlasma s hm hn c).bpol2vac kl = 2 ^ 2 := by
  have e (g : GridH) : (ringPlasma s hm hn c).toEdge g kl = (match g with | .total_pressure => 2 | .r12 => 10 | .gsqrt => -1 | _ => 0) := by
    unfold ShafIn.toEdge
    cases g <;> simp [ringPlasma] <;> norm_num
  have ha : ¬ (ringPlasma s hm hn c).active = true := Bool.false_ne_true
  have hk : 0 ≤ kl ∧ kl < (ringPlasma s hm hn c).s.nZnT := ⟨k0, k1⟩
  constructor
  · unfold ShafIn.phat
    rw [if_neg ha, TableIn.fill_eq, if_pos hk, e]
    have : (ringPlasma s hm hn c).rBtor = 0 := rfl
    rw [this]
    simp
  · unfold ShafIn.bpol2vac
    rw [if_neg ha, TableIn.fill_eq, if_pos hk, e, e]
    simp
    norm_num

end

/-- **C95** (scaling ratio fails): the same poloidal field in the plasma, and the current that carries it, with the input `curtor = 0` that is usual when the rotational transform is prescribed:
    the ratio is 0 instead of 1 -/
theorem C95_scaling_fails : ∃ s, Sizes.mk false 1 2 0 0 0 2 0 = .ok s ∧ ∃ (hm : 2 ≤ s.mpol) (hn : 0 ≤ s.ntor),
    (ringPlasma s hm hn (2 * (2 * Real.pi))).scaling_ratio = 1 ∧ (ringPlasma s hm hn 0).scaling_ratio = 0 ∧
    (∀ kl, 0 ≤ kl → kl < s.nZnT → (ringPlasma s hm hn (2 * (2 * Real.pi))).bpol2vac kl = 2 ^ 2 ∧ (ringPlasma s hm hn 0).bpol2vac kl = 2 ^ 2) := by
  obtain ⟨s, hs, h1, h2, h3, h4, h5⟩ := sizes2 false
  have hm : 2 ≤ s.mpol := by omega
  have hn : 0 ≤ s.ntor := by omega
  have hpi := Real.pi_pos
  refine ⟨s, hs, hm, hn, ?_, ?_, fun kl k0 k1 => ⟨(ringPlasma_field hm hn _ kl k0 k1).2, (ringPlasma_field hm hn _ kl k0 k1).2⟩⟩
  · obtain ⟨A, V, F, C, _⟩ := C92_circular (I := (ringPlasma s hm hn (2 * (2 * Real.pi))).toGeomIn) hs _ (ringPlasma_samples s hm hn _) 10 1 one_pos (by norm_num) (fun θ φ => by simp [torus]) (fun θ φ => by simp [torus])
    refine (ringPlasma s hm hn (2 * (2 * Real.pi))).C95_scaling_partial 2 two_ne_zero ?_ ?_ ?_ (fun kl k0 k1 => (ringPlasma_field hm hn _ kl k0 k1).2) ?_
    · rw [F]; positivity
    · rw [V]; positivity
    · rw [C]; positivity
    · rw [C, mul_one]; rfl
  · unfold ShafIn.scaling_ratio
    have : (ringPlasma s hm hn 0).R.currv = 0 := rfl
    rw [this]; simp

theorem integral_of_mean (f : ℝ → ℝ → ℝ) : ∫ φ in (0 : ℝ)..2 * Real.pi, ∫ θ in (0 : ℝ)..2 * Real.pi, f θ φ = 4 * Real.pi ^ 2 * integralMean f := by
  unfold integralMean
  have := Real.pi_ne_zero
  field_simp

theorem torus_zu {s : Sizes.Sizes} (hm : 2 ≤ s.mpol) (hn : 0 ≤ s.ntor) (θ φ : ℝ) :
    deriv (fun t => (torus s hm hn 10 1 0 1 0 le_rfl (by omega) 0 (fun _ => rfl)).Z t φ) θ = Real.cos θ := by
  have : (fun t => (torus s hm hn 10 1 0 1 0 le_rfl (by omega) 0 (fun _ => rfl)).Z t φ) = Real.sin := by funext t; simp [torus]
  rw [this]; exact (Real.hasDerivAt_sin θ).deriv

/-- the ring meets the hypotheses of `C95_fixed_boundary`, `C95_uniform_partial`, `C95_volume_integrals`, `C95_rshaf`, `C95_rshaf_bounds`, `C95_table` -/
example : ∃ s, Sizes.mk false 1 2 0 0 0 2 0 = .ok s ∧ ∃ (hm : 2 ≤ s.mpol) (hn : 0 ≤ s.ntor), let I := ringPlasma s hm hn 0
    I.active = false ∧ (∀ kl, 0 ≤ kl → kl < s.nZnT → I.phat kl = 2) ∧ 3 * (s.mpol - 1) < s.nThetaEven ∧ 3 * s.ntor < s.nZeta ∧ I.State (fun _ _ => 2) ∧ 0 < I.deltaS ∧
    (∀ j kl, 0 < I.dV j kl) ∧ (∀ i, 9 ≤ I.R.gridH .r12 i ∧ I.R.gridH .r12 i ≤ 11) ∧ I.volume_p ≠ 0 ∧ I.factor ≠ 0 ∧ I.rcen ≠ 0 ∧ I.r_lao ≠ 0 ∧
    (∀ k l, I.toEdge .total_pressure (k * s.nThetaEff + l) = ((2 : ℝ) ^ 2 + 0 ^ 2) / 2) ∧
    (∃ S : Surface s, Samples I.toGeomIn S ∧ (0 < ∫ φ in (0 : ℝ)..2 * Real.pi, ∫ θ in (0 : ℝ)..2 * Real.pi, S.R θ φ * deriv (fun t => S.Z t φ) θ) ∧
      0 < ∫ φ in (0 : ℝ)..2 * Real.pi, ∫ θ in (0 : ℝ)..2 * Real.pi, S.R θ φ * (S.R θ φ * deriv (fun t => S.Z t φ) θ)) := by
  obtain ⟨s, hs, h1, h2, h3, h4, h5⟩ := sizes2 false
  have hm : 2 ≤ s.mpol := by omega
  have hn : 0 ≤ s.ntor := by omega
  obtain ⟨q1, q2, q3, q4, q5⟩ := nZnT_eq hs
  have hpi := Real.pi_pos
  have hw := wInt_sum hs
  obtain ⟨A, V, F, C, M, _⟩ := C92_circular (I := (ringPlasma s hm hn 0).toGeomIn) hs _ (ringPlasma_samples s hm hn _) 10 1 one_pos (by norm_num) (fun θ φ => by simp [torus]) (fun θ φ => by simp [torus])
  have hV : (ringPlasma s hm hn 0).volume_p ≠ 0 := by rw [V]; positivity
  refine ⟨s, hs, hm, hn, rfl, fun kl k0 k1 => (ringPlasma_field hm hn _ kl k0 k1).1, by omega, by omega, ⟨fun j kl _ _ _ _ => ?_, fun j _ _ => ?_⟩, ?_, fun j kl => ?_, fun i => ?_, hV, ?_, ?_, ?_, fun k l => ?_, _, ringPlasma_samples s hm hn 0, ?_, ?_⟩
  · show (2 : ℝ) = 0 + 2 ^ 2 / 2; norm_num
  · show (1 : ℝ) = ∑ kl ∈ Ico 0 s.nZnT, (-1 * -1 * (Sizes.wInt s (kl.tmod s.nThetaEff) : ℝ))
    rw [← Finset.mul_sum, hw]; norm_num
  · show (0 : ℝ) < 1 / 2; norm_num
  · show (0 : ℝ) < -1 * -1 * (Sizes.wInt s (kl.tmod s.nThetaEff) : ℝ)
    have := wInt_pos hs (kl.tmod s.nThetaEff)
    linarith
  · show (9 : ℝ) ≤ 10 ∧ (10 : ℝ) ≤ 11; norm_num
  · rw [(ringPlasma s hm hn 0).C95_factor.2 2 (by rw [F]; positivity) (fun kl k0 k1 => (ringPlasma_field hm hn _ kl k0 k1).2)]
    exact one_div_ne_zero (mul_ne_zero hV (by norm_num))
  · show ((1 : ℝ) + 1) / 2 ≠ 0; norm_num
  · have : (ringPlasma s hm hn 0).r_lao = 10 := M
    rw [this]; norm_num
  · show 3 / 2 * (2 : ℝ) - 1 / 2 * 2 = _; norm_num
  · have e := (mean_cos3 (1 / 2) 10 (1 / 2) 0 1 one_ne_zero).2
    rw [integral_of_mean, show (fun θ φ => (torus s hm hn 10 1 0 1 0 le_rfl (by omega) 0 (fun _ => rfl)).R θ φ * deriv (fun t => (torus s hm hn 10 1 0 1 0 le_rfl (by omega) 0 (fun _ => rfl)).Z t φ) θ) =
      fun θ _ => 1 / 2 + 10 * Real.cos θ + 1 / 2 * Real.cos (2 * θ) + 0 * Real.cos (3 * θ) by
        funext θ φ; rw [torus_zu]; simp only [torus]; rw [Real.cos_two_mul]; simp; ring, e]
    positivity
  · have e := (mean_cos3 10 (100 + 3 / 4) 10 (1 / 4) 1 one_ne_zero).2
    rw [integral_of_mean, show (fun θ φ => (torus s hm hn 10 1 0 1 0 le_rfl (by omega) 0 (fun _ => rfl)).R θ φ * ((torus s hm hn 10 1 0 1 0 le_rfl (by omega) 0 (fun _ => rfl)).R θ φ *
      deriv (fun t => (torus s hm hn 10 1 0 1 0 le_rfl (by omega) 0 (fun _ => rfl)).Z t φ) θ)) =
      fun θ _ => 10 + (100 + 3 / 4) * Real.cos θ + 10 * Real.cos (2 * θ) + 1 / 4 * Real.cos (3 * θ) by
        funext θ φ; rw [torus_zu]; simp only [torus]; rw [Real.cos_two_mul, Real.cos_three_mul]; simp; ring, e]
    positivity

/-- a vacuum solution that differs from point to point meets the hypotheses of `C95_free_boundary` -/
example : ∃ s, Sizes.mk false 1 2 0 0 0 2 0 = .ok s ∧ ∃ (hm : 2 ≤ s.mpol) (hn : 0 ≤ s.ntor),
    let I : ShafIn := { ringPlasma s hm hn 0 with active := true, vacuum_magnetic_pressure := fun i => ((i : ℝ) ^ 2 + 1) / 2, vacuum_b_phi := fun _ => 1 }
    I.active = true ∧ (∃ S, Samples I.toGeomIn S) ∧
    (∀ k l, I.vacuum_magnetic_pressure (l * s.nZeta + k) = ((fun k l : Int => ((l * s.nZeta + k : Int) : ℝ)) k l ^ 2 + (fun _ _ : Int => (1 : ℝ)) k l ^ 2 + (fun _ _ : Int => (0 : ℝ)) k l ^ 2) / 2) ∧
    (∀ k l, I.vacuum_b_phi (l * s.nZeta + k) = (fun _ _ : Int => (1 : ℝ)) k l) := by
  obtain ⟨s, hs, h1, h2, h3, h4, h5⟩ := sizes2 false
  refine ⟨s, hs, by omega, by omega, rfl, ⟨_, ringPlasma_samples s (by omega) (by omega) 0⟩, fun k l => ?_, fun k l => rfl⟩
  show ((((l * s.nZeta + k : Int) : ℝ)) ^ 2 + 1) / 2 = ((((l * s.nZeta + k : Int) : ℝ)) ^ 2 + 1 ^ 2 + 0 ^ 2) / 2
  norm_num

end Verif.Output
