import Verif.Output.Mercier
import Verif.Output.JxbProps

/-! # C88: Mercier stability -/
namespace Verif.Output
open Verif Finset

namespace MercierIn
variable (I : MercierIn)

theorem overFull_in (v : Int → ℝ) {j : Int} (j0 : 1 ≤ j) (j1 : j < I.ns - 1) : I.overFull v j = v j := by
  unfold overFull
  exact (Radial.pickLoop (fun a : Int → ℝ => a j) (fun i a => upd a i (v i)) (lo := 1) (hi := I.ns - 1) (i0 := j) (fun _ => v j)
    (fun i a _ _ h => upd_ne _ _ (Ne.symm h)) (fun a _ _ => upd_same _ _ _) (fun _ => 0)).trans (if_pos ⟨j0, j1⟩)

theorem overHalf_eq (v : Int → ℝ) (j : Int) : I.overHalf v j = if 0 ≤ j ∧ j < I.ns - 1 then v j else 0 := by
  unfold overHalf
  exact Radial.pickLoop (fun a : Int → ℝ => a j) (fun i a => upd a i (v i)) (lo := 0) (hi := I.ns - 1) (i0 := j) (fun _ => v j)
    (fun i a _ _ h => upd_ne _ _ (Ne.symm h)) (fun a _ _ => upd_same _ _ _) (fun _ => 0)

theorem overHalf_in (v : Int → ℝ) {j : Int} (j0 : 0 ≤ j) (j1 : j < I.ns - 1) : I.overHalf v j = v j := by
  rw [overHalf_eq, if_pos ⟨j0, j1⟩]

theorem table_in (v : Int → ℝ) {j : Int} (j0 : 1 ≤ j) (j1 : j < I.ns - 1) (hv : I.vp_full j ≠ 0) : I.table v j = v j := by
  unfold table
  refine (Radial.pickLoop (fun a : Int → ℝ => a j) (fun i a => if I.vp_full i = 0 then a else upd a i (v i)) (lo := 1) (hi := I.ns - 1) (i0 := j) (fun _ => v j)
    (fun i a _ _ h => ?_) (fun a _ _ => ?_) (fun _ => 0)).trans (if_pos ⟨j0, j1⟩)
  · split_ifs
    · rfl
    · exact upd_ne _ _ (Ne.symm h)
  · simp only [if_neg hv]; exact upd_same _ _ _

theorem surf_in (f : Int → Int → ℝ) {j : Int} (j0 : 1 ≤ j) (j1 : j < I.ns - 1) :
    I.surf f j = 4 * Real.pi ^ 2 * ∑ kl ∈ Ico 0 I.s.nZnT, f j kl * I.w kl := by
  unfold surf
  rw [I.overFull_in _ j0 j1, forRange_add, zero_add]
  ring

/-! ## specification -/

/-- tangent vectors of the surface `j` at grid point `kl`, in the local cylindrical basis -/
noncomputable def eu (j kl : Int) : Fin 3 → ℝ := ![I.full .ru_e .ru_o j kl, 0, I.full .zu_e .zu_o j kl]
noncomputable def ev (j kl : Int) : Fin 3 → ℝ := ![I.full .rv_e .rv_o j kl, I.full .r_e .r_o j kl, I.full .zv_e .zv_o j kl]

/-- gradient of the toroidal flux, `Φ' e_u × e_v / √g` with the Jacobian interpolated to the surface -/
noncomputable def gradPhi (j kl : Int) : Fin 3 → ℝ := (I.phip_realF j / I.gsqrtMid j kl) • crossProduct (I.eu j kl) (I.ev j kl)

/-- volume-like average over a surface with the Jacobian of the flux coordinates `(Φ, u, v)`: `∬ f √g / Φ' du dv` -/
noncomputable def avg (j : Int) (f : Int → ℝ) : ℝ :=
  4 * Real.pi ^ 2 * ∑ kl ∈ Ico 0 I.s.nZnT, f kl * (I.gsqrtMid j kl / I.phip_realF j) * Sizes.wInt I.s (kl.tmod I.s.nThetaEff)

/-- the quantity `μ₀ J·B` at a point: `bdotk / √g` -/
noncomputable def jb (j kl : Int) : ℝ := I.mu_0 * I.bdotk (j * I.s.nZnT + kl) / I.gsqrtMid j kl

/-- difference quotient with respect to the toroidal flux -/
noncomputable def dPhi (j : Int) (f : Int → ℝ) : ℝ := (f j - f (j - 1)) / (I.phip_realF j * I.deltaS)

/-! ## theorems -/

/-- **C88**: `gpp = 1 / |∇Φ|²` -/
theorem C88_gradient (j kl : Int) (hg : I.gsqrtMid j kl ≠ 0) (hp : I.phip_realF j ≠ 0) :
    I.gpp j kl = 1 / (I.gradPhi j kl ⬝ᵥ I.gradPhi j kl) := by
  have hc : crossProduct (I.eu j kl) (I.ev j kl) ⬝ᵥ crossProduct (I.eu j kl) (I.ev j kl) =
      (I.full .ru_e .ru_o j kl * I.full .ru_e .ru_o j kl + I.full .zu_e .zu_o j kl * I.full .zu_e .zu_o j kl) * I.full .r_e .r_o j kl * I.full .r_e .r_o j kl +
      (I.full .ru_e .ru_o j kl * I.full .zv_e .zv_o j kl - I.full .rv_e .rv_o j kl * I.full .zu_e .zu_o j kl) *
      (I.full .ru_e .ru_o j kl * I.full .zv_e .zv_o j kl - I.full .rv_e .rv_o j kl * I.full .zu_e .zu_o j kl) := by
    simp only [eu, ev, cross_apply, dotProduct, Fin.sum_univ_three, Matrix.cons_val_zero, Matrix.cons_val_one, Matrix.cons_val_two, Matrix.head_cons, Matrix.tail_cons, Matrix.cons_val]
    ring
  unfold gradPhi
  rw [smul_dotProduct, dotProduct_smul, smul_eq_mul, smul_eq_mul, hc]
  unfold gpp gsqrt_full
  simp only
  generalize (I.full .ru_e .ru_o j kl * I.full .ru_e .ru_o j kl + I.full .zu_e .zu_o j kl * I.full .zu_e .zu_o j kl) * I.full .r_e .r_o j kl * I.full .r_e .r_o j kl +
      (I.full .ru_e .ru_o j kl * I.full .zv_e .zv_o j kl - I.full .rv_e .rv_o j kl * I.full .zu_e .zu_o j kl) *
      (I.full .ru_e .ru_o j kl * I.full .zv_e .zv_o j kl - I.full .rv_e .rv_o j kl * I.full .zu_e .zu_o j kl) = D
  by_cases hD : D = 0
  · subst hD; simp
  · field_simp

/-- **C88**: `DMerc` is the Mercier criterion: with `⟨f⟩ = ∬ f √g/Φ' du dv` and primes for derivatives with respect to the toroidal flux,
    `DMerc = (ι'/2 - ⟨J·B/|∇Φ|²⟩)² + ⟨B²/|∇Φ|²⟩ (ι' I' + p' (V'' - p' ⟨1/B²⟩) - ⟨(J·B)²/(B²|∇Φ|²)⟩)` -/
theorem C88_mercier (j : Int) (j0 : 1 ≤ j) (j1 : j < I.ns - 1) (hg : ∀ kl, 0 ≤ kl → kl < I.s.nZnT → I.gsqrtMid j kl ≠ 0) (hp : I.phip_realF j ≠ 0) :
    I.DMerc j =
      (I.dPhi j (I.R.profH .iotaH) / 2 - I.avg j (fun kl => I.jb j kl / (I.gradPhi j kl ⬝ᵥ I.gradPhi j kl))) ^ 2 +
      I.avg j (fun kl => (I.b2 j kl + I.b2 (j - 1) kl) / 2 / (I.gradPhi j kl ⬝ᵥ I.gradPhi j kl)) *
        (I.dPhi j (I.R.profH .iotaH) *
            I.dPhi j (fun i => 2 * Real.pi * I.sign_of_jacobian * ∑ kl ∈ Ico 0 I.s.nZnT, I.R.gridH .bsubu (i * I.s.nZnT + kl) * Sizes.wInt I.s (kl.tmod I.s.nThetaEff)) +
          I.dPhi j (I.R.profH .presH) *
            (I.dPhi j (fun i => 4 * Real.pi ^ 2 * I.sign_of_jacobian * I.R.profH .dVdsH i / (2 * Real.pi * I.sign_of_jacobian * I.R.profH .phipH i)) -
              I.dPhi j (I.R.profH .presH) * I.avg j (fun kl => 1 / ((I.b2 j kl + I.b2 (j - 1) kl) / 2))) -
          I.avg j (fun kl => I.jb j kl ^ 2 / ((I.b2 j kl + I.b2 (j - 1) kl) / 2 * (I.gradPhi j kl ⬝ᵥ I.gradPhi j kl)))) := by
  have hS : I.shear j = I.dPhi j (I.R.profH .iotaH) := by unfold shear; rw [I.overFull_in _ j0 j1]; rfl
  have hP : I.d_pressure_d_s j = I.dPhi j (I.R.profH .presH) := by unfold d_pressure_d_s; rw [I.overFull_in _ j0 j1]; rfl
  have hv (i : Int) (i0 : 0 ≤ i) (i1 : i < I.ns - 1) : I.vp_real i = 4 * Real.pi ^ 2 * I.sign_of_jacobian * I.R.profH .dVdsH i / (2 * Real.pi * I.sign_of_jacobian * I.R.profH .phipH i) := by
    unfold vp_real phip_realH
    rw [I.overHalf_in _ i0 i1, I.overHalf_in _ i0 i1]
    congr 1 <;> ring
  have hV : I.vpp j = I.dPhi j (fun i => 4 * Real.pi ^ 2 * I.sign_of_jacobian * I.R.profH .dVdsH i / (2 * Real.pi * I.sign_of_jacobian * I.R.profH .phipH i)) := by
    unfold vpp dPhi
    rw [I.overFull_in _ j0 j1, hv j (by omega) j1, hv (j - 1) (by omega) (by omega)]
    rfl
  have ht (i : Int) (i0 : 0 ≤ i) (i1 : i < I.ns - 1) : I.torcur i =
      2 * Real.pi * I.sign_of_jacobian * ∑ kl ∈ Ico 0 I.s.nZnT, I.R.gridH .bsubu (i * I.s.nZnT + kl) * Sizes.wInt I.s (kl.tmod I.s.nThetaEff) := by
    unfold torcur
    rw [I.overHalf_in _ i0 i1]
    simp only
    rw [forRange_add, zero_add]
    unfold w
    ring
  have hI : I.d_toroidal_current_d_s j = I.dPhi j (fun i => 2 * Real.pi * I.sign_of_jacobian * ∑ kl ∈ Ico 0 I.s.nZnT, I.R.gridH .bsubu (i * I.s.nZnT + kl) * Sizes.wInt I.s (kl.tmod I.s.nThetaEff)) := by
    unfold d_toroidal_current_d_s dPhi
    rw [I.overFull_in _ j0 j1, ht j (by omega) j1, ht (j - 1) (by omega) (by omega)]
    rfl
  have hsurf (f g : Int → ℝ) (F : Int → Int → ℝ) (hF : F j = f) (h : ∀ kl, 0 ≤ kl → kl < I.s.nZnT → f kl = g kl * (I.gsqrtMid j kl / I.phip_realF j)) : I.surf F j = I.avg j g := by
    rw [I.surf_in _ j0 j1, hF]
    unfold avg
    congr 1
    refine Finset.sum_congr rfl fun kl hk => ?_
    rw [Finset.mem_Ico] at hk
    rw [h kl hk.1 hk.2]
    rfl
  have h1 : I.tpp j = I.avg j (fun kl => 1 / ((I.b2 j kl + I.b2 (j - 1) kl) / 2)) := hsurf _ _ _ rfl (fun kl _ _ => by unfold gsqrt_full b2i; ring)
  have h2 : I.tbb j = I.avg j (fun kl => (I.b2 j kl + I.b2 (j - 1) kl) / 2 / (I.gradPhi j kl ⬝ᵥ I.gradPhi j kl)) := hsurf _ _ _ rfl (fun kl a b => by
    rw [I.C88_gradient j kl (hg kl a b) hp]; unfold gsqrt_full b2i; ring)
  have h3 : I.tjb j = I.avg j (fun kl => I.jb j kl / (I.gradPhi j kl ⬝ᵥ I.gradPhi j kl)) := hsurf _ _ _ rfl (fun kl a b => by
    rw [I.C88_gradient j kl (hg kl a b) hp]; unfold gsqrt_full bdotj jb; ring)
  have h4 : I.tjj j = I.avg j (fun kl => I.jb j kl ^ 2 / ((I.b2 j kl + I.b2 (j - 1) kl) / 2 * (I.gradPhi j kl ⬝ᵥ I.gradPhi j kl))) := hsurf _ _ _ rfl (fun kl a b => by
    rw [I.C88_gradient j kl (hg kl a b) hp]; unfold gsqrt_full bdotj jb b2i
    rw [div_mul_eq_div_div]
    ring)
  unfold DMerc Dshear Dcurr Dwell Dgeod
  rw [I.overFull_in _ j0 j1, I.overFull_in _ j0 j1, I.overFull_in _ j0 j1, I.overFull_in _ j0 j1, I.overFull_in _ j0 j1, hS, hP, hV, hI, h1, h2, h3, h4]
  ring

theorem gpp_nonneg (j kl : Int) : 0 ≤ I.gpp j kl := by
  unfold gpp
  simp only
  refine div_nonneg (mul_self_nonneg _) ?_
  have := mul_self_nonneg (I.full .ru_e .ru_o j kl)
  have := mul_self_nonneg (I.full .zu_e .zu_o j kl)
  have := mul_self_nonneg (I.full .r_e .r_o j kl)
  have := mul_self_nonneg (I.full .ru_e .ru_o j kl * I.full .zv_e .zv_o j kl - I.full .rv_e .rv_o j kl * I.full .zu_e .zu_o j kl)
  rw [mul_assoc]
  positivity

/-- **C88**: the shear term is never destabilising and the geodesic curvature term never stabilising -/
theorem C88_signs {lasym : Bool} {nfp mpol ntor ntheta nzeta mg ng : Int} (hs : Sizes.mk lasym nfp mpol ntor ntheta nzeta mg ng = .ok I.s)
    (j : Int) (j0 : 1 ≤ j) (j1 : j < I.ns - 1) (σ : ℝ) (hσ : ∀ kl, 0 ≤ kl → kl < I.s.nZnT → 0 ≤ σ * I.gsqrt_full j kl) (hσ0 : σ ≠ 0)
    (hB : ∀ kl, 0 ≤ kl → kl < I.s.nZnT → 0 < I.b2 j kl ∧ 0 < I.b2 (j - 1) kl) :
    0 ≤ I.Dshear j ∧ I.Dgeod j ≤ 0 := by
  constructor
  · unfold Dshear
    rw [I.overFull_in _ j0 j1]
    exact div_nonneg (mul_self_nonneg _) (by norm_num)
  · unfold Dgeod
    rw [I.overFull_in _ j0 j1]
    unfold tjb tbb tjj
    rw [I.surf_in _ j0 j1, I.surf_in _ j0 j1, I.surf_in _ j0 j1]
    have hw (kl : Int) : 0 < I.w kl := wInt_pos hs _
    have hb (kl : Int) (k0 : 0 ≤ kl) (k1 : kl < I.s.nZnT) : 0 < I.b2i j kl := by
      have := hB kl k0 k1; unfold b2i; linarith
    have cs := Finset.sum_mul_sq_le_sq_mul_sq (Ico 0 I.s.nZnT) (fun kl => I.bdotj j kl * Real.sqrt (σ * I.gsqrt_full j kl * I.gpp j kl * I.w kl / I.b2i j kl))
      (fun kl => Real.sqrt (σ * I.gsqrt_full j kl * I.gpp j kl * I.w kl * I.b2i j kl))
    have nn (kl : Int) (k0 : 0 ≤ kl) (k1 : kl < I.s.nZnT) : 0 ≤ σ * I.gsqrt_full j kl * I.gpp j kl * I.w kl :=
      mul_nonneg (mul_nonneg (hσ kl k0 k1) (I.gpp_nonneg j kl)) (hw kl).le
    have e1 : ∑ kl ∈ Ico 0 I.s.nZnT, I.bdotj j kl * Real.sqrt (σ * I.gsqrt_full j kl * I.gpp j kl * I.w kl / I.b2i j kl) * Real.sqrt (σ * I.gsqrt_full j kl * I.gpp j kl * I.w kl * I.b2i j kl)
        = σ * ∑ kl ∈ Ico 0 I.s.nZnT, I.bdotj j kl * I.gpp j kl * I.gsqrt_full j kl * I.w kl := by
      rw [Finset.mul_sum]
      refine Finset.sum_congr rfl fun kl hk => ?_
      rw [Finset.mem_Ico] at hk
      have n := nn kl hk.1 hk.2
      have b := hb kl hk.1 hk.2
      rw [mul_assoc, ← Real.sqrt_mul (div_nonneg n b.le),
        show σ * I.gsqrt_full j kl * I.gpp j kl * I.w kl / I.b2i j kl * (σ * I.gsqrt_full j kl * I.gpp j kl * I.w kl * I.b2i j kl) = (σ * I.gsqrt_full j kl * I.gpp j kl * I.w kl) ^ 2 by
          field_simp, Real.sqrt_sq n]
      ring
    have e2 : ∑ kl ∈ Ico 0 I.s.nZnT, (I.bdotj j kl * Real.sqrt (σ * I.gsqrt_full j kl * I.gpp j kl * I.w kl / I.b2i j kl)) ^ 2
        = σ * ∑ kl ∈ Ico 0 I.s.nZnT, I.bdotj j kl * I.gpp j kl * I.gsqrt_full j kl * I.bdotj j kl / I.b2i j kl * I.w kl := by
      rw [Finset.mul_sum]
      refine Finset.sum_congr rfl fun kl hk => ?_
      rw [Finset.mem_Ico] at hk
      rw [mul_pow, Real.sq_sqrt (div_nonneg (nn kl hk.1 hk.2) (hb kl hk.1 hk.2).le)]
      ring
    have e3 : ∑ kl ∈ Ico 0 I.s.nZnT, Real.sqrt (σ * I.gsqrt_full j kl * I.gpp j kl * I.w kl * I.b2i j kl) ^ 2
        = σ * ∑ kl ∈ Ico 0 I.s.nZnT, I.b2i j kl * I.gsqrt_full j kl * I.gpp j kl * I.w kl := by
      rw [Finset.mul_sum]
      refine Finset.sum_congr rfl fun kl hk => ?_
      rw [Finset.mem_Ico] at hk
      rw [Real.sq_sqrt (mul_nonneg (nn kl hk.1 hk.2) (hb kl hk.1 hk.2).le)]
      ring
    rw [e1, e2, e3] at cs
    set A := ∑ kl ∈ Ico 0 I.s.nZnT, I.bdotj j kl * I.gpp j kl * I.gsqrt_full j kl * I.w kl
    set P := ∑ kl ∈ Ico 0 I.s.nZnT, I.bdotj j kl * I.gpp j kl * I.gsqrt_full j kl * I.bdotj j kl / I.b2i j kl * I.w kl
    set Q := ∑ kl ∈ Ico 0 I.s.nZnT, I.b2i j kl * I.gsqrt_full j kl * I.gpp j kl * I.w kl
    have hs2 : 0 < σ ^ 2 := by positivity
    have : A ^ 2 ≤ P * Q := by
      by_contra h
      rw [not_le] at h
      have := mul_lt_mul_of_pos_left h hs2
      nlinarith
    have h4 : 0 ≤ (4 * Real.pi ^ 2) ^ 2 := sq_nonneg _
    nlinarith [mul_le_mul_of_nonneg_left this h4]

end MercierIn

/-- the same equilibrium with the direction of the field (`a = -1`) or of the poloidal angle (`b = -1`) reversed: the Jacobian, the
    rotational transform, the poloidal components and the internal flux derivative change sign accordingly -/
structure Reversed (I I' : MercierIn) (a b : ℝ) : Prop where
  s : I'.s = I.s
  ns : I'.ns = I.ns
  deltaS : I'.deltaS = I.deltaS
  mu_0 : I'.mu_0 = I.mu_0
  sign : I'.sign_of_jacobian = b * I.sign_of_jacobian
  phipH : ∀ j, I'.R.profH .phipH j = a * b * I.R.profH .phipH j
  iotaH : ∀ j, I'.R.profH .iotaH j = b * I.R.profH .iotaH j
  dVdsH : ∀ j, I'.R.profH .dVdsH j = I.R.profH .dVdsH j
  presH : ∀ j, I'.R.profH .presH j = I.R.profH .presH j
  bsubu : ∀ i, I'.R.gridH .bsubu i = a * b * I.R.gridH .bsubu i
  gsqrt : ∀ i, I'.R.gridH .gsqrt i = b * I.R.gridH .gsqrt i
  total : ∀ i, I'.R.gridH .total_pressure i = I.R.gridH .total_pressure i
  bdotk : ∀ i, I'.bdotk i = b * I.bdotk i
  u : ∀ c, c = GridF.ru_e ∨ c = .ru_o ∨ c = .zu_e ∨ c = .zu_o → ∀ i, I'.R.gridF c i = b * I.R.gridF c i
  v : ∀ c, c = GridF.r_e ∨ c = .r_o ∨ c = .rv_e ∨ c = .rv_o ∨ c = .zv_e ∨ c = .zv_o → ∀ i, I'.R.gridF c i = I.R.gridF c i

open MercierIn in
/-- **C88**: the Mercier terms do not depend on the direction of the field and of the poloidal angle -/
theorem C88_reversal (I I' : MercierIn) (a b : ℝ) (ha : a = 1 ∨ a = -1) (hb : b = 1 ∨ b = -1) (h : Reversed I I' a b) (j : Int) (j0 : 1 ≤ j) (j1 : j < I.ns - 1) :
    I'.Dshear j = I.Dshear j ∧ I'.Dcurr j = I.Dcurr j ∧ I'.Dwell j = I.Dwell j ∧ I'.Dgeod j = I.Dgeod j ∧ I'.DMerc j = I.DMerc j := by
  have a2 : a * a = 1 := by rcases ha with rfl | rfl <;> norm_num
  have b2 : b * b = 1 := by rcases hb with rfl | rfl <;> norm_num
  have ai : a⁻¹ = a := by rcases ha with rfl | rfl <;> norm_num
  have bi : b⁻¹ = b := by rcases hb with rfl | rfl <;> norm_num
  have j1' : j < I'.ns - 1 := by rw [h.ns]; exact j1
  have hpH (i : Int) (i0 : 0 ≤ i) (i1 : i < I.ns - 1) : I'.phip_realH i = a * I.phip_realH i := by
    unfold phip_realH
    rw [I.overHalf_in _ i0 i1, I'.overHalf_in _ i0 (by rw [h.ns]; exact i1), h.phipH, h.sign]
    linear_combination 2 * Real.pi * a * I.R.profH .phipH i * I.sign_of_jacobian * b2
  have hpF : I'.phip_realF j = a * I.phip_realF j := by
    unfold phip_realF
    rw [I.overFull_in _ j0 j1, I'.overFull_in _ j0 j1', hpH j (by omega) j1, hpH (j - 1) (by omega) (by omega)]
    ring
  have hd : (I'.denom j)⁻¹ = a * (I.denom j)⁻¹ := by
    unfold denom
    rw [hpF, h.deltaS, mul_assoc, mul_inv, ai]
  have hvp (i : Int) (i0 : 0 ≤ i) (i1 : i < I.ns - 1) : I'.vp_real i = a * b * I.vp_real i := by
    unfold vp_real
    rw [I.overHalf_in _ i0 i1, I'.overHalf_in _ i0 (by rw [h.ns]; exact i1), hpH i i0 i1, h.dVdsH, h.sign, div_eq_mul_inv, mul_inv, ai]
    ring
  have ht (i : Int) (i0 : 0 ≤ i) (i1 : i < I.ns - 1) : I'.torcur i = a * I.torcur i := by
    unfold torcur
    rw [I.overHalf_in _ i0 i1, I'.overHalf_in _ i0 (by rw [h.ns]; exact i1)]
    simp only
    rw [forRange_add, forRange_add, zero_add, zero_add, h.sign, h.s]
    have : ∑ kl ∈ Ico 0 I.s.nZnT, I'.R.gridH .bsubu (i * I.s.nZnT + kl) * I'.w kl = a * b * ∑ kl ∈ Ico 0 I.s.nZnT, I.R.gridH .bsubu (i * I.s.nZnT + kl) * I.w kl := by
      rw [Finset.mul_sum]
      refine Finset.sum_congr rfl fun kl _ => ?_
      unfold w
      rw [h.bsubu, h.s]
      ring
    rw [this]
    linear_combination (a * (∑ kl ∈ Ico 0 I.s.nZnT, I.R.gridH .bsubu (i * I.s.nZnT + kl) * I.w kl) * (I.sign_of_jacobian * 2 * Real.pi)) * b2
  have hS : I'.shear j = a * b * I.shear j := by
    unfold shear
    rw [I.overFull_in _ j0 j1, I'.overFull_in _ j0 j1', div_eq_mul_inv, hd, h.iotaH, h.iotaH]
    ring
  have hV : I'.vpp j = b * I.vpp j := by
    unfold vpp
    rw [I.overFull_in _ j0 j1, I'.overFull_in _ j0 j1', div_eq_mul_inv, hd, hvp j (by omega) j1, hvp (j - 1) (by omega) (by omega), div_eq_mul_inv]
    linear_combination b * (I.vp_real j - I.vp_real (j - 1)) * (I.denom j)⁻¹ * a2
  have hP : I'.d_pressure_d_s j = a * I.d_pressure_d_s j := by
    unfold d_pressure_d_s
    rw [I.overFull_in _ j0 j1, I'.overFull_in _ j0 j1', div_eq_mul_inv, hd, h.presH, h.presH]
    ring
  have hI : I'.d_toroidal_current_d_s j = I.d_toroidal_current_d_s j := by
    unfold d_toroidal_current_d_s
    rw [I.overFull_in _ j0 j1, I'.overFull_in _ j0 j1', div_eq_mul_inv, hd, ht j (by omega) j1, ht (j - 1) (by omega) (by omega), div_eq_mul_inv]
    linear_combination (I.torcur j - I.torcur (j - 1)) * (I.denom j)⁻¹ * a2
  have hgm (kl : Int) : I'.gsqrtMid j kl = b * I.gsqrtMid j kl := by
    unfold gsqrtMid MercierIn.h
    rw [h.gsqrt, h.gsqrt, h.s]
    ring
  have hbj (kl : Int) : I'.bdotj j kl = I.bdotj j kl := by
    unfold bdotj
    rw [hgm, h.bdotk, h.mu_0, h.s, div_eq_mul_inv, mul_inv, bi, div_eq_mul_inv]
    linear_combination I.bdotk (j * I.s.nZnT + kl) * I.mu_0 * (I.gsqrtMid j kl)⁻¹ * b2
  have hgf (kl : Int) : I'.gsqrt_full j kl = a * b * I.gsqrt_full j kl := by
    unfold gsqrt_full
    rw [hgm, hpF, div_eq_mul_inv, mul_inv, ai]
    ring
  have hu (e o : GridF) (he : e = GridF.ru_e ∨ e = .ru_o ∨ e = .zu_e ∨ e = .zu_o) (ho : o = GridF.ru_e ∨ o = .ru_o ∨ o = .zu_e ∨ o = .zu_o) (kl : Int) :
      I'.full e o j kl = b * I.full e o j kl := by
    unfold full sOf
    simp only
    rw [h.u e he, h.u o ho, h.s, h.deltaS]
    ring
  have hv (e o : GridF) (he : e = GridF.r_e ∨ e = .r_o ∨ e = .rv_e ∨ e = .rv_o ∨ e = .zv_e ∨ e = .zv_o)
      (ho : o = GridF.r_e ∨ o = .r_o ∨ o = .rv_e ∨ o = .rv_o ∨ o = .zv_e ∨ o = .zv_o) (kl : Int) : I'.full e o j kl = I.full e o j kl := by
    unfold full sOf
    simp only
    rw [h.v e he, h.v o ho, h.s, h.deltaS]
  have hgpp (kl : Int) : I'.gpp j kl = I.gpp j kl := by
    unfold gpp
    simp only
    rw [hu .ru_e .ru_o (by tauto) (by tauto), hu .zu_e .zu_o (by tauto) (by tauto), hv .rv_e .rv_o (by tauto) (by tauto), hv .zv_e .zv_o (by tauto) (by tauto),
      hv .r_e .r_o (by tauto) (by tauto), hgf]
    rcases ha with rfl | rfl <;> rcases hb with rfl | rfl <;> · congr 1 <;> ring
  have hb2 (kl : Int) : I'.b2i j kl = I.b2i j kl := by
    unfold b2i MercierIn.b2 MercierIn.h
    rw [h.total, h.total, h.presH, h.presH, h.s]
  have sf (F F' : Int → Int → ℝ) (c : ℝ) (hF : ∀ kl, F' j kl = c * F j kl) : I'.surf F' j = c * I.surf F j := by
    rw [I.surf_in _ j0 j1, I'.surf_in _ j0 j1', h.s]
    have : ∑ kl ∈ Ico 0 I.s.nZnT, F' j kl * I'.w kl = c * ∑ kl ∈ Ico 0 I.s.nZnT, F j kl * I.w kl := by
      rw [Finset.mul_sum]
      refine Finset.sum_congr rfl fun kl _ => ?_
      unfold w
      rw [hF, h.s]; ring
    rw [this]; ring
  have h1 : I'.tpp j = a * b * I.tpp j := sf _ _ _ (fun kl => by rw [hgf, hb2]; ring)
  have h2 : I'.tbb j = a * b * I.tbb j := sf _ _ _ (fun kl => by rw [hgf, hb2, hgpp]; ring)
  have h3 : I'.tjb j = a * b * I.tjb j := sf _ _ _ (fun kl => by rw [hgf, hbj, hgpp]; ring)
  have h4 : I'.tjj j = a * b * I.tjj j := sf _ _ _ (fun kl => by rw [hgf, hb2, hbj, hgpp]; ring)
  have r1 : I'.Dshear j = I.Dshear j := by
    unfold Dshear
    rw [I.overFull_in _ j0 j1, I'.overFull_in _ j0 j1', hS]
    rcases ha with rfl | rfl <;> rcases hb with rfl | rfl <;> ring
  have r2 : I'.Dcurr j = I.Dcurr j := by
    unfold Dcurr
    rw [I.overFull_in _ j0 j1, I'.overFull_in _ j0 j1', hS, hI, h2, h3]
    rcases ha with rfl | rfl <;> rcases hb with rfl | rfl <;> ring
  have r3 : I'.Dwell j = I.Dwell j := by
    unfold Dwell
    rw [I.overFull_in _ j0 j1, I'.overFull_in _ j0 j1', hP, hV, h1, h2]
    rcases ha with rfl | rfl <;> rcases hb with rfl | rfl <;> ring
  have r4 : I'.Dgeod j = I.Dgeod j := by
    unfold Dgeod
    rw [I.overFull_in _ j0 j1, I'.overFull_in _ j0 j1', h2, h3, h4]
    rcases ha with rfl | rfl <;> rcases hb with rfl | rfl <;> ring
  refine ⟨r1, r2, r3, r4, ?_⟩
  unfold DMerc
  rw [I.overFull_in _ j0 j1, I'.overFull_in _ j0 j1', r1, r2, r3, r4]

namespace MercierIn
variable (I : MercierIn)

/-- the toroidal flux of the first table: the integral of the flux derivative (midpoint rule) plus half a cell times the change of the derivative -/
theorem flux_eq (j : Int) (j0 : 1 ≤ j) (j1 : j < I.ns - 1) (hv : I.vp_full j ≠ 0) :
    I.toroidal_flux j = I.deltaS * ∑ i ∈ Ico 0 j, 2 * Real.pi * I.sign_of_jacobian * I.R.profH .phipH i +
      I.deltaS * (2 * Real.pi * I.sign_of_jacobian * I.R.profH .phipH j - 2 * Real.pi * I.sign_of_jacobian * I.R.profH .phipH 0) / 2 := by
  have hH (i : Int) (i0 : 0 ≤ i) (i1 : i < I.ns - 1) : I.phip_realH i = 2 * Real.pi * I.sign_of_jacobian * I.R.profH .phipH i := by
    unfold phip_realH; rw [I.overHalf_in _ i0 i1]; ring
  unfold toroidal_flux
  rw [I.table_in _ j0 j1 hv]
  simp only
  rw [forRange_add, zero_add]
  have key : ∀ n : Int, 1 ≤ n → n < I.ns - 1 → ∑ i ∈ Ico 1 (n + 1), I.phip_realF i = ∑ i ∈ Ico 0 n, 2 * Real.pi * I.sign_of_jacobian * I.R.profH .phipH i +
      (2 * Real.pi * I.sign_of_jacobian * I.R.profH .phipH n - 2 * Real.pi * I.sign_of_jacobian * I.R.profH .phipH 0) / 2 := by
    intro n n0
    have hF (i : Int) (i0 : 1 ≤ i) (i1 : i < I.ns - 1) : I.phip_realF i = (2 * Real.pi * I.sign_of_jacobian * I.R.profH .phipH i + 2 * Real.pi * I.sign_of_jacobian * I.R.profH .phipH (i - 1)) / 2 := by
      unfold phip_realF; rw [I.overFull_in _ i0 i1, hH i (by omega) i1, hH (i - 1) (by omega) (by omega)]
    induction n, n0 using Int.leInduction with
    | base =>
      intro h1
      rw [sum_Ico_int_succ (by omega), show Ico (0 : Int) 1 = Ico 0 (0 + 1) by rfl, sum_Ico_int_succ (lo := 0) (hi := 0) (by omega), hF 1 (by omega) h1]
      simp
      ring
    | succ n hn ih =>
      intro h1
      rw [sum_Ico_int_succ (by omega), ih (by omega), sum_Ico_int_succ (lo := 0) (hi := n) (by omega), hF (n + 1) (by omega) h1, show n + 1 - 1 = n by ring]
      ring
  rw [key j j0 j1]
  ring

/-- **C88** (flux): with a constant flux derivative the toroidal flux of the table is `s Φ'` -/
theorem C88_flux_partial (j : Int) (j0 : 1 ≤ j) (j1 : j < I.ns - 1) (hv : I.vp_full j ≠ 0) (p : ℝ) (hp : ∀ i, 2 * Real.pi * I.sign_of_jacobian * I.R.profH .phipH i = p) :
    I.toroidal_flux j = (j * I.deltaS) * p := by
  rw [I.flux_eq j j0 j1 hv]
  simp only [hp, Finset.sum_const, Int.card_Ico, nsmul_eq_mul, sub_self]
  have : (((j - 0).toNat : ℕ) : ℝ) = j := by
    have : ((j - 0).toNat : Int) = j := by omega
    exact_mod_cast congrArg (Int.cast (R := ℝ)) this
  rw [this]; ring

/-- **C88** fails for other flux profiles: with `Φ = s²` the table has `s² + s Δs` -/
theorem C88_flux_fails (j : Int) (j0 : 1 ≤ j) (j1 : j < I.ns - 1) (hv : I.vp_full j ≠ 0)
    (hp : ∀ i : Int, 2 * Real.pi * I.sign_of_jacobian * I.R.profH .phipH i = 2 * ((i + 1 / 2) * I.deltaS)) :
    I.toroidal_flux j = (j * I.deltaS) ^ 2 + (j * I.deltaS) * I.deltaS := by
  rw [I.flux_eq j j0 j1 hv]
  simp only [hp]
  have key : ∀ n : Int, 0 ≤ n → ∑ i ∈ Ico 0 n, 2 * (((i : ℝ) + 1 / 2) * I.deltaS) = n ^ 2 * I.deltaS := by
    intro n n0
    induction n, n0 using Int.leInduction with
    | base => simp
    | succ n hn ih => rw [sum_Ico_int_succ (by omega), ih]; push_cast; ring
  rw [key j (by omega)]
  push_cast
  ring

end MercierIn

/-! ## the hypotheses are met -/

/-- a torus `R = 4 + √s cos kl`, `Z = √s sin kl` with constant half-grid quantities -/
noncomputable def mercierEx (s : Sizes.Sizes) : MercierIn where
  s := s
  ns := 5
  deltaS := 1 / 4
  mu_0 := 1
  sign_of_jacobian := -1
  R := { Results.zero with
    profH := fun c j => match c with | .presH => j / 4 | .dVdsH => 1 | .phipH => -1 | .iotaH => j | _ => 0
    gridH := fun c _ => match c with
      | .gsqrt => -2
      | .total_pressure => 2
      | .bsubu => 1
      | _ => 0
    gridF := fun c _ => match c with | .r_e => 4 | .r_o => 1 | .zu_o => 1 | _ => 0 }
  bdotk := fun i => i

example : ∃ I : MercierIn, Sizes.mk true 5 6 4 0 36 0 0 = .ok I.s ∧ I.phip_realF 2 ≠ 0 ∧ (∀ kl, I.gsqrtMid 2 kl ≠ 0) ∧ (∀ kl, 0 ≤ -1 * I.gsqrt_full 2 kl) ∧
    (∀ kl, 0 < I.b2 2 kl ∧ 0 < I.b2 (2 - 1) kl) ∧ I.vp_full 2 ≠ 0 ∧ (∀ i, 2 * Real.pi * I.sign_of_jacobian * I.R.profH .phipH i = 2 * Real.pi) := by
  obtain ⟨s, hs⟩ : ∃ s, Sizes.mk true 5 6 4 0 36 0 0 = .ok s := ⟨_, rfl⟩
  have hp := Real.pi_pos
  have hH (i : Int) (i0 : 0 ≤ i) (i1 : i < 5 - 1) : (mercierEx s).phip_realH i = 2 * Real.pi := by
    unfold MercierIn.phip_realH
    rw [MercierIn.overHalf_in _ _ i0 i1]; simp [mercierEx]
  have hF : (mercierEx s).phip_realF 2 = 2 * Real.pi := by
    unfold MercierIn.phip_realF
    rw [MercierIn.overFull_in _ _ (by norm_num) (by simp [mercierEx]), hH 2 (by norm_num) (by norm_num), hH (2 - 1) (by norm_num) (by norm_num)]
    ring
  have hV (i : Int) (i0 : 0 ≤ i) (i1 : i < 5 - 1) : (mercierEx s).vp_real i = -2 * Real.pi := by
    unfold MercierIn.vp_real
    rw [MercierIn.overHalf_in _ _ i0 i1, hH i i0 i1]; simp [mercierEx]; field_simp; norm_num
  refine ⟨mercierEx s, hs, ?_, ?_, ?_, ?_, ?_, ?_⟩
  · rw [hF]; positivity
  · intro kl; norm_num [MercierIn.gsqrtMid, MercierIn.h, mercierEx]
  · intro kl
    unfold MercierIn.gsqrt_full
    rw [hF]
    simp only [MercierIn.gsqrtMid, MercierIn.h, mercierEx]
    have : (0:ℝ) ≤ 2 / (2 * Real.pi) := by positivity
    have e : (-1 : ℝ) * ((-2 + -2) / 2 / (2 * Real.pi)) = 2 / (2 * Real.pi) := by ring
    rw [e]; exact this
  · intro kl; simp [MercierIn.b2, MercierIn.h, mercierEx]; norm_num
  · unfold MercierIn.vp_full
    rw [hV 2 (by norm_num) (by norm_num), hV (2 - 1) (by norm_num) (by norm_num)]
    have : (-2 * Real.pi + -2 * Real.pi) / 2 = -(2 * Real.pi) := by ring
    rw [this]; exact neg_ne_zero.2 (by positivity)
  · intro i; simp [mercierEx]

/-- reversing the poloidal angle of the torus -/
example (I : MercierIn) : ∃ I', Reversed I I' 1 (-1) := by
  refine ⟨{ I with
    sign_of_jacobian := -1 * I.sign_of_jacobian
    bdotk := fun i => -1 * I.bdotk i
    R := { I.R with
      profH := fun c j => match c with | .phipH => 1 * -1 * I.R.profH .phipH j | .iotaH => -1 * I.R.profH .iotaH j | c => I.R.profH c j
      gridH := fun c i => match c with | .bsubu => 1 * -1 * I.R.gridH .bsubu i | .gsqrt => -1 * I.R.gridH .gsqrt i | c => I.R.gridH c i
      gridF := fun c i => match c with | .ru_e => -1 * I.R.gridF .ru_e i | .ru_o => -1 * I.R.gridF .ru_o i | .zu_e => -1 * I.R.gridF .zu_e i | .zu_o => -1 * I.R.gridF .zu_o i | c => I.R.gridF c i } }, ?_⟩
  constructor <;> first | rfl | (intro _; rfl) | skip
  · rintro c (rfl | rfl | rfl | rfl) i <;> rfl
  · rintro c (rfl | rfl | rfl | rfl | rfl | rfl) i <;> rfl

end Verif.Output
