import Mathlib.LinearAlgebra.CrossProduct
import Verif.Output.Geometry
import Verif.Output.Quadrature
import Verif.Output.CurrentsProps
import Verif.Output.NyquistProps
import Verif.Output.Threed1Props

/-!
# C92: the geometric quantities of the plasma boundary
-/
namespace Verif.Output
open Verif Verif.Fourier Finset Matrix

/-! ## derivative of a trigonometric polynomial, and the series of the output file -/

theorem TrigPoly.deriv_theta {nfp A B : Int} {f : ℝ → ℝ → ℝ} (hf : TrigPoly nfp A B f) :
    TrigPoly nfp A B (fun θ φ => deriv (fun t => f t φ) θ) ∧ ∀ θ φ, HasDerivAt (fun t => f t φ) (deriv (fun t => f t φ) θ) θ := by
  suffices h : ∃ g, TrigPoly nfp A B g ∧ ∀ θ φ, HasDerivAt (fun t => f t φ) (g θ φ) θ by
    obtain ⟨g, hg, hd⟩ := h
    exact ⟨hg.of_eq fun θ φ => (hd θ φ).deriv.symm, fun θ φ => (hd θ φ).deriv ▸ hd θ φ⟩
  have lin (a b : Int) (θ φ : ℝ) : HasDerivAt (fun t => (a : ℝ) * t - b * (nfp * φ)) a θ := by
    simpa using ((hasDerivAt_id θ).const_mul (a : ℝ)).sub_const (b * (nfp * φ))
  induction hf with
  | cos a b ha hb => exact ⟨_, .smul (-a) _ (.sin a b ha hb), fun θ φ => ((lin a b θ φ).cos).congr_deriv (by ring)⟩
  | sin a b ha hb => exact ⟨_, .smul a _ (.cos a b ha hb), fun θ φ => ((lin a b θ φ).sin).congr_deriv (by ring)⟩
  | add f g _ _ i1 i2 =>
    obtain ⟨f', h1, h2⟩ := i1
    obtain ⟨g', h3, h4⟩ := i2
    exact ⟨_, .add _ _ h1 h3, fun θ φ => (h2 θ φ).add (h4 θ φ)⟩
  | smul c f _ i1 =>
    obtain ⟨f', h1, h2⟩ := i1
    exact ⟨_, .smul c _ h1, fun θ φ => (h2 θ φ).const_mul c⟩

/-- the series of the output file with the mode numbers of the state are trigonometric polynomials of degree `mpol - 1` and `ntor` -/
theorem series_trig {M N nfp : Int} {xm xn : Int → Int} (hM : 1 ≤ M) (hN : 0 ≤ N) (ht : computeConversionIndices N M nfp = .ok (xm, xn)) (c : Int → ℝ) :
    TrigPoly nfp (M - 1) N (combinedCos (mnMax M N) xm xn c) ∧ TrigPoly nfp (M - 1) N (combinedSin (mnMax M N) xm xn c) := by
  obtain ⟨xm', xn', e, h1, h2, _⟩ := C09_mode_table M N nfp hM hN
  rw [ht] at e
  cases e
  have mode (i : Int) (hi : i ∈ Ico 0 (mnMax M N)) : ∃ m n : Int, |m| ≤ M - 1 ∧ |n| ≤ N ∧ xm i = m ∧ xn i = n * nfp := by
    rw [Finset.mem_Ico] at hi
    obtain ⟨⟨m, n⟩, ⟨hv, hi'⟩, _⟩ := h2 i hi.1 hi.2
    obtain ⟨i', e1, _, _, e2, e3⟩ := h1 m n hv
    simp only at hi'
    rw [hi'] at e1
    cases e1
    obtain ⟨v1, v2, v3, v4⟩ := hv
    refine ⟨m, n, abs_le.2 ⟨by omega, by omega⟩, abs_le.2 ⟨?_, v3⟩, e2, e3⟩
    split_ifs at v4 <;> omega
  constructor
  · refine TrigPoly.sum (by omega) hN _ _ fun i hi => ?_
    obtain ⟨m, n, hm, hn, e1, e2⟩ := mode i hi
    refine (TrigPoly.smul (c i) _ (TrigPoly.cos m n hm hn)).of_eq fun θ φ => ?_
    rw [e1, e2]; push_cast; ring_nf
  · refine TrigPoly.sum (by omega) hN _ _ fun i hi => ?_
    obtain ⟨m, n, hm, hn, e1, e2⟩ := mode i hi
    refine (TrigPoly.smul (c i) _ (TrigPoly.sin m n hm hn)).of_eq fun θ φ => ?_
    rw [e1, e2]; push_cast; ring_nf

/-! ## specification: a surface and its samples -/

/-- a toroidal surface that the resolution of the state can represent; with the symmetry of the configuration unless `lasym` -/
structure Surface (s : Sizes.Sizes) where
  R : ℝ → ℝ → ℝ
  Z : ℝ → ℝ → ℝ
  hR : TrigPoly s.nfp (s.mpol - 1) s.ntor R
  hZ : TrigPoly s.nfp (s.mpol - 1) s.ntor Z
  sym : s.lasym = false → ∀ θ φ, R (-θ) (-φ) = R θ φ ∧ Z (-θ) (-φ) = -Z θ φ

/-- the point of the surface in Cartesian coordinates -/
noncomputable def Surface.point {s : Sizes.Sizes} (S : Surface s) (θ φ : ℝ) : Fin 3 → ℝ := ![S.R θ φ * Real.cos φ, S.R θ φ * Real.sin φ, S.Z θ φ]

/-- the arrays of the last full-grid surface (even plus odd part) hold the values of the surface and of its derivatives on the grid -/
structure Samples (I : GeomIn) (S : Surface I.s) : Prop where
  raw_r : ∀ k l, 0 ≤ k → k < I.s.nZeta → 0 ≤ l → l < I.s.nThetaEff → I.R.gridF .r_e ((I.ns - 1) * I.s.nZnT + (k * I.s.nThetaEff + l)) + I.R.gridF .r_o ((I.ns - 1) * I.s.nZnT + (k * I.s.nThetaEff + l)) = S.R (thetaGrid I.s l) (phiGrid I.s k)
  raw_z : ∀ k l, 0 ≤ k → k < I.s.nZeta → 0 ≤ l → l < I.s.nThetaEff → I.R.gridF .z_e ((I.ns - 1) * I.s.nZnT + (k * I.s.nThetaEff + l)) + I.R.gridF .z_o ((I.ns - 1) * I.s.nZnT + (k * I.s.nThetaEff + l)) = S.Z (thetaGrid I.s l) (phiGrid I.s k)
  raw_zu : ∀ k l, 0 ≤ k → k < I.s.nZeta → 0 ≤ l → l < I.s.nThetaEff → I.R.gridF .zu_e ((I.ns - 1) * I.s.nZnT + (k * I.s.nThetaEff + l)) + I.R.gridF .zu_o ((I.ns - 1) * I.s.nZnT + (k * I.s.nThetaEff + l)) = deriv (fun t => S.Z t (phiGrid I.s k)) (thetaGrid I.s l)
  raw_ru0 : ∀ k l, 0 ≤ k → k < I.s.nZeta → 0 ≤ l → l < I.s.nThetaEff → I.R.gridO .ruFull ((I.ns - 1) * I.s.nZnT + (k * I.s.nThetaEff + l)) = deriv (fun t => S.R t (phiGrid I.s k)) (thetaGrid I.s l)
  raw_zu0 : ∀ k l, 0 ≤ k → k < I.s.nZeta → 0 ≤ l → l < I.s.nThetaEff → I.R.gridO .zuFull ((I.ns - 1) * I.s.nZnT + (k * I.s.nThetaEff + l)) = deriv (fun t => S.Z t (phiGrid I.s k)) (thetaGrid I.s l)
  raw_rv : ∀ k l, 0 ≤ k → k < I.s.nZeta → 0 ≤ l → l < I.s.nThetaEff → I.R.gridF .rv_e ((I.ns - 1) * I.s.nZnT + (k * I.s.nThetaEff + l)) + I.R.gridF .rv_o ((I.ns - 1) * I.s.nZnT + (k * I.s.nThetaEff + l)) = deriv (S.R (thetaGrid I.s l)) (phiGrid I.s k)
  raw_zv : ∀ k l, 0 ≤ k → k < I.s.nZeta → 0 ≤ l → l < I.s.nThetaEff → I.R.gridF .zv_e ((I.ns - 1) * I.s.nZnT + (k * I.s.nThetaEff + l)) + I.R.gridF .zv_o ((I.ns - 1) * I.s.nZnT + (k * I.s.nThetaEff + l)) = deriv (S.Z (thetaGrid I.s l)) (phiGrid I.s k)

section
variable {I : GeomIn} {S : Surface I.s} (h : Samples I S)
include h
theorem Samples.r : ∀ k l, 0 ≤ k → k < I.s.nZeta → 0 ≤ l → l < I.s.nThetaEff → I.rb (k * I.s.nThetaEff + l) = S.R (thetaGrid I.s l) (phiGrid I.s k) := h.raw_r
theorem Samples.z : ∀ k l, 0 ≤ k → k < I.s.nZeta → 0 ≤ l → l < I.s.nThetaEff → I.zb (k * I.s.nThetaEff + l) = S.Z (thetaGrid I.s l) (phiGrid I.s k) := h.raw_z
theorem Samples.zu : ∀ k l, 0 ≤ k → k < I.s.nZeta → 0 ≤ l → l < I.s.nThetaEff → I.zub (k * I.s.nThetaEff + l) = deriv (fun t => S.Z t (phiGrid I.s k)) (thetaGrid I.s l) := h.raw_zu
theorem Samples.ru0 : ∀ k l, 0 ≤ k → k < I.s.nZeta → 0 ≤ l → l < I.s.nThetaEff → I.ru0 (k * I.s.nThetaEff + l) = deriv (fun t => S.R t (phiGrid I.s k)) (thetaGrid I.s l) := h.raw_ru0
theorem Samples.zu0 : ∀ k l, 0 ≤ k → k < I.s.nZeta → 0 ≤ l → l < I.s.nThetaEff → I.zu0 (k * I.s.nThetaEff + l) = deriv (fun t => S.Z t (phiGrid I.s k)) (thetaGrid I.s l) := h.raw_zu0
theorem Samples.rv : ∀ k l, 0 ≤ k → k < I.s.nZeta → 0 ≤ l → l < I.s.nThetaEff → I.rvb (k * I.s.nThetaEff + l) = deriv (S.R (thetaGrid I.s l)) (phiGrid I.s k) := h.raw_rv
theorem Samples.zv : ∀ k l, 0 ≤ k → k < I.s.nZeta → 0 ≤ l → l < I.s.nThetaEff → I.zvb (k * I.s.nThetaEff + l) = deriv (S.Z (thetaGrid I.s l)) (phiGrid I.s k) := h.raw_zv
end

theorem mean_abs (f : ℝ → ℝ → ℝ) : |integralMean f| = |∫ φ in (0 : ℝ)..2 * Real.pi, ∫ θ in (0 : ℝ)..2 * Real.pi, f θ φ| / (4 * Real.pi ^ 2) := by
  unfold integralMean
  rw [abs_div, abs_of_nonneg (by positivity : (0 : ℝ) ≤ 4 * Real.pi ^ 2)]

theorem over_area (X : ℝ) : 2 * Real.pi * (X / (4 * Real.pi ^ 2)) = X / (2 * Real.pi) := by
  have := Real.pi_ne_zero
  field_simp
  ring
theorem over_volume (X : ℝ) : 2 * Real.pi * Real.pi * (X / (4 * Real.pi ^ 2)) = X / 2 := by
  have := Real.pi_ne_zero
  field_simp
  ring

/-- the derivative of an odd function is even -/
theorem deriv_even {Z : ℝ → ℝ → ℝ} (hd : ∀ θ φ, DifferentiableAt ℝ (fun t => Z t φ) θ) (h : ∀ θ φ, Z (-θ) (-φ) = -Z θ φ) (θ φ : ℝ) :
    deriv (fun t => Z t (-φ)) (-θ) = deriv (fun t => Z t φ) θ := by
  have e : (fun t => Z t (-φ)) = fun t => -Z (-t) φ := by
    funext t
    have := h (-t) φ
    rw [neg_neg] at this
    exact this
  rw [e]
  have h1 : HasDerivAt (fun t => Z t φ) (deriv (fun t => Z t φ) θ) (- -θ) := by rw [neg_neg]; exact (hd θ φ).hasDerivAt
  have h2 := (h1.comp (-θ) (hasDerivAt_neg (-θ))).neg
  refine h2.deriv.trans ?_
  ring

section
variable {lasym : Bool} {nfp mpol ntor ntheta nzeta mg ng : Int} {I : GeomIn} (hs : Sizes.mk lasym nfp mpol ntor ntheta nzeta mg ng = .ok I.s)
include hs

theorem resolution : 2 * I.s.mpol + 6 ≤ I.s.nThetaEven ∧ 2 * I.s.ntor < I.s.nZeta ∧ 1 ≤ I.s.mpol ∧ 0 ≤ I.s.ntor := by
  obtain ⟨h0, h⟩ := Sizes.C07_sizes lasym nfp mpol ntor ntheta nzeta mg ng
  obtain ⟨⟨_, _, a3, a4⟩, ⟨_, b2, _⟩, ⟨c1, c2, _⟩, _⟩ := h I.s hs
  obtain ⟨_, h2, h3⟩ := h0.2 ⟨I.s, hs⟩
  refine ⟨by omega, ?_, by omega, by omega⟩
  rcases Int.lt_or_le 0 ntor with hn | hn
  · rw [c2 hn, a4]
    exact lt_of_lt_of_le (by omega) (le_max_right _ _)
  · rw [a4]; omega

/-- **C92** (area): for every size the code accepts, `cross_area_p` is the toroidal average of the area of the cross section, `(1/2π) |∫∫ R ∂Z/∂θ dθ dφ|` -/
theorem C92_area (S : Surface I.s) (h : Samples I S) :
    I.cross_area_p = |∫ φ in (0 : ℝ)..2 * Real.pi, ∫ θ in (0 : ℝ)..2 * Real.pi, S.R θ φ * deriv (fun t => S.Z t φ) θ| / (2 * Real.pi) := by
  obtain ⟨g1, g2, g3, g4⟩ := resolution hs
  have hp := S.hR.mul S.hZ.deriv_theta.1
  have e := average_exact hs (by omega) (by omega) hp (fun hl θ φ => by
    rw [(S.sym hl θ φ).1, deriv_even (fun θ φ => (S.hZ.deriv_theta.2 θ φ).differentiableAt) (fun θ φ => (S.sym hl θ φ).2)])
    (fun kl => I.rb kl * I.zub kl) (fun k l k0 k1 l0 l1 => by rw [h.r k l k0 k1 l0 l1, h.zu k l k0 k1 l0 l1])
  unfold GeomIn.cross_area_p GeomIn.sumKl GeomIn.w
  rw [forRange_add, zero_add, e]
  rw [mean_abs]
  exact over_area _

/-- **C92** (volume): `volume_p` is the volume, `(1/2) |∫∫ R² ∂Z/∂θ dθ dφ|`, if the grid has more than three times as many points as the highest mode numbers.
    The full claim has no condition: the grids that the code accepts and chooses need not satisfy it, see `C92_volume_fails`. -/
theorem C92_volume_partial (S : Surface I.s) (h : Samples I S) (hm : 3 * (I.s.mpol - 1) < I.s.nThetaEven) (hn : 3 * I.s.ntor < I.s.nZeta) :
    I.volume_p = |∫ φ in (0 : ℝ)..2 * Real.pi, ∫ θ in (0 : ℝ)..2 * Real.pi, S.R θ φ * (S.R θ φ * deriv (fun t => S.Z t φ) θ)| / 2 := by
  have hp := S.hR.mul (S.hR.mul S.hZ.deriv_theta.1)
  have e := average_exact hs (by omega) (by omega) hp (fun hl θ φ => by
    rw [(S.sym hl θ φ).1, deriv_even (fun θ φ => (S.hZ.deriv_theta.2 θ φ).differentiableAt) (fun θ φ => (S.sym hl θ φ).2)])
    (fun kl => I.rb kl * (I.rb kl * I.zub kl)) (fun k l k0 k1 l0 l1 => by rw [h.r k l k0 k1 l0 l1, h.zu k l k0 k1 l0 l1])
  have e' : ∑ kl ∈ Ico 0 I.s.nZnT, I.rb kl * (I.rb kl * I.zub kl * I.w kl) = integralMean fun θ φ => S.R θ φ * (S.R θ φ * deriv (fun t => S.Z t φ) θ) := by
    rw [← e]
    refine Finset.sum_congr rfl fun kl _ => ?_
    unfold GeomIn.w
    ring
  unfold GeomIn.volume_p GeomIn.sumKl
  rw [forRange_add, zero_add, e']
  rw [mean_abs]
  exact over_volume _

/-- **C92** (surface element): `surf_area` is the weight of the grid point times the length of `∂x/∂θ × ∂x/∂φ` -/
theorem C92_surface_element (S : Surface I.s) (h : Samples I S) (k l : Int) (k0 : 0 ≤ k) (k1 : k < I.s.nZeta) (l0 : 0 ≤ l) (l1 : l < I.s.nThetaEff) (xu xv : Fin 3 → ℝ)
    (hu : HasDerivAt (fun t => S.point t (phiGrid I.s k)) xu (thetaGrid I.s l)) (hv : HasDerivAt (fun t => S.point (thetaGrid I.s l) t) xv (phiGrid I.s k))
    (hRv : DifferentiableAt ℝ (S.R (thetaGrid I.s l)) (phiGrid I.s k)) (hZv : DifferentiableAt ℝ (S.Z (thetaGrid I.s l)) (phiGrid I.s k)) :
    I.surf_area (k * I.s.nThetaEff + l) = Sizes.wInt I.s l * Real.sqrt ((xu ⨯₃ xv) ⬝ᵥ (xu ⨯₃ xv)) := by
  obtain ⟨b0, b1⟩ := grid_lt hs k0 k1 l0 l1
  unfold GeomIn.surf_area
  rw [TableIn.fill_eq, if_pos ⟨b0, b1⟩]
  have hw : I.w (k * I.s.nThetaEff + l) = Sizes.wInt I.s l := by
    unfold GeomIn.w
    rw [Int.tmod_eq_emod_of_nonneg b0, show k * I.s.nThetaEff + l = l + I.s.nThetaEff * k by ring, Int.add_mul_emod_self_left, Int.emod_eq_of_lt l0 l1]
  simp only [hw]
  unfold GeomIn.guu_1u
  rw [h.r k l k0 k1 l0 l1, h.ru0 k l k0 k1 l0 l1, h.zu0 k l k0 k1 l0 l1, h.rv k l k0 k1 l0 l1, h.zv k l k0 k1 l0 l1]
  generalize thetaGrid I.s l = θ at *
  generalize phiGrid I.s k = φ at *
  have dR := S.hR.deriv_theta.2 θ φ
  have dZ := S.hZ.deriv_theta.2 θ φ
  rw [hasDerivAt_pi] at hu hv
  have u0 := (hu 0).unique (f := fun t => S.R t φ * Real.cos φ) (dR.mul_const _)
  have u1 := (hu 1).unique (f := fun t => S.R t φ * Real.sin φ) (dR.mul_const _)
  have u2 := (hu 2).unique (f := fun t => S.Z t φ) dZ
  have v0 := (hv 0).unique (f := fun t => S.R θ t * Real.cos t) (hRv.hasDerivAt.mul (Real.hasDerivAt_cos φ))
  have v1 := (hv 1).unique (f := fun t => S.R θ t * Real.sin t) (hRv.hasDerivAt.mul (Real.hasDerivAt_sin φ))
  have v2 := (hv 2).unique (f := fun t => S.Z θ t) hZv.hasDerivAt
  congr 2
  simp only [crossProduct, LinearMap.mk₂_apply, Matrix.vec3_dotProduct]
  simp only [Matrix.cons_val_zero, Matrix.cons_val_one, Matrix.cons_val_two, Matrix.head_cons, Matrix.tail_cons]
  rw [u0, u1, u2, v0, v1, v2]
  have hc := Real.sin_sq_add_cos_sq φ
  generalize deriv (fun t => S.R t φ) θ = Ru
  generalize deriv (fun t => S.Z t φ) θ = Zu
  generalize deriv (S.R θ) φ = Rv
  generalize deriv (S.Z θ) φ = Zv
  generalize S.R θ φ = R
  have hs2 : Real.sin φ ^ 2 = 1 - Real.cos φ ^ 2 := by linarith
  generalize Real.cos φ = c at *
  generalize Real.sin φ = z at *
  have h4 : z ^ 4 = (1 - c ^ 2) ^ 2 := by rw [← hs2]; ring
  ring_nf
  simp only [h4, hs2]
  ring

omit hs in
/-- **C92** (elongation): if the surface is at least that of the circular torus with the same area and volume (`d ≥ 1`), the elongation is at least 1 and follows the value `(π²/4) d²` of a very
    elongated ellipse, whose circumference is four times the longer semi-axis: it is smaller by at least `π²/8 - 1` and at most `π²/4 - 1` -/
theorem C92_elongation (I : GeomIn) (hd : 1 ≤ I.surf_area_p * I.Aminor_p / (2 * I.volume_p)) :
    1 ≤ I.kappa_p ∧ Real.pi ^ 2 / 8 - 1 ≤ Real.pi ^ 2 / 4 * (I.surf_area_p * I.Aminor_p / (2 * I.volume_p)) ^ 2 - I.kappa_p ∧
    Real.pi ^ 2 / 4 * (I.surf_area_p * I.Aminor_p / (2 * I.volume_p)) ^ 2 - I.kappa_p ≤ Real.pi ^ 2 / 4 - 1 := by
  unfold GeomIn.kappa_p GeomIn.d_of_kappa
  generalize I.surf_area_p * I.Aminor_p / (2 * I.volume_p) = d at *
  simp only
  have h2 : 1 ≤ d * d := by nlinarith
  have h4 : 0 ≤ d * d * (d * d) - 1 := by nlinarith
  rw [abs_of_nonneg h4]
  have q := Real.sqrt_nonneg (d * d * (d * d) - 1)
  have q2 := Real.sq_sqrt h4
  set r := Real.sqrt (d * d * (d * d) - 1)
  have u : r ≤ d * d := by nlinarith
  have l : d * d - 1 ≤ r := by nlinarith
  have hp : 0 < Real.pi * Real.pi / 8 := by have := Real.pi_pos; positivity
  refine ⟨?_, ?_, ?_⟩ <;> nlinarith [mul_le_mul_of_nonneg_left u hp.le, mul_le_mul_of_nonneg_left l hp.le, mul_nonneg hp.le q, mul_le_mul_of_nonneg_left h2 hp.le]

/-! ## the circular torus -/
omit hs in
theorem mean_cos3 (c0 c1 c2 c3 : ℝ) (nf : Int) (hn : nf ≠ 0) :
    TrigPoly nf 3 0 (fun θ _ => c0 + c1 * Real.cos θ + c2 * Real.cos (2 * θ) + c3 * Real.cos (3 * θ)) ∧
    integralMean (fun θ _ => c0 + c1 * Real.cos θ + c2 * Real.cos (2 * θ) + c3 * Real.cos (3 * θ)) = c0 := by
  have t0 : TrigPoly nf 3 0 (fun θ φ => c0 * Real.cos ((0 : Int) * θ - (0 : Int) * (nf * φ))) := .smul c0 _ (.cos 0 0 (by decide) (by decide))
  have t1 : TrigPoly nf 3 0 (fun θ φ => c1 * Real.cos ((1 : Int) * θ - (0 : Int) * (nf * φ))) := .smul c1 _ (.cos 1 0 (by decide) (by decide))
  have t2 : TrigPoly nf 3 0 (fun θ φ => c2 * Real.cos ((2 : Int) * θ - (0 : Int) * (nf * φ))) := .smul c2 _ (.cos 2 0 (by decide) (by decide))
  have t3 : TrigPoly nf 3 0 (fun θ φ => c3 * Real.cos ((3 : Int) * θ - (0 : Int) * (nf * φ))) := .smul c3 _ (.cos 3 0 (by decide) (by decide))
  have e : (fun θ (_ : ℝ) => c0 + c1 * Real.cos θ + c2 * Real.cos (2 * θ) + c3 * Real.cos (3 * θ)) = fun θ φ =>
      c0 * Real.cos ((0 : Int) * θ - (0 : Int) * (nf * φ)) + c1 * Real.cos ((1 : Int) * θ - (0 : Int) * (nf * φ)) + c2 * Real.cos ((2 : Int) * θ - (0 : Int) * (nf * φ)) +
      c3 * Real.cos ((3 : Int) * θ - (0 : Int) * (nf * φ)) := by
    funext θ φ
    push_cast
    simp
  rw [e]
  refine ⟨.add _ _ (.add _ _ (.add _ _ t0 t1) t2) t3, ?_⟩
  rw [mean_add (.add _ _ (.add _ _ t0 t1) t2) t3, mean_add (.add _ _ t0 t1) t2, mean_add t0 t1, mean_smul, mean_smul, mean_smul, mean_smul, mean_cos _ _ _ hn, mean_cos _ _ _ hn,
    mean_cos _ _ _ hn, mean_cos _ _ _ hn]
  simp

/-- **C92** (circular torus): for the torus with radii `R₀ > a > 0` the cross section is `π a²`, the volume `2π² R₀ a²`, the surface `4π² R₀ a`, the circumference `2π a`; the major radius
    is `R₀`, the minor radius `a`, the aspect ratio `R₀/a`, the elongation 1 -/
theorem C92_circular (S : Surface I.s) (h : Samples I S) (R0 a : ℝ) (ha : 0 < a) (hR0 : a < R0) (hR : ∀ θ φ, S.R θ φ = R0 + a * Real.cos θ) (hZ : ∀ θ φ, S.Z θ φ = a * Real.sin θ) :
    I.cross_area_p = Real.pi * a ^ 2 ∧ I.volume_p = 2 * Real.pi ^ 2 * R0 * a ^ 2 ∧ I.surf_area_p = 4 * Real.pi ^ 2 * R0 * a ∧ I.circum_p = 2 * Real.pi * a ∧
    I.Rmajor_p = R0 ∧ I.Aminor_p = a ∧ I.aspect = R0 / a ∧ I.kappa_p = 1 := by
  obtain ⟨g1, g2, g3, g4⟩ := resolution hs
  have hnf : I.s.nfp ≠ 0 := by exact_mod_cast nfp_ne hs
  have hpi := Real.pi_pos
  have zu (θ φ : ℝ) : deriv (fun t => S.Z t φ) θ = a * Real.cos θ := by
    have : (fun t => S.Z t φ) = fun t => a * Real.sin t := by funext t; exact hZ t φ
    rw [this]; exact ((Real.hasDerivAt_sin θ).const_mul a).deriv
  have ru (θ φ : ℝ) : deriv (fun t => S.R t φ) θ = -(a * Real.sin θ) := by
    have : (fun t => S.R t φ) = fun t => R0 + a * Real.cos t := by funext t; exact hR t φ
    rw [this]; exact (((Real.hasDerivAt_cos θ).const_mul a).const_add R0).deriv.trans (by ring)
  have rv (θ φ : ℝ) : deriv (S.R θ) φ = 0 := by
    have : S.R θ = fun _ => R0 + a * Real.cos θ := by funext t; exact hR θ t
    rw [this]; exact deriv_const _ _
  have zv (θ φ : ℝ) : deriv (S.Z θ) φ = 0 := by
    have : S.Z θ = fun _ => a * Real.sin θ := by funext t; exact hZ θ t
    rw [this]; exact deriv_const _ _
  -- the sums over the grid
  have key (c0 c1 c2 c3 : ℝ) (v : Int → ℝ) (hv : ∀ k l, 0 ≤ k → k < I.s.nZeta → 0 ≤ l → l < I.s.nThetaEff →
      v (k * I.s.nThetaEff + l) = c0 + c1 * Real.cos (thetaGrid I.s l) + c2 * Real.cos (2 * thetaGrid I.s l) + c3 * Real.cos (3 * thetaGrid I.s l)) :
      ∑ kl ∈ Ico 0 I.s.nZnT, v kl * I.w kl = c0 := by
    obtain ⟨m1, m2⟩ := mean_cos3 c0 c1 c2 c3 I.s.nfp hnf
    exact (average_exact hs (by omega) (by omega) m1 (fun _ θ φ => by rw [mul_neg, mul_neg, Real.cos_neg, Real.cos_neg, Real.cos_neg]) v hv).trans m2
  have c2 (θ : ℝ) : Real.cos (2 * θ) = 2 * Real.cos θ ^ 2 - 1 := Real.cos_two_mul θ
  have c3 (θ : ℝ) : Real.cos (3 * θ) = 4 * Real.cos θ ^ 3 - 3 * Real.cos θ := Real.cos_three_mul θ
  have A : I.cross_area_p = Real.pi * a ^ 2 := by
    unfold GeomIn.cross_area_p GeomIn.sumKl
    rw [forRange_add, zero_add, key (a ^ 2 / 2) (R0 * a) (a ^ 2 / 2) 0 (fun kl => I.rb kl * I.zub kl) (fun k l k0 k1 l0 l1 => by
      rw [h.r k l k0 k1 l0 l1, h.zu k l k0 k1 l0 l1, hR, zu, c2]; ring), abs_of_nonneg (by positivity)]
    ring
  have V : I.volume_p = 2 * Real.pi ^ 2 * R0 * a ^ 2 := by
    have : ∑ kl ∈ Ico 0 I.s.nZnT, I.rb kl * (I.rb kl * I.zub kl * I.w kl) = R0 * a ^ 2 := by
      rw [← key (R0 * a ^ 2) (R0 ^ 2 * a + 3 * a ^ 3 / 4) (R0 * a ^ 2) (a ^ 3 / 4) (fun kl => I.rb kl * I.rb kl * I.zub kl) (fun k l k0 k1 l0 l1 => by
        rw [h.r k l k0 k1 l0 l1, h.zu k l k0 k1 l0 l1, hR, zu, c2, c3]; ring)]
      refine Finset.sum_congr rfl fun kl _ => by ring
    unfold GeomIn.volume_p GeomIn.sumKl
    rw [forRange_add, zero_add, this, abs_of_nonneg (by have : 0 < R0 := ha.trans hR0; positivity)]
    ring
  have F : I.surf_area_p = 4 * Real.pi ^ 2 * R0 * a := by
    have : ∑ kl ∈ Ico 0 I.s.nZnT, I.surf_area kl = R0 * a := by
      obtain ⟨q1, q2, q3, q4, q5⟩ := nZnT_eq hs
      have hE : 0 < I.s.nThetaEff := by rw [q2]; split <;> omega
      rw [← key (R0 * a) (a ^ 2) 0 0 (fun kl => Real.sqrt (I.rb kl * I.rb kl * I.guu_1u kl + (I.rvb kl * I.zu0 kl - I.zvb kl * I.ru0 kl) * (I.rvb kl * I.zu0 kl - I.zvb kl * I.ru0 kl)))
        (fun k l k0 k1 l0 l1 => by
          unfold GeomIn.guu_1u
          rw [h.r k l k0 k1 l0 l1, h.ru0 k l k0 k1 l0 l1, h.zu0 k l k0 k1 l0 l1, h.rv k l k0 k1 l0 l1, h.zv k l k0 k1 l0 l1, hR, zu, ru, rv, zv]
          have hpos : 0 ≤ (R0 + a * Real.cos (thetaGrid I.s l)) * a := by
            have := Real.neg_one_le_cos (thetaGrid I.s l)
            have : 0 ≤ R0 + a * Real.cos (thetaGrid I.s l) := by nlinarith
            positivity
          have hsc := Real.sin_sq_add_cos_sq (thetaGrid I.s l)
          rw [show (R0 + a * Real.cos (thetaGrid I.s l)) * (R0 + a * Real.cos (thetaGrid I.s l)) * (-(a * Real.sin (thetaGrid I.s l)) * -(a * Real.sin (thetaGrid I.s l)) +
              a * Real.cos (thetaGrid I.s l) * (a * Real.cos (thetaGrid I.s l))) + (0 * (a * Real.cos (thetaGrid I.s l)) - 0 * -(a * Real.sin (thetaGrid I.s l))) *
              (0 * (a * Real.cos (thetaGrid I.s l)) - 0 * -(a * Real.sin (thetaGrid I.s l))) =
              ((R0 + a * Real.cos (thetaGrid I.s l)) * a) ^ 2 * (Real.sin (thetaGrid I.s l) ^ 2 + Real.cos (thetaGrid I.s l) ^ 2) by ring, hsc, mul_one, Real.sqrt_sq hpos]
          ring)]
      refine Finset.sum_congr rfl fun kl hkl => ?_
      rw [Finset.mem_Ico] at hkl
      unfold GeomIn.surf_area
      rw [TableIn.fill_eq, if_pos hkl]
      ring
    unfold GeomIn.surf_area_p GeomIn.sumKl
    rw [forRange_add, zero_add, this]
    ring
  have C : I.circum_p = 2 * Real.pi * a := by
    unfold GeomIn.circum_p GeomIn.circumference_sum GeomIn.sumKl
    rw [forRange_add, zero_add, key a 0 0 0 (fun kl => Real.sqrt (I.guu_1u kl)) (fun k l k0 k1 l0 l1 => by
      unfold GeomIn.guu_1u
      rw [h.ru0 k l k0 k1 l0 l1, h.zu0 k l k0 k1 l0 l1, zu, ru, show -(a * Real.sin (thetaGrid I.s l)) * -(a * Real.sin (thetaGrid I.s l)) +
        a * Real.cos (thetaGrid I.s l) * (a * Real.cos (thetaGrid I.s l)) = a ^ 2 * (Real.sin (thetaGrid I.s l) ^ 2 + Real.cos (thetaGrid I.s l) ^ 2) by ring,
        Real.sin_sq_add_cos_sq, mul_one, Real.sqrt_sq ha.le]
      ring)]
  have hR0' : R0 ≠ 0 := (ha.trans hR0).ne'
  have M : I.Rmajor_p = R0 := by unfold GeomIn.Rmajor_p; rw [V, A]; field_simp
  have m : I.Aminor_p = a := by unfold GeomIn.Aminor_p; rw [A, mul_div_cancel_left₀ _ hpi.ne', Real.sqrt_sq ha.le]
  refine ⟨A, V, F, C, M, m, by unfold GeomIn.aspect; rw [M, m], ?_⟩
  have d : I.d_of_kappa = 1 := by unfold GeomIn.d_of_kappa; rw [F, m, V]; field_simp; norm_num
  unfold GeomIn.kappa_p
  simp [d]

/-- the circular torus meets the hypothesis of `C92_elongation` -/
example (S : Surface I.s) (h : Samples I S) (hR : ∀ θ φ, S.R θ φ = 10 + 1 * Real.cos θ) (hZ : ∀ θ φ, S.Z θ φ = 1 * Real.sin θ) : 1 ≤ I.surf_area_p * I.Aminor_p / (2 * I.volume_p) := by
  obtain ⟨_, V, F, _, _, m, _⟩ := C92_circular hs S h 10 1 one_pos (by norm_num) hR hZ
  have := Real.pi_ne_zero
  rw [V, F, m, le_div_iff₀ (by positivity)]
  nlinarith

end
end Verif.Output
