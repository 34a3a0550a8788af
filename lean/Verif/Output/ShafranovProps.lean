import Verif.Output.Shafranov
import Verif.Output.GeometryProps
import Verif.Output.EnergyProps

/-!
# C95: the Shafranov integrals
-/
namespace Verif.Output
open Verif Verif.Fourier Finset Matrix

namespace ShafIn
variable (I : ShafIn)

theorem redge_in {kl : Int} (k0 : 0 ≤ kl) (k1 : kl < I.s.nZnT) : I.redge kl = I.rb kl := by
  unfold redge; rw [TableIn.fill_eq, if_pos ⟨k0, k1⟩]

theorem sumKl_eq (f : Int → ℝ) : I.sumKl f = ∑ kl ∈ Ico 0 I.s.nZnT, f kl := by
  unfold GeomIn.sumKl; rw [forRange_add, zero_add]

/-- filling an array in two nested loops, `fast` is the index of the inner loop -/
theorem fill2 {K L : Int} (hK : 0 ≤ K) (hL : 0 ≤ L) (f : Int → Int → ℝ) (a0 : Int → ℝ) {k l : Int} (k0 : 0 ≤ k) (k1 : k < K) (l0 : 0 ≤ l) (l1 : l < L) :
    forRange 0 K (fun k a => forRange 0 L (fun l a => upd a (k * L + l) (f k l)) a) a0 (k * L + l) = f k l := by
  have inner (k : Int) (a : Int → ℝ) : ∀ i, forRange 0 L (fun l a => upd a (k * L + l) (f k l)) a i = if k * L ≤ i ∧ i < k * L + L then f k (i - k * L) else a i := by
    have := forRange_inv (lo := 0) (hi := L) hL (fun l a => upd a (k * L + l) (f k l)) a (fun n (q : Int → ℝ) => ∀ i, q i = if k * L ≤ i ∧ i < k * L + n then f k (i - k * L) else a i)
      (fun i => by rw [if_neg (by omega)]) (fun n q n0 n1 h i => by
        rcases eq_or_ne i (k * L + n) with rfl | hne
        · rw [upd_same, if_pos (by omega), show k * L + n - k * L = n by ring]
        · rw [upd_ne _ _ hne, h i]
          refine if_congr ?_ rfl rfl
          omega)
    exact this
  have := forRange_inv (lo := 0) (hi := K) hK (fun k a => forRange 0 L (fun l a => upd a (k * L + l) (f k l)) a) a0
    (fun n (q : Int → ℝ) => ∀ k l, 0 ≤ k → k < n → 0 ≤ l → l < L → q (k * L + l) = f k l) (fun k l h1 h2 => by omega) (fun n q n0 n1 h k l k0 k1 l0 l1 => by
      rw [inner]
      rcases Int.lt_or_le k n with hk | hk
      · rw [if_neg, h k l k0 hk l0 l1]
        have : (k + 1) * L ≤ n * L := mul_le_mul_of_nonneg_right (by omega) hL
        rw [add_mul, one_mul] at this
        omega
      · have : k = n := by omega
        subst this
        rw [if_pos (by omega), show k * L + l - k * L = l by ring])
  exact this k l k0 k1 l0 l1

theorem fill2' {K L : Int} (hK : 0 ≤ K) (hL : 0 ≤ L) (f : Int → Int → ℝ) (a0 : Int → ℝ) {k l : Int} (k0 : 0 ≤ k) (k1 : k < K) (l0 : 0 ≤ l) (l1 : l < L) :
    forRange 0 L (fun l a => forRange 0 K (fun k a => upd a (k * L + l) (f k l)) a) a0 (k * L + l) = f k l := by
  have inj {k l k' l' : Int} (l0 : 0 ≤ l) (l1 : l < L) (l0' : 0 ≤ l') (l1' : l' < L) (h : k * L + l = k' * L + l') : k = k' ∧ l = l' := by
    have e1 : (k * L + l) / L = (k' * L + l') / L := by rw [h]
    rw [show k * L + l = l + L * k by ring, show k' * L + l' = l' + L * k' by ring, Int.add_mul_ediv_left _ _ (by omega), Int.add_mul_ediv_left _ _ (by omega),
      Int.ediv_eq_zero_of_lt l0 l1, Int.ediv_eq_zero_of_lt l0' l1', zero_add, zero_add] at e1
    subst e1
    exact ⟨rfl, by omega⟩
  have inner (l : Int) (l0 : 0 ≤ l) (l1 : l < L) (a : Int → ℝ) : ∀ k' l', 0 ≤ k' → k' < K → 0 ≤ l' → l' < L →
      forRange 0 K (fun k a => upd a (k * L + l) (f k l)) a (k' * L + l') = if l' = l then f k' l else a (k' * L + l') := by
    have := forRange_inv (lo := 0) (hi := K) hK (fun k a => upd a (k * L + l) (f k l)) a
      (fun n (q : Int → ℝ) => ∀ k' l', 0 ≤ k' → 0 ≤ l' → l' < L → q (k' * L + l') = if l' = l ∧ k' < n then f k' l else a (k' * L + l'))
      (fun k' l' h1 _ _ => by rw [if_neg (by omega)]) (fun n q n0 n1 h k' l' h1 h2 h3 => by
        by_cases hc : k' * L + l' = n * L + l
        · obtain ⟨e1, e2⟩ := inj h2 h3 l0 l1 hc
          subst e1 e2
          rw [upd_same, if_pos ⟨rfl, by omega⟩]
        · rw [upd_ne _ _ hc, h k' l' h1 h2 h3]
          refine if_congr ⟨fun ⟨a, b⟩ => ⟨a, by omega⟩, fun ⟨a, b⟩ => ⟨a, ?_⟩⟩ rfl rfl
          rcases Int.lt_or_le k' n with hk | hk
          · exact hk
          · exact absurd (by rw [a, show k' = n by omega]) hc)
    intro k' l' h1 h2 h3 h4
    rw [this k' l' h1 h3 h4]
    exact if_congr ⟨fun h => h.1, fun h => ⟨h, h2⟩⟩ rfl rfl
  have := forRange_inv (lo := 0) (hi := L) hL (fun l a => forRange 0 K (fun k a => upd a (k * L + l) (f k l)) a) a0
    (fun n (q : Int → ℝ) => ∀ k l, 0 ≤ k → k < K → 0 ≤ l → l < n → q (k * L + l) = f k l) (fun k l _ _ h1 h2 => by omega) (fun n q n0 n1 h k l k0 k1 l0 l1 => by
      rw [inner n n0 n1 q k l k0 k1 l0 (by omega)]
      split_ifs with hl
      · rw [hl]
      · exact h k l k0 k1 l0 (by omega))
  exact this k l k0 k1 l0 l1

section
variable {I} {lasym : Bool} {nfp mpol ntor ntheta nzeta mg ng : Int} (hs : Sizes.mk lasym nfp mpol ntor ntheta nzeta mg ng = .ok I.s)
include hs

theorem grid_pos : 0 ≤ I.s.nZeta ∧ 0 ≤ I.s.nThetaEff := by
  obtain ⟨g1, g2, g3, g4⟩ := resolution (I := I.toGeomIn) hs
  obtain ⟨q1, q2, q3, q4, q5⟩ := nZnT_eq hs
  refine ⟨by omega, by rw [q2]; split <;> omega⟩

theorem w_eq {k l : Int} (k0 : 0 ≤ k) (k1 : k < I.s.nZeta) (l0 : 0 ≤ l) (l1 : l < I.s.nThetaEff) : I.w (k * I.s.nThetaEff + l) = Sizes.wInt I.s l := by
  obtain ⟨b0, b1⟩ := grid_lt hs k0 k1 l0 l1
  unfold GeomIn.w
  rw [Int.tmod_eq_emod_of_nonneg b0, show k * I.s.nThetaEff + l = l + I.s.nThetaEff * k by ring, Int.add_mul_emod_self_left, Int.emod_eq_of_lt l0 l1]

/-- **C95** (free boundary): with an active vacuum solution, stored with the toroidal index fastest, `bpol2vac` is the square of the poloidal vacuum field `(B_R, B_Z)` at the point of the boundary
    with the same angles, and `phat` is half of that plus half the difference between the toroidal vacuum field and the field `bSubVVac / R` -/
theorem C95_free_boundary (S : Surface I.s) (h : Samples I.toGeomIn S) (ha : I.active = true) (bR bφ bZ : Int → Int → ℝ)
    (hp : ∀ k l, 0 ≤ k → k < I.s.nZeta → 0 ≤ l → l < I.s.nThetaEff → I.vacuum_magnetic_pressure (l * I.s.nZeta + k) = (bR k l ^ 2 + bφ k l ^ 2 + bZ k l ^ 2) / 2)
    (hb : ∀ k l, 0 ≤ k → k < I.s.nZeta → 0 ≤ l → l < I.s.nThetaEff → I.vacuum_b_phi (l * I.s.nZeta + k) = bφ k l)
    (k l : Int) (k0 : 0 ≤ k) (k1 : k < I.s.nZeta) (l0 : 0 ≤ l) (l1 : l < I.s.nThetaEff) :
    I.bpol2vac (k * I.s.nThetaEff + l) = bR k l ^ 2 + bZ k l ^ 2 ∧
    I.phat (k * I.s.nThetaEff + l) = (bR k l ^ 2 + bZ k l ^ 2) / 2 + (bφ k l ^ 2 - (I.bSubVVac / S.R (thetaGrid I.s l) (phiGrid I.s k)) ^ 2) / 2 := by
  obtain ⟨p1, p2⟩ := grid_pos hs
  obtain ⟨b0, b1⟩ := grid_lt hs k0 k1 l0 l1
  constructor
  · unfold bpol2vac
    rw [if_pos ha]
    simp only
    rw [fill2' p1 p2 (fun k l => 2 * I.vacuum_magnetic_pressure (l * I.s.nZeta + k) - I.vacuum_b_phi (l * I.s.nZeta + k) * I.vacuum_b_phi (l * I.s.nZeta + k)) _ k0 k1 l0 l1,
      hp k l k0 k1 l0 l1, hb k l k0 k1 l0 l1]
    ring
  · unfold phat
    rw [if_pos ha]
    simp only
    rw [fill2 p1 p2 (fun k l => I.vacuum_magnetic_pressure (l * I.s.nZeta + k) - 1 / 2 * (I.bSubVVac / I.redge (k * I.s.nThetaEff + l)) * (I.bSubVVac / I.redge (k * I.s.nThetaEff + l))) _ k0 k1 l0 l1,
      hp k l k0 k1 l0 l1, I.redge_in b0 b1, h.r k l k0 k1 l0 l1]
    ring

/-- **C95** (fixed boundary): without a vacuum solution the pressure balance across the boundary replaces it: if the extrapolated total pressure is `(B_pol² + B_φ²)/2` of the field outside and the
    toroidal field outside is the extrapolated toroidal field inside, `bpol2vac` is the square of the poloidal field outside -/
theorem C95_fixed_boundary (S : Surface I.s) (h : Samples I.toGeomIn S) (ha : I.active = false) (bpol btor : Int → Int → ℝ)
    (hp : ∀ k l, 0 ≤ k → k < I.s.nZeta → 0 ≤ l → l < I.s.nThetaEff → I.toEdge .total_pressure (k * I.s.nThetaEff + l) = (bpol k l ^ 2 + btor k l ^ 2) / 2)
    (hb : ∀ k l, 0 ≤ k → k < I.s.nZeta → 0 ≤ l → l < I.s.nThetaEff → I.toEdge .bsupv (k * I.s.nThetaEff + l) * S.R (thetaGrid I.s l) (phiGrid I.s k) = btor k l)
    (k l : Int) (k0 : 0 ≤ k) (k1 : k < I.s.nZeta) (l0 : 0 ≤ l) (l1 : l < I.s.nThetaEff) :
    I.bpol2vac (k * I.s.nThetaEff + l) = bpol k l ^ 2 ∧
    I.phat (k * I.s.nThetaEff + l) = bpol k l ^ 2 / 2 + (btor k l ^ 2 - (I.rBtor / S.R (thetaGrid I.s l) (phiGrid I.s k)) ^ 2) / 2 := by
  obtain ⟨b0, b1⟩ := grid_lt hs k0 k1 l0 l1
  have hf : ¬ I.active = true := by rw [ha]; exact Bool.false_ne_true
  constructor
  · unfold bpol2vac
    rw [if_neg hf, TableIn.fill_eq, if_pos ⟨b0, b1⟩]
    rw [I.redge_in b0 b1, h.r k l k0 k1 l0 l1, hp k l k0 k1 l0 l1, hb k l k0 k1 l0 l1]
    ring
  · unfold phat
    rw [if_neg hf, TableIn.fill_eq, if_pos ⟨b0, b1⟩]
    rw [I.redge_in b0 b1, h.r k l k0 k1 l0 l1, hp k l k0 k1 l0 l1]
    ring

/-- **C95** (the surface element): at every grid point the weights of the three sums are `e_R · N`, `R e_R · N` and `Z e_Z · N` with the outward vector `N = ∂x/∂φ × ∂x/∂θ`, and the sum of the last
    two is `x · N` -/
theorem C95_surface_element (S : Surface I.s) (h : Samples I.toGeomIn S) (k l : Int) (k0 : 0 ≤ k) (k1 : k < I.s.nZeta) (l0 : 0 ≤ l) (l1 : l < I.s.nThetaEff) (xu xv : Fin 3 → ℝ)
    (hu : HasDerivAt (fun t => S.point t (phiGrid I.s k)) xu (thetaGrid I.s l)) (hv : HasDerivAt (fun t => S.point (thetaGrid I.s l) t) xv (phiGrid I.s k))
    (hRv : DifferentiableAt ℝ (S.R (thetaGrid I.s l)) (phiGrid I.s k)) (hZv : DifferentiableAt ℝ (S.Z (thetaGrid I.s l)) (phiGrid I.s k)) :
    let kl := k * I.s.nThetaEff + l
    let φ := phiGrid I.s k
    let N := xv ⨯₃ xu
    I.redge kl * I.zu0 kl = ![Real.cos φ, Real.sin φ, 0] ⬝ᵥ N ∧ -(I.redge kl * I.ru0 kl) = ![0, 0, 1] ⬝ᵥ N ∧
    I.redge kl * I.zu0 kl * I.redge kl - I.redge kl * I.ru0 kl * I.zb kl = S.point (thetaGrid I.s l) φ ⬝ᵥ N := by
  obtain ⟨b0, b1⟩ := grid_lt hs k0 k1 l0 l1
  intro kl φ' N
  simp only [kl, φ', N]
  rw [I.redge_in b0 b1, h.r k l k0 k1 l0 l1, h.ru0 k l k0 k1 l0 l1, h.zu0 k l k0 k1 l0 l1, h.z k l k0 k1 l0 l1]
  generalize thetaGrid I.s l = θ at *
  generalize phiGrid I.s k = φ at *
  have dR := S.hR.deriv_theta.2 θ φ
  have dZ := S.hZ.deriv_theta.2 θ φ
  rw [hasDerivAt_pi] at hu hv
  have u0 := (hu 0).unique (f := fun t => S.R t φ * Real.cos φ) (dR.mul_const _)
  have u1 := (hu 1).unique (f := fun t => S.R t φ * Real.sin φ) (dR.mul_const _)
  have u2 := (hu 2).unique (f := fun t => S.Z t φ) dZ
  have v0 := (hv 0).unique (f := fun t => S.R θ t * Real.cos t) (hRv.hasDerivAt.mul (Real.hasDerivAt_cos φ))
  have v1 := (hv 1).unique (f := fun t => S.R θ t * Real.sin t) (hRv.hasDerivAt.mul (Real.hasDerivAt_sin φ))
  have v2 := (hv 2).unique (f := fun t => S.Z θ t) hZv.hasDerivAt
  have hc := Real.sin_sq_add_cos_sq φ
  unfold Surface.point
  simp only [crossProduct, LinearMap.mk₂_apply, Matrix.vec3_dotProduct]
  simp only [Matrix.cons_val_zero, Matrix.cons_val_one, Matrix.cons_val_two, Matrix.head_cons, Matrix.tail_cons]
  rw [u0, u1, u2, v0, v1, v2]
  generalize deriv (fun t => S.R t φ) θ = Ru
  generalize deriv (fun t => S.Z t φ) θ = Zu
  generalize deriv (S.R θ) φ = Rv
  generalize deriv (S.Z θ) φ = Zv
  generalize S.R θ φ = R
  generalize S.Z θ φ = Z
  generalize Real.cos φ = c at *
  generalize Real.sin φ = z at *
  have hc' : z ^ 2 = 1 - c ^ 2 := by linarith
  refine ⟨?_, ?_, ?_⟩
  · linear_combination (-(R * Zu)) * hc
  · linear_combination (R * Ru) * hc
  · linear_combination (-(R * R * Zu) + R * Z * Ru) * hc

end

/-- **C95** (surface integrals): the three sums are the integrals of `phat` times the weights of `C95_surface_element` over the boundary, with the common factor `factor`, and the average of a
    function over the grid counts `4π²` -/
theorem C95_sums :
    I.sigr0 = I.factor * (4 * Real.pi ^ 2 * ∑ kl ∈ Ico 0 I.s.nZnT, I.phat kl * (I.redge kl * I.zu0 kl) * I.w kl) ∧
    I.sigr1 = I.factor * (4 * Real.pi ^ 2 * ∑ kl ∈ Ico 0 I.s.nZnT, I.phat kl * (I.redge kl * I.zu0 kl * I.redge kl) * I.w kl) ∧
    I.sigz1 = I.factor * (4 * Real.pi ^ 2 * ∑ kl ∈ Ico 0 I.s.nZnT, I.phat kl * (-(I.redge kl * I.ru0 kl) * I.zb kl) * I.w kl) ∧
    I.er = I.factor * (4 * Real.pi ^ 2 * ∑ kl ∈ Ico 0 I.s.nZnT, I.phat kl * (I.redge kl * I.zu0 kl * I.redge kl - I.redge kl * I.ru0 kl * I.zb kl) * I.w kl) := by
  have hz : I.sigz1 = ∑ kl ∈ Ico 0 I.s.nZnT, -(I.rbps1u kl * I.ru0 kl * I.zb kl) := by
    unfold sigz1
    simp only [sub_eq_add_neg]
    rw [forRange_add, zero_add]
  have e1 : I.sigr0 = I.factor * (4 * Real.pi ^ 2 * ∑ kl ∈ Ico 0 I.s.nZnT, I.phat kl * (I.redge kl * I.zu0 kl) * I.w kl) := by
    unfold sigr0; rw [sumKl_eq, Finset.mul_sum, Finset.mul_sum]
    refine Finset.sum_congr rfl fun kl _ => ?_
    unfold rbps1u facnorm; ring
  have e2 : I.sigr1 = I.factor * (4 * Real.pi ^ 2 * ∑ kl ∈ Ico 0 I.s.nZnT, I.phat kl * (I.redge kl * I.zu0 kl * I.redge kl) * I.w kl) := by
    unfold sigr1; rw [sumKl_eq, Finset.mul_sum, Finset.mul_sum]
    refine Finset.sum_congr rfl fun kl _ => ?_
    unfold rbps1u facnorm; ring
  have e3 : I.sigz1 = I.factor * (4 * Real.pi ^ 2 * ∑ kl ∈ Ico 0 I.s.nZnT, I.phat kl * (-(I.redge kl * I.ru0 kl) * I.zb kl) * I.w kl) := by
    rw [hz, Finset.mul_sum, Finset.mul_sum]
    refine Finset.sum_congr rfl fun kl _ => ?_
    unfold rbps1u facnorm; ring
  refine ⟨e1, e2, e3, ?_⟩
  unfold er
  rw [e2, e3, ← mul_add, ← mul_add, ← Finset.sum_add_distrib]
  congr 2
  refine Finset.sum_congr rfl fun kl _ => by ring

/-- **C95** (the integrals of the table): whichever of the three radii is chosen, `S₁ + (radius) · sigr0` is the same integral; `s11` and `s2` add up to it, and the shifts are those of the radius
    `rshaf` relative to the geometric centre and to `r_lao` -/
theorem C95_table (hc : I.rcen ≠ 0) (hl : I.r_lao ≠ 0) :
    I.s11 + I.s2 = I.er ∧ I.s12 + I.rcen * I.sigr0 = I.er ∧ I.s13 + I.r_lao * I.sigr0 = I.er ∧ I.er = I.sigr1 + I.s3 ∧
    I.rcen * (1 - I.delta2) = I.rshaf ∧ I.r_lao * (1 - I.delta3) = I.rshaf ∧ I.r_lao = I.Rmajor_p := by
  refine ⟨by unfold s11 s2; ring, by unfold s12; ring, by unfold s13; ring, rfl, ?_, ?_, rfl⟩
  · unfold delta2; field_simp; ring
  · unfold delta3; field_simp; ring

/-- **C95** (normalisation): `factor` is the inverse of the effective minor radius, volume over surface, times the integral of the square of the poloidal vacuum field over the boundary; for a
    uniform field `b` it is `1/(V b²)` -/
theorem C95_factor : I.factor = 1 / (I.volume_p / I.surf_area_p * (4 * Real.pi ^ 2 * ∑ kl ∈ Ico 0 I.s.nZnT, I.bpol2vac kl * I.surf_area kl)) ∧
    (∀ b : ℝ, I.surf_area_p ≠ 0 → (∀ kl, 0 ≤ kl → kl < I.s.nZnT → I.bpol2vac kl = b ^ 2) → I.factor = 1 / (I.volume_p * b ^ 2)) := by
  have e : I.factor = 1 / (I.volume_p / I.surf_area_p * (4 * Real.pi ^ 2 * ∑ kl ∈ Ico 0 I.s.nZnT, I.bpol2vac kl * I.surf_area kl)) := by
    unfold factor aminr1'; rw [sumKl_eq]; congr 1; ring
  refine ⟨e, fun b hS hb => ?_⟩
  have h1 : ∑ kl ∈ Ico 0 I.s.nZnT, I.bpol2vac kl * I.surf_area kl = b ^ 2 * ∑ kl ∈ Ico 0 I.s.nZnT, I.surf_area kl := by
    rw [Finset.mul_sum]
    refine Finset.sum_congr rfl fun kl hk => ?_
    rw [Finset.mem_Ico] at hk
    rw [hb kl hk.1 hk.2]
  have h2 : I.surf_area_p = 4 * Real.pi ^ 2 * ∑ kl ∈ Ico 0 I.s.nZnT, I.surf_area kl := by
    unfold GeomIn.surf_area_p; rw [sumKl_eq]; ring
  rw [e, h1]
  congr 1
  rw [show 4 * Real.pi ^ 2 * (b ^ 2 * ∑ kl ∈ Ico 0 I.s.nZnT, I.surf_area kl) = I.surf_area_p * b ^ 2 by rw [h2]; ring]
  field_simp

/-- **C95** (volume integrals): the internal inductance, the poloidal beta, the diamagnetism `musubi` and `lambda = l_i/2 + β` are `factor` times the volume integrals of `B_pol²`, `2p`,
    `B_vac² - B_φ²` and `B_pol²/2 + 2p`, where `B_vac = rBtor / R` -/
theorem C95_volume_integrals {B : Int → Int → ℝ} (h : I.State B) :
    I.smaleli = I.factor * I.volInt (fun j kl => B j kl ^ 2 - (I.R.gridH .r12 (j * I.s.nZnT + kl) * I.R.gridH .bsupv (j * I.s.nZnT + kl)) ^ 2) ∧
    I.betai = I.factor * (2 * I.volInt (fun j _ => I.R.profH .presH j)) ∧
    I.musubi = I.factor * I.volInt (fun j kl => (I.rBtor / I.R.gridH .r12 (j * I.s.nZnT + kl)) ^ 2 - (I.R.gridH .r12 (j * I.s.nZnT + kl) * I.R.gridH .bsupv (j * I.s.nZnT + kl)) ^ 2) ∧
    I.lambda = I.smaleli / 2 + I.betai := by
  obtain ⟨e1, _, _, _, e5⟩ := I.toGeomIn.C93_energies h
  refine ⟨by unfold smaleli; rw [e5], by unfold betai; rw [e1]; ring, ?_, by unfold lambda; ring⟩
  unfold musubi
  rw [mul_comm I.vnorm, mul_assoc]
  congr 1
  rw [← I.sumHK_tau _ (fun i => -(I.dbtor i * I.tau i)) (fun j kl _ _ _ _ => by unfold dbtor btor1 btor_vac; ring)]
  unfold musubi0 GeomIn.sumHK
  simp only [sub_eq_add_neg]

/-- **C95** (the current-averaged radius): `rshaf` is `∫ f dV / ∫ (f/R) dV` with `f = p + (B_pol² + B_vac² - B_φ²)/2` -/
theorem C95_rshaf {B : Int → Int → ℝ} (h : I.State B) (hd : I.deltaS ≠ 0) :
    let f := fun j kl => I.R.profH .presH j + (B j kl ^ 2 - (I.R.gridH .r12 (j * I.s.nZnT + kl) * I.R.gridH .bsupv (j * I.s.nZnT + kl)) ^ 2 +
      (I.rBtor / I.R.gridH .r12 (j * I.s.nZnT + kl)) ^ 2 - (I.R.gridH .r12 (j * I.s.nZnT + kl) * I.R.gridH .bsupv (j * I.s.nZnT + kl)) ^ 2) / 2
    I.rshaf = I.volInt f / I.volInt (fun j kl => f j kl / I.R.gridH .r12 (j * I.s.nZnT + kl)) := by
  intro f
  have hv : I.vnorm ≠ 0 := by
    unfold GeomIn.vnorm GeomIn.anorm
    have := Real.pi_ne_zero
    positivity
  have e (j kl : Int) (j0 : 0 ≤ j) (j1 : j < I.ns - 1) (k0 : 0 ≤ kl) (k1 : kl < I.s.nZnT) : I.phat0 (j * I.s.nZnT + kl) = f j kl * I.tau (j * I.s.nZnT + kl) := by
    unfold phat0 dbtor btor1 btor_vac
    simp only
    rw [h.pressure j kl j0 j1 k0 k1]
    simp only [f]
    ring
  rw [← I.sumHK_tau f I.phat0 e, ← I.sumHK_tau (fun j kl => f j kl / I.R.gridH .r12 (j * I.s.nZnT + kl)) (fun i => I.phat0 i / I.R.gridH .r12 i) (fun j kl j0 j1 k0 k1 => by
    simp only [e j kl j0 j1 k0 k1]; ring), mul_div_mul_left _ _ hv]
  rfl

end ShafIn
end Verif.Output
