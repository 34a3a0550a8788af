import Verif.Nestor.VacuumEq
import Verif.Nestor.LaplaceNet
import Verif.Partition.Lemmas

/-! # Properties of `ExternalMagneticField` and of the end of `Nestor::update` -/
namespace Verif.Nestor
open Verif Finset Fourier Partition

/-- **C79 (polygon of the axis).** The vertices of the polygon which carries the plasma current lie on the magnetic axis at equally spaced toroidal
angles around the whole torus, and the last one is the first one. There are as many segments as grid points on the torus, 64 for axisymmetry. -/
theorem C79_axis {s : Sizes.Sizes} (hz : 1 ≤ s.nZeta) (hf : 1 ≤ s.nfp) (rAxis zAxis : Int → ℝ) {j : Int} (h0 : 0 ≤ j) (h1 : j ≤ s.nZeta * nvper s) :
    axisXYZ s rAxis zAxis j = V3.rot (2 * Real.pi * j / (nvper s * s.nZeta : Int)) ⟨rAxis (j % s.nZeta), 0, zAxis (j % s.nZeta)⟩ ∧
    axisXYZ s rAxis zAxis (s.nZeta * nvper s) = axisXYZ s rAxis zAxis 0 ∧
    s.nZeta * nvper s = (if s.nZeta = 1 then 64 else s.nfp * s.nZeta) := by
  refine ⟨axisXYZ_eq hz hf rAxis zAxis h0 h1, ?_, ?_⟩
  swap
  · unfold nvper
    split
    · omega
    · ring
  have hv := nvper_pos hf
  unfold axisXYZ
  simp only []
  rw [upd_same, upd_ne _ _ (by nlinarith)]

/-- **C79 (segment).** Off the segment no denominator is zero and the field of the code is that of a current along the segment. -/
theorem C79_segment (current : ℝ) {a b P : V3} (h : OffSegment a b P) :
    (0 < (P.sub a).norm ∧ 0 < (P.sub b).norm ∧ 0 < ((P.sub a).norm + (P.sub b).norm) ^ 2 - (b.sub a).norm ^ 2) ∧
    segmentField current a b P = biotSavart current a b P := ⟨segment_regular h, segmentField_eq current h⟩

namespace SCtx
variable (c : SCtx)

/-- external field at a point of the surface: the interpolated field, given by cylindrical components, and the field of the current along the polygon -/
noncomputable def extB (rAxis zAxis : Int → ℝ) (current : ℝ) (interp : Int → V3) (kl : Int) : V3 :=
  ((interp (kl - c.ztMin)).rot (c.zeta kl / c.s.nfp)).add
    (V3.sum (Ico 0 (c.s.nZeta * nvper c.s)) fun j => biotSavart current (vertex c.s rAxis zAxis j) (vertex c.s rAxis zAxis (j + 1)) (c.X (c.theta kl) (c.zeta kl)))

/-- the point is not on the polygon -/
def OffAxis (rAxis zAxis : Int → ℝ) (kl : Int) : Prop := ∀ j, 0 ≤ j → j < c.s.nZeta * nvper c.s →
  OffSegment (vertex c.s rAxis zAxis j) (vertex c.s rAxis zAxis (j + 1)) (c.X (c.theta kl) (c.zeta kl))

variable {c}

theorem rz_any (g : c.Good) (hzt : c.s.nZnT = (if c.s.lasym then c.s.nThetaEven else c.s.nThetaReduced) * c.s.nZeta) (old : SArr) (oldS : Surf)
    {kl : Int} (h0 : c.ztMin ≤ kl) (h1 : kl < c.ztMax) :
    (c.update old oldS).r1b kl = c.R (c.theta kl) (c.zeta kl) ∧ (c.update old oldS).z1b kl = c.Z (c.theta kl) (c.zeta kl) := by
  have g1 := g.lo
  have g2 := g.hi
  have gz := g.grid.nz
  have ge := g.grid.even
  have gp := g.grid.nyqP
  have gm := g.grid.mpol
  have hin : c.ztMax ≤ c.s.nThetaEven * c.s.nZeta := by
    refine g2.trans (mul_le_mul_of_nonneg_right ?_ (by omega))
    split <;> omega
  by_cases hf : c.fullUpdate = true
  · have := rz_eq g hf hzt old oldS.rzb2 (kl := kl) (by omega) (by omega)
    exact ⟨this.1, this.2.1⟩
  · have := C76_series g old (kl := kl) (by omega) (by omega)
    have e (f : RZ) : c.rz (c.inverseDFT old) oldS.rzb2 f kl = (match f with | .r1b => c.inverseDFT old (.r, .b) | .z1b => c.inverseDFT old (.z, .b) | .rzb2 => oldS.rzb2) kl := by
      unfold rz
      simp only [hf, false_and, if_false]
      cases f <;> simp
    exact ⟨(e .r1b).trans this.1, (e .z1b).trans this.2.1⟩

theorem phi_zeta {kl : Int} (h0 : 0 ≤ kl) : phiOf c.s (kl.tmod c.s.nZeta) = c.zeta kl / c.s.nfp := by
  rw [Int.tmod_eq_emod_of_nonneg h0]
  unfold phiOf zeta
  push_cast
  rw [div_mul_eq_mul_div, div_div, mul_comm (c.s.nfp : ℝ)]

theorem tangents (g : c.Good) (old : SArr) {kl : Int} (h0 : c.ztMin ≤ kl) (h1 : kl < c.ztMax) (r : ℝ) (hr : r = c.R (c.theta kl) (c.zeta kl)) :
    let a := c.inverseDFT old
    let p := kl - c.derivOffset
    c.Xθ (c.theta kl) (c.zeta kl) = V3.rot (c.zeta kl / c.s.nfp) ⟨a (.r, .u) p, 0, a (.z, .u) p⟩ ∧
    (c.Xζ (c.theta kl) (c.zeta kl)).smul c.s.nfp = V3.rot (c.zeta kl / c.s.nfp) ⟨a (.r, .v) p, r, a (.z, .v) p⟩ := by
  intro a p
  have hn : (c.s.nfp : ℝ) ≠ 0 := by have := g.nfp; exact_mod_cast (by omega : c.s.nfp ≠ 0)
  have L := local_values g old h0 h1
  obtain ⟨r0, r'⟩ := L .r rfl
  obtain ⟨z0, z⟩ := L .z rfl
  rw [sub_add_cancel] at r' z
  have sm (x : ℝ) (S : Ser) (θ ζ : ℝ) : c.ev (S.smul x) θ ζ = x * c.ev S θ ζ := Ser.eval_smul _ _ _ _ _ _
  have ru := r' .u (by decide) (fun h => Bool.noConfusion h)
  have rv := (r' .v (by decide) (fun h => Bool.noConfusion h)).trans (sm _ _ _ _)
  have zu := z .u (by decide) (fun h => Bool.noConfusion h)
  have zv := (z .v (by decide) (fun h => Bool.noConfusion h)).trans (sm _ _ _ _)
  rw [Xθ_eq, Xζ_eq, V3.smul_rot]
  simp only [a, p]
  rw [ru, rv, zu, zv]
  refine ⟨rfl, ?_⟩
  congr 1
  unfold V3.smul
  simp only [derive]
  ext
  · rfl
  · simp only []; rw [hr, R_eq]; field_simp
  · rfl

/-- **C79 (components).** At every point of the thread, if the polygon does not pass through it, `bSubU`, `bSubV` are the covariant components
`B · ∂X/∂θ`, `B · ∂X/∂φ` (`φ = ζ / nfp`) of the external field, and `bDotN` is `-B · N`. -/
theorem C79_components (g : c.Good) (hzt : c.s.nZnT = (if c.s.lasym then c.s.nThetaEven else c.s.nThetaReduced) * c.s.nZeta) (old : SArr) (oldS : Surf)
    (rAxis zAxis : Int → ℝ) (current : ℝ) (interp : Int → V3) {kl : Int} (h0 : c.ztMin ≤ kl) (h1 : kl < c.ztMax) (hoff : c.OffAxis rAxis zAxis kl) :
    let ef := c.covariant (c.inverseDFT old) (c.update old oldS) interp (axisXYZ c.s rAxis zAxis) current
    let o := kl - c.ztMin
    let θ := c.theta kl
    let ζ := c.zeta kl
    let B := c.extB rAxis zAxis current interp kl
    ef.bSubU o = B.dot (c.Xθ θ ζ) ∧ ef.bSubV o = B.dot ((c.Xζ θ ζ).smul c.s.nfp) ∧ ef.bDotN o = -B.dot (c.N θ ζ) := by
  intro ef o θ ζ B
  have g1 := g.lo
  have gz := g.grid.nz
  obtain ⟨er, ez⟩ := rz_any g hzt old oldS h0 h1
  obtain ⟨tθ, tζ⟩ := tangents g old h0 h1 _ er
  have nrm := C76_normal g old oldS h0 h1
  have hφ := phi_zeta (c := c) (kl := kl) (by omega)
  have hX : c.surfaceXYZ (c.update old oldS) kl = c.X θ ζ := by
    unfold surfaceXYZ
    simp only []
    rw [hφ, er, ez]
    rfl
  have hB : B = V3.rot (ζ / c.s.nfp) ((interp o).add (c.curtor (c.update old oldS) (axisXYZ c.s rAxis zAxis) current kl)) := by
    rw [V3.rot_add]
    show V3.add _ _ = V3.add _ _
    congr 1
    have e : V3.rot (ζ / c.s.nfp) (c.curtor (c.update old oldS) (axisXYZ c.s rAxis zAxis) current kl) = axisField c.s (axisXYZ c.s rAxis zAxis) current (c.X θ ζ) := by
      unfold curtor
      simp only []
      rw [hX, hφ]
      unfold V3.rot
      simp only []
      ext
      · simp only []
        linear_combination ((axisField c.s (axisXYZ c.s rAxis zAxis) current (c.X θ ζ)).x) * Real.sin_sq_add_cos_sq (ζ / c.s.nfp)
      · simp only []
        linear_combination ((axisField c.s (axisXYZ c.s rAxis zAxis) current (c.X θ ζ)).y) * Real.sin_sq_add_cos_sq (ζ / c.s.nfp)
      · rfl
    rw [e, axisField_eq gz g.nfp]
    have hs : ∀ j ∈ Ico 0 (c.s.nZeta * nvper c.s), biotSavart current (vertex c.s rAxis zAxis j) (vertex c.s rAxis zAxis (j + 1)) (c.X θ ζ)
        = segmentField current (vertex c.s rAxis zAxis j) (vertex c.s rAxis zAxis (j + 1)) (c.X θ ζ) := by
      intro j hj
      rw [mem_Ico] at hj
      exact (segmentField_eq current (hoff j hj.1 hj.2)).symm
    unfold V3.sum
    ext
    · exact sum_congr rfl fun j hj => congrArg V3.x (hs j hj)
    · exact sum_congr rfl fun j hj => congrArg V3.y (hs j hj)
    · exact sum_congr rfl fun j hj => congrArg V3.z (hs j hj)
  rw [hB, tθ, tζ, ← nrm]
  simp only [ζ, V3.dot_rot]
  unfold ef covariant
  simp only [o, sub_add_cancel]
  unfold V3.dot
  simp only []
  refine ⟨by ring, ?_, trivial⟩
  ring

/-- **C80 (potential).** `potU`, `potV` are the derivatives of the potential with the solution of the linear system as coefficients, with respect to
`θ` and `φ = ζ / nfp`; hence `bSubU`, `bSubV` are the covariant components of the external field plus the gradient of the potential. -/
theorem C80_potential (g : c.Good) {mf nf : Int} (m0 : 0 ≤ mf) (m1 : mf ≤ c.s.mnyq2) (n0 : 0 ≤ nf) (n1 : nf ≤ c.s.nnyq2) (bvec : Int → ℝ) (ef : Ext) {kl : Int}
    (h0 : 0 ≤ kl) (h1 : kl < c.s.nThetaEven * c.s.nZeta) :
    c.bSub mf nf bvec ef kl = (deriv (fun t => c.Phi mf nf bvec t (c.zeta kl)) (c.theta kl) + ef.bSubU (kl - c.ztMin),
      deriv (fun t => c.Phi mf nf bvec (c.theta kl) (c.s.nfp * t)) (c.zeta kl / c.s.nfp) + ef.bSubV (kl - c.ztMin)) := by
  have hn : (c.s.nfp : ℝ) ≠ 0 := by have := g.nfp; exact_mod_cast (by omega : c.s.nfp ≠ 0)
  unfold bSub
  rw [potUV_eq g m0 m1 n0 n1 bvec h0 h1]
  simp only []
  congr 2
  rw [deriv_comp_mul_left (c.s.nfp : ℝ) (fun t => c.Phi mf nf bvec (c.theta kl) t), mul_div_cancel₀ _ hn]
  rfl

/-- **C80 (vacuum field).** Where the tangent vectors are independent, the shared cylindrical components are those of the vector tangent to the
surface with the covariant components `b`, and the shared pressure is half the square of its length. -/
theorem C80_field (g : c.Good) (hzt : c.s.nZnT = (if c.s.lasym then c.s.nThetaEven else c.s.nThetaReduced) * c.s.nZeta) (old : SArr) (oldS : Surf)
    (b : ℝ × ℝ) {kl : Int} (h0 : c.ztMin ≤ kl) (h1 : kl < c.ztMax) (hind : (c.Xθ (c.theta kl) (c.zeta kl)).cross (c.Xζ (c.theta kl) (c.zeta kl)) ≠ ⟨0, 0, 0⟩) :
    let v := c.vacuum (c.inverseDFT old) (c.update old oldS) b kl
    let θ := c.theta kl
    let ζ := c.zeta kl
    let B := V3.rot (ζ / c.s.nfp) ⟨v.br, v.bphi, v.bz⟩
    B.dot (c.Xθ θ ζ) = b.1 ∧ B.dot ((c.Xζ θ ζ).smul c.s.nfp) = b.2 ∧ B.dot (c.N θ ζ) = 0 ∧ v.bSqVac = B.dot B / 2 := by
  intro v θ ζ B
  have hn : (c.s.nfp : ℝ) ≠ 0 := by have := g.nfp; exact_mod_cast (by omega : c.s.nfp ≠ 0)
  obtain ⟨er, ez⟩ := rz_any g hzt old oldS h0 h1
  obtain ⟨tθ, tζ⟩ := tangents g old h0 h1 _ er
  obtain ⟨⟨f1, f2, f3⟩, _⟩ := C76_forms g old oldS h0 h1
  set U := c.Xθ θ ζ with hU
  set V := (c.Xζ θ ζ).smul c.s.nfp with hV
  have k1 : (c.update old oldS).guu (kl - c.ztMin) = U.dot U := f1
  have k2 : (c.update old oldS).guv (kl - c.ztMin) * c.s.nfp * 0.5 = U.dot V := by
    rw [f2, hV]
    unfold V3.dot V3.smul
    simp only [hU, θ, ζ]
    ring
  have k3 : (c.update old oldS).gvv (kl - c.ztMin) * c.s.nfp * c.s.nfp = V.dot V := by
    rw [f3, hV]
    unfold V3.dot V3.smul
    simp only [θ, ζ]
    ring
  have lag : U.dot U * V.dot V - U.dot V * U.dot V = c.s.nfp ^ 2 * (U.cross (c.Xζ θ ζ)).dot (U.cross (c.Xζ θ ζ)) := by
    rw [hV]
    unfold V3.dot V3.cross V3.smul
    ring
  have hpos : (U.cross (c.Xζ θ ζ)).dot (U.cross (c.Xζ θ ζ)) ≠ 0 := by
    intro q
    apply hind
    change U.cross (c.Xζ θ ζ) = _
    unfold V3.dot at q
    ext <;> simp only [] <;> nlinarith [sq_nonneg (U.cross (c.Xζ θ ζ)).x, sq_nonneg (U.cross (c.Xζ θ ζ)).y, sq_nonneg (U.cross (c.Xζ θ ζ)).z]
  have hD : U.dot U * V.dot V - U.dot V * U.dot V ≠ 0 := by
    rw [lag]
    exact mul_ne_zero (pow_ne_zero _ hn) hpos
  set su := (V.dot V * b.1 - U.dot V * b.2) / (U.dot U * V.dot V - U.dot V * U.dot V) with hsu
  set sv := (-(U.dot V) * b.1 + U.dot U * b.2) / (U.dot U * V.dot V - U.dot V * U.dot V) with hsv
  have hB : B = (U.smul su).add (V.smul sv) := by
    rw [tθ, tζ, V3.smul_rot, V3.smul_rot, ← V3.rot_add]
    show V3.rot _ _ = V3.rot _ _
    congr 1
    unfold V3.smul V3.add v vacuum
    simp only []
    rw [k1, k2, k3, ← hsu, ← hsv]
    ext
    · simp only []; ring
    · simp only []; ring
    · simp only []; ring
  have hq : v.bSqVac = (b.1 * su + b.2 * sv) * 0.5 := by
    unfold v vacuum
    simp only []
    rw [k1, k2, k3]
  have eU : U.dot U * su + U.dot V * sv = b.1 := by
    rw [hsu, hsv, ← mul_div_assoc, ← mul_div_assoc, ← add_div, div_eq_iff hD]
    ring
  have eV : U.dot V * su + V.dot V * sv = b.2 := by
    rw [hsu, hsv, ← mul_div_assoc, ← mul_div_assoc, ← add_div, div_eq_iff hD]
    ring
  have bU : B.dot U = b.1 := by rw [hB, ← eU]; unfold V3.dot V3.add V3.smul; ring
  have bV : B.dot V = b.2 := by rw [hB, ← eV]; unfold V3.dot V3.add V3.smul; ring
  refine ⟨bU, bV, ?_, ?_⟩
  · rw [hB]
    unfold N
    rw [hV]
    change ((U.smul su).add (((c.Xζ θ ζ).smul c.s.nfp).smul sv)).dot ((U.cross (c.Xζ θ ζ)).smul _) = 0
    unfold V3.dot V3.add V3.smul V3.cross
    ring
  · rw [hq, ← bU, ← bV, hB]
    unfold V3.dot V3.add V3.smul
    ring

end SCtx

/-- C79: points beside and beyond a segment -/
example : OffSegment ⟨0, 0, 0⟩ ⟨1, 0, 0⟩ ⟨1 / 2, 1, 0⟩ ∧ OffSegment ⟨0, 0, 0⟩ ⟨1, 0, 0⟩ ⟨2, 0, 0⟩ := by
  constructor
  · intro t _ _ h
    have := congrArg V3.y h
    simp [seg, V3.add, V3.smul, V3.sub] at this
  · intro t _ h1 h
    have := congrArg V3.x h
    simp [seg, V3.add, V3.smul, V3.sub] at this
    linarith

/-- C79, C80: a torus with `R = 3 + √2 cos θ`, `Z = √2 sin θ` in 2 field periods, asymmetric and symmetric, of which the thread has the points 5 to 8.
At point 6 the tangent vectors are independent and a circular axis is not touched. -/
example (lasym : Bool) : ∃ c : SCtx, c.Good ∧ c.s.lasym = lasym ∧
    c.s.nZnT = (if c.s.lasym then c.s.nThetaEven else c.s.nThetaReduced) * c.s.nZeta ∧ c.ztMin = 5 ∧ c.ztMax = 9 ∧
    c.OffAxis (fun _ => 3) (fun _ => 0) 6 ∧ (c.Xθ (c.theta 6) (c.zeta 6)).cross (c.Xζ (c.theta 6) (c.zeta 6)) ≠ ⟨0, 0, 0⟩ := by
  obtain ⟨s, hs⟩ : ∃ s, Sizes.mk lasym 2 2 1 0 0 0 0 = .ok s := ⟨_, rfl⟩
  have gg := goodGrid_of_mk hs
  have hs' : s.lasym = lasym ∧ s.nThetaEven = 10 ∧ s.nZeta = 6 ∧ s.nThetaReduced = 6 ∧ s.nfp = 2 ∧ s.mpol = 2 ∧ s.ntor = 1 ∧
      s.nZnT = (if s.lasym then s.nThetaEven else s.nThetaReduced) * s.nZeta := by
    cases lasym <;> (cases hs; decide)
  obtain ⟨e1, e2, e3, e4, e5, e6, e7, e8⟩ := hs'
  set c : SCtx := ⟨s, 5, 9, fun q i => if q = .rCC ∧ i = 0 then 3 else if q = .rCC ∧ i = 1 then 1 else if q = .zSC ∧ i = 1 then 1 else 0, true, -1⟩ with hc
  have i2 : Ico (0 : Int) 2 = {0, 1} := by decide
  have hR (θ ζ : ℝ) : c.R θ ζ = 3 + √2 * Real.cos θ := by
    unfold SCtx.R
    simp only [hc, e6, e7]
    rw [show (1 : Int) + 1 = 2 by norm_num, i2]
    simp [scale]
  have hZ (θ ζ : ℝ) : c.Z θ ζ = √2 * Real.sin θ := by
    unfold SCtx.Z
    simp only [hc, e6, e7]
    rw [show (1 : Int) + 1 = 2 by norm_num, i2]
    simp [scale]
  have ht : c.theta 6 = Real.pi / 5 := by
    unfold SCtx.theta
    simp only [hc, e2, e3]
    norm_num
    ring
  have hz : c.zeta 6 = 0 := by
    unfold SCtx.zeta
    simp only [hc, e3]
    norm_num
  have hp := Real.pi_pos
  have h2 : 0 < √2 := Real.sqrt_pos.2 (by norm_num)
  have hsin : 0 < Real.sin (Real.pi / 5) := Real.sin_pos_of_pos_of_lt_pi (by positivity) (by linarith)
  have hcos : 0 < Real.cos (Real.pi / 5) := Real.cos_pos_of_mem_Ioo ⟨by linarith, by linarith⟩
  refine ⟨c, ⟨gg, by rw [hc, e5]; norm_num, by norm_num [hc], ?_⟩, e1, e8, rfl, rfl, ?_, ?_⟩
  · simp only [hc]
    rw [e2, e3, e4]
    split <;> norm_num
  · intro j _ _ t _ _ h
    have := congrArg V3.z h
    unfold SCtx.X at this
    simp only [hZ, ht] at this
    simp [seg, V3.add, V3.smul, V3.sub, vertex, V3.rot] at this
    exact hsin.ne' this
  · intro h
    have := congrArg V3.x h
    rw [ht, hz] at this
    unfold SCtx.Xθ SCtx.Xζ SCtx.X V3.deriv V3.cross at this
    simp only [hR, hZ] at this
    have n2 : (c.s.nfp : ℝ) = 2 := by simp [hc, e5]
    have d1 : deriv (fun _ : ℝ => √2 * Real.sin (Real.pi / 5)) 0 = 0 := deriv_const _ _
    have d2 : deriv (fun t : ℝ => √2 * Real.sin t) (Real.pi / 5) = √2 * Real.cos (Real.pi / 5) := ((Real.hasDerivAt_sin _).const_mul _).deriv
    have d3 : deriv (fun t : ℝ => (3 + √2 * Real.cos (Real.pi / 5)) * Real.sin (t / c.s.nfp)) 0 = (3 + √2 * Real.cos (Real.pi / 5)) * (1 / 2) := by
      rw [n2]
      have : HasDerivAt (fun t : ℝ => Real.sin (t / 2)) (Real.cos (0 / 2) * (1 / 2)) 0 := ((hasDerivAt_id (0 : ℝ)).div_const 2).sin
      refine ((this.congr_deriv ?_).const_mul _).deriv
      simp
    rw [d1, d2, d3] at this
    simp only [mul_zero, zero_sub, neg_eq_zero] at this
    have : 0 < √2 * Real.cos (Real.pi / 5) * ((3 + √2 * Real.cos (Real.pi / 5)) * (1 / 2)) := by positivity
    linarith

namespace Net
variable (w : Net)

/-- the surface as seen by thread `t` -/
def surf (co : Coef → Int → ℝ) (full : Bool) (sgn : Int) (t : Int) : SCtx :=
  ⟨w.s, splitMin w.s.nZnT w.nt t, splitMax w.s.nZnT w.nt t, co, full, sgn⟩

variable {w}

theorem Good.surf (g : w.Good) (co : Coef → Int → ℝ) (full : Bool) (sgn : Int) {t : Int} (h0 : 0 ≤ t) (h1 : t < w.nt) : (w.surf co full sgn t).Good := by
  have q := g.thread h0 h1
  refine ⟨g.grid, ?_, q.lo, ?_⟩
  · obtain ⟨lasym, nfp, mpol, ntor, ntheta, nzeta, mg, ng, h⟩ := g.sizes
    have := ((Sizes.C07_sizes lasym nfp mpol ntor ntheta nzeta mg ng).1).2 ⟨w.s, h⟩
    have e := ((Sizes.C07_sizes lasym nfp mpol ntor ntheta nzeta mg ng).2 w.s h).1.2.1
    show 1 ≤ w.s.nfp
    omega
  · have := q.hi
    rw [show (w.thread t).s.nThetaEff = w.s.nThetaEff from rfl, g.eff.1] at this
    exact this

/-- sum over the points of all threads -/
theorem sum_all (g : w.Good) (f : Int → ℝ) : ∑ t ∈ Ico 0 w.nt, ∑ kl ∈ Ico (splitMin w.s.nZnT w.nt t) (splitMax w.s.nZnT w.nt t), f kl = ∑ kl ∈ Ico 0 w.s.nZnT, f kl := by
  have hn := g.nznt
  have hp : 0 < w.nt := by have := g.nt; omega
  have key : ∀ m : ℕ, ∑ t ∈ Ico 0 (m : Int), ∑ kl ∈ Ico (splitMin w.s.nZnT w.nt t) (splitMax w.s.nZnT w.nt t), f kl = ∑ kl ∈ Ico 0 (splitMin w.s.nZnT w.nt m), f kl := by
    intro m
    induction m with
    | zero => rw [Nat.cast_zero, splitMin_zero hn hp]; simp
    | succ m ih =>
      push_cast
      rw [sum_Ico_int_succ (by omega), ih, splitMax_eq_succ hn hp, sum_Ico_split (a := 0) (b := splitMin w.s.nZnT w.nt m) (c := splitMin w.s.nZnT w.nt (m + 1)) ?_ ?_]
      · have := splitMin_mono hn hp (t := 0) (t' := m) (by omega)
        rw [splitMin_zero hn hp] at this
        exact this
      · exact splitMin_mono_succ hn hp _
  have := key w.nt.toNat
  rw [Int.toNat_of_nonneg hp.le, splitMin_last hn hp] at this
  exact this

theorem average_flat (g : w.Good) (f : Int → ℝ) : ∑ kl ∈ Ico 0 w.s.nZnT, f kl * Sizes.wInt w.s (kl.tdiv w.s.nZeta) = w.average fun l k => f (l * w.s.nZeta + k) := by
  have gz := g.grid.nz
  unfold average
  rw [g.eff.2, ← flat_sum (show 0 < w.s.nZeta by omega) (fun l k => Sizes.wInt w.s l * f (l * w.s.nZeta + k))]
  refine sum_congr rfl fun kl h => ?_
  rw [mem_Ico] at h
  rw [Int.tdiv_eq_ediv_of_nonneg h.1, Int.ediv_mul_add_emod, mul_comm]

theorem average_sum {ι : Type*} (I : Finset ι) (F : ι → Int → Int → ℝ) : w.average (fun l k => ∑ i ∈ I, F i l k) = ∑ i ∈ I, w.average (F i) := by
  unfold average
  simp only [mul_sum]
  rw [sum_comm' (s := I) (t' := Ico 0 w.s.nThetaEff) (s' := fun _ => I) (t := fun _ => Ico 0 w.s.nThetaEff) (by intros; tauto)]
  refine sum_congr rfl fun l _ => ?_
  rw [sum_comm]

theorem average_add (F G : Int → Int → ℝ) : w.average (fun l k => F l k + G l k) = w.average F + w.average G := by
  unfold average
  simp only [mul_add, sum_add_distrib]

theorem average_mul (x : ℝ) (F : Int → Int → ℝ) : w.average (fun l k => x * F l k) = x * w.average F := by
  unfold average
  rw [mul_sum]
  refine sum_congr rfl fun l _ => ?_
  rw [mul_sum]
  refine sum_congr rfl fun k _ => ?_
  ring

theorem average_congr {F G : Int → Int → ℝ} (h : ∀ l k, 0 ≤ l → l < w.s.nThetaEff → 0 ≤ k → k < w.s.nZeta → F l k = G l k) : w.average F = w.average G := by
  unfold average
  refine sum_congr rfl fun l hl => sum_congr rfl fun k hk => ?_
  rw [mem_Ico] at hl hk
  rw [h l k hl.1 hl.2 hk.1 hk.2]

/-- averages of the modes vanish -/
theorem average_cos (g : w.Good) {m n : Int} (hm : 0 ≤ m) (hm' : m < w.s.nThetaEven) (hn : -w.s.nZeta < n) (hn' : n < w.s.nZeta) (h : m ≠ 0 ∨ n ≠ 0) :
    w.average (fun l k => Real.cos (m * thetaGrid w.s l - n * zetaGrid w.s k)) = 0 ∧
    (w.s.lasym = true → w.average (fun l k => Real.sin (m * thetaGrid w.s l - n * zetaGrid w.s k)) = 0) := by
  have gz := g.grid.nz
  have ge := g.grid.even
  have gp := g.grid.nyqP
  have gm := g.grid.mpol
  have ez (k : Int) : (n : ℝ) * zetaGrid w.s k = 2 * Real.pi * n * k / w.s.nZeta := by unfold zetaGrid; ring
  have et (l : Int) : (m : ℝ) * thetaGrid w.s l = 2 * Real.pi * m * l / w.s.nThetaEven := by unfold thetaGrid; ring
  by_cases hz : n = 0
  · subst hz
    have hm0 : m ≠ 0 := by tauto
    have nd : ¬ w.s.nThetaEven ∣ m := by rw [dvd_small (by omega) hm']; exact hm0
    have red (F : ℝ → ℝ) : w.average (fun l k => F (m * thetaGrid w.s l - (0 : Int) * zetaGrid w.s k)) = w.s.nZeta * ∑ l ∈ Ico 0 w.s.nThetaEff, Sizes.wInt w.s l * F (m * thetaGrid w.s l) := by
      unfold average
      rw [mul_sum]
      refine sum_congr rfl fun l _ => ?_
      simp only [Int.cast_zero, zero_mul, sub_zero]
      rw [sum_const, Int.card_Ico, nsmul_eq_mul]
      have : (((w.s.nZeta - 0).toNat : ℕ) : ℝ) = w.s.nZeta := by
        rw [sub_zero]
        have := Int.toNat_of_nonneg (show 0 ≤ w.s.nZeta by omega)
        exact_mod_cast this
      rw [this]
    rw [red Real.cos, red Real.sin, g.eff.1]
    have c0 := cos_sum w.s.nThetaEven (by omega) m
    have s0 := sin_sum w.s.nThetaEven (by omega) m
    rw [if_neg nd] at c0
    simp only [← et] at c0 s0
    by_cases hl : w.s.lasym = true
    · rw [if_pos hl]
      have wi (l : Int) : (Sizes.wInt w.s l : ℝ) = 1 / ((w.s.nZeta * w.s.nThetaEven : Int) : ℝ) := by
        unfold Sizes.wInt
        simp [hl]
      simp only [wi, ← mul_sum]
      rw [c0, s0]
      simp
    · rw [if_neg hl]
      refine ⟨?_, fun h => absurd h hl⟩
      have hl' : w.s.lasym = false := by simpa using hl
      set M := w.s.nThetaReduced - 1 with hM
      rw [show w.s.nThetaReduced = M + 1 by omega, ends_sum M (by omega)]
      have w0 : (Sizes.wInt w.s 0 : ℝ) = 1 / ((w.s.nZeta * M : Int) : ℝ) / 2 := by
        unfold Sizes.wInt
        simp [hl', hM]
      have wM : (Sizes.wInt w.s M : ℝ) = 1 / ((w.s.nZeta * M : Int) : ℝ) / 2 := by
        unfold Sizes.wInt
        simp [hl', hM]
      have wi : ∀ l ∈ Ico 1 M, (Sizes.wInt w.s l : ℝ) * Real.cos (m * thetaGrid w.s l) = 1 / ((w.s.nZeta * M : Int) : ℝ) * Real.cos (m * thetaGrid w.s l) := by
        intro l h
        rw [mem_Ico] at h
        unfold Sizes.wInt
        have a1 : ¬ l = 0 := by omega
        have a2 : ¬ l = w.s.nThetaReduced - 1 := by omega
        simp [hl', a1, a2, hM]
      rw [sum_congr rfl wi, w0, wM, ← mul_sum]
      have hE : (w.s.nThetaEven : ℝ) ≠ 0 := by exact_mod_cast (by omega : w.s.nThetaEven ≠ 0)
      have hs := half_sum M (by omega) (fun l => Real.cos (m * thetaGrid w.s l)) (by
        intro l
        have : (m : ℝ) * thetaGrid w.s (2 * M - l) = (m : ℤ) * (2 * Real.pi) - m * thetaGrid w.s l := by
          rw [hM, ← ge]
          unfold thetaGrid
          push_cast
          field_simp
        rw [this, Real.cos_int_mul_two_pi_sub])
      rw [show 2 * M = w.s.nThetaEven by omega, c0] at hs
      linear_combination (w.s.nZeta : ℝ) * (1 / ((w.s.nZeta * M : Int) : ℝ)) * hs
  · have nd : ¬ w.s.nZeta ∣ n := by rw [dvd_small hn hn']; exact hz
    have c0 := cos_sum w.s.nZeta (by omega) n
    have s0 := sin_sum w.s.nZeta (by omega) n
    rw [if_neg nd] at c0
    simp only [← ez] at c0 s0
    unfold average
    refine ⟨sum_eq_zero fun l _ => ?_, fun _ => sum_eq_zero fun l _ => ?_⟩
    · rw [← mul_sum]
      simp only [Real.cos_sub, sum_add_distrib, ← mul_sum]
      rw [c0, s0]
      ring
    · rw [← mul_sum]
      simp only [Real.sin_sub, sum_sub_distrib, ← mul_sum]
      rw [c0, s0]
      ring

/-- **C80 (net currents).** Whatever the number of threads and the order in which they add their shares, `bSubUVac` is `signOfJacobian · 2π` times the
average over the surface of `B_θ` of the external field and `bSubVVac` the average of its `B_φ`: the potential contributes nothing.  The modes have
to be below the number of grid points, as with `mf = mpol + 1`, `nf = ntor`, `nestor.cc:19-20`. -/
theorem C80_net (g : w.Good) (hm : w.mf < w.s.nThetaEven) (hn : w.nf < w.s.nZeta) (co : Coef → Int → ℝ) (full : Bool) (sgn : Int) (bvec : Int → ℝ)
    (ef : Int → Ext) (BU BV : Int → Int → ℝ)
    (hef : ∀ t, 0 ≤ t → t < w.nt → ∀ kl, (w.thread t).ztMin ≤ kl → kl < (w.thread t).ztMax →
      (ef t).bSubU (kl - (w.thread t).ztMin) = BU (kl / w.s.nZeta) (kl % w.s.nZeta) ∧ (ef t).bSubV (kl - (w.thread t).ztMin) = BV (kl / w.s.nZeta) (kl % w.s.nZeta))
    {L : List Int} (hL : w.Order L) :
    SCtx.netSub (L.map fun t => (w.surf co full sgn t).localSub w.mf w.nf bvec (ef t)) = (sgn * 2 * Real.pi * w.average BU, w.average BV) := by
  have gz := g.grid.nz
  have ge := g.grid.even
  have gp := g.grid.nyqP
  have gm := g.grid.mpol
  set c := w.surf co full sgn 0 with hc
  have gc : c.Good := g.surf co full sgn le_rfl (by have := g.nt; omega)
  have eff : w.s.nZnT ≤ w.s.nThetaEven * w.s.nZeta := by
    rw [g.eff.2, g.eff.1]
    refine mul_le_mul_of_nonneg_right ?_ (by omega)
    split <;> omega
  set PU : Int → Int → ℝ := fun l k => deriv (fun t => c.Phi w.mf w.nf bvec t (zetaGrid w.s k)) (thetaGrid w.s l)
  set PV : Int → Int → ℝ := fun l k => c.s.nfp * deriv (fun t => c.Phi w.mf w.nf bvec (thetaGrid w.s l) t) (zetaGrid w.s k)
  have loc (t : Int) (t0 : 0 ≤ t) (t1 : t < w.nt) : (w.surf co full sgn t).localSub w.mf w.nf bvec (ef t) =
      ∑ kl ∈ Ico (splitMin w.s.nZnT w.nt t) (splitMax w.s.nZnT w.nt t),
        ((sgn * 2 * Real.pi) * ((PU (kl / w.s.nZeta) (kl % w.s.nZeta) + BU (kl / w.s.nZeta) (kl % w.s.nZeta)) * Sizes.wInt w.s (kl.tdiv w.s.nZeta)),
         (PV (kl / w.s.nZeta) (kl % w.s.nZeta) + BV (kl / w.s.nZeta) (kl % w.s.nZeta)) * Sizes.wInt w.s (kl.tdiv w.s.nZeta)) := by
    have gt := g.surf co full sgn t0 t1
    have q := g.thread t0 t1
    unfold SCtx.localSub
    simp only []
    have body : ∀ (F G : Int → ℝ) (kl : Int) (p : ℝ × ℝ), (p.1 + F kl, p.2 + G kl) = p + (F kl, G kl) := fun _ _ _ _ => rfl
    simp only [body (fun kl => ((w.surf co full sgn t).bSub w.mf w.nf bvec (ef t) kl).1 * Sizes.wInt (w.surf co full sgn t).s (kl.tdiv (w.surf co full sgn t).s.nZeta))
      (fun kl => ((w.surf co full sgn t).bSub w.mf w.nf bvec (ef t) kl).2 * Sizes.wInt (w.surf co full sgn t).s (kl.tdiv (w.surf co full sgn t).s.nZeta))]
    rw [forRange_add, Prod.mk_zero_zero, zero_add]
    have pt : ∀ kl ∈ Ico (splitMin w.s.nZnT w.nt t) (splitMax w.s.nZnT w.nt t), (w.surf co full sgn t).bSub w.mf w.nf bvec (ef t) kl =
        (PU (kl / w.s.nZeta) (kl % w.s.nZeta) + BU (kl / w.s.nZeta) (kl % w.s.nZeta), PV (kl / w.s.nZeta) (kl % w.s.nZeta) + BV (kl / w.s.nZeta) (kl % w.s.nZeta)) := by
      intro kl hk
      rw [mem_Ico] at hk
      have lo : 0 ≤ splitMin w.s.nZnT w.nt t := q.lo
      have hi : splitMax w.s.nZnT w.nt t ≤ w.s.nZnT := q.hi.trans_eq g.eff.2.symm
      obtain ⟨e1, e2⟩ := hef t t0 t1 kl hk.1 hk.2
      unfold SCtx.bSub
      rw [SCtx.potUV_eq gt g.mf0 g.mf1 g.nf0 g.nf1 bvec (by omega) (lt_of_lt_of_le (by omega) eff)]
      exact Prod.ext (congrArg (PU (kl / w.s.nZeta) (kl % w.s.nZeta) + ·) e1) (congrArg (PV (kl / w.s.nZeta) (kl % w.s.nZeta) + ·) e2)
    ext
    · simp only [Prod.fst_sum]
      rw [sum_mul]
      refine sum_congr rfl fun kl hk => ?_
      rw [pt kl hk]
      show _ * Sizes.wInt w.s (kl.tdiv w.s.nZeta) * ((sgn : ℝ) * 2 * Real.pi) = _
      ring
    · simp only [Prod.snd_sum]
      refine sum_congr rfl fun kl hk => ?_
      rw [pt kl hk]
      rfl
  have net : SCtx.netSub (L.map fun t => (w.surf co full sgn t).localSub w.mf w.nf bvec (ef t)) = ∑ t ∈ Ico 0 w.nt, (w.surf co full sgn t).localSub w.mf w.nf bvec (ef t) := by
    unfold SCtx.netSub
    rw [← List.sum_eq_foldl, ← List.sum_toFinset _ hL.1]
    congr 1
    ext t
    rw [List.mem_toFinset, hL.2, mem_Ico]
  rw [net, sum_congr rfl fun t ht => loc t (mem_Ico.1 ht).1 (mem_Ico.1 ht).2]
  have flat (F : Int → Int → ℝ) : ∑ kl ∈ Ico 0 w.s.nZnT, F (kl / w.s.nZeta) (kl % w.s.nZeta) * Sizes.wInt w.s (kl.tdiv w.s.nZeta) = w.average F := by
    rw [average_flat g (fun kl => F (kl / w.s.nZeta) (kl % w.s.nZeta))]
    refine average_congr fun l k l0 l1 k0 k1 => ?_
    rw [add_comm, Int.add_mul_ediv_right _ _ (by omega), Int.ediv_eq_zero_of_lt k0 k1, zero_add, Int.add_mul_emod_self_right, Int.emod_eq_of_lt k0 k1]
  have av (m n : Int) (h1 : 0 ≤ m) (h2 : m ≤ w.mf) (h3 : -w.nf ≤ n) (h4 : n ≤ w.nf) (h : m ≠ 0 ∨ n ≠ 0) :=
    average_cos g h1 (show m < w.s.nThetaEven by omega) (show -w.s.nZeta < n by omega) (show n < w.s.nZeta by omega) h
  have zU : w.average PU = 0 := by
    simp only [PU, SCtx.deriv_Phi_θ]
    rw [average_sum]
    refine sum_eq_zero fun n hn => ?_
    rw [average_sum]
    refine sum_eq_zero fun m hm => ?_
    rw [mem_Ico] at hn hm
    rw [average_add, average_mul, average_mul]
    by_cases hz : m = 0
    · subst hz
      split
      · rw [average_mul, average_mul]; simp
      · unfold average; simp
    · have := av m n hm.1 (by omega) (by omega) (by omega) (Or.inl hz)
      rw [this.1]
      split
      · rename_i hl
        rw [average_mul, average_mul, this.2 hl]; simp
      · unfold average; simp
  have zV : w.average PV = 0 := by
    simp only [PV, SCtx.deriv_Phi_ζ]
    rw [average_mul, average_sum]
    refine mul_eq_zero_of_right _ (sum_eq_zero fun n hn => ?_)
    rw [average_sum]
    refine sum_eq_zero fun m hm => ?_
    rw [mem_Ico] at hn hm
    rw [average_add, average_mul, average_mul]
    by_cases hz : n = 0
    · subst hz
      split
      · rw [average_mul, average_mul]; simp
      · unfold average; simp
    · have := av m n hm.1 (by omega) (by omega) (by omega) (Or.inr hz)
      rw [this.1]
      split
      · rename_i hl
        rw [average_mul, average_mul, this.2 hl]; simp
      · unfold average; simp
  ext
  · simp only [Prod.fst_sum]
    rw [sum_all g, ← mul_sum, flat (fun l k => PU l k + BU l k), average_add, zU, zero_add]
  · simp only [Prod.snd_sum]
    rw [sum_all g, flat (fun l k => PV l k + BV l k), average_add, zV, zero_add]

/-- C80: five threads, asymmetric and symmetric, with the modes of `Nestor` -/
example (lasym : Bool) : ∃ w : Net, w.Good ∧ w.s.lasym = lasym ∧ w.mf < w.s.nThetaEven ∧ w.nf < w.s.nZeta ∧ w.mf = w.s.mpol + 1 ∧ w.nf = w.s.ntor ∧ w.Order [3, 0, 4, 1, 2] := by
  obtain ⟨s, hs⟩ : ∃ s, Sizes.mk lasym 2 2 1 0 0 0 0 = .ok s := ⟨_, rfl⟩
  have hs' : s.lasym = lasym ∧ s.nThetaEven = 10 ∧ s.nZeta = 6 ∧ s.mnyq2 = 10 ∧ s.nnyq2 = 6 ∧ s.mpol = 2 ∧ s.ntor = 1 := by
    cases lasym <;> (cases hs; decide)
  obtain ⟨e1, e2, e3, e4, e5, e6, e7⟩ := hs'
  refine ⟨⟨s, 1, 3, 5⟩, ⟨⟨lasym, 2, 2, 1, 0, 0, 0, 0, hs⟩, by norm_num, by norm_num, ?_, by norm_num, ?_⟩, e1, ?_, ?_, ?_, ?_, by decide, fun t => ?_⟩
  · simp only []; omega
  · simp only []; omega
  · simp only []; omega
  · simp only []; omega
  · simp only []; omega
  · simp only []; omega
  · simp only [List.mem_cons, List.not_mem_nil, or_false]
    omega

end Net
end Verif.Nestor
