import Verif.Nestor.SurfSpec
import Verif.Nestor.PropsC

/-! # Properties of `SurfaceGeometry` -/
namespace Verif.Nestor
open Verif Finset Fourier

namespace SCtx
variable (c : SCtx)

/-- angles of the grid points -/
noncomputable def theta (kl : Int) : ℝ := 2 * Real.pi * (kl / c.s.nZeta : Int) / c.s.nThetaEven
noncomputable def zeta (kl : Int) : ℝ := 2 * Real.pi * (kl % c.s.nZeta : Int) / c.s.nZeta

variable {c}

theorem split_point (g : GoodGrid c.s) {N kl : Int} (h0 : 0 ≤ kl) (h1 : kl < N * c.s.nZeta) :
    kl / c.s.nZeta * c.s.nZeta + kl % c.s.nZeta = kl ∧ 0 ≤ kl / c.s.nZeta ∧ kl / c.s.nZeta < N ∧ 0 ≤ kl % c.s.nZeta ∧ kl % c.s.nZeta < c.s.nZeta := by
  have gz := g.nz
  refine ⟨by rw [mul_comm]; exact Int.mul_ediv_add_emod _ _, Int.ediv_nonneg h0 (by omega), Int.ediv_lt_of_lt_mul (by omega) h1,
    Int.emod_nonneg _ (by omega), Int.emod_lt_of_pos _ (by omega)⟩

theorem field_at (g : c.Good) (old : SArr) (b : Base) (d : Der) (hb : b.asym = false) {kl : Int} (hl0 : 0 ≤ kl)
    (hl1 : kl < (if c.s.lasym then c.s.nThetaEven else c.s.nThetaReduced) * c.s.nZeta)
    (h1 : d = .b ∨ c.s.lasym = true ∨ c.ztMin ≤ kl ∧ kl < c.ztMax) (h2 : d.second = true → c.fullUpdate = true) :
    c.inverseDFT old (b, d) (c.pos (b, d) kl) = c.ev (c.derive (c.full b) d) (c.theta kl) (c.zeta kl) := by
  obtain ⟨e, a1, a2, a3, a4⟩ := split_point g.grid hl0 hl1
  have := field_eq g old (b, d) hb a1 a2 a3 a4 (by rw [e]; exact h1) h2
  rw [e] at this
  exact this

/-- **C76 (Fourier series).** After `inverseDFT`, `r1b`, `z1b` and the derivative arrays hold the series of the surface and its derivatives with
respect to the poloidal angle and the toroidal angle `ζ / nfp`, at every point for `r1b`, `z1b` and at every point of the thread (every point, in the
asymmetric case) for the others; the second derivatives in a full update. -/
theorem C76_series (g : c.Good) (old : SArr) {kl : Int} (h0 : 0 ≤ kl)
    (h1 : kl < (if c.s.lasym then c.s.nThetaEven else c.s.nThetaReduced) * c.s.nZeta) :
    let a := c.inverseDFT old
    let p := kl - c.derivOffset
    let θ := c.theta kl
    let ζ := c.zeta kl
    a (.r, .b) kl = c.R θ ζ ∧ a (.z, .b) kl = c.Z θ ζ ∧
    (c.s.lasym = true ∨ c.ztMin ≤ kl ∧ kl < c.ztMax →
      (a (.r, .u) p = deriv (fun t => c.R t ζ) θ ∧ a (.r, .v) p = c.s.nfp * deriv (fun t => c.R θ t) ζ ∧
       a (.z, .u) p = deriv (fun t => c.Z t ζ) θ ∧ a (.z, .v) p = c.s.nfp * deriv (fun t => c.Z θ t) ζ) ∧
      (c.fullUpdate = true →
        a (.r, .uu) p = deriv (fun t => deriv (fun t => c.R t ζ) t) θ ∧
        a (.r, .uv) p = c.s.nfp * deriv (fun t => deriv (fun t' => c.R t' t) θ) ζ ∧
        a (.r, .vv) p = c.s.nfp ^ 2 * deriv (fun t => deriv (fun t => c.R θ t) t) ζ ∧
        a (.z, .uu) p = deriv (fun t => deriv (fun t => c.Z t ζ) t) θ ∧
        a (.z, .uv) p = c.s.nfp * deriv (fun t => deriv (fun t' => c.Z t' t) θ) ζ ∧
        a (.z, .vv) p = c.s.nfp ^ 2 * deriv (fun t => deriv (fun t => c.Z θ t) t) ζ)) := by
  intro a p θ ζ
  have sm (x : ℝ) (S : Ser) : c.ev (S.smul x) θ ζ = x * c.ev S θ ζ := Ser.eval_smul _ _ _ _ _ _
  have dθ (S : Ser) (θ ζ : ℝ) : deriv (fun t => c.ev S t ζ) θ = c.ev S.dθ θ ζ := (c.ev_θ S θ ζ).deriv
  have dζ (S : Ser) (θ ζ : ℝ) : deriv (fun t => c.ev S θ t) ζ = c.ev S.dζ θ ζ := (c.ev_ζ S θ ζ).deriv
  simp only [R_eq, Z_eq, dθ, dζ]
  refine ⟨field_at g old .r .b rfl h0 h1 (Or.inl rfl) (fun h => Bool.noConfusion h), field_at g old .z .b rfl h0 h1 (Or.inl rfl) (fun h => Bool.noConfusion h), fun hl => ?_⟩
  have F (b : Base) (d : Der) (hb : b.asym = false) (h2 : d.second = true → c.fullUpdate = true) := field_at g old b d hb h0 h1 (Or.inr hl) h2
  refine ⟨⟨F .r .u rfl (fun h => Bool.noConfusion h), (F .r .v rfl (fun h => Bool.noConfusion h)).trans (sm _ _), F .z .u rfl (fun h => Bool.noConfusion h), (F .z .v rfl (fun h => Bool.noConfusion h)).trans (sm _ _)⟩,
    fun hf => ⟨F .r .uu rfl fun _ => hf, (F .r .uv rfl fun _ => hf).trans (sm _ _), (F .r .vv rfl fun _ => hf).trans (sm _ _),
      F .z .uu rfl fun _ => hf, (F .z .uv rfl fun _ => hf).trans (sm _ _), (F .z .vv rfl fun _ => hf).trans (sm _ _)⟩⟩

theorem reflectedRZ_local (s t : RZ → Int → ℝ) (kl : Int) (h : kl < c.s.nThetaReduced * c.s.nZeta)
    (hst : ∀ f i, i < c.s.nThetaReduced * c.s.nZeta → s f i = t f i) (f : RZ) (x : ℝ) : reflectedRZ s kl f x = reflectedRZ t kl f x := by
  unfold reflectedRZ
  cases f <;> simp only [] <;> rw [hst _ kl h]

/-- `r1b`, `z1b` and `rzb2` over the whole grid after a full update -/
theorem rz_eq (g : c.Good) (hf : c.fullUpdate = true) (hzt : c.s.nZnT = (if c.s.lasym then c.s.nThetaEven else c.s.nThetaReduced) * c.s.nZeta) (old : SArr) (o : Int → ℝ) {kl : Int} (h0 : 0 ≤ kl)
    (h1 : kl < c.s.nThetaEven * c.s.nZeta) :
    c.rz (c.inverseDFT old) o .r1b kl = c.R (c.theta kl) (c.zeta kl) ∧ c.rz (c.inverseDFT old) o .z1b kl = c.Z (c.theta kl) (c.zeta kl) ∧
    c.rz (c.inverseDFT old) o .rzb2 kl = c.R (c.theta kl) (c.zeta kl) ^ 2 + c.Z (c.theta kl) (c.zeta kl) ^ 2 := by
  obtain ⟨e, a1, a2, a3, a4⟩ := split_point g.grid h0 h1
  have gz := g.grid.nz
  have ge := g.grid.even
  have low (kl : Int) (k0 : 0 ≤ kl) (k1 : kl < c.s.nZnT) :
      c.inverseDFT old (.r, .b) kl = c.R (c.theta kl) (c.zeta kl) ∧ c.inverseDFT old (.z, .b) kl = c.Z (c.theta kl) (c.zeta kl) := by
    rw [hzt] at k1
    have := C76_series g old k0 k1
    exact ⟨this.1, this.2.1⟩
  have base (kl : Int) (k0 : 0 ≤ kl) (k1 : kl < c.s.nZnT) : (if 0 ≤ kl ∧ kl < c.s.nZnT then
      c.inverseDFT old (.r, .b) kl * c.inverseDFT old (.r, .b) kl + c.inverseDFT old (.z, .b) kl * c.inverseDFT old (.z, .b) kl else o kl)
      = c.R (c.theta kl) (c.zeta kl) ^ 2 + c.Z (c.theta kl) (c.zeta kl) ^ 2 := by
    rw [if_pos ⟨k0, k1⟩, (low kl k0 k1).1, (low kl k0 k1).2]
    ring
  unfold rz
  simp only [hf, if_true, true_and]
  by_cases hla : c.s.lasym = true
  · rw [if_neg (by simp [hla])]
    rw [hla, if_pos rfl] at hzt
    simp only []
    have := low kl h0 (by omega)
    exact ⟨this.1, this.2, base kl h0 (by omega)⟩
  · rw [if_pos hla]
    rw [if_neg hla] at hzt
    obtain ⟨m1, m2⟩ := mirror_eq g.grid reflectedRZ (reflectedRZ_local (c := c)) (fun f : RZ => match f with
      | .r1b => c.inverseDFT old (.r, .b)
      | .z1b => c.inverseDFT old (.z, .b)
      | .rzb2 => fun kl => if 0 ≤ kl ∧ kl < c.s.nZnT then
          c.inverseDFT old (.r, .b) kl * c.inverseDFT old (.r, .b) kl + c.inverseDFT old (.z, .b) kl * c.inverseDFT old (.z, .b) kl else o kl)
    by_cases hl : kl / c.s.nZeta < c.s.nThetaReduced
    · have hi : kl < c.s.nThetaReduced * c.s.nZeta := by
        have : (kl / c.s.nZeta + 1) * c.s.nZeta ≤ c.s.nThetaReduced * c.s.nZeta := mul_le_mul_of_nonneg_right (by omega) (by omega)
        nlinarith
      refine ⟨(m1 .r1b kl hi).trans (low kl h0 (by omega)).1, (m1 .z1b kl hi).trans (low kl h0 (by omega)).2, (m1 .rzb2 kl hi).trans (base kl h0 (by omega))⟩
    · set l := kl / c.s.nZeta with hl'
      set k := kl % c.s.nZeta with hk'
      obtain ⟨q0, q1⟩ := rev_col_range a3 a4
      have M (f : RZ) := m2 (c.s.nThetaEven - l) ((c.s.nZeta - k).tmod c.s.nZeta) (by omega) (by omega) q0 q1 f
      rw [rev_rev a3 a4, show c.s.nThetaEven - (c.s.nThetaEven - l) = l by ring, e] at M
      set kr := (c.s.nThetaEven - l) * c.s.nZeta + (c.s.nZeta - k).tmod c.s.nZeta with hkr
      have kr0 : 0 ≤ kr := by
        have : 0 ≤ (c.s.nThetaEven - l) * c.s.nZeta := mul_nonneg (by omega) (by omega)
        omega
      have kr1 : kr < c.s.nZnT := by
        rw [hzt]
        have : (c.s.nThetaEven - l + 1) * c.s.nZeta ≤ c.s.nThetaReduced * c.s.nZeta := mul_le_mul_of_nonneg_right (by omega) (by omega)
        nlinarith
      have dv : kr / c.s.nZeta = c.s.nThetaEven - l := by
        rw [hkr, add_comm, Int.add_mul_ediv_right _ _ (by omega), Int.ediv_eq_zero_of_lt q0 q1, zero_add]
      have md : kr % c.s.nZeta = (c.s.nZeta - k).tmod c.s.nZeta := by
        rw [hkr, add_comm, Int.add_mul_emod_self_right, Int.emod_eq_of_lt q0 q1]
      have et : c.theta kl = (1 : Int) * (2 * Real.pi) - c.theta kr := by
        have := theta_rev g.grid (c.s.nThetaEven - l)
        rw [show c.s.nThetaEven - (c.s.nThetaEven - l) = l by ring] at this
        unfold theta
        rw [dv]
        exact this
      have ez : c.zeta kl = (if (c.s.nZeta - k).tmod c.s.nZeta = 0 then 0 else 1 : Int) * (2 * Real.pi) - c.zeta kr := by
        have := zeta_rev g.grid q0 q1
        rw [rev_rev a3 a4] at this
        unfold zeta
        rw [md]
        exact this
      have evn : (c.full .r).Even := by unfold full; rw [if_neg hla]; exact ⟨fun _ _ => rfl, fun _ _ => rfl⟩
      have odd : (c.full .z).Odd := by unfold full; rw [if_neg hla]; exact ⟨fun _ _ => rfl, fun _ _ => rfl⟩
      have eR : c.R (c.theta kl) (c.zeta kl) = c.R (c.theta kr) (c.zeta kr) := by
        rw [R_eq, R_eq, et, ez]
        exact Ser.even_reflect _ _ evn _ _ _ _
      have eZ : c.Z (c.theta kl) (c.zeta kl) = -c.Z (c.theta kr) (c.zeta kr) := by
        rw [Z_eq, Z_eq, et, ez]
        exact Ser.odd_reflect _ _ odd _ _ _ _
      rw [eR, eZ]
      refine ⟨(M .r1b).trans (low kr kr0 kr1).1, (M .z1b).trans ?_, (M .rzb2).trans ((base kr kr0 kr1).trans (by ring))⟩
      exact congrArg Neg.neg (low kr kr0 kr1).2

/-- **C76 (points).** After a full update the arrays of positions hold, at every point of the whole surface, the point of the surface. -/
theorem C76_points (g : c.Good) (hf : c.fullUpdate = true) (hzt : c.s.nZnT = (if c.s.lasym then c.s.nThetaEven else c.s.nThetaReduced) * c.s.nZeta)
    (old : SArr) (oldS : Surf) {kl : Int} (h0 : 0 ≤ kl) (h1 : kl < c.s.nThetaEven * c.s.nZeta) :
    let sg := c.update old oldS
    let X := c.X (c.theta kl) (c.zeta kl)
    sg.rcosuv kl = X.x ∧ sg.rsinuv kl = X.y ∧ sg.z1b kl = X.z ∧ sg.r1b kl = c.R (c.theta kl) (c.zeta kl) ∧ sg.rzb2 kl = X.dot X := by
  obtain ⟨r, z, q⟩ := rz_eq g hf hzt old oldS.rzb2 h0 h1
  have ang : 2 * Real.pi / (c.s.nfp * c.s.nZeta : Int) * (kl.tmod c.s.nZeta : Int) = c.zeta kl / c.s.nfp := by
    rw [Int.tmod_eq_emod_of_nonneg h0]
    unfold zeta
    push_cast
    rw [div_mul_eq_mul_div, div_div, mul_comm (c.s.nfp : ℝ)]
  intro sg X
  have e1 : sg.rcosuv kl = c.rz (c.inverseDFT old) oldS.rzb2 .r1b kl * Real.cos (2 * Real.pi / (c.s.nfp * c.s.nZeta : Int) * (kl.tmod c.s.nZeta : Int)) := by
    show (if c.fullUpdate = true then _ else _ : Int → ℝ) kl = _
    rw [if_pos hf]
  have e2 : sg.rsinuv kl = c.rz (c.inverseDFT old) oldS.rzb2 .r1b kl * Real.sin (2 * Real.pi / (c.s.nfp * c.s.nZeta : Int) * (kl.tmod c.s.nZeta : Int)) := by
    show (if c.fullUpdate = true then _ else _ : Int → ℝ) kl = _
    rw [if_pos hf]
  refine ⟨?_, ?_, z, r, ?_⟩
  · rw [e1, r, ang]; rfl
  · rw [e2, r, ang]; rfl
  · refine q.trans ?_
    show _ = c.R _ _ * Real.cos _ * (c.R _ _ * Real.cos _) + c.R _ _ * Real.sin _ * (c.R _ _ * Real.sin _) + c.Z _ _ * c.Z _ _
    linear_combination (-(c.R (c.theta kl) (c.zeta kl)) ^ 2) * Real.sin_sq_add_cos_sq (c.zeta kl / c.s.nfp)

/-- the normal vector (not normalised), outward for the usual sign of the Jacobian -/
noncomputable def N (c : SCtx) (θ ζ : ℝ) : V3 := ((c.Xθ θ ζ).cross (c.Xζ θ ζ)).smul (-c.signOfJacobian * c.s.nfp)

theorem N_eq (g : c.Good) (θ ζ : ℝ) : c.N θ ζ = V3.rot (ζ / c.s.nfp) ⟨c.signOfJacobian * c.ev (c.full .r) θ ζ * c.ev (c.full .z).dθ θ ζ,
    c.signOfJacobian * (c.ev (c.full .r).dθ θ ζ * (c.s.nfp * c.ev (c.full .z).dζ θ ζ) - c.ev (c.full .z).dθ θ ζ * (c.s.nfp * c.ev (c.full .r).dζ θ ζ)),
    -c.signOfJacobian * c.ev (c.full .r) θ ζ * c.ev (c.full .r).dθ θ ζ⟩ := by
  have hn : (c.s.nfp : ℝ) ≠ 0 := by have := g.nfp; exact_mod_cast (by omega : c.s.nfp ≠ 0)
  unfold N
  rw [Xθ_eq, Xζ_eq, V3.cross_rot, V3.smul_rot]
  congr 1
  unfold V3.cross V3.smul
  ext
  · simp only []; field_simp; ring
  · simp only []; ring
  · simp only []; field_simp; ring

/-- the arrays in terms of the series, at a point of the thread -/
theorem local_values (g : c.Good) (old : SArr) {kl : Int} (h0 : c.ztMin ≤ kl) (h1 : kl < c.ztMax) :
    let a := c.inverseDFT old
    let e (b : Base) (d : Der) := c.ev (c.derive (c.full b) d) (c.theta kl) (c.zeta kl)
    (∀ b, b.asym = false → a (b, .b) (kl - c.ztMin + c.ztMin) = e b .b ∧
      ∀ d, d ≠ .b → (d.second = true → c.fullUpdate = true) → a (b, d) (kl - c.ztMin + c.ztMin - c.derivOffset) = e b d) := by
  have g1 := g.lo
  have g2 := g.hi
  intro a e b hb
  rw [sub_add_cancel]
  refine ⟨field_at g old b .b hb (by omega) (by omega) (Or.inl rfl) (fun h => Bool.noConfusion h), fun d hd hs => ?_⟩
  have := field_at g old b d hb (by omega) (by omega) (Or.inr (Or.inr ⟨h0, h1⟩)) hs
  cases d <;> first | exact absurd rfl hd | exact this

/-- **C76 (normal vector).** In every update the thread's `snr`, `snv`, `snz` are the cylindrical components of the normal vector
`-signOfJacobian · ∂X/∂θ × ∂X/∂φ`, `φ = ζ / nfp`. -/
theorem C76_normal (g : c.Good) (old : SArr) (oldS : Surf) {kl : Int} (h0 : c.ztMin ≤ kl) (h1 : kl < c.ztMax) :
    let sg := c.update old oldS
    let o := kl - c.ztMin
    V3.rot (c.zeta kl / c.s.nfp) ⟨sg.snr o, sg.snv o, sg.snz o⟩ = c.N (c.theta kl) (c.zeta kl) := by
  have L := local_values g old h0 h1
  obtain ⟨r0, r⟩ := L .r rfl
  obtain ⟨z0, z⟩ := L .z rfl
  have sm (x : ℝ) (S : Ser) (θ ζ : ℝ) : c.ev (S.smul x) θ ζ = x * c.ev S θ ζ := Ser.eval_smul _ _ _ _ _ _
  have ru := r .u (by decide) (fun h => Bool.noConfusion h)
  have rv := (r .v (by decide) (fun h => Bool.noConfusion h)).trans (sm _ _ _ _)
  have zu := z .u (by decide) (fun h => Bool.noConfusion h)
  have zv := (z .v (by decide) (fun h => Bool.noConfusion h)).trans (sm _ _ _ _)
  intro sg o
  rw [N_eq g]
  congr 1
  unfold sg update derived
  simp only [o]
  rw [r0, ru, rv, zu, zv]
  simp only [derive]

/-- **C76 (fundamental forms).** In every update `guu`, `guv`, `gvv` are the coefficients of the first fundamental form in `(θ, ζ)`; in a full update
`auu`, `auv`, `avv` are those of half the second derivatives along the normal vector and `drv` is `-X · N`. -/
theorem C76_forms (g : c.Good) (old : SArr) (oldS : Surf) {kl : Int} (h0 : c.ztMin ≤ kl) (h1 : kl < c.ztMax) :
    let sg := c.update old oldS
    let o := kl - c.ztMin
    let θ := c.theta kl
    let ζ := c.zeta kl
    (sg.guu o = (c.Xθ θ ζ).dot (c.Xθ θ ζ) ∧ sg.guv o = 2 * (c.Xθ θ ζ).dot (c.Xζ θ ζ) ∧ sg.gvv o = (c.Xζ θ ζ).dot (c.Xζ θ ζ)) ∧
    (c.fullUpdate = true → sg.auu o = (c.Xθθ θ ζ).dot (c.N θ ζ) / 2 ∧ sg.auv o = (c.Xθζ θ ζ).dot (c.N θ ζ) ∧
      sg.avv o = (c.Xζζ θ ζ).dot (c.N θ ζ) / 2 ∧ sg.drv o = -(c.X θ ζ).dot (c.N θ ζ)) := by
  have hn : (c.s.nfp : ℝ) ≠ 0 := by have := g.nfp; exact_mod_cast (by omega : c.s.nfp ≠ 0)
  have L := local_values g old h0 h1
  obtain ⟨r0, r⟩ := L .r rfl
  obtain ⟨z0, z⟩ := L .z rfl
  have sm (x : ℝ) (S : Ser) (θ ζ : ℝ) : c.ev (S.smul x) θ ζ = x * c.ev S θ ζ := Ser.eval_smul _ _ _ _ _ _
  have ru := r .u (by decide) (fun h => Bool.noConfusion h)
  have rv := (r .v (by decide) (fun h => Bool.noConfusion h)).trans (sm _ _ _ _)
  have zu := z .u (by decide) (fun h => Bool.noConfusion h)
  have zv := (z .v (by decide) (fun h => Bool.noConfusion h)).trans (sm _ _ _ _)
  intro sg o θ ζ
  rw [N_eq g, Xθ_eq, Xζ_eq, Xθθ_eq, Xθζ_eq, Xζζ_eq, X_eq]
  simp only [V3.dot_rot]
  refine ⟨⟨?_, ?_, ?_⟩, fun hf => ?_⟩
  · unfold sg update derived
    simp only [o]
    rw [ru, zu]
    simp only [derive, V3.dot]
    ring
  · unfold sg update derived
    simp only [o]
    rw [ru, rv, zu, zv]
    simp only [derive, V3.dot]
    field_simp
    ring
  · unfold sg update derived
    simp only [o]
    rw [r0, rv, zv]
    simp only [derive, V3.dot]
    push_cast
    field_simp
    ring
  · have ruu := r .uu (by decide) fun _ => hf
    have ruv := (r .uv (by decide) fun _ => hf).trans (sm _ _ _ _)
    have rvv := (r .vv (by decide) fun _ => hf).trans (sm _ _ _ _)
    have zuu := z .uu (by decide) fun _ => hf
    have zuv := (z .uv (by decide) fun _ => hf).trans (sm _ _ _ _)
    have zvv := (z .vv (by decide) fun _ => hf).trans (sm _ _ _ _)
    refine ⟨?_, ?_, ?_, ?_⟩
    · unfold sg update derived
      simp only [o, hf, if_true]
      rw [r0, ru, zu, ruu, zuu]
      simp only [derive, V3.dot]
      ring
    · unfold sg update derived
      simp only [o, hf, if_true]
      rw [r0, ru, rv, zu, zv, ruv, zuv]
      simp only [derive, V3.dot]
      field_simp
      ring
    · unfold sg update derived
      simp only [o, hf, if_true]
      rw [r0, ru, rv, zu, zv, rvv, zvv]
      simp only [derive, V3.dot]
      push_cast
      field_simp
      ring
    · unfold sg update derived
      simp only [o, hf, if_true]
      rw [r0, z0, ru, zu]
      simp only [derive, V3.dot]
      ring

/-- **C76.** The arrays that `SurfaceGeometry` hands to `RegularizedIntegrals` are those of the surface: the hypothesis of C75. -/
theorem C76_describes (g : c.Good) (hf : c.fullUpdate = true) (hzt : c.s.nZnT = (if c.s.lasym then c.s.nThetaEven else c.s.nThetaReduced) * c.s.nZeta)
    (old : SArr) (oldS : Surf) (bDotN : Int → ℝ) (hR : ∀ kl, c.ztMin ≤ kl → kl < c.ztMax → c.R (c.theta kl) (c.zeta kl) ≠ 0) :
    GCtx.Describes ⟨c.s, c.ztMin, c.ztMax, c.update old oldS, bDotN⟩ (fun kl => c.X (c.theta kl) (c.zeta kl))
      (fun kl => c.N (c.theta kl) (c.zeta kl)) := by
  have P (kl : Int) (h0 : 0 ≤ kl) (h1 : kl < c.s.nThetaEven * c.s.nZeta) := C76_points g hf hzt old oldS h0 h1
  have g1 := g.lo
  have g2 := g.hi
  have gz := g.grid.nz
  have ge := g.grid.even
  have gp := g.grid.nyqP
  have gm := g.grid.mpol
  have hin : c.ztMax ≤ c.s.nThetaEven * c.s.nZeta := by
    refine g2.trans (mul_le_mul_of_nonneg_right ?_ (by omega))
    split <;> omega
  have cyl (kl : Int) (h0 : c.ztMin ≤ kl) (h1 : kl < c.ztMax) :
      (c.X (c.theta kl) (c.zeta kl)).x / (c.update old oldS).r1b kl = Real.cos (c.zeta kl / c.s.nfp) ∧
      (c.X (c.theta kl) (c.zeta kl)).y / (c.update old oldS).r1b kl = Real.sin (c.zeta kl / c.s.nfp) := by
    have := hR kl h0 h1
    rw [(P kl (by omega) (by omega)).2.2.2.1]
    unfold X
    simp only []
    constructor <;> field_simp
  refine ⟨fun kl h0 h1 => (P kl h0 h1).1, fun kl h0 h1 => (P kl h0 h1).2.1, fun kl h0 h1 => (P kl h0 h1).2.2.1, fun kl h0 h1 => (P kl h0 h1).2.2.2.2,
    fun kl h0 h1 => ?_, fun kl h0 h1 => ?_, fun kl h0 h1 => ?_, fun kl h0 h1 => ?_, fun kl h0 h1 => ?_⟩
  · have := (P kl (by simp only [] at h0; omega) (by simp only [] at h1; omega)).2.2.2.1
    simp only [] at this ⊢
    rw [this]
    exact hR kl h0 h1
  · have := C76_normal g old oldS h0 h1
    simp only [] at this h0 h1 ⊢
    rw [(cyl kl h0 h1).1, (cyl kl h0 h1).2, ← this]
    rfl
  · have := C76_normal g old oldS h0 h1
    simp only [] at this h0 h1 ⊢
    rw [(cyl kl h0 h1).1, (cyl kl h0 h1).2, ← this]
    rfl
  · have := C76_normal g old oldS h0 h1
    simp only [] at this ⊢
    rw [← this]
    rfl
  · exact ((C76_forms g old oldS h0 h1).2 hf).2.2.2

/-- the forms at a source point are the squared length of a tangent vector and half the second derivative along the normal vector -/
theorem C76_quadratic (g : c.Good) (hf : c.fullUpdate = true) (old : SArr) (oldS : Surf) (bDotN : Int → ℝ) {kl : Int} (h0 : c.ztMin ≤ kl)
    (h1 : kl < c.ztMax) (a b : ℝ) :
    let θ := c.theta kl
    let ζ := c.zeta kl
    let t : V3 := ⟨a * (c.Xθ θ ζ).x + b * (c.Xζ θ ζ).x, a * (c.Xθ θ ζ).y + b * (c.Xζ θ ζ).y, a * (c.Xθ θ ζ).z + b * (c.Xζ θ ζ).z⟩
    GCtx.firstForm ⟨c.s, c.ztMin, c.ztMax, c.update old oldS, bDotN⟩ kl a b = t.dot t ∧
    GCtx.secondForm ⟨c.s, c.ztMin, c.ztMax, c.update old oldS, bDotN⟩ kl a b
      = (a ^ 2 * (c.Xθθ θ ζ).dot (c.N θ ζ) + 2 * a * b * (c.Xθζ θ ζ).dot (c.N θ ζ) + b ^ 2 * (c.Xζζ θ ζ).dot (c.N θ ζ)) / 2 := by
  intro θ ζ t
  obtain ⟨⟨a1, a2, a3⟩, h⟩ := C76_forms g old oldS h0 h1
  obtain ⟨b1, b2, b3, _⟩ := h hf
  unfold GCtx.firstForm GCtx.secondForm
  simp only []
  rw [a1, a2, a3, b1, b2, b3]
  refine ⟨?_, ?_⟩
  · simp only [t, θ, ζ, V3.dot]; ring
  · simp only [θ, ζ]; ring

/-- **C75 with C76**, for the surface given by the Fourier coefficients -/
theorem C76_green (g : c.Good) (hf : c.fullUpdate = true) (hzt : c.s.nZnT = (if c.s.lasym then c.s.nThetaEven else c.s.nThetaReduced) * c.s.nZeta)
    (hz : 1 < c.s.nZeta) (hz' : c.s.nZeta ≤ 10 ^ 15) (ht' : c.s.nThetaEven ≤ 10 ^ 15)
    (old : SArr) (oldS : Surf) (bDotN : Int → ℝ) (hR : ∀ kl, c.ztMin ≤ kl → kl < c.ztMax → c.R (c.theta kl) (c.zeta kl) ≠ 0) {klp kl : Int}
    (a1 : c.ztMin ≤ klp) (a2 : klp < c.ztMax) (a3 : 0 ≤ kl) (a4 : kl < c.s.nThetaEven * c.s.nZeta) :
    let gc : GCtx := ⟨c.s, c.ztMin, c.ztMax, c.update old oldS, bDotN⟩
    gc.update .greenp ((klp - c.ztMin) * (c.s.nThetaEven * c.s.nZeta) + kl) = 2 * Real.pi / c.s.nfp * (
      (∑ p ∈ Ico 0 c.s.nfp, if p = 0 ∧ kl = klp then 0 else
        dipole (c.X (c.theta kl) (c.zeta kl)) ((c.X (c.theta klp) (c.zeta klp)).rot (2 * Real.pi * p / c.s.nfp))
          ((c.N (c.theta klp) (c.zeta klp)).rot (2 * Real.pi * p / c.s.nfp)))
      - if kl = klp then 0 else nearDip (gc.firstForm klp) (gc.secondForm klp) (c.theta kl - c.theta klp) (c.zeta kl - c.zeta klp)) := by
  intro gc
  have ge := g.grid.even
  have gp := g.grid.nyqP
  have gm := g.grid.mpol
  have gn := g.nfp
  have gl := g.lo
  have hin : c.ztMax ≤ c.s.nThetaEven * c.s.nZeta := by
    refine g.hi.trans (mul_le_mul_of_nonneg_right ?_ (by omega))
    split <;> omega
  have := (gc.C75_greenp (C76_describes g hf hzt old oldS bDotN hR) hz hz' (by simp only [gc]; omega) ht' (by simp only [gc]; omega) g.lo hin
    (fun p _ _ => by simp only [gc, update, derived]; congr 1; ring) (fun p _ _ => by simp only [gc, update, derived]; congr 1; ring)).1 klp kl a1 a2 a3 a4
  have th (i : Int) (h : 0 ≤ i) : gc.theta i = c.theta i ∧ gc.zeta i = c.zeta i := by
    unfold GCtx.theta GCtx.zeta theta zeta
    simp only [gc]
    rw [Int.tdiv_eq_ediv_of_nonneg h, Int.tmod_eq_emod_of_nonneg h]
    exact ⟨rfl, rfl⟩
  rw [(th kl a3).1, (th kl a3).2, (th klp (by omega)).1, (th klp (by omega)).2] at this
  exact this

/-- C76: a torus with `R = 3 + √2 cos θ` in 2 field periods, asymmetric and symmetric, of which the thread has the points 5 to 8 -/
example (lasym : Bool) : ∃ c : SCtx, c.Good ∧ c.fullUpdate = true ∧
    c.s.nZnT = (if c.s.lasym then c.s.nThetaEven else c.s.nThetaReduced) * c.s.nZeta ∧ c.s.lasym = lasym ∧ c.ztMin = 5 ∧ c.ztMax = 9 ∧
    (∀ θ ζ, c.R θ ζ = 3 + √2 * Real.cos θ) ∧ ∀ θ ζ, c.R θ ζ ≠ 0 := by
  obtain ⟨s, hs⟩ : ∃ s, Sizes.mk lasym 2 2 1 0 0 0 0 = .ok s := ⟨_, rfl⟩
  have gg := goodGrid_of_mk hs
  have hs' : s.lasym = lasym ∧ s.nThetaEven = 10 ∧ s.nZeta = 6 ∧ s.nThetaReduced = 6 ∧ s.nfp = 2 ∧ s.mpol = 2 ∧ s.ntor = 1 ∧
      s.nZnT = (if s.lasym then s.nThetaEven else s.nThetaReduced) * s.nZeta := by
    cases lasym <;> (cases hs; decide)
  obtain ⟨e1, e2, e3, e4, e5, e6, e7, e8⟩ := hs'
  have hR (θ ζ : ℝ) : SCtx.R ⟨s, 5, 9, fun q i => if q = .rCC ∧ i = 0 then 3 else if q = .rCC ∧ i = 1 then 1 else 0, true, -1⟩ θ ζ = 3 + √2 * Real.cos θ := by
    unfold R
    simp only [e6, e7]
    have i2 : Ico (0 : Int) 2 = {0, 1} := by decide
    rw [show (1 : Int) + 1 = 2 by norm_num, i2]
    simp [scale]
  refine ⟨⟨s, 5, 9, fun q i => if q = .rCC ∧ i = 0 then 3 else if q = .rCC ∧ i = 1 then 1 else 0, true, -1⟩,
    ⟨gg, by rw [e5]; norm_num, by norm_num, ?_⟩, rfl, e8, e1, rfl, rfl, hR, fun θ ζ => ?_⟩
  · simp only []
    rw [e2, e3, e4]
    split <;> norm_num
  · rw [hR]
    have h1 : √2 < 2 := by rw [Real.sqrt_lt' (by norm_num)]; norm_num
    have h2 := Real.neg_one_le_cos θ
    have h3 : 0 ≤ √2 := Real.sqrt_nonneg 2
    nlinarith

end SCtx
end Verif.Nestor
