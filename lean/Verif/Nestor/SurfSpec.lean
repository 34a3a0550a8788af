import Verif.Nestor.SurfSum

/-! # The surface and its tangent vectors -/
namespace Verif.Nestor
open Verif Finset Fourier

namespace V3
def cross (a b : V3) : V3 := ⟨a.y * b.z - a.z * b.y, a.z * b.x - a.x * b.z, a.x * b.y - a.y * b.x⟩
def smul (t : ℝ) (a : V3) : V3 := ⟨t * a.x, t * a.y, t * a.z⟩
/-- derivative of a curve -/
noncomputable def deriv (f : ℝ → V3) (t : ℝ) : V3 := ⟨_root_.deriv (fun t => (f t).x) t, _root_.deriv (fun t => (f t).y) t, _root_.deriv (fun t => (f t).z) t⟩

theorem dot_rot (α : ℝ) (a b : V3) : (a.rot α).dot (b.rot α) = a.dot b := by
  unfold dot rot
  simp only []
  linear_combination (a.x * b.x + a.y * b.y) * Real.sin_sq_add_cos_sq α

theorem cross_rot (α : ℝ) (a b : V3) : (a.rot α).cross (b.rot α) = (a.cross b).rot α := by
  unfold cross rot
  ext
  · simp only []; ring
  · simp only []; ring
  · simp only []
    linear_combination (a.x * b.y - a.y * b.x) * Real.sin_sq_add_cos_sq α

theorem smul_rot (α t : ℝ) (a : V3) : (a.rot α).smul t = (a.smul t).rot α := by
  unfold smul rot
  ext <;> (simp only []; try ring)

theorem deriv_const_rot (α : ℝ) (a b z : ℝ → ℝ) (a' b' z' t : ℝ) (ha : HasDerivAt a a' t) (hb : HasDerivAt b b' t) (hz : HasDerivAt z z' t) :
    V3.deriv (fun t => V3.rot α ⟨a t, b t, z t⟩) t = V3.rot α ⟨a', b', z'⟩ := by
  unfold V3.deriv rot
  ext
  · exact ((ha.mul_const _).sub (hb.mul_const _)).deriv
  · exact ((ha.mul_const _).add (hb.mul_const _)).deriv
  · exact hz.deriv

theorem deriv_rot (N : ℝ) (a b z : ℝ → ℝ) (a' b' z' t : ℝ) (ha : HasDerivAt a a' t) (hb : HasDerivAt b b' t) (hz : HasDerivAt z z' t) :
    V3.deriv (fun t => V3.rot (t / N) ⟨a t, b t, z t⟩) t = V3.rot (t / N) ⟨a' - b t / N, b' + a t / N, z'⟩ := by
  have h1 : HasDerivAt (fun t : ℝ => t / N) (1 / N) t := (hasDerivAt_id t).div_const N
  have hc := h1.cos
  have hs := h1.sin
  unfold V3.deriv rot
  ext
  · refine (((ha.mul hc).sub (hb.mul hs)).congr_deriv ?_).deriv
    ring
  · refine (((ha.mul hs).add (hb.mul hc)).congr_deriv ?_).deriv
    ring
  · exact hz.deriv
end V3

namespace SCtx
variable (c : SCtx)

/-- the major radius and the height given by the coefficients -/
noncomputable def R (θ ζ : ℝ) : ℝ := ∑ n ∈ Ico 0 (c.s.ntor + 1), ∑ m ∈ Ico 0 c.s.mpol, scale m * scale n * (
  c.co .rCC (n * c.s.mpol + m) * (Real.cos (m * θ) * Real.cos (n * ζ)) + c.co .rSS (n * c.s.mpol + m) * (Real.sin (m * θ) * Real.sin (n * ζ))
  + if c.s.lasym then c.co .rSC (n * c.s.mpol + m) * (Real.sin (m * θ) * Real.cos (n * ζ))
      + c.co .rCS (n * c.s.mpol + m) * (Real.cos (m * θ) * Real.sin (n * ζ)) else 0)
noncomputable def Z (θ ζ : ℝ) : ℝ := ∑ n ∈ Ico 0 (c.s.ntor + 1), ∑ m ∈ Ico 0 c.s.mpol, scale m * scale n * (
  c.co .zSC (n * c.s.mpol + m) * (Real.sin (m * θ) * Real.cos (n * ζ)) + c.co .zCS (n * c.s.mpol + m) * (Real.cos (m * θ) * Real.sin (n * ζ))
  + if c.s.lasym then c.co .zCC (n * c.s.mpol + m) * (Real.cos (m * θ) * Real.cos (n * ζ))
      + c.co .zSS (n * c.s.mpol + m) * (Real.sin (m * θ) * Real.sin (n * ζ)) else 0)

/-- the point of the surface at poloidal angle `θ` and toroidal angle `ζ / nfp` -/
noncomputable def X (θ ζ : ℝ) : V3 := ⟨c.R θ ζ * Real.cos (ζ / c.s.nfp), c.R θ ζ * Real.sin (ζ / c.s.nfp), c.Z θ ζ⟩

/-- tangent vectors and second derivatives -/
noncomputable def Xθ (θ ζ : ℝ) : V3 := V3.deriv (fun t => c.X t ζ) θ
noncomputable def Xζ (θ ζ : ℝ) : V3 := V3.deriv (fun t => c.X θ t) ζ
noncomputable def Xθθ (θ ζ : ℝ) : V3 := V3.deriv (fun t => c.Xθ t ζ) θ
noncomputable def Xθζ (θ ζ : ℝ) : V3 := V3.deriv (fun t => c.Xθ θ t) ζ
noncomputable def Xζζ (θ ζ : ℝ) : V3 := V3.deriv (fun t => c.Xζ θ t) ζ

noncomputable def ev (S : Ser) (θ ζ : ℝ) : ℝ := S.eval c.s.ntor c.s.mpol θ ζ

theorem R_eq (θ ζ : ℝ) : c.R θ ζ = c.ev (c.full .r) θ ζ := by
  unfold R ev Ser.eval full
  refine sum_congr rfl fun n _ => sum_congr rfl fun m _ => ?_
  unfold Ser.term Ser.add base companion coef
  by_cases h : c.s.lasym = true
  · simp only [h, if_true]; ring
  · simp only [h]; simp; ring

theorem Z_eq (θ ζ : ℝ) : c.Z θ ζ = c.ev (c.full .z) θ ζ := by
  unfold Z ev Ser.eval full
  refine sum_congr rfl fun n _ => sum_congr rfl fun m _ => ?_
  unfold Ser.term Ser.add base companion coef
  by_cases h : c.s.lasym = true
  · simp only [h, if_true]; ring
  · simp only [h]; simp; ring

theorem ev_θ (S : Ser) (θ ζ : ℝ) : HasDerivAt (fun t => c.ev S t ζ) (c.ev S.dθ θ ζ) θ := S.hasDeriv_θ _ _ θ ζ
theorem ev_ζ (S : Ser) (θ ζ : ℝ) : HasDerivAt (fun t => c.ev S θ t) (c.ev S.dζ θ ζ) ζ := S.hasDeriv_ζ _ _ θ ζ

theorem X_eq (θ ζ : ℝ) : c.X θ ζ = V3.rot (ζ / c.s.nfp) ⟨c.ev (c.full .r) θ ζ, 0, c.ev (c.full .z) θ ζ⟩ := by
  unfold X V3.rot
  rw [R_eq, Z_eq]
  simp

theorem Xθ_eq (θ ζ : ℝ) : c.Xθ θ ζ = V3.rot (ζ / c.s.nfp) ⟨c.ev (c.full .r).dθ θ ζ, 0, c.ev (c.full .z).dθ θ ζ⟩ := by
  unfold Xθ
  simp only [X_eq]
  exact V3.deriv_const_rot _ _ (fun _ => 0) _ _ _ _ _ (c.ev_θ _ _ _) (hasDerivAt_const _ _) (c.ev_θ _ _ _)

theorem Xζ_eq (θ ζ : ℝ) : c.Xζ θ ζ = V3.rot (ζ / c.s.nfp) ⟨c.ev (c.full .r).dζ θ ζ, c.ev (c.full .r) θ ζ / c.s.nfp, c.ev (c.full .z).dζ θ ζ⟩ := by
  unfold Xζ
  simp only [X_eq]
  rw [V3.deriv_rot _ _ (fun _ => 0) _ _ _ _ _ (c.ev_ζ _ _ _) (hasDerivAt_const _ _) (c.ev_ζ _ _ _)]
  simp

theorem Xθθ_eq (θ ζ : ℝ) : c.Xθθ θ ζ = V3.rot (ζ / c.s.nfp) ⟨c.ev (c.full .r).dθ.dθ θ ζ, 0, c.ev (c.full .z).dθ.dθ θ ζ⟩ := by
  unfold Xθθ
  simp only [Xθ_eq]
  exact V3.deriv_const_rot _ _ (fun _ => 0) _ _ _ _ _ (c.ev_θ _ _ _) (hasDerivAt_const _ _) (c.ev_θ _ _ _)

theorem Xθζ_eq (θ ζ : ℝ) : c.Xθζ θ ζ
    = V3.rot (ζ / c.s.nfp) ⟨c.ev (c.full .r).dθ.dζ θ ζ, c.ev (c.full .r).dθ θ ζ / c.s.nfp, c.ev (c.full .z).dθ.dζ θ ζ⟩ := by
  unfold Xθζ
  simp only [Xθ_eq]
  rw [V3.deriv_rot _ _ (fun _ => 0) _ _ _ _ _ (c.ev_ζ _ _ _) (hasDerivAt_const _ _) (c.ev_ζ _ _ _)]
  simp

theorem Xζζ_eq (θ ζ : ℝ) : c.Xζζ θ ζ = V3.rot (ζ / c.s.nfp) ⟨c.ev (c.full .r).dζ.dζ θ ζ - c.ev (c.full .r) θ ζ / c.s.nfp / c.s.nfp,
    c.ev (c.full .r).dζ θ ζ / c.s.nfp + c.ev (c.full .r).dζ θ ζ / c.s.nfp, c.ev (c.full .z).dζ.dζ θ ζ⟩ := by
  unfold Xζζ
  simp only [Xζ_eq]
  rw [V3.deriv_rot _ _ (fun t => c.ev (c.full .r) θ t / c.s.nfp) _ _ _ _ _ (c.ev_ζ _ _ _) ((c.ev_ζ _ _ _).div_const _) (c.ev_ζ _ _ _)]

end SCtx
end Verif.Nestor
