import Verif.Kernels.Props
import Verif.Kernels.SpecB
import Mathlib.Analysis.SpecialFunctions.Pow.Deriv

/-!
# Derivative of the energy: half-grid points first, then the surfaces
-/
namespace Verif.Kernels
open Verif Verif.Partition Finset

/-- the part of the force on a surface that comes from one of its sides; `sg` = 1 if the surface is the inner end of the
    half-grid interval, -1 if it is the outer end -/
noncomputable def sideForce (lthreed : Bool) (deltaS sg : ℝ) (H : Half) (q : ℝ) (X : Geo) (sF : ℝ) : Force :=
  let p := H.totalPressure
  let P := H.r12 * p
  let uu := H.gsqrt * H.bsupu * H.bsupu / 2
  let uv := if lthreed then H.gsqrt * H.bsupu * H.bsupv / 2 else 0
  let vv := H.gsqrt * H.bsupv * H.bsupv / 2
  { armn_e := sg * (H.zu12 * P) / deltaS + H.tau * p / 2 - vv * X.r1_e - q * vv * X.r1_o
    armn_o := sg * (q * (H.zu12 * P)) / deltaS + q * (H.tau * p) / 2 -
      P / q / 2 * X.zu_e / 2 - P / 2 * X.zu_o / 2 - q * vv * X.r1_e - vv * X.r1_o * sF
    azmn_e := -(sg * (H.ru12 * P) / deltaS)
    azmn_o := -(sg * (q * (H.ru12 * P)) / deltaS) + P / q / 2 * X.ru_e / 2 + P / 2 * X.ru_o / 2
    brmn_e := H.zs * P / 2 + P / q / 2 * X.z1_o / 2 - (uu * X.ru_e + q * uu * X.ru_o) - (uv * X.rv_e + q * uv * X.rv_o)
    brmn_o := q * (H.zs * P) / 2 + P / 2 * X.z1_o / 2 - (q * uu * X.ru_e + uu * X.ru_o * sF) -
      (q * uv * X.rv_e + uv * X.rv_o * sF)
    bzmn_e := -(H.rs * P / 2) - P / q / 2 * X.r1_o / 2 - (uu * X.zu_e + q * uu * X.zu_o) - (uv * X.zv_e + q * uv * X.zv_o)
    bzmn_o := -(q * (H.rs * P) / 2) - P / 2 * X.r1_o / 2 - (q * uu * X.zu_e + uu * X.zu_o * sF) -
      (q * uv * X.zv_e + uv * X.zv_o * sF)
    crmn_e := uv * X.ru_e + q * uv * X.ru_o + (vv * X.rv_e + q * vv * X.rv_o)
    crmn_o := q * uv * X.ru_e + uv * X.ru_o * sF + (q * vv * X.rv_e + vv * X.rv_o * sF)
    czmn_e := uv * X.zu_e + q * uv * X.zu_o + (vv * X.zv_e + q * vv * X.zv_o)
    czmn_o := q * uv * X.zu_e + uv * X.zu_o * sF + (q * vv * X.zv_e + vv * X.zv_o * sF) }

theorem power_sides {ns : Int} {lthreed : Bool} {deltaS : ℝ} {H : Int → Half} {q : Int → ℝ} {j : Int} {X : Geo} {sF : ℝ}
    (d : Geo) (h0 : 0 ≤ j) (h1 : j < ns) :
    Spec.power lthreed (Spec.force ns lthreed deltaS H q j X sF) d =
      (if 0 < j then Spec.power lthreed (sideForce lthreed deltaS (-1) (H (j - 1)) (q (j - 1)) X sF) d else 0) +
      (if j < ns - 1 then Spec.power lthreed (sideForce lthreed deltaS 1 (H j) (q j) X sF) d else 0) := by
  unfold Spec.power Spec.force sideForce
  simp only [mean_eq h0 h1, dds_eq h0 h1]
  cases lthreed <;> by_cases e : 0 < j <;> by_cases e' : j < ns - 1 <;>
    simp only [e, e', if_true, if_false, Bool.false_eq_true] <;> ring

/-- sum over the surfaces = sum over the half-grid intervals of both ends -/
theorem sum_ends (ns : Int) (f g : Int → ℝ) (hns : 1 ≤ ns) :
    ∑ j ∈ Ico 0 ns, ((if 0 < j then f (j - 1) else 0) + (if j < ns - 1 then g j else 0)) =
      ∑ h ∈ Ico 0 (ns - 1), (g h + f h) := by
  rw [Finset.sum_add_distrib, Finset.sum_add_distrib, add_comm]
  congr 1
  · rw [show ns = (ns - 1) + 1 by omega, sum_Ico_int_succ (by omega), if_neg (by omega), add_zero]
    refine Finset.sum_congr (by congr 1; omega) fun j hj => ?_
    rw [Finset.mem_Ico] at hj
    rw [if_pos (by omega)]
  · rw [sum_Ico_int_first (by omega), if_neg (lt_irrefl _), zero_add]
    refine Finset.sum_bij' (fun j _ => j - 1) (fun j _ => j + 1) ?_ ?_ ?_ ?_ ?_
    · intro j hj; rw [Finset.mem_Ico] at *; omega
    · intro j hj; rw [Finset.mem_Ico] at *; omega
    · intro j _; omega
    · intro j _; omega
    · intro j hj; rw [Finset.mem_Ico] at hj; rw [if_pos (by omega)]

/-! ## a half-grid point -/

/-- a function that is quadratic in the displacement -/
theorem hasDeriv_quad {f : ℝ → ℝ} (A B C : ℝ) (h : ∀ x, f x = A + x * B + x ^ 2 * C) : HasDerivAt f B 0 := by
  have e : f = fun x => A + x * B + x ^ 2 * C := funext h
  rw [e]
  have h1 : HasDerivAt (fun x : ℝ => A + x * B) (1 * B) 0 := ((hasDerivAt_id (0 : ℝ)).mul_const B).const_add A
  have h2 : HasDerivAt (fun x : ℝ => x ^ 2 * C) (((2 : ℕ) * (0 : ℝ) ^ (2 - 1)) * C) 0 := (hasDerivAt_pow 2 (0 : ℝ)).mul_const C
  have h3 := h1.fun_add h2
  exact h3.congr_deriv (by norm_num)

/-- displacement of unit size -/
noncomputable def plus (g d : Geo) : Geo := Spec.move g d 1

variable {deltaS a b q : ℝ} {lthreed : Bool} {i o di dou : Geo}

theorem r12_deriv : HasDerivAt (fun e => Spec.mid q (Spec.move i di e) (Spec.move o dou e) Spec.R) (Spec.mid q di dou Spec.R) 0 := by
  refine hasDeriv_quad (Spec.mid q i o Spec.R) _ 0 fun x => ?_
  unfold Spec.mid Spec.R Spec.move
  dsimp only; ring

noncomputable def dTau (deltaS q : ℝ) (i o di dou : Geo) : ℝ :=
  Spec.tau deltaS q (plus i di) (plus o dou) - Spec.tau deltaS q i o - Spec.tau deltaS q di dou

theorem tau_deriv : HasDerivAt (fun e => Spec.tau deltaS q (Spec.move i di e) (Spec.move o dou e)) (dTau deltaS q i o di dou) 0 := by
  refine hasDeriv_quad (Spec.tau deltaS q i o) _ (Spec.tau deltaS q di dou) fun x => ?_
  unfold dTau Spec.tau Spec.mid Spec.ds Spec.rootTerm Spec.R Spec.Z Spec.Ru Spec.Zu plus Spec.move
  dsimp only; ring

noncomputable def dGuu (a b q : ℝ) (i o di dou : Geo) : ℝ :=
  Spec.guu a b q (plus i di) (plus o dou) - Spec.guu a b q i o - Spec.guu a b q di dou

theorem guu_deriv : HasDerivAt (fun e => Spec.guu a b q (Spec.move i di e) (Spec.move o dou e)) (dGuu a b q i o di dou) 0 := by
  refine hasDeriv_quad (Spec.guu a b q i o) _ (Spec.guu a b q di dou) fun x => ?_
  unfold dGuu Spec.guu Spec.prod Spec.Ru Spec.Zu plus Spec.move
  dsimp only; ring

noncomputable def dGuv (lthreed : Bool) (a b q : ℝ) (i o di dou : Geo) : ℝ :=
  Spec.guv lthreed a b q (plus i di) (plus o dou) - Spec.guv lthreed a b q i o - Spec.guv lthreed a b q di dou

theorem guv_deriv :
    HasDerivAt (fun e => Spec.guv lthreed a b q (Spec.move i di e) (Spec.move o dou e)) (dGuv lthreed a b q i o di dou) 0 := by
  refine hasDeriv_quad (Spec.guv lthreed a b q i o) _ (Spec.guv lthreed a b q di dou) fun x => ?_
  unfold dGuv Spec.guv Spec.prod Spec.Ru Spec.Zu Spec.Rv Spec.Zv plus Spec.move
  cases lthreed
  · simp
  · simp only [if_true]; ring

noncomputable def dGvv (lthreed : Bool) (a b q : ℝ) (i o di dou : Geo) : ℝ :=
  Spec.gvv lthreed a b q (plus i di) (plus o dou) - Spec.gvv lthreed a b q i o - Spec.gvv lthreed a b q di dou

theorem gvv_deriv :
    HasDerivAt (fun e => Spec.gvv lthreed a b q (Spec.move i di e) (Spec.move o dou e)) (dGvv lthreed a b q i o di dou) 0 := by
  refine hasDeriv_quad (Spec.gvv lthreed a b q i o) _ (Spec.gvv lthreed a b q di dou) fun x => ?_
  unfold dGvv Spec.gvv Spec.prod Spec.R Spec.Rv Spec.Zv plus Spec.move
  cases lthreed
  · simp only [Bool.false_eq_true, if_false]; ring
  · simp only [if_true]; ring

theorem move_zero (g d : Geo) : Spec.move g d 0 = g := by
  unfold Spec.move; simp

noncomputable def dG (deltaS q : ℝ) (i o di dou : Geo) : ℝ :=
  Spec.mid q di dou Spec.R * Spec.tau deltaS q i o + Spec.mid q i o Spec.R * dTau deltaS q i o di dou

theorem gsqrt_deriv : HasDerivAt (fun e => Spec.gsqrt deltaS q (Spec.move i di e) (Spec.move o dou e)) (dG deltaS q i o di dou) 0 := by
  have h := (r12_deriv (q := q) (i := i) (o := o) (di := di) (dou := dou)).fun_mul
    (tau_deriv (deltaS := deltaS) (q := q) (i := i) (o := o) (di := di) (dou := dou))
  simp only [move_zero] at h
  exact h

/-- derivative of the magnetic energy of a point at fixed fluxes -/
theorem magnetic_deriv (x y : ℝ) (hg : Spec.gsqrt deltaS q i o ≠ 0) :
    HasDerivAt (fun e => Spec.magnetic lthreed deltaS a b q (Spec.move i di e) (Spec.move o dou e) x y)
      ((dGuu a b q i o di dou * x ^ 2 + 2 * dGuv lthreed a b q i o di dou * x * y + dGvv lthreed a b q i o di dou * y ^ 2) /
          (2 * Spec.gsqrt deltaS q i o) -
        Spec.magnetic lthreed deltaS a b q i o x y / Spec.gsqrt deltaS q i o * dG deltaS q i o di dou) 0 := by
  have h1 := (((guu_deriv (a := a) (b := b) (q := q) (i := i) (o := o) (di := di) (dou := dou)).mul_const (x ^ 2)).fun_add
    ((((guv_deriv (lthreed := lthreed) (a := a) (b := b) (q := q) (i := i) (o := o) (di := di) (dou := dou)).const_mul 2).mul_const
      x).mul_const y)).fun_add
    ((gvv_deriv (lthreed := lthreed) (a := a) (b := b) (q := q) (i := i) (o := o) (di := di) (dou := dou)).mul_const (y ^ 2))
  have h2 := (gsqrt_deriv (deltaS := deltaS) (q := q) (i := i) (o := o) (di := di) (dou := dou)).const_mul 2
  have h3 := h1.fun_div h2 (by simp only [move_zero]; exact mul_ne_zero two_ne_zero hg)
  simp only [move_zero] at h3
  unfold Spec.magnetic
  refine h3.congr_deriv ?_
  have e2 := mul_ne_zero (two_ne_zero (α := ℝ)) hg
  generalize Spec.gsqrt deltaS q i o = g at *
  generalize dG deltaS q i o di dou = g'
  field_simp

/-- the change of the energy at a half-grid point is minus the power of the forces on both ends -/
theorem point_power (H : Half) (h1 : H.r12 = Spec.mid q i o Spec.R) (h2 : H.ru12 = Spec.mid q i o Spec.Ru)
    (h3 : H.zu12 = Spec.mid q i o Spec.Zu) (h4 : H.rs = Spec.ds deltaS q i o Spec.R) (h5 : H.zs = Spec.ds deltaS q i o Spec.Z)
    (h6 : H.tau = Spec.tau deltaS q i o) :
    H.gsqrt / 2 * (H.bsupu ^ 2 * dGuu a b q i o di dou + 2 * H.bsupu * H.bsupv * dGuv lthreed a b q i o di dou +
        H.bsupv ^ 2 * dGvv lthreed a b q i o di dou) - H.totalPressure * dG deltaS q i o di dou =
      -(Spec.power lthreed (sideForce lthreed deltaS 1 H q i a) di + Spec.power lthreed (sideForce lthreed deltaS (-1) H q o b) dou) := by
  unfold dG
  rw [← h6]
  unfold Spec.power sideForce
  simp only [h1, h2, h3, h4, h5]
  unfold dTau dGuu dGuv dGvv Spec.tau Spec.guu Spec.guv Spec.gvv Spec.prod Spec.mid Spec.ds Spec.rootTerm Spec.R Spec.Z Spec.Ru
    Spec.Zu Spec.Rv Spec.Zv plus Spec.move
  cases lthreed
  · simp only [Bool.false_eq_true, if_false]; ring
  · simp only [if_true]; ring

end Verif.Kernels
