import Verif.AxisGuess.Arrays
import Verif.Fourier.Orth
import Mathlib.Tactic.LinearCombination

namespace Verif.AxisGuess
open Verif Finset Verif.Fourier

variable (a : In)

/-- R of the boundary curve: `Σ rbc cos cos + rbs sin sin`, with the `m = 1` constraint undone -/
noncomputable def In.curveR (θ ζ : ℝ) : ℝ := ∑ m ∈ Ico 0 a.s.mpol, ∑ n ∈ Ico 0 (a.s.ntor + 1),
  (a.rbcc m n * Real.cos (m * θ) * Real.cos (n * ζ) + a.rssB m n * Real.sin (m * θ) * Real.sin (n * ζ))

/-- Z of the boundary curve -/
noncomputable def In.curveZ (θ ζ : ℝ) : ℝ := ∑ m ∈ Ico 0 a.s.mpol, ∑ n ∈ Ico 0 (a.s.ntor + 1),
  (a.zbsc m n * Real.sin (m * θ) * Real.cos (n * ζ) + a.zcsB m n * Real.cos (m * θ) * Real.sin (n * ζ))

/-- terms of an asymmetric run that come in addition -/
noncomputable def In.curveRAsym (θ ζ : ℝ) : ℝ := ∑ m ∈ Ico 0 a.s.mpol, ∑ n ∈ Ico 0 (a.s.ntor + 1),
  (a.rscB m n * Real.sin (m * θ) * Real.cos (n * ζ) + a.rbcs m n * Real.cos (m * θ) * Real.sin (n * ζ))

theorem cos_refl (m a : Int) (θ : ℝ) : Real.cos (m * (2 * Real.pi * a - θ)) = Real.cos (m * θ) := by
  have : (m : ℝ) * (2 * Real.pi * a - θ) = ((m * a : Int) : ℝ) * (2 * Real.pi) - m * θ := by push_cast; ring
  rw [this, Real.cos_int_mul_two_pi_sub]

theorem sin_refl (m a : Int) (θ : ℝ) : Real.sin (m * (2 * Real.pi * a - θ)) = -Real.sin (m * θ) := by
  have : (m : ℝ) * (2 * Real.pi * a - θ) = ((m * a : Int) : ℝ) * (2 * Real.pi) - m * θ := by push_cast; ring
  rw [this, Real.sin_int_mul_two_pi_sub]

theorem curveR_refl (i j : Int) (θ ζ : ℝ) :
    a.curveR (2 * Real.pi * i - θ) (2 * Real.pi * j - ζ) = a.curveR θ ζ := by
  unfold In.curveR
  refine sum_congr rfl fun m _ => sum_congr rfl fun n _ => ?_
  rw [cos_refl, cos_refl, sin_refl, sin_refl]; ring

theorem curveZ_refl (i j : Int) (θ ζ : ℝ) :
    a.curveZ (2 * Real.pi * i - θ) (2 * Real.pi * j - ζ) = -a.curveZ θ ζ := by
  unfold In.curveZ
  rw [← sum_neg_distrib]
  refine sum_congr rfl fun m _ => ?_
  rw [← sum_neg_distrib]
  refine sum_congr rfl fun n _ => ?_
  rw [cos_refl, cos_refl, sin_refl, sin_refl]; ring

/-- the tables are the code's tables for these sizes -/
structure In.Code : Prop where
  grid : GoodGrid a.s
  three : a.s.lthreed = decide (a.s.ntor > 0)
  nyq : a.s.ntor > 0 → 2 * a.s.ntor + 4 ≤ a.s.nZeta
  table : ∃ L nfp, IsLayout L ∧ a.t = codeBasis L a.s nfp

theorem code_of_mk {lasym : Bool} {nfp mpol ntor ntheta nzeta mg ng : Int} {L : Layout} (hL : IsLayout L)
    (hs : Sizes.mk lasym nfp mpol ntor ntheta nzeta mg ng = .ok a.s) (ht : a.t = codeBasis L a.s nfp) :
    a.Code := by
  have hc := (Sizes.C07_sizes lasym nfp mpol ntor ntheta nzeta mg ng).2 a.s hs
  refine ⟨goodGrid_of_mk hs, ?_, fun h => ?_, L, nfp, hL, ht⟩
  swap
  · have h1 := hc.2.2.1.2.1
    have h2 := hc.1.2.2.2
    have := h1 (by omega)
    omega
  unfold Sizes.mk at hs
  split at hs
  · cases hs
  split at hs
  · cases hs
  split at hs
  · cases hs
  injection hs with hs
  rw [← hs]

theorem In.Code.good {a : In} (h : a.Code) : a.Good :=
  ⟨h.grid.nz, h.grid.even, by have := h.grid.nyqP; have := h.grid.mpol; omega⟩

theorem scale_ne (m : Int) : scale m ≠ 0 := by
  unfold scale
  split
  · exact one_ne_zero
  · exact Real.sqrt_ne_zero'.2 (by norm_num)

/-- one accumulation, without the asymmetric terms -/
theorem acc_sym (h : a.Code) (c1 c2 c3 c4 u v : Int → Int → ℝ) (U V : Int → Int → ℝ) (k l : Int)
    (hk : 0 ≤ k ∧ k < a.s.nZeta)
    (hu : ∀ m, 0 ≤ m → m < a.s.mpol → u m l = U m l * scale m)
    (hv : ∀ m, 0 ≤ m → m < a.s.mpol → v m l = V m l * scale m) :
    a.acc c1 c2 c3 c4 u v k l = (∑ m ∈ Ico 0 a.s.mpol, ∑ n ∈ Ico 0 (a.s.ntor + 1),
      (c1 m n * U m l * Real.cos (n * zetaGrid a.s k) + c2 m n * V m l * Real.sin (n * zetaGrid a.s k))) +
      if a.s.lasym then ∑ m ∈ Ico 0 a.s.mpol, ∑ n ∈ Ico 0 (a.s.ntor + 1),
      (c3 m n * V m l * Real.cos (n * zetaGrid a.s k) + c4 m n * U m l * Real.sin (n * zetaGrid a.s k)) else 0 := by
  obtain ⟨L, nfp, hL, ht⟩ := h.table
  have g := h.grid
  unfold In.acc
  have inner : ∀ m, 0 ≤ m → m < a.s.mpol → ∀ x, forRange 0 (a.s.ntor + 1) (fun n x =>
    let basis_norm := 1 / (a.t.mscale m * a.t.nscale n)
    let x := x + basis_norm * c1 m n * u m l * a.t.cosnv n k
    let x := if a.s.lthreed then x + basis_norm * c2 m n * v m l * a.t.sinnv n k else x
    if a.s.lasym then
      let x := x + basis_norm * c3 m n * v m l * a.t.cosnv n k
      if a.s.lthreed then x + basis_norm * c4 m n * u m l * a.t.sinnv n k else x
    else x) x = x + ∑ n ∈ Ico 0 (a.s.ntor + 1),
      ((c1 m n * U m l * Real.cos (n * zetaGrid a.s k) + c2 m n * V m l * Real.sin (n * zetaGrid a.s k)) +
       if a.s.lasym then
        (c3 m n * V m l * Real.cos (n * zetaGrid a.s k) + c4 m n * U m l * Real.sin (n * zetaGrid a.s k)) else 0) := by
    intro m hm0 hm1 x
    rw [← forRange_add]
    refine forRange_congr _ _ _ ?_
    intro n y hn0 hn1
    have hm2 := g.m2
    have hn2 := g.n2
    have e1 : a.t.mscale m = scale m := by rw [ht]; exact fillScale_eq _ _ hm0 (by omega)
    have e2 : a.t.nscale n = scale n := by rw [ht]; exact fillScale_eq _ _ hn0 (by omega)
    have et := tor_eq L hL a.s nfp n k hn0 (by omega) hk.1 hk.2
    have e3 : a.t.cosnv n k = Real.cos (n * zetaGrid a.s k) * scale n := by
      rw [ht]; show (tor L a.s nfp n k).cosnv = _; rw [et]; rfl
    have e4 : a.t.sinnv n k = Real.sin (n * zetaGrid a.s k) * scale n := by
      rw [ht]; show (tor L a.s nfp n k).sinnv = _; rw [et]; rfl
    have n1 := scale_ne m
    have n2 := scale_ne n
    have c : ∀ c w W y : ℝ, 1 / (scale m * scale n) * c * (W * scale m) * (w * scale n) = c * W * w := by
      intros; field_simp
    dsimp only
    rw [e1, e2, e3, e4, hu m hm0 hm1, hv m hm0 hm1]
    simp only [c _ _ _ y]
    by_cases h3 : a.s.ntor > 0
    · simp only [h.three, h3, decide_true, if_true]
      by_cases h4 : a.s.lasym = true
      · simp only [h4, if_true]; ring
      · simp only [h4, Bool.false_eq_true, if_false]; ring
    · have hn : n = 0 := by omega
      subst hn
      have : Real.sin (((0 : Int) : ℝ) * zetaGrid a.s k) = 0 := by simp
      simp only [h.three, h3, decide_false, this]
      by_cases h4 : a.s.lasym = true
      · simp only [h4, if_true, Bool.false_eq_true, if_false]; ring
      · simp only [h4, Bool.false_eq_true, if_false]; ring
  have := forRange_congr (lo := 0) (hi := a.s.mpol) (fun m x => forRange 0 (a.s.ntor + 1) (fun n x =>
    let basis_norm := 1 / (a.t.mscale m * a.t.nscale n)
    let x := x + basis_norm * c1 m n * u m l * a.t.cosnv n k
    let x := if a.s.lthreed then x + basis_norm * c2 m n * v m l * a.t.sinnv n k else x
    if a.s.lasym then
      let x := x + basis_norm * c3 m n * v m l * a.t.cosnv n k
      if a.s.lthreed then x + basis_norm * c4 m n * u m l * a.t.sinnv n k else x
    else x) x) (fun m x => x + ∑ n ∈ Ico 0 (a.s.ntor + 1),
      ((c1 m n * U m l * Real.cos (n * zetaGrid a.s k) + c2 m n * V m l * Real.sin (n * zetaGrid a.s k)) +
       if a.s.lasym then
        (c3 m n * V m l * Real.cos (n * zetaGrid a.s k) + c4 m n * U m l * Real.sin (n * zetaGrid a.s k)) else 0)) 0
    (fun m x h0 h1 => inner m h0 h1 x)
  rw [this, forRange_add, zero_add]
  by_cases h4 : a.s.lasym = true
  · simp only [h4, if_true, sum_add_distrib]
  · simp only [h4, Bool.false_eq_true, if_false, add_zero]

theorem pol_cos (h : a.Code) (l : Int) (hl : 0 ≤ l ∧ l < a.s.nThetaReduced) (m : Int) (h0 : 0 ≤ m)
    (h1 : m < a.s.mpol) : a.t.cosmu m l = Real.cos (m * thetaGrid a.s l) * scale m ∧
      a.t.sinmu m l = Real.sin (m * thetaGrid a.s l) * scale m ∧
      a.t.cosmum m l = m * Real.cos (m * thetaGrid a.s l) * scale m ∧
      a.t.sinmum m l = -m * Real.sin (m * thetaGrid a.s l) * scale m := by
  obtain ⟨L, nfp, hL, ht⟩ := h.table
  have hm2 := h.grid.m2
  have e := pol_eq L hL a.s m l h0 (by omega) hl.1 hl.2
  rw [ht]
  refine ⟨?_, ?_, ?_, ?_⟩
  · show (pol L a.s m l).cosmu = _; rw [e]; rfl
  · show (pol L a.s m l).sinmu = _; rw [e]; rfl
  · show (pol L a.s m l).cosmum = _; rw [e]; simp only [polEntry, thetaGrid]; ring
  · show (pol L a.s m l).sinmum = _; rw [e]; simp only [polEntry, thetaGrid]; ring

theorem point_r (h : a.Code) (k l : Int) (hk : 0 ≤ k ∧ k < a.s.nZeta) (hl : 0 ≤ l ∧ l < a.s.nThetaReduced) :
    a.point .r_lcfs k l = a.curveR (thetaGrid a.s l) (zetaGrid a.s k) +
      if a.s.lasym then a.curveRAsym (thetaGrid a.s l) (zetaGrid a.s k) else 0 := by
  unfold In.point
  dsimp only
  rw [acc_sym a h _ _ _ _ _ _ (fun m l => Real.cos (m * thetaGrid a.s l)) (fun m l => Real.sin (m * thetaGrid a.s l))
    k l hk (fun m h0 h1 => (pol_cos a h l hl m h0 h1).1) (fun m h0 h1 => (pol_cos a h l hl m h0 h1).2.1)]
  rfl

theorem point_z (h : a.Code) (hs : a.s.lasym = false) (k l : Int) (hk : 0 ≤ k ∧ k < a.s.nZeta)
    (hl : 0 ≤ l ∧ l < a.s.nThetaReduced) :
    a.point .z_lcfs k l = a.curveZ (thetaGrid a.s l) (zetaGrid a.s k) := by
  unfold In.point
  dsimp only
  rw [acc_sym a h _ _ _ _ _ _ (fun m l => Real.sin (m * thetaGrid a.s l)) (fun m l => Real.cos (m * thetaGrid a.s l))
    k l hk (fun m h0 h1 => (pol_cos a h l hl m h0 h1).2.1) (fun m h0 h1 => (pol_cos a h l hl m h0 h1).1)]
  rw [hs]
  simp only [Bool.false_eq_true, if_false, add_zero]
  rfl

theorem grid_refl (h : a.Code) (k l : Int) (hk : 0 ≤ k ∧ k < a.s.nZeta) :
    zetaGrid a.s (if k = 0 then 0 else a.s.nZeta - k) =
      2 * Real.pi * ((if k = 0 then 0 else 1 : Int) : ℝ) - zetaGrid a.s k ∧
    thetaGrid a.s (a.s.nThetaEven - l) = 2 * Real.pi * ((1 : Int) : ℝ) - thetaGrid a.s l := by
  have g := h.grid
  have hz : (a.s.nZeta : ℝ) ≠ 0 := by
    have := g.nz
    exact_mod_cast (show a.s.nZeta ≠ 0 by omega)
  have ht : (a.s.nThetaEven : ℝ) ≠ 0 := by
    have := g.even
    have := g.nyqP
    have := g.mpol
    exact_mod_cast (show a.s.nThetaEven ≠ 0 by omega)
  constructor
  · unfold zetaGrid
    by_cases e : k = 0
    · simp [e]
    · rw [if_neg e, if_neg e]; push_cast; field_simp
  · unfold thetaGrid; push_cast; field_simp

/-- the boundary arrays of a symmetric run hold the boundary curve at all poloidal points -/
theorem geometry_sym (h : a.Code) (hs : a.s.lasym = false) : ∃ w w', a.synthesis = .ok w ∧ a.mirror w = .ok w' ∧
    ∀ k l, (0 ≤ k ∧ k < a.s.nZeta) → (0 ≤ l ∧ l < a.s.nThetaEven) →
      w' (.r_lcfs, k, l) = a.curveR (thetaGrid a.s l) (zetaGrid a.s k) ∧
      w' (.z_lcfs, k, l) = a.curveZ (thetaGrid a.s l) (zetaGrid a.s k) := by
  obtain ⟨w, e, e1, -⟩ := synthesis_spec a h.good
  obtain ⟨w', e', e2, e3⟩ := mirror_spec a h.good hs w
  have pr : ∀ k l, (0 ≤ k ∧ k < a.s.nZeta) → (0 ≤ l ∧ l < a.s.nThetaReduced) →
      w (.r_lcfs, k, l) = a.curveR (thetaGrid a.s l) (zetaGrid a.s k) := by
    intro k l hk hl
    rw [e1 _ k l hk hl, point_r a h k l hk hl, hs]
    simp
  have pz : ∀ k l, (0 ≤ k ∧ k < a.s.nZeta) → (0 ≤ l ∧ l < a.s.nThetaReduced) →
      w (.z_lcfs, k, l) = a.curveZ (thetaGrid a.s l) (zetaGrid a.s k) := by
    intro k l hk hl
    rw [e1 _ k l hk hl, point_z a h hs k l hk hl]
  refine ⟨w, w', e, e', fun k l hk hl => ?_⟩
  by_cases hr : l < a.s.nThetaReduced
  · rw [e2 _ k l hr, e2 _ k l hr, pr k l hk ⟨hl.1, hr⟩, pz k l hk ⟨hl.1, hr⟩]
    exact ⟨rfl, rfl⟩
  · have g1 := h.good.even
    have g2 := h.good.theta
    rw [e3 _ k l hk ⟨by omega, hl.2⟩, e3 _ k l hk ⟨by omega, hl.2⟩]
    have hk' : 0 ≤ (if k = 0 then 0 else a.s.nZeta - k) ∧ (if k = 0 then 0 else a.s.nZeta - k) < a.s.nZeta := by
      split <;> omega
    rw [pr _ _ hk' ⟨by omega, by omega⟩, pz _ _ hk' ⟨by omega, by omega⟩,
      (grid_refl a h k l hk).1, (grid_refl a h k l hk).2, curveR_refl, curveZ_refl]
    simp [G.mirrorSign]

end Verif.AxisGuess
