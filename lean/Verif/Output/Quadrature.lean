import Mathlib.Analysis.SpecialFunctions.Integrals.Basic
import Mathlib.MeasureTheory.Integral.DominatedConvergence
import Verif.Output.JxbProps

/-!
# The grid average of a trigonometric polynomial is its integral mean

Used for the geometric quantities of the output (C92): areas and volumes are computed as averages over the angular grid; whether they are the areas and volumes of the
surface depends on the resolution of the grid.
-/
namespace Verif.Output
open Verif Verif.Fourier Finset

/-- trigonometric polynomials in `θ` and `nfp φ` with degrees at most `A` and `B` -/
inductive TrigPoly (nfp A B : Int) : (ℝ → ℝ → ℝ) → Prop
  | cos (a b : Int) (ha : |a| ≤ A) (hb : |b| ≤ B) : TrigPoly nfp A B (fun θ φ => Real.cos (a * θ - b * (nfp * φ)))
  | sin (a b : Int) (ha : |a| ≤ A) (hb : |b| ≤ B) : TrigPoly nfp A B (fun θ φ => Real.sin (a * θ - b * (nfp * φ)))
  | add (f g : ℝ → ℝ → ℝ) (hf : TrigPoly nfp A B f) (hg : TrigPoly nfp A B g) : TrigPoly nfp A B (fun θ φ => f θ φ + g θ φ)
  | smul (c : ℝ) (f : ℝ → ℝ → ℝ) (hf : TrigPoly nfp A B f) : TrigPoly nfp A B (fun θ φ => c * f θ φ)

namespace TrigPoly
variable {nfp A B : Int}

theorem of_eq {f g : ℝ → ℝ → ℝ} (hf : TrigPoly nfp A B f) (h : ∀ θ φ, f θ φ = g θ φ) : TrigPoly nfp A B g := by
  have : f = g := by funext θ φ; exact h θ φ
  rw [← this]; exact hf

theorem zero (hA : 0 ≤ A) (hB : 0 ≤ B) : TrigPoly nfp A B (fun _ _ => 0) :=
  of_eq (smul 0 _ (cos 0 0 (by simpa using hA) (by simpa using hB))) (fun θ φ => by simp)

theorem sum (hA : 0 ≤ A) (hB : 0 ≤ B) (S : Finset Int) (F : Int → ℝ → ℝ → ℝ) (h : ∀ i ∈ S, TrigPoly nfp A B (F i)) : TrigPoly nfp A B (fun θ φ => ∑ i ∈ S, F i θ φ) := by
  induction S using Finset.induction_on with
  | empty => simpa using zero hA hB
  | insert a S ha ih =>
    refine of_eq (add _ _ (h a (Finset.mem_insert_self _ _)) (ih fun i hi => h i (Finset.mem_insert_of_mem hi))) (fun θ φ => ?_)
    rw [Finset.sum_insert ha]

theorem mul {C D : Int} {f g : ℝ → ℝ → ℝ} (hf : TrigPoly nfp A B f) (hg : TrigPoly nfp C D g) : TrigPoly nfp (A + C) (B + D) (fun θ φ => f θ φ * g θ φ) := by
  have bd (a b x y : Int) (h1 : |a| ≤ x) (h2 : |b| ≤ y) : |a + b| ≤ x + y ∧ |a - b| ≤ x + y :=
    ⟨(abs_add_le a b).trans (add_le_add h1 h2), (abs_sub a b).trans (add_le_add h1 h2)⟩
  induction hf with
  | cos a b ha hb =>
    induction hg with
    | cos c d hc hd =>
      refine of_eq (add _ _ (smul (1 / 2) _ (cos (a + c) (b + d) (bd a c A C ha hc).1 (bd b d B D hb hd).1)) (smul (1 / 2) _ (cos (a - c) (b - d) (bd a c A C ha hc).2 (bd b d B D hb hd).2))) (fun θ φ => ?_)
      push_cast
      rw [show ((a : ℝ) + c) * θ - (b + d) * (nfp * φ) = (a * θ - b * (nfp * φ)) + (c * θ - d * (nfp * φ)) by ring,
        show ((a : ℝ) - c) * θ - (b - d) * (nfp * φ) = (a * θ - b * (nfp * φ)) - (c * θ - d * (nfp * φ)) by ring]
      generalize (a * θ - b * (nfp * φ) : ℝ) = x
      generalize (c * θ - d * (nfp * φ) : ℝ) = y
      rw [Real.cos_add, Real.cos_sub]
      ring
    | sin c d hc hd =>
      refine of_eq (add _ _ (smul (1 / 2) _ (sin (a + c) (b + d) (bd a c A C ha hc).1 (bd b d B D hb hd).1)) (smul (-1 / 2) _ (sin (a - c) (b - d) (bd a c A C ha hc).2 (bd b d B D hb hd).2))) (fun θ φ => ?_)
      push_cast
      rw [show ((a : ℝ) + c) * θ - (b + d) * (nfp * φ) = (a * θ - b * (nfp * φ)) + (c * θ - d * (nfp * φ)) by ring,
        show ((a : ℝ) - c) * θ - (b - d) * (nfp * φ) = (a * θ - b * (nfp * φ)) - (c * θ - d * (nfp * φ)) by ring]
      generalize (a * θ - b * (nfp * φ) : ℝ) = x
      generalize (c * θ - d * (nfp * φ) : ℝ) = y
      rw [Real.sin_add, Real.sin_sub]
      ring
    | add f g _ _ i1 i2 => exact of_eq (add _ _ i1 i2) (fun θ φ => by ring)
    | smul c f _ i1 => exact of_eq (smul c _ i1) (fun θ φ => by ring)
  | sin a b ha hb =>
    induction hg with
    | cos c d hc hd =>
      refine of_eq (add _ _ (smul (1 / 2) _ (sin (a + c) (b + d) (bd a c A C ha hc).1 (bd b d B D hb hd).1)) (smul (1 / 2) _ (sin (a - c) (b - d) (bd a c A C ha hc).2 (bd b d B D hb hd).2))) (fun θ φ => ?_)
      push_cast
      rw [show ((a : ℝ) + c) * θ - (b + d) * (nfp * φ) = (a * θ - b * (nfp * φ)) + (c * θ - d * (nfp * φ)) by ring,
        show ((a : ℝ) - c) * θ - (b - d) * (nfp * φ) = (a * θ - b * (nfp * φ)) - (c * θ - d * (nfp * φ)) by ring]
      generalize (a * θ - b * (nfp * φ) : ℝ) = x
      generalize (c * θ - d * (nfp * φ) : ℝ) = y
      rw [Real.sin_add, Real.sin_sub]
      ring
    | sin c d hc hd =>
      refine of_eq (add _ _ (smul (-1 / 2) _ (cos (a + c) (b + d) (bd a c A C ha hc).1 (bd b d B D hb hd).1)) (smul (1 / 2) _ (cos (a - c) (b - d) (bd a c A C ha hc).2 (bd b d B D hb hd).2))) (fun θ φ => ?_)
      push_cast
      rw [show ((a : ℝ) + c) * θ - (b + d) * (nfp * φ) = (a * θ - b * (nfp * φ)) + (c * θ - d * (nfp * φ)) by ring,
        show ((a : ℝ) - c) * θ - (b - d) * (nfp * φ) = (a * θ - b * (nfp * φ)) - (c * θ - d * (nfp * φ)) by ring]
      generalize (a * θ - b * (nfp * φ) : ℝ) = x
      generalize (c * θ - d * (nfp * φ) : ℝ) = y
      rw [Real.cos_add, Real.cos_sub]
      ring
    | add f g _ _ i1 i2 => exact of_eq (add _ _ i1 i2) (fun θ φ => by ring)
    | smul c f _ i1 => exact of_eq (smul c _ i1) (fun θ φ => by ring)
  | add f' g' _ _ i1 i2 => exact of_eq (add _ _ i1 i2) (fun θ φ => by ring)
  | smul c f' _ i1 => exact of_eq (smul c _ i1) (fun θ φ => by ring)

theorem continuous {f : ℝ → ℝ → ℝ} (hf : TrigPoly nfp A B f) : Continuous (Function.uncurry f) := by
  induction hf with
  | cos a b _ _ => exact Real.continuous_cos.comp (by fun_prop)
  | sin a b _ _ => exact Real.continuous_sin.comp (by fun_prop)
  | add f g _ _ i1 i2 => exact i1.add i2
  | smul c f _ i1 => exact i1.const_mul c

theorem per_theta {f : ℝ → ℝ → ℝ} (hf : TrigPoly nfp A B f) (θ φ : ℝ) : f (θ + 2 * Real.pi) φ = f θ φ := by
  induction hf with
  | cos a b _ _ => beta_reduce; rw [show (a : ℝ) * (θ + 2 * Real.pi) - b * (nfp * φ) = a * θ - b * (nfp * φ) + a * (2 * Real.pi) by ring, Real.cos_add_int_mul_two_pi]
  | sin a b _ _ => beta_reduce; rw [show (a : ℝ) * (θ + 2 * Real.pi) - b * (nfp * φ) = a * θ - b * (nfp * φ) + a * (2 * Real.pi) by ring, Real.sin_add_int_mul_two_pi]
  | add f g _ _ i1 i2 => beta_reduce; rw [i1, i2]
  | smul c f _ i1 => beta_reduce; rw [i1]

theorem per_phi (hn : (nfp : ℝ) ≠ 0) {f : ℝ → ℝ → ℝ} (hf : TrigPoly nfp A B f) (θ φ : ℝ) : f θ (φ + 2 * Real.pi / nfp) = f θ φ := by
  have e (a b : Int) : (a : ℝ) * θ - b * (nfp * (φ + 2 * Real.pi / nfp)) = a * θ - b * (nfp * φ) - b * (2 * Real.pi) := by field_simp; ring
  induction hf with
  | cos a b _ _ => beta_reduce; rw [e, Real.cos_sub_int_mul_two_pi]
  | sin a b _ _ => beta_reduce; rw [e, Real.sin_sub_int_mul_two_pi]
  | add f g _ _ i1 i2 => beta_reduce; rw [i1, i2]
  | smul c f _ i1 => beta_reduce; rw [i1]

end TrigPoly

/-! ## the integral mean -/

/-- mean value over both angles -/
noncomputable def integralMean (f : ℝ → ℝ → ℝ) : ℝ := (∫ φ in (0 : ℝ)..2 * Real.pi, ∫ θ in (0 : ℝ)..2 * Real.pi, f θ φ) / (4 * Real.pi ^ 2)

theorem int_cos (a : Int) (d : ℝ) : ∫ x in (0 : ℝ)..2 * Real.pi, Real.cos (a * x - d) = if a = 0 then 2 * Real.pi * Real.cos d else 0 := by
  split_ifs with h
  · subst h; simp
  · have h' : (a : ℝ) ≠ 0 := by exact_mod_cast h
    rw [intervalIntegral.integral_comp_mul_sub (f := Real.cos) h', integral_cos, show (a : ℝ) * (2 * Real.pi) - d = -d + a * (2 * Real.pi) by ring, Real.sin_add_int_mul_two_pi]
    simp
theorem int_sin (a : Int) (d : ℝ) : ∫ x in (0 : ℝ)..2 * Real.pi, Real.sin (a * x - d) = if a = 0 then -(2 * Real.pi * Real.sin d) else 0 := by
  split_ifs with h
  · subst h; simp
  · have h' : (a : ℝ) ≠ 0 := by exact_mod_cast h
    rw [intervalIntegral.integral_comp_mul_sub (f := Real.sin) h', integral_sin, show (a : ℝ) * (2 * Real.pi) - d = -d + a * (2 * Real.pi) by ring, Real.cos_add_int_mul_two_pi]
    simp

theorem mean_cos (nfp a b : Int) (hn : nfp ≠ 0) : integralMean (fun θ φ => Real.cos (a * θ - b * (nfp * φ))) = if a = 0 ∧ b = 0 then 1 else 0 := by
  unfold integralMean
  simp only [int_cos]
  have hpi := Real.pi_ne_zero
  by_cases ha : a = 0
  · simp only [if_pos ha]
    rw [intervalIntegral.integral_const_mul]
    have := int_cos (b * nfp) 0
    simp only [sub_zero, Real.cos_zero, mul_one, Int.cast_mul, mul_assoc] at this
    rw [this]
    by_cases hb : b = 0
    · rw [if_pos (by rw [hb, zero_mul]), if_pos ⟨ha, hb⟩]; field_simp; ring
    · rw [if_neg (mul_ne_zero hb hn), if_neg (by tauto)]; simp
  · simp only [if_neg ha]
    rw [if_neg (by tauto)]; simp
theorem mean_sin (nfp a b : Int) (hn : nfp ≠ 0) : integralMean (fun θ φ => Real.sin (a * θ - b * (nfp * φ))) = 0 := by
  unfold integralMean
  simp only [int_sin]
  by_cases ha : a = 0
  · simp only [if_pos ha]
    rw [intervalIntegral.integral_neg, intervalIntegral.integral_const_mul]
    have := int_sin (b * nfp) 0
    simp only [sub_zero, Real.sin_zero, mul_zero, neg_zero, ite_self, Int.cast_mul, mul_assoc] at this
    rw [this]; simp
  · simp only [if_neg ha]; simp

theorem mean_add {nfp A B : Int} {f g : ℝ → ℝ → ℝ} (hf : TrigPoly nfp A B f) (hg : TrigPoly nfp A B g) : integralMean (fun θ φ => f θ φ + g θ φ) = integralMean f + integralMean g := by
  unfold integralMean
  have cf := hf.continuous
  have cg := hg.continuous
  have inner (φ : ℝ) : ∫ θ in (0 : ℝ)..2 * Real.pi, f θ φ + g θ φ = (∫ θ in (0 : ℝ)..2 * Real.pi, f θ φ) + ∫ θ in (0 : ℝ)..2 * Real.pi, g θ φ :=
    intervalIntegral.integral_add ((cf.comp (by fun_prop : Continuous fun θ : ℝ => (θ, φ))).intervalIntegrable _ _) ((cg.comp (by fun_prop : Continuous fun θ : ℝ => (θ, φ))).intervalIntegrable _ _)
  simp only [inner]
  have par {h : ℝ → ℝ → ℝ} (hc : Continuous (Function.uncurry h)) : Continuous fun φ => ∫ θ in (0 : ℝ)..2 * Real.pi, h θ φ :=
    intervalIntegral.continuous_parametric_intervalIntegral_of_continuous' (f := fun φ θ => h θ φ) (hc.comp continuous_swap) _ _
  rw [intervalIntegral.integral_add ((par cf).intervalIntegrable _ _) ((par cg).intervalIntegrable _ _), add_div]

theorem mean_smul (c : ℝ) (f : ℝ → ℝ → ℝ) : integralMean (fun θ φ => c * f θ φ) = c * integralMean f := by
  unfold integralMean
  simp only [intervalIntegral.integral_const_mul]
  ring

/-! ## the grid -/

section
variable {s : Sizes.Sizes} {lasym : Bool} {nfp mpol ntor ntheta nzeta mg ng : Int} (hs : Sizes.mk lasym nfp mpol ntor ntheta nzeta mg ng = .ok s)
include hs

/-- the plain average over the full grid is the integral mean, if the degrees are below the numbers of grid points -/
theorem full_mean {A B : Int} (hA : A < s.nThetaEven) (hB : B < s.nZeta) {f : ℝ → ℝ → ℝ} (hf : TrigPoly s.nfp A B f) :
    (∑ k ∈ Ico 0 s.nZeta, ∑ l ∈ Ico 0 s.nThetaEven, f (thetaGrid s l) (phiGrid s k)) / ((s.nZeta * s.nThetaEven : Int) : ℝ) = integralMean f := by
  obtain ⟨q1, q2, q3, q4, q5⟩ := nZnT_eq hs
  have hN : (0 : Int) < s.nThetaEven := by omega
  have hnfp : s.nfp ≠ 0 := by exact_mod_cast nfp_ne hs
  have hNr : ((s.nZeta * s.nThetaEven : Int) : ℝ) ≠ 0 := by exact_mod_cast mul_ne_zero (by omega) (by omega)
  have small (N p P : Int) (h0 : 0 < N) (h : |p| ≤ P) (h1 : P < N) : N ∣ p ↔ p = 0 := by
    constructor
    · intro h2; exact Int.eq_zero_of_abs_lt_dvd h2 (by omega)
    · rintro rfl; exact dvd_zero _
  have argθ (a l : Int) : (a : ℝ) * thetaGrid s l = 2 * Real.pi * a * l / s.nThetaEven := by unfold thetaGrid; ring
  have argζ (b k : Int) : (b : ℝ) * (s.nfp * phiGrid s k) = 2 * Real.pi * b * k / s.nZeta := by rw [nfp_phi hs]; unfold zetaGrid; ring
  induction hf with
  | cos a b ha hb =>
    rw [mean_cos _ _ _ hnfp]
    have : ∑ k ∈ Ico 0 s.nZeta, ∑ l ∈ Ico 0 s.nThetaEven, Real.cos (a * thetaGrid s l - b * (s.nfp * phiGrid s k)) =
        (∑ k ∈ Ico 0 s.nZeta, Real.cos (2 * Real.pi * b * k / s.nZeta)) * (∑ l ∈ Ico 0 s.nThetaEven, Real.cos (2 * Real.pi * a * l / s.nThetaEven)) +
        (∑ k ∈ Ico 0 s.nZeta, Real.sin (2 * Real.pi * b * k / s.nZeta)) * (∑ l ∈ Ico 0 s.nThetaEven, Real.sin (2 * Real.pi * a * l / s.nThetaEven)) := by
      rw [Finset.sum_mul_sum, Finset.sum_mul_sum, ← Finset.sum_add_distrib]
      refine Finset.sum_congr rfl fun k _ => ?_
      rw [← Finset.sum_add_distrib]
      refine Finset.sum_congr rfl fun l _ => ?_
      rw [argθ, argζ, Real.cos_sub]; ring
    rw [this, cos_sum _ (by omega), cos_sum _ hN, sin_sum _ (by omega), zero_mul, add_zero]
    simp only [small s.nZeta b B (by omega) hb hB, small s.nThetaEven a A hN ha hA]
    by_cases h1 : a = 0 <;> by_cases h2 : b = 0
    · rw [if_pos h1, if_pos h2, if_pos ⟨h1, h2⟩]; push_cast at hNr ⊢; exact div_self hNr
    · simp [h2]
    · simp [h1]
    · simp [h1]
  | sin a b ha hb =>
    rw [mean_sin _ _ _ hnfp]
    have : ∑ k ∈ Ico 0 s.nZeta, ∑ l ∈ Ico 0 s.nThetaEven, Real.sin (a * thetaGrid s l - b * (s.nfp * phiGrid s k)) =
        (∑ k ∈ Ico 0 s.nZeta, Real.cos (2 * Real.pi * b * k / s.nZeta)) * (∑ l ∈ Ico 0 s.nThetaEven, Real.sin (2 * Real.pi * a * l / s.nThetaEven)) -
        (∑ k ∈ Ico 0 s.nZeta, Real.sin (2 * Real.pi * b * k / s.nZeta)) * (∑ l ∈ Ico 0 s.nThetaEven, Real.cos (2 * Real.pi * a * l / s.nThetaEven)) := by
      rw [Finset.sum_mul_sum, Finset.sum_mul_sum, ← Finset.sum_sub_distrib]
      refine Finset.sum_congr rfl fun k _ => ?_
      rw [← Finset.sum_sub_distrib]
      refine Finset.sum_congr rfl fun l _ => ?_
      rw [argθ, argζ, Real.sin_sub]; ring
    rw [this, sin_sum _ hN, sin_sum _ (by omega)]
    simp
  | add f g hf hg i1 i2 =>
    rw [mean_add hf hg, ← i1, ← i2, ← add_div]
    simp only [Finset.sum_add_distrib]
  | smul c f hf i1 =>
    rw [mean_smul, ← i1]
    simp only [← Finset.mul_sum]
    ring

/-- the weighted average over the grid of the code is the integral mean; without `lasym` the function must be even, because the grid covers half the poloidal angle -/
theorem average_exact {A B : Int} (hA : A < s.nThetaEven) (hB : B < s.nZeta) {f : ℝ → ℝ → ℝ} (hf : TrigPoly s.nfp A B f) (hsym : s.lasym = false → ∀ θ φ, f (-θ) (-φ) = f θ φ)
    (v : Int → ℝ) (hv : ∀ k l, 0 ≤ k → k < s.nZeta → 0 ≤ l → l < s.nThetaEff → v (k * s.nThetaEff + l) = f (thetaGrid s l) (phiGrid s k)) :
    ∑ kl ∈ Ico 0 s.nZnT, v kl * (Sizes.wInt s (kl.tmod s.nThetaEff) : ℝ) = integralMean f := by
  obtain ⟨q1, q2, q3, q4, q5⟩ := nZnT_eq hs
  have hE : 0 < s.nThetaEff := by rw [q2]; split <;> omega
  have hN : (s.nThetaEven : ℝ) ≠ 0 := by exact_mod_cast (by omega : s.nThetaEven ≠ 0)
  have hZ : (s.nZeta : ℝ) ≠ 0 := by exact_mod_cast (by omega : s.nZeta ≠ 0)
  have hnfp := nfp_ne hs
  have e : ∑ kl ∈ Ico 0 s.nZnT, v kl * (Sizes.wInt s (kl.tmod s.nThetaEff) : ℝ) =
      Sizes.surfaceAverage s (fun kl => (fun k l => f (thetaGrid s l) (phiGrid s k)) (kl / s.nThetaEff) (kl % s.nThetaEff)) := by
    unfold Sizes.surfaceAverage
    rw [forRange_add, zero_add]
    refine Finset.sum_congr rfl fun kl h => ?_
    rw [Finset.mem_Ico] at h
    have h2 := Int.emod_nonneg kl (by omega : s.nThetaEff ≠ 0)
    have h3 := Int.emod_lt_of_pos kl hE
    have h4 : kl / s.nThetaEff * s.nThetaEff + kl % s.nThetaEff = kl := by rw [mul_comm]; exact Int.mul_ediv_add_emod _ _
    have := hv (kl / s.nThetaEff) (kl % s.nThetaEff) (Int.ediv_nonneg h.1 hE.le) (Int.ediv_lt_of_lt_mul hE (by rw [mul_comm, ← q1]; exact h.2)) h2 h3
    rw [h4] at this
    rw [this]
  rw [e, ← full_mean hs hA hB hf]
  have hlas : s.lasym = lasym := ((Sizes.C07_sizes lasym nfp mpol ntor ntheta nzeta mg ng).2 s hs).1.1
  cases hl : lasym
  · subst hl
    refine Sizes.C08_reduced_eq_full nfp mpol ntor ntheta nzeta mg ng s hs (fun k l => f (thetaGrid s l) (phiGrid s k)) ?_ ?_ ?_
    · intro k l
      have : thetaGrid s (l + s.nThetaEven) = thetaGrid s l + 2 * Real.pi := by unfold thetaGrid; push_cast; field_simp
      simp only [this, hf.per_theta]
    · intro k l
      have : phiGrid s (k + s.nZeta) = phiGrid s k + 2 * Real.pi / s.nfp := by unfold phiGrid zetaGrid; push_cast; field_simp
      simp only [this, hf.per_phi hnfp]
    · intro k l
      have h1 : thetaGrid s (-l) = -thetaGrid s l := by unfold thetaGrid; push_cast; ring
      have h2 : phiGrid s (-k) = -phiGrid s k := by unfold phiGrid zetaGrid; push_cast; ring
      simp only [h1, h2, hsym hlas]
  · rw [hl] at hlas
    rw [if_pos hlas] at q2
    rw [Sizes.surfaceAverage_eq s hE (by rw [q1, mul_comm]) (by omega) (fun k l => f (thetaGrid s l) (phiGrid s k)), Finset.sum_div]
    refine Finset.sum_congr rfl fun k _ => ?_
    rw [q2, Finset.sum_div]
    refine Finset.sum_congr rfl fun l _ => ?_
    unfold Sizes.wInt
    rw [hlas]
    simp
    ring

end
end Verif.Output
