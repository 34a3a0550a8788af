import Verif.Output.FilterLoops

/-! # Completeness of the discrete Fourier basis on the grid -/
namespace Verif.Output
open Verif Verif.Fourier Finset

/-- weight of mode `n` in a real series with `N + 1` modes on `2 N` points (`N = 0`: one point) -/
noncomputable def modeWeight (N n : Int) : ℝ := if n = 0 then 1 else if n = N then 1 else 2

theorem cos_swap (N p q : Int) : Real.cos (p * (2 * Real.pi * q / N)) = Real.cos (q * (2 * Real.pi * p / N)) := by congr 1; ring
theorem sin_swap (N p q : Int) : Real.sin (p * (2 * Real.pi * q / N)) = Real.sin (q * (2 * Real.pi * p / N)) := by congr 1; ring

theorem refl_cos (N : Int) (hN : 1 ≤ N) (p n : Int) : Real.cos (p * (2 * Real.pi * ((2 * N - n : Int) : ℝ) / ((2 * N : Int) : ℝ))) = Real.cos (p * (2 * Real.pi * n / ((2 * N : Int) : ℝ))) := by
  have hN' : (N : ℝ) ≠ 0 := by exact_mod_cast (by omega : N ≠ 0)
  have : (p : ℝ) * (2 * Real.pi * ((2 * N - n : Int) : ℝ) / ((2 * N : Int) : ℝ)) = p * (2 * Real.pi) - p * (2 * Real.pi * n / ((2 * N : Int) : ℝ)) := by
    push_cast; field_simp
  rw [this, Real.cos_int_mul_two_pi_sub]
theorem refl_sin (N : Int) (hN : 1 ≤ N) (p n : Int) : Real.sin (p * (2 * Real.pi * ((2 * N - n : Int) : ℝ) / ((2 * N : Int) : ℝ))) = -Real.sin (p * (2 * Real.pi * n / ((2 * N : Int) : ℝ))) := by
  have hN' : (N : ℝ) ≠ 0 := by exact_mod_cast (by omega : N ≠ 0)
  have : (p : ℝ) * (2 * Real.pi * ((2 * N - n : Int) : ℝ) / ((2 * N : Int) : ℝ)) = p * (2 * Real.pi) - p * (2 * Real.pi * n / ((2 * N : Int) : ℝ)) := by
    push_cast; field_simp
  rw [this, Real.sin_int_mul_two_pi_sub]

theorem dvd_two {N q : Int} (hN : 1 ≤ N) (q0 : 0 ≤ q) (q1 : q ≤ 2 * N) : 2 * N ∣ q ↔ (q = 0 ∨ q = 2 * N) := by
  constructor
  · intro h
    by_cases e : q = 2 * N
    · exact Or.inr e
    · exact Or.inl ((dvd_small (by omega) (by omega)).1 h)
  · rintro (h | h) <;> rw [h]
    exact dvd_zero _

/-- folding of a sum over all modes -/
theorem fold_modes (N : Int) (hN : 1 ≤ N) (g : Int → ℝ) (hg : ∀ n, g (2 * N - n) = g n) :
    ∑ n ∈ Ico 0 (N + 1), modeWeight N n * g n = ∑ n ∈ Ico 0 (2 * N), g n := by
  rw [Sizes.fold_even N hN g hg, ends_sum N hN, Finset.mul_sum]
  congr 1
  · congr 1
    · simp [modeWeight]
    · simp [modeWeight]
  · refine Finset.sum_congr rfl fun n hn => ?_
    rw [Finset.mem_Ico] at hn
    unfold modeWeight
    rw [if_neg (by omega), if_neg (by omega)]

/-- cosines, even number of points -/
theorem delta_cos (N : Int) (hN : 1 ≤ N) (p q : Int) :
    ∑ n ∈ Ico 0 (N + 1), modeWeight N n * (Real.cos (n * (2 * Real.pi * p / ((2 * N : Int) : ℝ))) * Real.cos (n * (2 * Real.pi * q / ((2 * N : Int) : ℝ)))) =
      ((if 2 * N ∣ p - q then ((2 * N : Int) : ℝ) else 0) + (if 2 * N ∣ p + q then ((2 * N : Int) : ℝ) else 0)) / 2 := by
  simp only [cos_swap (2 * N) _ p, cos_swap (2 * N) _ q]
  rw [fold_modes N hN (fun n => Real.cos (p * (2 * Real.pi * n / ((2 * N : Int) : ℝ))) * Real.cos (q * (2 * Real.pi * n / ((2 * N : Int) : ℝ))))
    (fun n => by simp only [refl_cos N hN])]
  exact cos_cos_sum (2 * N) (by omega) p q

/-- sines, even number of points; the weights of the ends do not matter -/
theorem delta_sin (N : Int) (hN : 1 ≤ N) (p q : Int) :
    ∑ n ∈ Ico 0 (N + 1), 2 * (Real.sin (n * (2 * Real.pi * p / ((2 * N : Int) : ℝ))) * Real.sin (n * (2 * Real.pi * q / ((2 * N : Int) : ℝ)))) =
      ((if 2 * N ∣ p - q then ((2 * N : Int) : ℝ) else 0) - (if 2 * N ∣ p + q then ((2 * N : Int) : ℝ) else 0)) / 2 := by
  have h : ∑ n ∈ Ico 0 (N + 1), 2 * (Real.sin (n * (2 * Real.pi * p / ((2 * N : Int) : ℝ))) * Real.sin (n * (2 * Real.pi * q / ((2 * N : Int) : ℝ)))) =
      ∑ n ∈ Ico 0 (N + 1), modeWeight N n * (Real.sin (n * (2 * Real.pi * p / ((2 * N : Int) : ℝ))) * Real.sin (n * (2 * Real.pi * q / ((2 * N : Int) : ℝ)))) := by
    refine Finset.sum_congr rfl fun n _ => ?_
    unfold modeWeight
    split_ifs with h1 h2
    · subst h1; simp
    · subst h2
      have : Real.sin (n * (2 * Real.pi * p / ((2 * n : Int) : ℝ))) = 0 := by
        have hn : (n : ℝ) ≠ 0 := by exact_mod_cast h1
        have : (n : ℝ) * (2 * Real.pi * p / ((2 * n : Int) : ℝ)) = p * Real.pi := by push_cast; field_simp
        rw [this, Real.sin_int_mul_pi]
      rw [this]; ring
    · rfl
  rw [h]
  simp only [sin_swap (2 * N) _ p, sin_swap (2 * N) _ q]
  rw [fold_modes N hN (fun n => Real.sin (p * (2 * Real.pi * n / ((2 * N : Int) : ℝ))) * Real.sin (q * (2 * Real.pi * n / ((2 * N : Int) : ℝ))))
    (fun n => by simp only [refl_sin N hN]; ring)]
  exact sin_sin_sum (2 * N) (by omega) p q

section
variable {s : Sizes.Sizes} {lasym : Bool} {nfp mpol ntor ntheta nzeta mg ng : Int} (hs : Sizes.mk lasym nfp mpol ntor ntheta nzeta mg ng = .ok s)
include hs

/-- the numbers of modes -/
theorem nyq_sizes : s.mnyq = s.nThetaReduced - 1 ∧ s.nnyq = s.nZeta / 2 ∧ s.mnyq2 = 2 * s.mnyq ∧ s.nnyq2 = 2 * s.nnyq := by
  have g := goodGrid_of_mk hs
  have g1 := g.nyqT
  have g2 := g.nyqP
  have g3 := g.even
  have g4 := g.mpol
  have g5 := g.nz
  have g6 := g.ntor
  unfold Sizes.mk at hs
  split at hs
  · cases hs
  split at hs
  · cases hs
  split at hs
  · cases hs
  simp only [Outcome.ok.injEq] at hs
  have e1 : s.mnyq2 = max 0 (max (2 * s.nThetaEven.tdiv 2) (2 * (s.mpol - 1))) := by rw [← hs]
  have e2 : s.nnyq2 = max 0 (max (2 * s.nZeta.tdiv 2) (2 * s.ntor)) := by rw [← hs]
  have e3 : s.mnyq = s.mnyq2.tdiv 2 := by rw [← hs]
  have e4 : s.nnyq = s.nnyq2.tdiv 2 := by rw [← hs]
  rw [Int.tdiv_eq_ediv_of_nonneg (by omega)] at e1 e2
  rw [Int.tdiv_eq_ediv_of_nonneg (by omega)] at e3 e4
  omega

/-- completeness in the poloidal angle on the half grid, cosines -/
theorem theta_cos (l l' : Int) (l0 : 0 ≤ l) (l1 : l < s.nThetaReduced) (l0' : 0 ≤ l') (l1' : l' < s.nThetaReduced) :
    (∑ m ∈ Ico 0 (s.mnyq + 1), modeWeight s.mnyq m * (Real.cos (m * thetaGrid s l) * Real.cos (m * thetaGrid s l'))) * endWeight s l' = if l' = l then (s.mnyq : ℝ) else 0 := by
  obtain ⟨h1, h2, h3, h4⟩ := nyq_sizes hs
  obtain ⟨_, _, h5, h6, _⟩ := nZnT_eq hs
  have e : s.nThetaEven = 2 * s.mnyq := by omega
  unfold thetaGrid endWeight
  rw [e, delta_cos s.mnyq (by omega) l l']
  have d1 := dvd_small (N := 2 * s.mnyq) (p := l - l') (by omega) (by omega)
  have d2 := dvd_two (N := s.mnyq) (q := l + l') (by omega) (by omega) (by omega)
  by_cases hl : l' = l
  · subst hl
    by_cases he : l' = 0 ∨ l' = s.nThetaReduced - 1
    · rw [if_pos (by simp), if_pos (d2.2 (by omega)), if_pos he, if_pos rfl]; push_cast; ring
    · rw [if_pos (by simp), if_neg (fun h => he (by have := d2.1 h; omega)), if_neg he, if_pos rfl]; push_cast; ring
  · rw [if_neg (fun h => hl (by have := d1.1 h; omega)), if_neg (fun h => hl (by have := d2.1 h; omega)), if_neg hl]; simp

/-- completeness in the poloidal angle on the half grid, sines: only the interior points -/
theorem theta_sin (l l' : Int) (l0 : 0 ≤ l) (l1 : l < s.nThetaReduced) (l0' : 0 ≤ l') (l1' : l' < s.nThetaReduced) :
    (∑ m ∈ Ico 0 (s.mnyq + 1), 2 * (Real.sin (m * thetaGrid s l) * Real.sin (m * thetaGrid s l'))) * endWeight s l' =
      if l' = l ∧ l ≠ 0 ∧ l ≠ s.nThetaReduced - 1 then (s.mnyq : ℝ) else 0 := by
  obtain ⟨h1, h2, h3, h4⟩ := nyq_sizes hs
  obtain ⟨_, _, h5, h6, _⟩ := nZnT_eq hs
  have e : s.nThetaEven = 2 * s.mnyq := by omega
  unfold thetaGrid endWeight
  rw [e, delta_sin s.mnyq (by omega) l l']
  have d1 := dvd_small (N := 2 * s.mnyq) (p := l - l') (by omega) (by omega)
  have d2 := dvd_two (N := s.mnyq) (q := l + l') (by omega) (by omega) (by omega)
  by_cases hl : l' = l
  · subst hl
    by_cases he : l' = 0 ∨ l' = s.nThetaReduced - 1
    · rw [if_pos (by simp), if_pos (d2.2 (by omega)), if_pos he, if_neg (by omega)]; push_cast; ring
    · rw [if_pos (by simp), if_neg (fun h => he (by have := d2.1 h; omega)), if_neg he, if_pos (by omega)]; push_cast; ring
  · rw [if_neg (fun h => hl (by have := d1.1 h; omega)), if_neg (fun h => hl (by have := d2.1 h; omega))]; simp [hl]

theorem rev_iff (k k' : Int) (k0 : 0 ≤ k) (k1 : k < s.nZeta) (k0' : 0 ≤ k') (k1' : k' < s.nZeta) : s.nZeta ∣ k + k' ↔ k' = -k % s.nZeta := by
  have h := nZnT_eq hs
  rw [Int.dvd_iff_emod_eq_zero]
  constructor
  · intro e
    have : k' % s.nZeta = -k % s.nZeta := by
      apply Int.emod_emod_of_dvd _ (dvd_refl _) |>.symm.trans
      rw [Int.emod_emod_of_dvd _ (dvd_refl _)]
      refine Int.emod_emod_of_dvd k' (dvd_refl s.nZeta) ▸ ?_
      have : k' = -k + (k + k') := by ring
      rw [this, Int.add_emod, e, add_zero]
      simp
    rwa [Int.emod_eq_of_lt k0' k1'] at this
  · intro e
    rw [e, Int.add_emod, Int.emod_emod_of_dvd _ (dvd_refl _), ← Int.add_emod]; simp

/-- completeness in the toroidal angle, cosines -/
theorem zeta_cos (hz : s.nZeta = 1 ∨ 2 ∣ s.nZeta) (k k' : Int) (k0 : 0 ≤ k) (k1 : k < s.nZeta) (k0' : 0 ≤ k') (k1' : k' < s.nZeta) :
    ∑ n ∈ Ico 0 (s.nnyq + 1), modeWeight s.nnyq n * (Real.cos (n * zetaGrid s k) * Real.cos (n * zetaGrid s k')) =
      ((if k' = k then (s.nZeta : ℝ) else 0) + (if k' = -k % s.nZeta then (s.nZeta : ℝ) else 0)) / 2 := by
  obtain ⟨h1, h2, h3, h4⟩ := nyq_sizes hs
  obtain ⟨_, _, _, _, h5⟩ := nZnT_eq hs
  have r := rev_iff hs k k' k0 k1 k0' k1'
  rcases hz with hz | hz
  · have e0 : s.nnyq = 0 := by omega
    have ek : k = 0 := by omega
    have ek' : k' = 0 := by omega
    rw [e0, ek, ek', hz]
    rw [show Ico (0:Int) (0 + 1) = {0} from rfl, Finset.sum_singleton]
    norm_num [zetaGrid, modeWeight]
  · have e : s.nZeta = 2 * s.nnyq := by omega
    have d1 := dvd_small (N := s.nZeta) (p := k - k') (by omega) (by omega)
    have d := delta_cos s.nnyq (by omega) k k'
    rw [← e] at d
    unfold zetaGrid
    rw [d]
    congr 2
    · exact if_congr (d1.trans (by omega)) rfl rfl
    · exact if_congr r rfl rfl

/-- completeness in the toroidal angle, sines -/
theorem zeta_sin (hz : s.nZeta = 1 ∨ 2 ∣ s.nZeta) (k k' : Int) (k0 : 0 ≤ k) (k1 : k < s.nZeta) (k0' : 0 ≤ k') (k1' : k' < s.nZeta) :
    ∑ n ∈ Ico 0 (s.nnyq + 1), 2 * (Real.sin (n * zetaGrid s k) * Real.sin (n * zetaGrid s k')) =
      ((if k' = k then (s.nZeta : ℝ) else 0) - (if k' = -k % s.nZeta then (s.nZeta : ℝ) else 0)) / 2 := by
  obtain ⟨h1, h2, h3, h4⟩ := nyq_sizes hs
  obtain ⟨_, _, _, _, h5⟩ := nZnT_eq hs
  have r := rev_iff hs k k' k0 k1 k0' k1'
  rcases hz with hz | hz
  · have e0 : s.nnyq = 0 := by omega
    have ek : k = 0 := by omega
    have ek' : k' = 0 := by omega
    rw [e0, ek, ek', hz]
    simp [zetaGrid]
  · have e : s.nZeta = 2 * s.nnyq := by omega
    have d1 := dvd_small (N := s.nZeta) (p := k - k') (by omega) (by omega)
    have d := delta_sin s.nnyq (by omega) k k'
    rw [← e] at d
    unfold zetaGrid
    rw [d]
    congr 2
    · exact if_congr (d1.trans (by omega)) rfl rfl
    · exact if_congr r rfl rfl

/-- exchange of the sums over modes and over grid points -/
theorem exchange (M N : Int) (c : ℝ) (a b : Int → ℝ) (P P' T T' : Int → Int → ℝ) (g : Int → Int → ℝ) (l k : Int) :
    ∑ m ∈ Ico 0 M, ∑ n ∈ Ico 0 N, (c * a m * b n * ∑ k' ∈ Ico 0 s.nZeta, ∑ l' ∈ Ico 0 s.nThetaReduced, endWeight s l' * g k' l' * (P' m l' * T' n k')) * (P m l * T n k) =
      c * ∑ k' ∈ Ico 0 s.nZeta, ∑ l' ∈ Ico 0 s.nThetaReduced, g k' l' * ((∑ m ∈ Ico 0 M, a m * (P m l * P' m l')) * endWeight s l') * ∑ n ∈ Ico 0 N, b n * (T n k * T' n k') := by
  have hR : ∀ k' l', g k' l' * ((∑ m ∈ Ico 0 M, a m * (P m l * P' m l')) * endWeight s l') * ∑ n ∈ Ico 0 N, b n * (T n k * T' n k') =
      ∑ m ∈ Ico 0 M, ∑ n ∈ Ico 0 N, a m * b n * (endWeight s l' * g k' l' * (P' m l' * T' n k')) * (P m l * T n k) := by
    intro k' l'
    rw [mul_comm (∑ m ∈ Ico 0 M, _) (endWeight s l'), ← mul_assoc, mul_assoc, Finset.sum_mul, Finset.mul_sum]
    refine Finset.sum_congr rfl fun m _ => ?_
    rw [Finset.mul_sum, Finset.mul_sum]
    exact Finset.sum_congr rfl fun n _ => by ring
  simp only [hR]
  have e1 : ∀ k' ∈ Ico 0 s.nZeta, ∑ l' ∈ Ico 0 s.nThetaReduced, ∑ m ∈ Ico 0 M, ∑ n ∈ Ico 0 N, a m * b n * (endWeight s l' * g k' l' * (P' m l' * T' n k')) * (P m l * T n k) =
      ∑ m ∈ Ico 0 M, ∑ n ∈ Ico 0 N, ∑ l' ∈ Ico 0 s.nThetaReduced, a m * b n * (endWeight s l' * g k' l' * (P' m l' * T' n k')) * (P m l * T n k) := by
    intro k' _
    rw [Finset.sum_comm]
    refine Finset.sum_congr rfl fun m _ => ?_
    rw [Finset.sum_comm]
  rw [Finset.sum_congr rfl e1, Finset.sum_comm (s := Ico 0 s.nZeta) (t := Ico 0 M), Finset.mul_sum]
  refine Finset.sum_congr rfl fun m _ => ?_
  rw [Finset.sum_comm (s := Ico 0 s.nZeta) (t := Ico 0 N), Finset.mul_sum]
  refine Finset.sum_congr rfl fun n _ => ?_
  rw [Finset.mul_sum, Finset.mul_sum, Finset.sum_mul]
  refine Finset.sum_congr rfl fun k' _ => ?_
  rw [Finset.mul_sum, Finset.mul_sum, Finset.sum_mul]
  exact Finset.sum_congr rfl fun l' _ => by ring

end
end Verif.Output
