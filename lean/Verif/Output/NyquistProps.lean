import Verif.Output.NyquistLoops

/-! # C89: the Nyquist spectrum of the output file reproduces the fields on the grid -/
namespace Verif.Output
open Verif Verif.Fourier Finset

section
variable {s : Sizes.Sizes} {lasym : Bool} {nfp mpol ntor ntheta nzeta mg ng : Int} (hs : Sizes.mk lasym nfp mpol ntor ntheta nzeta mg ng = .ok s)

theorem nyqFill_eq (num shift : Int) (v : Int → Int → ℝ) (mn c : Int) (m0 : 0 ≤ mn) (m1 : mn < s.mnmax_nyq) :
    nyqFill s num shift v mn c = if 0 ≤ c - shift ∧ c - shift < num then v (c - shift) mn else 0 := by
  have row (j : Int) (w : Int → Int → ℝ) : (forRange 0 s.mnmax_nyq (fun mn w => fun r c => if r = mn ∧ c = j + shift then v j mn else w r c) w) mn c
      = if j = c - shift then v (c - shift) mn else w mn c := by
    refine (Radial.pickLoop (fun w : Int → Int → ℝ => w mn c) (fun mn w => fun r c => if r = mn ∧ c = j + shift then v j mn else w r c) (lo := 0) (hi := s.mnmax_nyq) (i0 := mn)
      (fun x => if j = c - shift then v (c - shift) mn else x) ?_ ?_ w).trans (if_pos ⟨m0, m1⟩)
    · intro i w _ _ hne
      exact if_neg (fun h => hne h.1.symm)
    · intro w _ _
      by_cases e : j = c - shift
      · subst e; simp
      · simp only
        rw [if_neg (by omega), if_neg e]
  exact Radial.pickLoop (fun w : Int → Int → ℝ => w mn c) (fun j w => forRange 0 s.mnmax_nyq (fun mn w => fun r c => if r = mn ∧ c = j + shift then v j mn else w r c) w)
    (lo := 0) (hi := num) (i0 := c - shift) (fun _ => v (c - shift) mn) (fun j w _ _ hne => (row j w).trans (if_neg hne)) (fun w _ _ => (row _ w).trans (if_pos rfl)) (fun _ _ => 0)

include hs

theorem idx_range (m n : Int) (hv : validMode (s.mnyq + 1) s.nnyq m n) : 0 ≤ idx s.nnyq m n ∧ idx s.nnyq m n < s.mnmax_nyq := by
  obtain ⟨h1, h2, h3, h4⟩ := nyq_sizes hs
  obtain ⟨_, _, _, h5, h6⟩ := nZnT_eq hs
  obtain ⟨_, _, _, t2, _⟩ := C09_mode_table (s.mnyq + 1) s.nnyq s.nfp (by omega) (by omega)
  obtain ⟨i, e, i0, i1, _⟩ := t2 m n hv
  have hnn : m = 0 → 0 ≤ n := by
    obtain ⟨_, _, _, v4⟩ := hv
    rintro rfl; simpa using v4
  rw [mnIdx_eq hnn, Outcome.ok.injEq] at e
  rw [e, (C09_table_sizes lasym nfp mpol ntor ntheta nzeta mg ng s hs).2]
  exact ⟨i0, i1⟩

theorem pick_kl (c : ℝ) (g : Int → Int → ℝ) (k l : Int) (k0 : 0 ≤ k) (k1 : k < s.nZeta) (l0 : 0 ≤ l) (l1 : l < s.nThetaReduced) (e : Prop) [Decidable e] (sg : ℝ) :
    ∑ k' ∈ Ico 0 s.nZeta, ∑ l' ∈ Ico 0 s.nThetaReduced, g k' l' * (if l' = l ∧ e then c else 0) *
      (((if k' = k then (s.nZeta : ℝ) else 0) + sg * (if k' = -k % s.nZeta then (s.nZeta : ℝ) else 0)) / 2) =
    if e then c * s.nZeta * (g k l + sg * g (-k % s.nZeta) l) / 2 else 0 := by
  have inner (k' : Int) (x : ℝ) : ∑ l' ∈ Ico 0 s.nThetaReduced, g k' l' * (if l' = l ∧ e then c else 0) * x = if e then g k' l * c * x else 0 := by
    by_cases he : e
    · simp only [he, and_true, if_true]
      rw [Finset.sum_eq_single_of_mem l (Finset.mem_Ico.2 ⟨l0, l1⟩) (fun l' _ h => by rw [if_neg h]; ring), if_pos rfl]
    · simp only [he, and_false, if_false]; simp
  simp only [inner]
  by_cases he : e
  · simp only [he, if_true]
    have h5 := (nZnT_eq hs).2.2.2.2
    have r0 : 0 ≤ -k % s.nZeta := Int.emod_nonneg _ (by omega)
    have r1 : -k % s.nZeta < s.nZeta := Int.emod_lt_of_pos _ (by omega)
    have : ∀ k' : Int, g k' l * c * (((if k' = k then (s.nZeta : ℝ) else 0) + sg * (if k' = -k % s.nZeta then (s.nZeta : ℝ) else 0)) / 2) =
        (if k' = k then g k l * c * s.nZeta / 2 else 0) + (if k' = -k % s.nZeta then sg * (g (-k % s.nZeta) l * c * s.nZeta / 2) else 0) := by
      intro k'
      split_ifs with h1 h2 h2
      · rw [← h2, h1]; ring
      · rw [h1]; ring
      · rw [h2]; ring
      · ring
    simp only [this, Finset.sum_add_distrib]
    rw [Finset.sum_ite_eq' (Ico 0 s.nZeta), Finset.sum_ite_eq' (Ico 0 s.nZeta), if_pos (Finset.mem_Ico.2 ⟨k0, k1⟩), if_pos (Finset.mem_Ico.2 ⟨r0, r1⟩)]
    ring
  · simp [he]

/-- coefficients of a series of `cos(mθ - nζ)` -/
theorem recon_cos (hz : s.nZeta = 1 ∨ 2 ∣ s.nZeta) (xm xn : Int → Int) (ht : computeConversionIndices s.nnyq (s.mnyq + 1) s.nfp = .ok (xm, xn)) (c : Int → ℝ) (g : Int → Int → ℝ)
    (hc : ∀ mn, 0 ≤ mn → mn < s.mnmax_nyq → c mn = nyqCos s s.nfp (nyqPoloidal s (cosmuiNyq s) g) (nyqPoloidal s (fun ml => (polTables fastPoloidal s ml).sinmui) g) (xm mn) (xn mn))
    (k l : Int) (k0 : 0 ≤ k) (k1 : k < s.nZeta) (l0 : 0 ≤ l) (l1 : l < s.nThetaReduced) :
    combinedCos s.mnmax_nyq xm xn c (thetaGrid s l) (phiGrid s k) = if l = 0 ∨ l = s.nThetaReduced - 1 then (g k l + g (-k % s.nZeta) l) / 2 else g k l := by
  obtain ⟨h1, h2, h3, h4⟩ := nyq_sizes hs
  obtain ⟨_, _, _, h5, h6⟩ := nZnT_eq hs
  obtain ⟨_, t2⟩ := nyq_table hs xm xn ht
  set nm : ℝ := 1 / ((s.nZeta * (s.nThetaReduced - 1) : Int) : ℝ) with hnm
  have step := combine_cos hs xm xn ht c (fun m n => nm * modeWeight s.mnyq m * modeWeight s.nnyq n * gridSum s Real.cos Real.cos g m n)
    (fun m n => nm * 2 * 2 * gridSum s Real.sin Real.sin g m n) (by
      intro m n hv
      obtain ⟨i0, i1⟩ := idx_range hs m n hv
      obtain ⟨v1, v2, v3, v4⟩ := hv
      have habs : |n| ≤ s.nnyq := by
        rw [abs_le]
        split_ifs at v4 <;> omega
      rw [hc _ i0 i1, (t2 m n ⟨v1, v2, v3, v4⟩).1, (t2 m n ⟨v1, v2, v3, v4⟩).2, nyqCos_eq hs g m n v1 (by omega) habs]
      have ec : gridSum s Real.cos Real.cos g m n = gridSum s Real.cos Real.cos g m |n| := by
        rcases abs_choice n with h | h
        · rw [h]
        · rw [h, gridSum_neg_cos hs]
      have es : gridSum s Real.sin Real.sin g m n = n.sign * gridSum s Real.sin Real.sin g m |n| := by
        rcases lt_trichotomy n 0 with h | h | h
        · rw [abs_of_neg h, gridSum_neg_sin hs, Int.sign_eq_neg_one_of_neg h]; push_cast; ring
        · subst h; rw [gridSum_sin_zero hs _ _ _ _ _ (Or.inr ⟨by simp, rfl⟩)]; simp
        · rw [abs_of_pos h, Int.sign_eq_one_of_pos h]; push_cast; ring
      unfold coefWeight
      rw [← hnm]
      by_cases hm : m = 0
      · rw [if_pos (Or.inl hm), gridSum_sin_zero hs Real.sin _ _ _ _ (Or.inl ⟨by simp, hm⟩), ec, if_neg (show ¬ m = s.mnyq by omega)]
        simp only [modeWeight, if_pos hm]
        by_cases hn : n = 0
        · rw [if_pos ⟨hm, hn⟩, if_neg (fun h => h.2 hn), if_pos (by simpa using hn)]; ring
        · rw [if_neg (fun h => hn h.2), if_neg (show ¬ |n| = 0 by simpa using hn)]
          by_cases hN : |n| = s.nnyq
          · rw [if_pos ⟨hN, hn⟩, if_pos hN]; ring
          · rw [if_neg (fun h => hN h.1), if_neg hN]; ring
      · rw [if_neg (show ¬ (m = 0 ∧ n = 0) from fun h => hm h.1)]
        simp only [modeWeight, if_neg hm]
        by_cases hn : n = 0
        · rw [if_pos (show m = 0 ∨ n = 0 from Or.inr hn), ec, gridSum_sin_zero hs _ Real.sin _ _ _ (Or.inr ⟨by simp, hn⟩), if_neg (show ¬ (|n| = s.nnyq ∧ n ≠ 0) from fun h => h.2 hn), if_pos (show |n| = 0 by simpa using hn)]
          split_ifs <;> ring
        · rw [if_neg (show ¬ (m = 0 ∨ n = 0) by tauto), ec, es, if_neg (show ¬ |n| = 0 by simpa using hn)]
          by_cases hN : |n| = s.nnyq
          · rw [if_pos (show |n| = s.nnyq ∧ n ≠ 0 from ⟨hN, hn⟩), if_pos hN]; split_ifs <;> ring
          · rw [if_neg (show ¬ (|n| = s.nnyq ∧ n ≠ 0) from fun h => hN h.1), if_neg hN]; split_ifs <;> ring) (thetaGrid s l) (phiGrid s k)
  rw [step]
  simp only [nfp_phi hs, Finset.sum_add_distrib]
  unfold gridSum
  rw [exchange hs (s.mnyq + 1) (s.nnyq + 1) nm (modeWeight s.mnyq) (modeWeight s.nnyq) (fun m l => Real.cos (m * thetaGrid s l)) (fun m l => Real.cos (m * thetaGrid s l))
      (fun n k => Real.cos (n * zetaGrid s k)) (fun n k => Real.cos (n * zetaGrid s k)) g l k,
    exchange hs (s.mnyq + 1) (s.nnyq + 1) nm (fun _ => 2) (fun _ => 2) (fun m l => Real.sin (m * thetaGrid s l)) (fun m l => Real.sin (m * thetaGrid s l))
      (fun n k => Real.sin (n * zetaGrid s k)) (fun n k => Real.sin (n * zetaGrid s k)) g l k]
  have e1 : ∑ k' ∈ Ico 0 s.nZeta, ∑ l' ∈ Ico 0 s.nThetaReduced, g k' l' * ((∑ m ∈ Ico 0 (s.mnyq + 1), modeWeight s.mnyq m * (Real.cos (m * thetaGrid s l) * Real.cos (m * thetaGrid s l'))) * endWeight s l') *
      ∑ n ∈ Ico 0 (s.nnyq + 1), modeWeight s.nnyq n * (Real.cos (n * zetaGrid s k) * Real.cos (n * zetaGrid s k')) = s.mnyq * s.nZeta * (g k l + 1 * g (-k % s.nZeta) l) / 2 := by
    refine Eq.trans (Finset.sum_congr rfl fun k' hk => Finset.sum_congr rfl fun l' hl => ?_) ((pick_kl hs s.mnyq g k l k0 k1 l0 l1 True 1).trans (if_pos trivial))
    rw [Finset.mem_Ico] at hk hl
    rw [theta_cos hs l l' l0 l1 hl.1 hl.2, zeta_cos hs hz k k' k0 k1 hk.1 hk.2]
    simp only [one_mul, and_true]
  have e2 : ∑ k' ∈ Ico 0 s.nZeta, ∑ l' ∈ Ico 0 s.nThetaReduced, g k' l' * ((∑ m ∈ Ico 0 (s.mnyq + 1), 2 * (Real.sin (m * thetaGrid s l) * Real.sin (m * thetaGrid s l'))) * endWeight s l') *
      ∑ n ∈ Ico 0 (s.nnyq + 1), 2 * (Real.sin (n * zetaGrid s k) * Real.sin (n * zetaGrid s k')) = if l ≠ 0 ∧ l ≠ s.nThetaReduced - 1 then s.mnyq * s.nZeta * (g k l + (-1) * g (-k % s.nZeta) l) / 2 else 0 := by
    refine Eq.trans (Finset.sum_congr rfl fun k' hk => Finset.sum_congr rfl fun l' hl => ?_) (pick_kl hs s.mnyq g k l k0 k1 l0 l1 (l ≠ 0 ∧ l ≠ s.nThetaReduced - 1) (-1))
    rw [Finset.mem_Ico] at hk hl
    rw [theta_sin hs l l' l0 l1 hl.1 hl.2, zeta_sin hs hz k k' k0 k1 hk.1 hk.2]
    ring
  rw [e1, e2, hnm, ← h1]
  have hZ : (s.nZeta : ℝ) ≠ 0 := by exact_mod_cast (by omega : s.nZeta ≠ 0)
  have hM : (s.mnyq : ℝ) ≠ 0 := by exact_mod_cast (by omega : s.mnyq ≠ 0)
  push_cast
  by_cases he : l = 0 ∨ l = s.mnyq
  · rw [if_neg (by tauto), if_pos he]; field_simp; ring
  · rw [if_pos (by tauto), if_neg he]; field_simp; ring

/-- coefficients of a series of `sin(mθ - nζ)` -/
theorem recon_sin (hz : s.nZeta = 1 ∨ 2 ∣ s.nZeta) (xm xn : Int → Int) (ht : computeConversionIndices s.nnyq (s.mnyq + 1) s.nfp = .ok (xm, xn)) (c : Int → ℝ) (g : Int → Int → ℝ)
    (hc : ∀ mn, 0 ≤ mn → mn < s.mnmax_nyq → c mn = nyqSin s s.nfp (nyqPoloidal s (cosmuiNyq s) g) (nyqPoloidal s (fun ml => (polTables fastPoloidal s ml).sinmui) g) (xm mn) (xn mn))
    (k l : Int) (k0 : 0 ≤ k) (k1 : k < s.nZeta) (l0 : 0 ≤ l) (l1 : l < s.nThetaReduced) :
    combinedSin s.mnmax_nyq xm xn c (thetaGrid s l) (phiGrid s k) = if l = 0 ∨ l = s.nThetaReduced - 1 then (g k l - g (-k % s.nZeta) l) / 2 else g k l := by
  obtain ⟨h1, h2, h3, h4⟩ := nyq_sizes hs
  obtain ⟨_, _, _, h5, h6⟩ := nZnT_eq hs
  obtain ⟨_, t2⟩ := nyq_table hs xm xn ht
  set nm : ℝ := 1 / ((s.nZeta * (s.nThetaReduced - 1) : Int) : ℝ) with hnm
  have step := combine_sin hs xm xn ht c (fun m n => nm * 2 * modeWeight s.nnyq n * gridSum s Real.sin Real.cos g m n)
    (fun m n => nm * modeWeight s.mnyq m * 2 * gridSum s Real.cos Real.sin g m n) (by
      intro m n hv
      obtain ⟨i0, i1⟩ := idx_range hs m n hv
      obtain ⟨v1, v2, v3, v4⟩ := hv
      have habs : |n| ≤ s.nnyq := by
        rw [abs_le]
        split_ifs at v4 <;> omega
      rw [hc _ i0 i1, (t2 m n ⟨v1, v2, v3, v4⟩).1, (t2 m n ⟨v1, v2, v3, v4⟩).2, nyqSin_eq hs g m n v1 (by omega) habs]
      have ec : gridSum s Real.sin Real.cos g m n = gridSum s Real.sin Real.cos g m |n| := by
        rcases abs_choice n with h | h
        · rw [h]
        · rw [h, gridSum_neg_cos hs]
      have es : gridSum s Real.cos Real.sin g m n = n.sign * gridSum s Real.cos Real.sin g m |n| := by
        rcases lt_trichotomy n 0 with h | h | h
        · rw [abs_of_neg h, gridSum_neg_sin hs, Int.sign_eq_neg_one_of_neg h]; push_cast; ring
        · subst h; rw [gridSum_sin_zero hs _ _ _ _ _ (Or.inr ⟨by simp, rfl⟩)]; simp
        · rw [abs_of_pos h, Int.sign_eq_one_of_pos h]; push_cast; ring
      unfold coefWeight
      rw [← hnm]
      by_cases hm : m = 0
      · have hn0 : 0 ≤ n := by rw [if_pos hm] at v4; exact v4
        rw [if_pos (show m = 0 from hm), gridSum_sin_zero hs Real.sin Real.cos _ _ _ (Or.inl ⟨by simp, hm⟩), if_neg (show ¬ m = s.mnyq by omega), abs_of_nonneg hn0]
        simp only [modeWeight, if_pos hm]
        by_cases hn : n = 0
        · rw [gridSum_sin_zero hs _ Real.sin _ _ _ (Or.inr ⟨by simp, hn⟩)]; ring
        · rw [if_neg (show ¬ (m = 0 ∧ n = 0) from fun h => hn h.2)]; ring
      · rw [if_neg (show ¬ m = 0 from hm), if_neg (show ¬ (m = 0 ∧ n = 0) from fun h => hm h.1)]
        simp only [modeWeight, if_neg hm]
        by_cases hn : n = 0
        · rw [if_pos (show n = 0 from hn), ec, gridSum_sin_zero hs _ Real.sin _ _ n (Or.inr ⟨by simp, hn⟩), if_neg (show ¬ (|n| = s.nnyq ∧ n ≠ 0) from fun h => h.2 hn), if_pos (show |n| = 0 by simpa using hn)]
          ring
        · rw [if_neg (show ¬ n = 0 from hn), ec, es, if_neg (show ¬ |n| = 0 by simpa using hn)]
          by_cases hN : |n| = s.nnyq
          · rw [if_pos (show |n| = s.nnyq ∧ n ≠ 0 from ⟨hN, hn⟩), if_pos hN]; split_ifs <;> ring
          · rw [if_neg (show ¬ (|n| = s.nnyq ∧ n ≠ 0) from fun h => hN h.1), if_neg hN]; split_ifs <;> ring) (thetaGrid s l) (phiGrid s k)
  rw [step]
  simp only [nfp_phi hs, Finset.sum_add_distrib]
  unfold gridSum
  rw [exchange hs (s.mnyq + 1) (s.nnyq + 1) nm (fun _ => 2) (modeWeight s.nnyq) (fun m l => Real.sin (m * thetaGrid s l)) (fun m l => Real.sin (m * thetaGrid s l))
      (fun n k => Real.cos (n * zetaGrid s k)) (fun n k => Real.cos (n * zetaGrid s k)) g l k,
    exchange hs (s.mnyq + 1) (s.nnyq + 1) nm (modeWeight s.mnyq) (fun _ => 2) (fun m l => Real.cos (m * thetaGrid s l)) (fun m l => Real.cos (m * thetaGrid s l))
      (fun n k => Real.sin (n * zetaGrid s k)) (fun n k => Real.sin (n * zetaGrid s k)) g l k]
  have e1 : ∑ k' ∈ Ico 0 s.nZeta, ∑ l' ∈ Ico 0 s.nThetaReduced, g k' l' * ((∑ m ∈ Ico 0 (s.mnyq + 1), modeWeight s.mnyq m * (Real.cos (m * thetaGrid s l) * Real.cos (m * thetaGrid s l'))) * endWeight s l') *
      ∑ n ∈ Ico 0 (s.nnyq + 1), 2 * (Real.sin (n * zetaGrid s k) * Real.sin (n * zetaGrid s k')) = s.mnyq * s.nZeta * (g k l + (-1) * g (-k % s.nZeta) l) / 2 := by
    refine Eq.trans (Finset.sum_congr rfl fun k' hk => Finset.sum_congr rfl fun l' hl => ?_) ((pick_kl hs s.mnyq g k l k0 k1 l0 l1 True (-1)).trans (if_pos trivial))
    rw [Finset.mem_Ico] at hk hl
    rw [theta_cos hs l l' l0 l1 hl.1 hl.2, zeta_sin hs hz k k' k0 k1 hk.1 hk.2]
    simp only [and_true]
    ring
  have e2 : ∑ k' ∈ Ico 0 s.nZeta, ∑ l' ∈ Ico 0 s.nThetaReduced, g k' l' * ((∑ m ∈ Ico 0 (s.mnyq + 1), 2 * (Real.sin (m * thetaGrid s l) * Real.sin (m * thetaGrid s l'))) * endWeight s l') *
      ∑ n ∈ Ico 0 (s.nnyq + 1), modeWeight s.nnyq n * (Real.cos (n * zetaGrid s k) * Real.cos (n * zetaGrid s k')) = if l ≠ 0 ∧ l ≠ s.nThetaReduced - 1 then s.mnyq * s.nZeta * (g k l + 1 * g (-k % s.nZeta) l) / 2 else 0 := by
    refine Eq.trans (Finset.sum_congr rfl fun k' hk => Finset.sum_congr rfl fun l' hl => ?_) (pick_kl hs s.mnyq g k l k0 k1 l0 l1 (l ≠ 0 ∧ l ≠ s.nThetaReduced - 1) 1)
    rw [Finset.mem_Ico] at hk hl
    rw [theta_sin hs l l' l0 l1 hl.1 hl.2, zeta_cos hs hz k k' k0 k1 hk.1 hk.2, one_mul]
  rw [e1, e2, hnm, ← h1]
  have hZ : (s.nZeta : ℝ) ≠ 0 := by exact_mod_cast (by omega : s.nZeta ≠ 0)
  have hM : (s.mnyq : ℝ) ≠ 0 := by exact_mod_cast (by omega : s.mnyq ≠ 0)
  push_cast
  by_cases he : l = 0 ∨ l = s.mnyq
  · rw [if_neg (by tauto), if_pos he]; field_simp; ring
  · rw [if_pos (by tauto), if_neg he]; field_simp; ring


theorem nyqPart_eq (sign : ℝ) (f : Int → ℝ) (j k l : Int) (k0 : 0 ≤ k) (k1 : k < s.nZeta) (l0 : 0 ≤ l) (l1 : l < s.nThetaReduced) :
    nyqPart s sign f j k l = if s.lasym then gridPart s sign (onGrid s f j) k l else onGrid s f j k l := by
  obtain ⟨h1, h2, h3, h4, h5⟩ := nZnT_eq hs
  have e (k l : Int) : f ((j * s.nZeta + k) * s.nThetaEff + l) = onGrid s f j k l := by
    unfold onGrid; congr 1; rw [h1]; ring
  unfold nyqPart gridPart
  simp only [e]
  split_ifs with hl
  · rw [rev_mod hs k s.nZeta k0 k1]
    rw [if_pos hl] at h2
    rw [h2, rev_mod hs l s.nThetaEven l0 (by omega)]
    ring
  · rfl

/-- the transform only sees the reduced grid -/
theorem gridSum_congr (U V : ℝ → ℝ) (g g' : Int → Int → ℝ) (m n : Int) (h : ∀ k l, 0 ≤ k → k < s.nZeta → 0 ≤ l → l < s.nThetaReduced → g k l = g' k l) :
    gridSum s U V g m n = gridSum s U V g' m n := by
  unfold gridSum
  refine Finset.sum_congr rfl fun k hk => Finset.sum_congr rfl fun l hl => ?_
  rw [Finset.mem_Ico] at hk hl
  rw [h k l hk.1 hk.2 hl.1 hl.2]

/-- each entry of the mode table is a mode -/
theorem table_mode (xm xn : Int → Int) (ht : computeConversionIndices s.nnyq (s.mnyq + 1) s.nfp = .ok (xm, xn)) (mn : Int) (m0 : 0 ≤ mn) (m1 : mn < s.mnmax_nyq) :
    ∃ n, xn mn = n * s.nfp ∧ 0 ≤ xm mn ∧ xm mn ≤ s.mnyq ∧ |n| ≤ s.nnyq := by
  obtain ⟨h1, h2, h3, h4⟩ := nyq_sizes hs
  obtain ⟨_, _, _, h5, h6⟩ := nZnT_eq hs
  obtain ⟨_, _, _, _, t3, _⟩ := C09_mode_table (s.mnyq + 1) s.nnyq s.nfp (by omega) (by omega)
  rw [(C09_table_sizes lasym nfp mpol ntor ntheta nzeta mg ng s hs).2] at m1
  obtain ⟨⟨m, n⟩, ⟨hv, e⟩, _⟩ := t3 mn m0 m1
  simp only at hv e
  have hnn : m = 0 → 0 ≤ n := by
    obtain ⟨_, _, _, v4⟩ := hv
    rintro rfl; simpa using v4
  rw [mnIdx_eq hnn, Outcome.ok.injEq] at e
  obtain ⟨x1, x2⟩ := (nyq_table hs xm xn ht).2 m n hv
  rw [e] at x1 x2
  obtain ⟨v1, v2, v3, v4⟩ := hv
  refine ⟨n, x2, by omega, by omega, ?_⟩
  rw [abs_le]
  split_ifs at v4 <;> omega

theorem combinedCos_refl (xm xn : Int → Int) (ht : computeConversionIndices s.nnyq (s.mnyq + 1) s.nfp = .ok (xm, xn)) (c : Int → ℝ) (k l : Int)
    (k0 : 0 ≤ k) (k1 : k < s.nZeta) (l0 : 0 ≤ l) (l1 : l < s.nThetaEven) :
    combinedCos s.mnmax_nyq xm xn c (thetaGrid s (-l % s.nThetaEven)) (phiGrid s (-k % s.nZeta)) = combinedCos s.mnmax_nyq xm xn c (thetaGrid s l) (phiGrid s k) := by
  obtain ⟨a, ha⟩ := theta_rev hs l l0 l1
  obtain ⟨b, hb⟩ := zeta_rev hs k k0 k1
  refine Finset.sum_congr rfl fun i hi => ?_
  rw [Finset.mem_Ico] at hi
  obtain ⟨n, hn, _⟩ := table_mode hs xm xn ht i hi.1 hi.2
  have e1 := nfp_phi hs k
  have e2 := nfp_phi hs (-k % s.nZeta)
  have : (xm i : ℝ) * thetaGrid s (-l % s.nThetaEven) - xn i * phiGrid s (-k % s.nZeta) = ((xm i * a - n * b : Int) : ℝ) * (2 * Real.pi) - (xm i * thetaGrid s l - xn i * phiGrid s k) := by
    rw [hn]; push_cast
    rw [mul_assoc (n : ℝ), mul_assoc (n : ℝ), e1, e2, ha, hb]; ring
  rw [this, Real.cos_int_mul_two_pi_sub]

theorem combinedSin_refl (xm xn : Int → Int) (ht : computeConversionIndices s.nnyq (s.mnyq + 1) s.nfp = .ok (xm, xn)) (c : Int → ℝ) (k l : Int)
    (k0 : 0 ≤ k) (k1 : k < s.nZeta) (l0 : 0 ≤ l) (l1 : l < s.nThetaEven) :
    combinedSin s.mnmax_nyq xm xn c (thetaGrid s (-l % s.nThetaEven)) (phiGrid s (-k % s.nZeta)) = -combinedSin s.mnmax_nyq xm xn c (thetaGrid s l) (phiGrid s k) := by
  obtain ⟨a, ha⟩ := theta_rev hs l l0 l1
  obtain ⟨b, hb⟩ := zeta_rev hs k k0 k1
  unfold combinedSin
  rw [← Finset.sum_neg_distrib]
  refine Finset.sum_congr rfl fun i hi => ?_
  rw [Finset.mem_Ico] at hi
  obtain ⟨n, hn, _⟩ := table_mode hs xm xn ht i hi.1 hi.2
  have e1 := nfp_phi hs k
  have e2 := nfp_phi hs (-k % s.nZeta)
  have : (xm i : ℝ) * thetaGrid s (-l % s.nThetaEven) - xn i * phiGrid s (-k % s.nZeta) = ((xm i * a - n * b : Int) : ℝ) * (2 * Real.pi) - (xm i * thetaGrid s l - xn i * phiGrid s k) := by
    rw [hn]; push_cast
    rw [mul_assoc (n : ℝ), mul_assoc (n : ℝ), e1, e2, ha, hb]; ring
  rw [this, Real.sin_int_mul_two_pi_sub]; ring

theorem rev_in (q n : Int) (q0 : 0 ≤ q) (q1 : q < n) : 0 ≤ -q % n ∧ -q % n < n ∧ -(-q % n) % n = q ∧ (-q % n = if q = 0 then 0 else n - q) := by
  by_cases h : q = 0
  · subst h; simp; omega
  · have e : -q % n = n - q := by
      rw [show -q = (n - q) + n * (-1) by ring, Int.add_mul_emod_self_left]
      exact Int.emod_eq_of_lt (by omega) (by omega)
    refine ⟨by omega, by omega, ?_, by rw [if_neg h]; exact e⟩
    rw [e, show -(n - q) = q + n * (-1) by ring, Int.add_mul_emod_self_left]
    exact Int.emod_eq_of_lt q0 q1

/-- even and odd series of the two parts of grid values on the whole angular grid -/
theorem recon_lasym (hl : s.lasym = true) (f F G : Int → Int → ℝ)
    (hF : ∀ k l, 0 ≤ k → k < s.nZeta → 0 ≤ l → l < s.nThetaReduced →
      F k l = if l = 0 ∨ l = s.nThetaReduced - 1 then (gridPart s 1 f k l + gridPart s 1 f (-k % s.nZeta) l) / 2 else gridPart s 1 f k l)
    (hG : ∀ k l, 0 ≤ k → k < s.nZeta → 0 ≤ l → l < s.nThetaReduced →
      G k l = if l = 0 ∨ l = s.nThetaReduced - 1 then (gridPart s (-1) f k l - gridPart s (-1) f (-k % s.nZeta) l) / 2 else gridPart s (-1) f k l)
    (rF : ∀ k l, 0 ≤ k → k < s.nZeta → 0 ≤ l → l < s.nThetaEven → F (-k % s.nZeta) (-l % s.nThetaEven) = F k l)
    (rG : ∀ k l, 0 ≤ k → k < s.nZeta → 0 ≤ l → l < s.nThetaEven → G (-k % s.nZeta) (-l % s.nThetaEven) = -G k l)
    (k l : Int) (k0 : 0 ≤ k) (k1 : k < s.nZeta) (l0 : 0 ≤ l) (l1 : l < s.nThetaEff) : F k l + G k l = f k l := by
  obtain ⟨h1, h2, h3, h4, h5⟩ := nZnT_eq hs
  rw [if_pos hl] at h2
  have small (k l : Int) (k0 : 0 ≤ k) (k1 : k < s.nZeta) (l0 : 0 ≤ l) (l1 : l < s.nThetaReduced) :
      F k l = gridPart s 1 f k l ∧ G k l = gridPart s (-1) f k l := by
    obtain ⟨a0, a1, a2, _⟩ := rev_in hs k s.nZeta k0 k1
    rw [hF k l k0 k1 l0 l1, hG k l k0 k1 l0 l1]
    by_cases he : l = 0 ∨ l = s.nThetaReduced - 1
    · rw [if_pos he, if_pos he]
      have el : -l % s.nThetaEven = l := by
        obtain ⟨_, _, _, e⟩ := rev_in hs l s.nThetaEven l0 (by omega)
        rw [e]; split_ifs <;> omega
      unfold gridPart
      rw [a2, el]
      constructor <;> ring
    · rw [if_neg he, if_neg he]; exact ⟨rfl, rfl⟩
  by_cases hlr : l < s.nThetaReduced
  · rw [(small k l k0 k1 l0 hlr).1, (small k l k0 k1 l0 hlr).2]; unfold gridPart; ring
  · obtain ⟨a0, a1, a2, _⟩ := rev_in hs k s.nZeta k0 k1
    obtain ⟨b0, b1, b2, b3⟩ := rev_in hs l s.nThetaEven l0 (by omega)
    rw [if_neg (by omega)] at b3
    have e1 := rF k l k0 k1 l0 (by omega)
    have e2 := rG k l k0 k1 l0 (by omega)
    obtain ⟨c1, c2⟩ := small (-k % s.nZeta) (-l % s.nThetaEven) a0 a1 b0 (by omega)
    rw [c1] at e1
    rw [c2] at e2
    have e3 : G k l = -gridPart s (-1) f (-k % s.nZeta) (-l % s.nThetaEven) := by linarith
    rw [← e1, e3]
    unfold gridPart
    rw [a2, b2]
    ring

theorem cosMatrix_col (xm xn : Int → Int) (num shift : Int) (sign : ℝ) (f : Int → ℝ) (j : Int) (j0 : 0 ≤ j) (j1 : j < num) (mn : Int) (m0 : 0 ≤ mn) (m1 : mn < s.mnmax_nyq) :
    nyqCosMatrix s s.nfp num shift xm xn sign f mn (j + shift) =
      nyqCos s s.nfp (nyqPoloidal s (cosmuiNyq s) (nyqPart s sign f j)) (nyqPoloidal s (fun ml => (polTables fastPoloidal s ml).sinmui) (nyqPart s sign f j)) (xm mn) (xn mn) := by
  unfold nyqCosMatrix
  rw [nyqFill_eq _ _ _ _ _ m0 m1, add_sub_cancel_right, if_pos ⟨j0, j1⟩]
theorem sinMatrix_col (xm xn : Int → Int) (num shift : Int) (sign : ℝ) (f : Int → ℝ) (j : Int) (j0 : 0 ≤ j) (j1 : j < num) (mn : Int) (m0 : 0 ≤ mn) (m1 : mn < s.mnmax_nyq) :
    nyqSinMatrix s s.nfp num shift xm xn sign f mn (j + shift) =
      nyqSin s s.nfp (nyqPoloidal s (cosmuiNyq s) (nyqPart s sign f j)) (nyqPoloidal s (fun ml => (polTables fastPoloidal s ml).sinmui) (nyqPart s sign f j)) (xm mn) (xn mn) := by
  unfold nyqSinMatrix
  rw [nyqFill_eq _ _ _ _ _ m0 m1, add_sub_cancel_right, if_pos ⟨j0, j1⟩]

omit hs in
/-- the extrapolation to the axis does not change the other columns -/
theorem axisColumn_eq (w : Int → Int → ℝ) (mn c : Int) (hc : c ≠ 0) : axisColumn s w mn c = w mn c := by
  unfold axisColumn
  exact (Radial.pickLoop (fun w : Int → Int → ℝ => w mn c) (fun mn w => fun r c => if r = mn ∧ c = 0 then 2 * w mn 1 - w mn 2 else w r c) (lo := 0) (hi := s.mnmax_nyq) (i0 := s.mnmax_nyq) id
    (fun i w _ _ _ => if_neg (fun h => hc h.2)) (fun _ _ h => absurd h (lt_irrefl _)) w).trans (if_neg (fun e => lt_irrefl _ e.2))

theorem series_cos (hz : s.nZeta = 1 ∨ 2 ∣ s.nZeta) (xm xn : Int → Int) (ht : computeConversionIndices s.nnyq (s.mnyq + 1) s.nfp = .ok (xm, xn)) (num shift : Int) (sign : ℝ) (f : Int → ℝ)
    (j : Int) (j0 : 0 ≤ j) (j1 : j < num) (g : Int → Int → ℝ) (hg : ∀ k l, 0 ≤ k → k < s.nZeta → 0 ≤ l → l < s.nThetaReduced → nyqPart s sign f j k l = g k l)
    (k l : Int) (k0 : 0 ≤ k) (k1 : k < s.nZeta) (l0 : 0 ≤ l) (l1 : l < s.nThetaReduced) :
    combinedCos s.mnmax_nyq xm xn (fun mn => nyqCosMatrix s s.nfp num shift xm xn sign f mn (j + shift)) (thetaGrid s l) (phiGrid s k) =
      if l = 0 ∨ l = s.nThetaReduced - 1 then (g k l + g (-k % s.nZeta) l) / 2 else g k l := by
  obtain ⟨a0, a1, _⟩ := rev_in hs k s.nZeta k0 k1
  rw [recon_cos hs hz xm xn ht _ (nyqPart s sign f j) (fun mn m0 m1 => cosMatrix_col hs xm xn num shift sign f j j0 j1 mn m0 m1) k l k0 k1 l0 l1, hg k l k0 k1 l0 l1, hg _ l a0 a1 l0 l1]
theorem series_sin (hz : s.nZeta = 1 ∨ 2 ∣ s.nZeta) (xm xn : Int → Int) (ht : computeConversionIndices s.nnyq (s.mnyq + 1) s.nfp = .ok (xm, xn)) (num shift : Int) (sign : ℝ) (f : Int → ℝ)
    (j : Int) (j0 : 0 ≤ j) (j1 : j < num) (g : Int → Int → ℝ) (hg : ∀ k l, 0 ≤ k → k < s.nZeta → 0 ≤ l → l < s.nThetaReduced → nyqPart s sign f j k l = g k l)
    (k l : Int) (k0 : 0 ≤ k) (k1 : k < s.nZeta) (l0 : 0 ≤ l) (l1 : l < s.nThetaReduced) :
    combinedSin s.mnmax_nyq xm xn (fun mn => nyqSinMatrix s s.nfp num shift xm xn sign f mn (j + shift)) (thetaGrid s l) (phiGrid s k) =
      if l = 0 ∨ l = s.nThetaReduced - 1 then (g k l - g (-k % s.nZeta) l) / 2 else g k l := by
  obtain ⟨a0, a1, _⟩ := rev_in hs k s.nZeta k0 k1
  rw [recon_sin hs hz xm xn ht _ (nyqPart s sign f j) (fun mn m0 m1 => sinMatrix_col hs xm xn num shift sign f j j0 j1 mn m0 m1) k l k0 k1 l0 l1, hg k l k0 k1 l0 l1, hg _ l a0 a1 l0 l1]

/-- **C89** without `lasym`: if the field has the symmetry that it must have at `θ = 0` and `θ = π`, the series written to the output file has the value of the
    field at every grid point: cosine series of the even half-grid fields, sine series of `B_s` on the half and on the full grid. -/
theorem C89_symmetric_partial (hl : s.lasym = false) (hz : s.nZeta = 1 ∨ 2 ∣ s.nZeta) (xm xn : Int → Int) (ht : computeConversionIndices s.nnyq (s.mnyq + 1) s.nfp = .ok (xm, xn))
    (ns : Int) (f : Int → ℝ) (j : Int) (j0 : 0 ≤ j) :
    (j < ns - 1 → (∀ k l, 0 ≤ k → k < s.nZeta → l = 0 ∨ l = s.nThetaReduced - 1 → onGrid s f j (-k % s.nZeta) l = onGrid s f j k l) →
      ∀ k l, 0 ≤ k → k < s.nZeta → 0 ≤ l → l < s.nThetaEff →
        combinedCos s.mnmax_nyq xm xn (fun mn => halfMnc s s.nfp ns xm xn f mn (j + 1)) (thetaGrid s l) (phiGrid s k) = onGrid s f j k l) ∧
    (j < ns - 1 → (∀ k l, 0 ≤ k → k < s.nZeta → l = 0 ∨ l = s.nThetaReduced - 1 → onGrid s f j (-k % s.nZeta) l = -onGrid s f j k l) →
      ∀ k l, 0 ≤ k → k < s.nZeta → 0 ≤ l → l < s.nThetaEff →
        combinedSin s.mnmax_nyq xm xn (fun mn => bsubsmns s s.nfp ns xm xn f mn (j + 1)) (thetaGrid s l) (phiGrid s k) = onGrid s f j k l) ∧
    (j < ns → (∀ k l, 0 ≤ k → k < s.nZeta → l = 0 ∨ l = s.nThetaReduced - 1 → onGrid s f j (-k % s.nZeta) l = -onGrid s f j k l) →
      ∀ k l, 0 ≤ k → k < s.nZeta → 0 ≤ l → l < s.nThetaEff →
        combinedSin s.mnmax_nyq xm xn (fun mn => bsubsmns_full s s.nfp ns xm xn f mn j) (thetaGrid s l) (phiGrid s k) = onGrid s f j k l) := by
  obtain ⟨h1, h2, h3, h4, h5⟩ := nZnT_eq hs
  rw [if_neg (by rw [hl]; exact Bool.noConfusion)] at h2
  have hp (sign : ℝ) (k l : Int) (k0 : 0 ≤ k) (k1 : k < s.nZeta) (l0 : 0 ≤ l) (l1 : l < s.nThetaReduced) : nyqPart s sign f j k l = onGrid s f j k l := by
    rw [nyqPart_eq hs sign f j k l k0 k1 l0 l1, if_neg (by rw [hl]; exact Bool.noConfusion)]
  refine ⟨fun j1 hsym k l k0 k1 l0 l1 => ?_, fun j1 hsym k l k0 k1 l0 l1 => ?_, fun j1 hsym k l k0 k1 l0 l1 => ?_⟩
  · refine (series_cos hs hz xm xn ht (ns - 1) 1 1 f j j0 j1 _ (hp 1) k l k0 k1 l0 (by omega)).trans ?_
    split_ifs with he
    · rw [hsym k l k0 k1 he]; ring
    · rfl
  · have : (fun mn => bsubsmns s s.nfp ns xm xn f mn (j + 1)) = fun mn => nyqSinMatrix s s.nfp (ns - 1) 1 xm xn (-1) f mn (j + 1) :=
      funext fun mn => axisColumn_eq _ mn (j + 1) (by omega)
    rw [this]
    refine (series_sin hs hz xm xn ht (ns - 1) 1 (-1) f j j0 j1 _ (hp (-1)) k l k0 k1 l0 (by omega)).trans ?_
    split_ifs with he
    · rw [hsym k l k0 k1 he]; ring
    · rfl
  · have := (series_sin hs hz xm xn ht ns 0 (-1) f j j0 j1 _ (hp (-1)) k l k0 k1 l0 (by omega))
    rw [add_zero] at this
    refine this.trans ?_
    split_ifs with he
    · rw [hsym k l k0 k1 he]; ring
    · rfl

/-- **C89** with `lasym`: the sum of the cosine and sine series has the value of the field at every point of the full angular grid, for every field. -/
theorem C89_asymmetric_partial (hl : s.lasym = true) (hz : s.nZeta = 1 ∨ 2 ∣ s.nZeta) (xm xn : Int → Int) (ht : computeConversionIndices s.nnyq (s.mnyq + 1) s.nfp = .ok (xm, xn))
    (ns : Int) (f : Int → ℝ) (j : Int) (j0 : 0 ≤ j) (k l : Int) (k0 : 0 ≤ k) (k1 : k < s.nZeta) (l0 : 0 ≤ l) (l1 : l < s.nThetaEff) :
    (j < ns - 1 → combinedCos s.mnmax_nyq xm xn (fun mn => halfMnc s s.nfp ns xm xn f mn (j + 1)) (thetaGrid s l) (phiGrid s k) +
      combinedSin s.mnmax_nyq xm xn (fun mn => halfMns s s.nfp ns xm xn f mn (j + 1)) (thetaGrid s l) (phiGrid s k) = onGrid s f j k l) ∧
    (j < ns - 1 → combinedCos s.mnmax_nyq xm xn (fun mn => bsubsmnc s s.nfp ns xm xn f mn (j + 1)) (thetaGrid s l) (phiGrid s k) +
      combinedSin s.mnmax_nyq xm xn (fun mn => bsubsmns s s.nfp ns xm xn f mn (j + 1)) (thetaGrid s l) (phiGrid s k) = onGrid s f j k l) ∧
    (j < ns → combinedCos s.mnmax_nyq xm xn (fun mn => bsubsmnc_full s s.nfp ns xm xn f mn j) (thetaGrid s l) (phiGrid s k) +
      combinedSin s.mnmax_nyq xm xn (fun mn => bsubsmns_full s s.nfp ns xm xn f mn j) (thetaGrid s l) (phiGrid s k) = onGrid s f j k l) := by
  have hp (sign : ℝ) (k l : Int) (k0 : 0 ≤ k) (k1 : k < s.nZeta) (l0 : 0 ≤ l) (l1 : l < s.nThetaReduced) : nyqPart s sign f j k l = gridPart s sign (onGrid s f j) k l := by
    rw [nyqPart_eq hs sign f j k l k0 k1 l0 l1, if_pos hl]
  have gen (num shift : Int) (j1 : j < num) :
      combinedCos s.mnmax_nyq xm xn (fun mn => nyqCosMatrix s s.nfp num shift xm xn 1 f mn (j + shift)) (thetaGrid s l) (phiGrid s k) +
      combinedSin s.mnmax_nyq xm xn (fun mn => nyqSinMatrix s s.nfp num shift xm xn (-1) f mn (j + shift)) (thetaGrid s l) (phiGrid s k) = onGrid s f j k l :=
    recon_lasym hs hl (onGrid s f j) (fun k l => combinedCos s.mnmax_nyq xm xn (fun mn => nyqCosMatrix s s.nfp num shift xm xn 1 f mn (j + shift)) (thetaGrid s l) (phiGrid s k))
      (fun k l => combinedSin s.mnmax_nyq xm xn (fun mn => nyqSinMatrix s s.nfp num shift xm xn (-1) f mn (j + shift)) (thetaGrid s l) (phiGrid s k))
      (fun k l a b c d => series_cos hs hz xm xn ht num shift 1 f j j0 j1 _ (hp 1) k l a b c d)
      (fun k l a b c d => series_sin hs hz xm xn ht num shift (-1) f j j0 j1 _ (hp (-1)) k l a b c d)
      (fun k l a b c d => combinedCos_refl hs xm xn ht _ k l a b c d) (fun k l a b c d => combinedSin_refl hs xm xn ht _ k l a b c d) k l k0 k1 l0 l1
  refine ⟨fun j1 => ?_, fun j1 => ?_, fun j1 => ?_⟩
  · have := gen (ns - 1) 1 j1
    unfold halfMnc halfMns
    rw [if_pos hl]; exact this
  · have := gen (ns - 1) 1 j1
    unfold bsubsmns bsubsmnc
    rw [if_pos hl]
    simp only [axisColumn_eq _ _ (j + 1) (show j + 1 ≠ 0 by omega)]
    exact this
  · have := gen ns 0 j1
    rw [add_zero] at this
    unfold bsubsmns_full bsubsmnc_full
    rw [if_pos hl]; exact this

/-- the transform is linear -/
theorem nyqSin_linear (g g' : Int → Int → ℝ) (a b : ℝ) (m n : Int) (m0 : 0 ≤ m) (m1 : m ≤ s.mnyq) (n1 : |n| ≤ s.nnyq) :
    nyqSin s s.nfp (nyqPoloidal s (cosmuiNyq s) (fun k l => a * g k l + b * g' k l)) (nyqPoloidal s (fun ml => (polTables fastPoloidal s ml).sinmui) (fun k l => a * g k l + b * g' k l)) m (n * s.nfp) =
    a * nyqSin s s.nfp (nyqPoloidal s (cosmuiNyq s) g) (nyqPoloidal s (fun ml => (polTables fastPoloidal s ml).sinmui) g) m (n * s.nfp) +
    b * nyqSin s s.nfp (nyqPoloidal s (cosmuiNyq s) g') (nyqPoloidal s (fun ml => (polTables fastPoloidal s ml).sinmui) g') m (n * s.nfp) := by
  have lin (U V : ℝ → ℝ) : gridSum s U V (fun k l => a * g k l + b * g' k l) m n = a * gridSum s U V g m n + b * gridSum s U V g' m n := by
    unfold gridSum
    rw [Finset.mul_sum, Finset.mul_sum, ← Finset.sum_add_distrib]
    refine Finset.sum_congr rfl fun k _ => ?_
    rw [Finset.mul_sum, Finset.mul_sum, ← Finset.sum_add_distrib]
    exact Finset.sum_congr rfl fun l _ => by ring
  rw [nyqSin_eq hs _ m n m0 m1 n1, nyqSin_eq hs _ m n m0 m1 n1, nyqSin_eq hs _ m n m0 m1 n1, lin, lin]
  ring

/-- **C89**: `bsubsmns_full` at an interior surface is the mean of the two neighbouring columns of `bsubsmns`, so the two arrays describe the same field -/
theorem C89_full_mean (xm xn : Int → Int) (ht : computeConversionIndices s.nnyq (s.mnyq + 1) s.nfp = .ok (xm, xn))
    (ns : Int) (half full : Int → ℝ) (j : Int) (j0 : 1 ≤ j) (j1 : j < ns - 1)
    (hfull : ∀ kl, 0 ≤ kl → kl < s.nZnT → full (j * s.nZnT + kl) = (half (j * s.nZnT + kl) + half ((j - 1) * s.nZnT + kl)) / 2)
    (mn : Int) (m0 : 0 ≤ mn) (m1 : mn < s.mnmax_nyq) :
    bsubsmns_full s s.nfp ns xm xn full mn j = (bsubsmns s s.nfp ns xm xn half mn (j + 1) + bsubsmns s s.nfp ns xm xn half mn j) / 2 := by
  obtain ⟨h1, h2, h3, h4, h5⟩ := nZnT_eq hs
  obtain ⟨n, hn, x0, x1, hn1⟩ := table_mode hs xm xn ht mn m0 m1
  have e1 := sinMatrix_col hs xm xn ns 0 (-1) full j (by omega) (by omega) mn m0 m1
  have e2 := sinMatrix_col hs xm xn (ns - 1) 1 (-1) half j (by omega) (by omega) mn m0 m1
  have e3 := sinMatrix_col hs xm xn (ns - 1) 1 (-1) half (j - 1) (by omega) (by omega) mn m0 m1
  rw [add_zero] at e1
  rw [sub_add_cancel] at e3
  unfold bsubsmns_full bsubsmns
  rw [axisColumn_eq _ mn (j + 1) (by omega), axisColumn_eq _ mn j (by omega), e1, e2, e3, hn]
  have lin := nyqSin_linear hs (nyqPart s (-1) half j) (nyqPart s (-1) half (j - 1)) (1 / 2) (1 / 2) (xm mn) n x0 x1 hn1
  have hpart : ∀ k l, 0 ≤ k → k < s.nZeta → 0 ≤ l → l < s.nThetaReduced → nyqPart s (-1) full j k l = 1 / 2 * nyqPart s (-1) half j k l + 1 / 2 * nyqPart s (-1) half (j - 1) k l := by
    intro k l k0 k1 l0 l1
    have g (k l : Int) (k0 : 0 ≤ k) (k1 : k < s.nZeta) (l0 : 0 ≤ l) (l1 : l < s.nThetaEff) : onGrid s full j k l = (onGrid s half j k l + onGrid s half (j - 1) k l) / 2 := by
      have r := kl_range k0 k1 l0 l1
      exact hfull (k * s.nThetaEff + l) r.1 (by rw [h1]; exact r.2)
    rw [nyqPart_eq hs _ _ _ k l k0 k1 l0 l1, nyqPart_eq hs _ _ _ k l k0 k1 l0 l1, nyqPart_eq hs _ _ _ k l k0 k1 l0 l1]
    split_ifs with hl
    · rw [if_pos hl] at h2
      obtain ⟨a0, a1, _⟩ := rev_in hs k s.nZeta k0 k1
      obtain ⟨b0, b1, _⟩ := rev_in hs l s.nThetaEven l0 (by omega)
      unfold gridPart
      rw [g k l k0 k1 l0 (by omega), g _ _ a0 a1 b0 (by omega)]
      ring
    · rw [if_neg hl] at h2
      rw [g k l k0 k1 l0 (by omega)]; ring
  rw [nyqSin_eq hs _ _ n x0 x1 hn1, gridSum_congr hs _ _ _ _ _ _ hpart, gridSum_congr hs _ _ _ _ _ _ hpart, ← nyqSin_eq hs _ _ n x0 x1 hn1, lin]
  ring

/-- **C89** fails for an odd number of toroidal grid points: the coefficient of `cos(N ζ)`, `N = (nZeta - 1)/2`, of the field `cos(N ζ)` is written as 1/2 -/
theorem C89_odd_fails (hz : ¬ 2 ∣ s.nZeta) (hz3 : 3 ≤ s.nZeta) (xm xn : Int → Int) (ht : computeConversionIndices s.nnyq (s.mnyq + 1) s.nfp = .ok (xm, xn))
    (ns : Int) (j : Int) (j0 : 0 ≤ j) (j1 : j < ns - 1) (f : Int → ℝ)
    (hf : ∀ k l, 0 ≤ k → k < s.nZeta → 0 ≤ l → l < s.nThetaEff → onGrid s f j k l = Real.cos (s.nnyq * zetaGrid s k)) :
    xm s.nnyq = 0 ∧ xn s.nnyq = s.nnyq * s.nfp ∧ halfMnc s s.nfp ns xm xn f s.nnyq (j + 1) = 1 / 2 := by
  obtain ⟨h1, h2, h3, h4⟩ := nyq_sizes hs
  obtain ⟨q1, q2, q3, q4, q5⟩ := nZnT_eq hs
  have hv : validMode (s.mnyq + 1) s.nnyq 0 s.nnyq := ⟨le_refl 0, by omega, le_refl _, by rw [if_pos rfl]; omega⟩
  obtain ⟨x1, x2⟩ := (nyq_table hs xm xn ht).2 0 s.nnyq hv
  obtain ⟨i0, i1⟩ := idx_range hs 0 s.nnyq hv
  rw [idx_zero] at x1 x2 i0 i1
  refine ⟨x1, x2, ?_⟩
  unfold halfMnc
  have hpart : ∀ k l, 0 ≤ k → k < s.nZeta → 0 ≤ l → l < s.nThetaReduced → nyqPart s 1 f j k l = Real.cos (s.nnyq * zetaGrid s k) := by
    intro k l k0 k1 l0 l1
    rw [nyqPart_eq hs _ _ _ k l k0 k1 l0 l1]
    split_ifs with hl
    · rw [if_pos hl] at q2
      obtain ⟨a0, a1, _⟩ := rev_in hs k s.nZeta k0 k1
      obtain ⟨b0, b1, _⟩ := rev_in hs l s.nThetaEven l0 (by omega)
      obtain ⟨a, ha⟩ := zeta_rev hs k k0 k1
      unfold gridPart
      rw [hf k l k0 k1 l0 (by omega), hf _ _ a0 a1 b0 (by omega), ha, cos_refl]
      ring
    · rw [if_neg hl] at q2
      exact hf k l k0 k1 l0 (by omega)
  rw [cosMatrix_col hs xm xn (ns - 1) 1 1 f j j0 j1 s.nnyq i0 i1, x1, x2, nyqCos_eq hs _ 0 s.nnyq (le_refl 0) (by omega) (by rw [abs_of_nonneg (by omega)]),
    gridSum_congr hs _ _ _ _ _ _ hpart, gridSum_sin_zero hs Real.sin _ _ 0 _ (Or.inl ⟨by simp, rfl⟩), if_neg (by omega), if_pos ⟨abs_of_nonneg (by omega), by omega⟩]
  unfold coefWeight
  rw [if_neg (by omega)]
  have hsum : gridSum s Real.cos Real.cos (fun k _ => Real.cos (s.nnyq * zetaGrid s k)) 0 s.nnyq = (s.nThetaReduced - 1) * (s.nZeta / 2) := by
    unfold gridSum
    have hw : ∑ l ∈ Ico 0 s.nThetaReduced, endWeight s l = s.nThetaReduced - 1 := by
      rw [show s.nThetaReduced = (s.nThetaReduced - 1) + 1 by ring, ends_sum (s.nThetaReduced - 1) (by omega)]
      have : ∑ l ∈ Ico 1 (s.nThetaReduced - 1), endWeight s l = ∑ l ∈ Ico 1 (s.nThetaReduced - 1), (1 : ℝ) := by
        refine Finset.sum_congr rfl fun l hl => ?_
        rw [Finset.mem_Ico] at hl
        unfold endWeight; rw [if_neg (by omega)]
      rw [this]
      simp only [Finset.sum_const, Int.card_Ico, nsmul_eq_mul, mul_one]
      have e : (((s.nThetaReduced - 1 - 1).toNat : ℕ) : ℝ) = s.nThetaReduced - 1 - 1 := by
        have : ((s.nThetaReduced - 1 - 1).toNat : Int) = s.nThetaReduced - 1 - 1 := by omega
        exact_mod_cast congrArg (Int.cast (R := ℝ)) this
      rw [e]
      unfold endWeight
      rw [if_pos (Or.inl rfl), if_pos (Or.inr rfl)]
      push_cast; ring
    have hk : ∑ k ∈ Ico 0 s.nZeta, Real.cos (s.nnyq * zetaGrid s k) * Real.cos (s.nnyq * zetaGrid s k) = s.nZeta / 2 := by
      have := cos_cos_sum s.nZeta (by omega) s.nnyq s.nnyq
      unfold zetaGrid
      rw [this, if_pos (by simp), if_neg (fun h => by have := (dvd_small (N := s.nZeta) (p := s.nnyq + s.nnyq) (by omega) (by omega)).1 h; omega)]
      ring
    rw [← hw, ← hk, Finset.sum_mul_sum, Finset.sum_comm]
    refine Finset.sum_congr rfl fun k _ => Finset.sum_congr rfl fun l _ => ?_
    simp; ring
  rw [hsum]
  have hZ : (s.nZeta : ℝ) ≠ 0 := by exact_mod_cast (by omega : s.nZeta ≠ 0)
  have hM : ((s.nThetaReduced : ℝ) - 1) ≠ 0 := by
    have : ((s.nThetaReduced - 1 : Int) : ℝ) ≠ 0 := by exact_mod_cast (by omega : s.nThetaReduced - 1 ≠ 0)
    push_cast at this; exact this
  push_cast
  field_simp
  ring

omit hs in
/-- **C89**: what is transformed for `bmnc` is `|B|` -/
theorem C89_absB (ns : Int) (total_pressure presH B : Int → ℝ) (j kl : Int) (j0 : 0 ≤ j) (j1 : j < ns - 1) (k0 : 0 ≤ kl) (k1 : kl < s.nZnT)
    (h : total_pressure (j * s.nZnT + kl) = presH j + B (j * s.nZnT + kl) ^ 2 / 2) : absB s ns total_pressure presH (j * s.nZnT + kl) = |B (j * s.nZnT + kl)| := by
  unfold absB
  rw [fillGrid_in (n := s.nZnT) j0 j1 k0 k1, h, add_sub_cancel_left, abs_of_nonneg (by positivity), mul_div_cancel₀ _ two_ne_zero, Real.sqrt_sq_eq_abs]

end

/-! ## the hypotheses are met -/

example : ∃ s, Sizes.mk true 5 6 4 0 36 0 0 = .ok s ∧ s.lasym = true ∧ (2 : Int) ∣ s.nZeta ∧ ∃ xm xn, computeConversionIndices s.nnyq (s.mnyq + 1) s.nfp = .ok (xm, xn) := by
  obtain ⟨s, hs⟩ : ∃ s, Sizes.mk true 5 6 4 0 36 0 0 = .ok s := ⟨_, rfl⟩
  refine ⟨s, hs, ?_, ?_, ?_⟩
  · cases hs; rfl
  · cases hs; decide
  · obtain ⟨_, _, _, h5, h6⟩ := nZnT_eq hs
    obtain ⟨h1, h2, _⟩ := nyq_sizes hs
    obtain ⟨xm, xn, h, _⟩ := C09_mode_table (s.mnyq + 1) s.nnyq s.nfp (by omega) (by omega)
    exact ⟨xm, xn, h⟩

/-- a symmetric field that is not constant, and an odd number of toroidal grid points -/
example : ∃ s, Sizes.mk false 5 6 4 0 36 0 0 = .ok s ∧ s.lasym = false ∧ (2 : Int) ∣ s.nZeta ∧
    ∀ k l, 0 ≤ k → k < s.nZeta → l = 0 ∨ l = s.nThetaReduced - 1 → onGrid s (fun i => if i.tmod s.nThetaEff = 0 then 1 else 2) 0 (-k % s.nZeta) l =
      onGrid s (fun i => if i.tmod s.nThetaEff = 0 then 1 else 2) 0 k l := by
  obtain ⟨s, hs⟩ : ∃ s, Sizes.mk false 5 6 4 0 36 0 0 = .ok s := ⟨_, rfl⟩
  refine ⟨s, hs, ?_, ?_, ?_⟩
  · cases hs; rfl
  · cases hs; decide
  · intro k l k0 k1 hl
    obtain ⟨q1, q2, q3, q4, q5⟩ := nZnT_eq hs
    have e : s.nThetaEff = s.nThetaReduced := by cases hs; rfl
    obtain ⟨a0, a1, _⟩ := rev_in hs k s.nZeta k0 k1
    have key (k : Int) (k0 : 0 ≤ k) : (0 * s.nZnT + (k * s.nThetaEff + l)).tmod s.nThetaEff = l := by
      have := mul_nonneg k0 (show 0 ≤ s.nThetaEff by omega)
      rw [Int.tmod_eq_emod_of_nonneg (by omega), zero_mul, zero_add, add_comm, Int.add_mul_emod_self_right]
      exact Int.emod_eq_of_lt (by omega) (by omega)
    unfold onGrid
    simp only [key _ k0, key _ a0]
example : ∃ s, Sizes.mk false 5 6 4 0 35 0 0 = .ok s ∧ ¬ (2 : Int) ∣ s.nZeta ∧ 3 ≤ s.nZeta := by
  refine ⟨_, rfl, ?_, ?_⟩ <;> decide

end Verif.Output
