import Verif.Output.Nyquist
import Verif.Output.NyquistDelta
import Verif.Output.FilterProps

/-! # Closed forms of the Nyquist transform -/
namespace Verif.Output
open Verif Verif.Fourier Finset

/-- sum over the reduced grid with the weights of the end points -/
noncomputable def gridSum (s : Sizes.Sizes) (U V : ℝ → ℝ) (g : Int → Int → ℝ) (m n : Int) : ℝ :=
  ∑ k ∈ Ico 0 s.nZeta, ∑ l ∈ Ico 0 s.nThetaReduced, endWeight s l * g k l * (U (m * thetaGrid s l) * V (n * zetaGrid s k))

theorem copy_loop (n : Int) (v : Int → ℝ) (a : Int → ℝ) (i : Int) (i0 : 0 ≤ i) (i1 : i < n) : forRange 0 n (fun i a => upd a i (v i)) a i = v i :=
  (Radial.pickLoop (fun a : Int → ℝ => a i) (fun j a => upd a j (v j)) (lo := 0) (hi := n) (i0 := i) (fun _ => v i)
    (fun j a _ _ hne => upd_ne _ _ (fun e => hne e.symm)) (fun a _ _ => upd_same _ _ _) a).trans (if_pos ⟨i0, i1⟩)

section
variable {s : Sizes.Sizes} {lasym : Bool} {nfp mpol ntor ntheta nzeta mg ng : Int} (hs : Sizes.mk lasym nfp mpol ntor ntheta nzeta mg ng = .ok s)
include hs

theorem cosmuiNyq_eq (m l : Int) (m0 : 0 ≤ m) (m1 : m ≤ s.mnyq) (l0 : 0 ≤ l) (l1 : l < s.nThetaReduced) :
    cosmuiNyq s (m * s.nThetaReduced + l) = (if m = s.mnyq then 1 / 2 else 1) * (polEntry s scale m l).cosmui := by
  obtain ⟨h1, h2, h3, h4⟩ := nyq_sizes hs
  obtain ⟨_, _, h5, h6, _⟩ := nZnT_eq hs
  have r := kl_range (Z := s.mnyq2 + 1) m0 (by omega) l0 l1
  have c := copy_loop (s.nThetaReduced * (s.mnyq2 + 1)) (fun ml => (polTables fastPoloidal s ml).cosmui) (fun _ => 0) (m * s.nThetaReduced + l) r.1 r.2
  have e : (polTables fastPoloidal s (m * s.nThetaReduced + l)).cosmui = (polEntry s scale m l).cosmui := by
    rw [← pol_eq fastPoloidal (Or.inl rfl) s m l m0 (by omega) l0 l1]; rfl
  simp only [e] at c
  unfold cosmuiNyq
  simp only
  rw [if_pos (by omega)]
  generalize forRange 0 (s.nThetaReduced * (s.mnyq2 + 1)) (fun ml a => upd a ml (polTables fastPoloidal s ml).cosmui) (fun _ => (0 : ℝ)) = a at *
  refine (Radial.pickLoop (fun a : Int → ℝ => a (m * s.nThetaReduced + l)) (fun l a => upd a (s.mnyq * s.nThetaReduced + l) (a (s.mnyq * s.nThetaReduced + l) / 2))
    (lo := 0) (hi := s.nThetaReduced) (i0 := l) (fun x => if m = s.mnyq then x / 2 else x) ?_ ?_ a).trans ?_
  · intro i a i0 i1 hne
    exact upd_ne _ _ (fun e => hne (Verif.flat_inj l0 l1 i0 i1 e).2.symm)
  · intro a _ _
    by_cases e : m = s.mnyq
    · rw [e, if_pos rfl]; exact upd_same _ _ _
    · rw [if_neg e]
      exact upd_ne _ _ (fun h => e (Verif.flat_inj l0 l1 l0 l1 h).1)
  · rw [if_pos ⟨l0, l1⟩]
    simp only [c]
    split_ifs <;> ring

theorem cosnvNyq_eq (n k : Int) (n0 : 0 ≤ n) (n1 : n ≤ s.nnyq) (k0 : 0 ≤ k) (k1 : k < s.nZeta) :
    cosnvNyq s s.nfp (k * (s.nnyq2 + 1) + n) = (if n = s.nnyq ∧ n ≠ 0 then 1 / 2 else 1) * (torEntry s scale s.nfp n k).cosnv := by
  obtain ⟨h1, h2, h3, h4⟩ := nyq_sizes hs
  obtain ⟨_, _, _, _, h5⟩ := nZnT_eq hs
  have r := kl_range (Z := s.nZeta) (T := s.nnyq2 + 1) (l := n) k0 k1 n0 (by omega)
  have c := copy_loop ((s.nnyq2 + 1) * s.nZeta) (fun kn => (torTables fastPoloidal s s.nfp kn).cosnv) (fun _ => 0) (k * (s.nnyq2 + 1) + n) r.1 r.2
  have e : (torTables fastPoloidal s s.nfp (k * (s.nnyq2 + 1) + n)).cosnv = (torEntry s scale s.nfp n k).cosnv := by
    rw [← tor_eq fastPoloidal (Or.inl rfl) s s.nfp n k n0 (by omega) k0 k1]; rfl
  simp only [e] at c
  unfold cosnvNyq
  simp only
  generalize forRange 0 ((s.nnyq2 + 1) * s.nZeta) (fun kn a => upd a kn (torTables fastPoloidal s s.nfp kn).cosnv) (fun _ => (0 : ℝ)) = a at *
  by_cases hN : s.nnyq = 0
  · rw [if_neg (by omega), if_neg (by omega), one_mul]; exact c
  rw [if_pos hN]
  refine (Radial.pickLoop (fun a : Int → ℝ => a (k * (s.nnyq2 + 1) + n)) (fun k a => upd a (k * (s.nnyq2 + 1) + s.nnyq) (a (k * (s.nnyq2 + 1) + s.nnyq) / 2))
    (lo := 0) (hi := s.nZeta) (i0 := k) (fun x => if n = s.nnyq then x / 2 else x) ?_ ?_ a).trans ?_
  · intro i a i0 i1 hne
    exact upd_ne _ _ (fun e => hne (Verif.flat_inj n0 (by omega) (by omega) (by omega) e).1.symm)
  · intro a _ _
    by_cases e : n = s.nnyq
    · rw [e, if_pos rfl]; exact upd_same _ _ _
    · rw [if_neg e]
      exact upd_ne _ _ (fun h => e (Verif.flat_inj n0 (by omega) (by omega) (by omega) h).2)
  · rw [if_pos ⟨k0, k1⟩]
    simp only [c]
    by_cases e : n = s.nnyq
    · rw [if_pos e, if_pos ⟨e, by omega⟩]; ring
    · rw [if_neg e, if_neg (fun h => e h.1)]; ring

theorem nyqPoloidal_eq (tab : Int → ℝ) (g : Int → Int → ℝ) (m k : Int) (m0 : 0 ≤ m) (m1 : m ≤ s.mnyq) (k0 : 0 ≤ k) (k1 : k < s.nZeta) :
    nyqPoloidal s tab g (m * s.nZeta + k) = ∑ l ∈ Ico 0 s.nThetaReduced, tab (m * s.nThetaReduced + l) * g k l := by
  unfold nyqPoloidal
  have h := fill2 (s.mnyq + 1) s.nZeta (by omega) (by omega) (fun m k => m * s.nZeta + k)
    (fun m k => forRange 0 s.nThetaReduced (fun l a => a + tab (m * s.nThetaReduced + l) * g k l) (0 : ℝ))
    (fun i j i' j' h1 h2 h3 h4 h1' h2' h3' h4' e => row_inj h3 h4 h3' h4' e) (fun _ => 0) m k m0 (by omega) k0 k1
  refine h.trans ?_
  rw [forRange_add, zero_add]

theorem nyqMult_eq (m n : Int) (m0 : 0 ≤ m) (m1 : m ≤ s.mnyq) (n1 : |n| ≤ s.nnyq) :
    nyqMult s m n = scale m * scale |n| * (if m = 0 ∨ n = 0 then 1 else 1 / 2) := by
  obtain ⟨h1, h2, h3, h4⟩ := nyq_sizes hs
  unfold nyqMult
  rw [fillScale_eq _ _ m0 (by omega), fillScale_eq _ _ (abs_nonneg n) (by have := abs_nonneg n; omega)]
  simp only
  split_ifs <;> ring

/-- the two poloidal sums -/
theorem fc_eq (g : Int → Int → ℝ) (m k : Int) (m0 : 0 ≤ m) (m1 : m ≤ s.mnyq) (k0 : 0 ≤ k) (k1 : k < s.nZeta) :
    nyqPoloidal s (cosmuiNyq s) g (m * s.nZeta + k) = (if m = s.mnyq then 1 / 2 else 1) * scale m * (1 / ((s.nZeta * (s.nThetaReduced - 1) : Int) : ℝ)) *
      ∑ l ∈ Ico 0 s.nThetaReduced, endWeight s l * g k l * Real.cos (m * thetaGrid s l) := by
  rw [nyqPoloidal_eq hs _ g m k m0 m1 k0 k1, Finset.mul_sum]
  refine Finset.sum_congr rfl fun l hl => ?_
  rw [Finset.mem_Ico] at hl
  rw [cosmuiNyq_eq hs m l m0 m1 hl.1 hl.2]
  simp only [polEntry, endWeight, thetaGrid]
  split_ifs <;> ring

theorem fs_eq (g : Int → Int → ℝ) (m k : Int) (m0 : 0 ≤ m) (m1 : m ≤ s.mnyq) (k0 : 0 ≤ k) (k1 : k < s.nZeta) :
    nyqPoloidal s (fun ml => (polTables fastPoloidal s ml).sinmui) g (m * s.nZeta + k) = scale m * (1 / ((s.nZeta * (s.nThetaReduced - 1) : Int) : ℝ)) *
      ∑ l ∈ Ico 0 s.nThetaReduced, endWeight s l * g k l * Real.sin (m * thetaGrid s l) := by
  obtain ⟨h1, h2, h3, h4⟩ := nyq_sizes hs
  rw [nyqPoloidal_eq hs _ g m k m0 m1 k0 k1, Finset.mul_sum]
  refine Finset.sum_congr rfl fun l hl => ?_
  rw [Finset.mem_Ico] at hl
  have e : (polTables fastPoloidal s (m * s.nThetaReduced + l)).sinmui = (polEntry s scale m l).sinmui := by
    rw [← pol_eq fastPoloidal (Or.inl rfl) s m l m0 (by omega) hl.1 hl.2]; rfl
  rw [e]
  have h := end_sin hs m l
  simp only [polEntry]
  unfold thetaGrid at *
  linear_combination (-(scale m * (1 / ((s.nZeta * (s.nThetaReduced - 1) : Int) : ℝ)) * g k l)) * h

theorem sinnv_eq (n k : Int) (n1 : |n| ≤ s.nnyq) (k0 : 0 ≤ k) (k1 : k < s.nZeta) :
    (n.sign : ℝ) * (torTables fastPoloidal s s.nfp (k * (s.nnyq2 + 1) + |n|)).sinnv = scale |n| * Real.sin (n * zetaGrid s k) := by
  obtain ⟨h1, h2, h3, h4⟩ := nyq_sizes hs
  have n0 := abs_nonneg n
  have e : (torTables fastPoloidal s s.nfp (k * (s.nnyq2 + 1) + |n|)).sinnv = (torEntry s scale s.nfp |n| k).sinnv := by
    rw [← tor_eq fastPoloidal (Or.inl rfl) s s.nfp |n| k n0 (by omega) k0 k1]; rfl
  rw [e]
  simp only [torEntry, zetaGrid]
  rcases lt_trichotomy n 0 with h | h | h
  · rw [abs_of_neg h, Int.sign_eq_neg_one_of_neg h]; push_cast; rw [neg_mul (n : ℝ), Real.sin_neg]; ring
  · subst h; simp
  · rw [abs_of_pos h, Int.sign_eq_one_of_pos h]; push_cast; ring

theorem cosnv_abs (n k : Int) (n1 : |n| ≤ s.nnyq) (k0 : 0 ≤ k) (k1 : k < s.nZeta) :
    cosnvNyq s s.nfp (k * (s.nnyq2 + 1) + |n|) = (if |n| = s.nnyq ∧ n ≠ 0 then 1 / 2 else 1) * scale |n| * Real.cos (n * zetaGrid s k) := by
  rw [cosnvNyq_eq hs |n| k (abs_nonneg n) n1 k0 k1]
  simp only [torEntry, zetaGrid]
  have e : Real.cos (((|n| : Int) : ℝ) * (2 * Real.pi * k / s.nZeta)) = Real.cos (n * (2 * Real.pi * k / s.nZeta)) := by
    rcases abs_choice n with h | h
    · rw [h]
    · rw [h]; push_cast; rw [neg_mul, Real.cos_neg]
  rw [e]
  simp only [ne_eq, abs_eq_zero]
  ring

/-- weight of a coefficient -/
noncomputable def coefWeight (s : Sizes.Sizes) (m n : Int) : ℝ :=
  (1 / ((s.nZeta * (s.nThetaReduced - 1) : Int) : ℝ)) * (if m = 0 ∧ n = 0 then 1 else 2)

omit hs in
theorem mult_sq (m n : Int) : scale m * scale |n| * (if m = 0 ∨ n = 0 then 1 else 1 / 2) * (scale m * scale |n|) = if m = 0 ∧ n = 0 then 1 else 2 := by
  by_cases hm : m = 0
  · by_cases hn : n = 0
    · subst hm hn; simp
    · have := scale_sq (m := |n|) (by simpa using hn)
      rw [if_pos (Or.inl hm), if_neg (by tauto), hm, scale_zero]; linarith
  · have h1 := scale_sq hm
    by_cases hn : n = 0
    · rw [if_pos (Or.inr hn), if_neg (by tauto), hn, abs_zero, scale_zero]; linarith
    · have h2 := scale_sq (m := |n|) (by simpa using hn)
      rw [if_neg (by tauto), if_neg (by tauto)]
      linear_combination (1 / 2) * (scale |n| * scale |n|) * h1 + h2

theorem nyqCos_eq (g : Int → Int → ℝ) (m n : Int) (m0 : 0 ≤ m) (m1 : m ≤ s.mnyq) (n1 : |n| ≤ s.nnyq) :
    nyqCos s s.nfp (nyqPoloidal s (cosmuiNyq s) g) (nyqPoloidal s (fun ml => (polTables fastPoloidal s ml).sinmui) g) m (n * s.nfp) =
      coefWeight s m n * ((if m = s.mnyq then 1 / 2 else 1) * (if |n| = s.nnyq ∧ n ≠ 0 then 1 / 2 else 1) * gridSum s Real.cos Real.cos g m n + gridSum s Real.sin Real.sin g m n) := by
  have hf : s.nfp ≠ 0 := by have := nfp_ne hs; exact_mod_cast this
  unfold nyqCos
  simp only [Int.mul_tdiv_cancel n hf]
  rw [forRange_add, zero_add, nyqMult_eq hs m n m0 m1 n1]
  have e : ∑ k ∈ Ico 0 s.nZeta, (cosnvNyq s s.nfp (k * (s.nnyq2 + 1) + |n|) * nyqPoloidal s (cosmuiNyq s) g (m * s.nZeta + k) +
      (n.sign : ℝ) * (torTables fastPoloidal s s.nfp (k * (s.nnyq2 + 1) + |n|)).sinnv * nyqPoloidal s (fun ml => (polTables fastPoloidal s ml).sinmui) g (m * s.nZeta + k)) =
      (1 / ((s.nZeta * (s.nThetaReduced - 1) : Int) : ℝ)) * (scale m * scale |n|) *
      ((if m = s.mnyq then 1 / 2 else 1) * (if |n| = s.nnyq ∧ n ≠ 0 then 1 / 2 else 1) * gridSum s Real.cos Real.cos g m n + gridSum s Real.sin Real.sin g m n) := by
    unfold gridSum
    rw [Finset.mul_sum, ← Finset.sum_add_distrib, Finset.mul_sum]
    refine Finset.sum_congr rfl fun k hk => ?_
    rw [Finset.mem_Ico] at hk
    rw [cosnv_abs hs n k n1 hk.1 hk.2, sinnv_eq hs n k n1 hk.1 hk.2, fc_eq hs g m k m0 m1 hk.1 hk.2, fs_eq hs g m k m0 m1 hk.1 hk.2]
    simp only [← mul_assoc (endWeight s _ * g k _), ← Finset.sum_mul]
    ring
  rw [e]
  unfold coefWeight
  rw [← mult_sq m n]
  ring

theorem nyqSin_eq (g : Int → Int → ℝ) (m n : Int) (m0 : 0 ≤ m) (m1 : m ≤ s.mnyq) (n1 : |n| ≤ s.nnyq) :
    nyqSin s s.nfp (nyqPoloidal s (cosmuiNyq s) g) (nyqPoloidal s (fun ml => (polTables fastPoloidal s ml).sinmui) g) m (n * s.nfp) =
      coefWeight s m n * ((if |n| = s.nnyq ∧ n ≠ 0 then 1 / 2 else 1) * gridSum s Real.sin Real.cos g m n - (if m = s.mnyq then 1 / 2 else 1) * gridSum s Real.cos Real.sin g m n) := by
  have hf : s.nfp ≠ 0 := by have := nfp_ne hs; exact_mod_cast this
  unfold nyqSin
  simp only [Int.mul_tdiv_cancel n hf]
  rw [forRange_add, zero_add, nyqMult_eq hs m n m0 m1 n1]
  have e : ∑ k ∈ Ico 0 s.nZeta, (cosnvNyq s s.nfp (k * (s.nnyq2 + 1) + |n|) * nyqPoloidal s (fun ml => (polTables fastPoloidal s ml).sinmui) g (m * s.nZeta + k) -
      (n.sign : ℝ) * (torTables fastPoloidal s s.nfp (k * (s.nnyq2 + 1) + |n|)).sinnv * nyqPoloidal s (cosmuiNyq s) g (m * s.nZeta + k)) =
      (1 / ((s.nZeta * (s.nThetaReduced - 1) : Int) : ℝ)) * (scale m * scale |n|) *
      ((if |n| = s.nnyq ∧ n ≠ 0 then 1 / 2 else 1) * gridSum s Real.sin Real.cos g m n - (if m = s.mnyq then 1 / 2 else 1) * gridSum s Real.cos Real.sin g m n) := by
    unfold gridSum
    rw [Finset.mul_sum, Finset.mul_sum, ← Finset.sum_sub_distrib, Finset.mul_sum]
    refine Finset.sum_congr rfl fun k hk => ?_
    rw [Finset.mem_Ico] at hk
    rw [cosnv_abs hs n k n1 hk.1 hk.2, sinnv_eq hs n k n1 hk.1 hk.2, fc_eq hs g m k m0 m1 hk.1 hk.2, fs_eq hs g m k m0 m1 hk.1 hk.2]
    simp only [← mul_assoc (endWeight s _ * g k _), ← Finset.sum_mul]
    ring
  rw [e]
  unfold coefWeight
  rw [← mult_sq m n]
  ring

/-- the mode table of the Nyquist spectrum -/
theorem nyq_table (xm xn : Int → Int) (ht : computeConversionIndices s.nnyq (s.mnyq + 1) s.nfp = .ok (xm, xn)) :
    s.mnmax_nyq = mnMax (s.mnyq + 1) s.nnyq ∧ ∀ m n, validMode (s.mnyq + 1) s.nnyq m n → xm (idx s.nnyq m n) = m ∧ xn (idx s.nnyq m n) = n * s.nfp := by
  obtain ⟨h1, h2, h3, h4⟩ := nyq_sizes hs
  obtain ⟨_, _, _, h5, h6⟩ := nZnT_eq hs
  refine ⟨(C09_table_sizes lasym nfp mpol ntor ntheta nzeta mg ng s hs).2, fun m n hv => ?_⟩
  obtain ⟨xm', xn', t1, t2, _⟩ := C09_mode_table (s.mnyq + 1) s.nnyq s.nfp (by omega) (by omega)
  rw [ht, Outcome.ok.injEq, Prod.mk.injEq] at t1
  obtain ⟨i, e, _, _, x1, x2⟩ := t2 m n hv
  have hnn : m = 0 → 0 ≤ n := by
    obtain ⟨_, _, _, v4⟩ := hv
    rintro rfl; simpa using v4
  rw [mnIdx_eq hnn, Outcome.ok.injEq] at e
  rw [e, t1.1, t1.2]; exact ⟨x1, x2⟩

theorem gridSum_neg_cos (U : ℝ → ℝ) (g : Int → Int → ℝ) (m n : Int) : gridSum s U Real.cos g m (-n) = gridSum s U Real.cos g m n := by
  unfold gridSum
  refine Finset.sum_congr rfl fun k _ => Finset.sum_congr rfl fun l _ => ?_
  push_cast; rw [neg_mul, Real.cos_neg]
theorem gridSum_neg_sin (U : ℝ → ℝ) (g : Int → Int → ℝ) (m n : Int) : gridSum s U Real.sin g m (-n) = -gridSum s U Real.sin g m n := by
  unfold gridSum
  rw [← Finset.sum_neg_distrib]
  refine Finset.sum_congr rfl fun k _ => ?_
  rw [← Finset.sum_neg_distrib]
  refine Finset.sum_congr rfl fun l _ => ?_
  push_cast; rw [neg_mul, Real.sin_neg]; ring
theorem gridSum_sin_zero (U V : ℝ → ℝ) (g : Int → Int → ℝ) (m n : Int) (h : U (m * 0) = 0 ∧ m = 0 ∨ V (n * 0) = 0 ∧ n = 0) : gridSum s U V g m n = 0 := by
  unfold gridSum
  refine Finset.sum_eq_zero fun k _ => Finset.sum_eq_zero fun l _ => ?_
  rcases h with ⟨h, rfl⟩ | ⟨h, rfl⟩ <;> simp at h <;> simp [h]

/-- `Σ (C cos cos + S sin sin)` from the coefficients of `cos(mθ - nζ)` -/
theorem combine_cos (xm xn : Int → Int) (ht : computeConversionIndices s.nnyq (s.mnyq + 1) s.nfp = .ok (xm, xn)) (c : Int → ℝ) (C S : Int → Int → ℝ)
    (hc : ∀ m n, validMode (s.mnyq + 1) s.nnyq m n → c (idx s.nnyq m n) = if m = 0 ∨ n = 0 then C m |n| else (C m |n| + n.sign * S m |n|) / 2) (θ φ : ℝ) :
    combinedCos s.mnmax_nyq xm xn c θ φ = ∑ m ∈ Ico 0 (s.mnyq + 1), ∑ n ∈ Ico 0 (s.nnyq + 1),
      (C m n * (Real.cos (m * θ) * Real.cos (n * (s.nfp * φ))) + S m n * (Real.sin (m * θ) * Real.sin (n * (s.nfp * φ)))) := by
  obtain ⟨t1, t2⟩ := nyq_table hs xm xn ht
  obtain ⟨h1, h2, h3, h4⟩ := nyq_sizes hs
  obtain ⟨_, _, _, h5, h6⟩ := nZnT_eq hs
  unfold combinedCos
  rw [t1, sum_modes (s.mnyq + 1) s.nnyq (by omega) (by omega), sum_Ico_int_first (show (0:Int) < s.mnyq + 1 by omega), zero_add]
  congr 1
  · refine Finset.sum_congr rfl fun n hn => ?_
    rw [Finset.mem_Ico] at hn
    have hv : validMode (s.mnyq + 1) s.nnyq 0 n := ⟨le_refl 0, by omega, by omega, by simpa using hn.1⟩
    rw [hc 0 n hv, (t2 0 n hv).1, (t2 0 n hv).2, if_pos (Or.inl rfl), abs_of_nonneg hn.1]
    push_cast
    rw [show (0:ℝ) * θ - (n : ℝ) * (s.nfp : ℝ) * φ = -(n * (s.nfp * φ)) by ring, Real.cos_neg]
    simp
  · refine Finset.sum_congr rfl fun m hm => ?_
    rw [Finset.mem_Ico] at hm
    have hv (n : Int) (a : -s.nnyq ≤ n) (b : n ≤ s.nnyq) : validMode (s.mnyq + 1) s.nnyq m n := ⟨by omega, by omega, b, by rw [if_neg (by omega)]; exact a⟩
    rw [sum_pm s.nnyq (by omega), sum_Ico_int_first (show (0:Int) < s.nnyq + 1 by omega), zero_add]
    congr 1
    · rw [hc m 0 (hv 0 (by omega) (by omega)), (t2 m 0 (hv 0 (by omega) (by omega))).1, (t2 m 0 (hv 0 (by omega) (by omega))).2, if_pos (Or.inr rfl)]
      simp
    · refine Finset.sum_congr rfl fun n hn => ?_
      rw [Finset.mem_Ico] at hn
      have v1 := hv n (by omega) (by omega)
      have v2 := hv (-n) (by omega) (by omega)
      rw [hc m n v1, hc m (-n) v2, (t2 m n v1).1, (t2 m n v1).2, (t2 m (-n) v2).1, (t2 m (-n) v2).2, if_neg (by omega), if_neg (by omega), abs_neg, abs_of_pos (by omega),
        Int.sign_eq_one_of_pos (by omega), Int.sign_eq_neg_one_of_neg (by omega)]
      push_cast
      rw [show (m : ℝ) * θ - (n : ℝ) * (s.nfp : ℝ) * φ = m * θ - n * (s.nfp * φ) by ring, show (m : ℝ) * θ - -(n : ℝ) * (s.nfp : ℝ) * φ = m * θ + n * (s.nfp * φ) by ring,
        Real.cos_sub, Real.cos_add]
      ring

/-- `Σ (SC sin cos + CS cos sin)` from the coefficients of `sin(mθ - nζ)` -/
theorem combine_sin (xm xn : Int → Int) (ht : computeConversionIndices s.nnyq (s.mnyq + 1) s.nfp = .ok (xm, xn)) (c : Int → ℝ) (SC CS : Int → Int → ℝ)
    (hc : ∀ m n, validMode (s.mnyq + 1) s.nnyq m n → c (idx s.nnyq m n) = if m = 0 then -CS m |n| else if n = 0 then SC m |n| else (SC m |n| - n.sign * CS m |n|) / 2) (θ φ : ℝ) :
    combinedSin s.mnmax_nyq xm xn c θ φ = ∑ m ∈ Ico 0 (s.mnyq + 1), ∑ n ∈ Ico 0 (s.nnyq + 1),
      (SC m n * (Real.sin (m * θ) * Real.cos (n * (s.nfp * φ))) + CS m n * (Real.cos (m * θ) * Real.sin (n * (s.nfp * φ)))) := by
  obtain ⟨t1, t2⟩ := nyq_table hs xm xn ht
  obtain ⟨h1, h2, h3, h4⟩ := nyq_sizes hs
  obtain ⟨_, _, _, h5, h6⟩ := nZnT_eq hs
  unfold combinedSin
  rw [t1, sum_modes (s.mnyq + 1) s.nnyq (by omega) (by omega), sum_Ico_int_first (show (0:Int) < s.mnyq + 1 by omega), zero_add]
  congr 1
  · refine Finset.sum_congr rfl fun n hn => ?_
    rw [Finset.mem_Ico] at hn
    have hv : validMode (s.mnyq + 1) s.nnyq 0 n := ⟨le_refl 0, by omega, by omega, by simpa using hn.1⟩
    rw [hc 0 n hv, (t2 0 n hv).1, (t2 0 n hv).2, if_pos rfl, abs_of_nonneg hn.1]
    push_cast
    rw [show (0:ℝ) * θ - (n : ℝ) * (s.nfp : ℝ) * φ = -(n * (s.nfp * φ)) by ring, Real.sin_neg]
    simp
  · refine Finset.sum_congr rfl fun m hm => ?_
    rw [Finset.mem_Ico] at hm
    have hv (n : Int) (a : -s.nnyq ≤ n) (b : n ≤ s.nnyq) : validMode (s.mnyq + 1) s.nnyq m n := ⟨by omega, by omega, b, by rw [if_neg (by omega)]; exact a⟩
    rw [sum_pm s.nnyq (by omega), sum_Ico_int_first (show (0:Int) < s.nnyq + 1 by omega), zero_add]
    congr 1
    · rw [hc m 0 (hv 0 (by omega) (by omega)), (t2 m 0 (hv 0 (by omega) (by omega))).1, (t2 m 0 (hv 0 (by omega) (by omega))).2, if_neg (by omega), if_pos rfl]
      simp
    · refine Finset.sum_congr rfl fun n hn => ?_
      rw [Finset.mem_Ico] at hn
      have v1 := hv n (by omega) (by omega)
      have v2 := hv (-n) (by omega) (by omega)
      rw [hc m n v1, hc m (-n) v2, (t2 m n v1).1, (t2 m n v1).2, (t2 m (-n) v2).1, (t2 m (-n) v2).2, if_neg (by omega), if_neg (by omega), if_neg (by omega), if_neg (by omega), abs_neg, abs_of_pos (by omega),
        Int.sign_eq_one_of_pos (by omega), Int.sign_eq_neg_one_of_neg (by omega)]
      push_cast
      rw [show (m : ℝ) * θ - (n : ℝ) * (s.nfp : ℝ) * φ = m * θ - n * (s.nfp * φ) by ring, show (m : ℝ) * θ - -(n : ℝ) * (s.nfp : ℝ) * φ = m * θ + n * (s.nfp * φ) by ring,
        Real.sin_sub, Real.sin_add]
      ring

end
end Verif.Output
