import Verif.Output.FilterLoops
import Mathlib.Analysis.Real.Pi.Bounds

/-! # C86: the low-pass filter of the covariant field and its derivatives -/
namespace Verif.Output
open Verif Verif.Fourier Finset

/-- even (`sign = 1`) or odd (`sign = -1`) part of grid values under the reflection `(θ, ζ) ↦ (-θ, -ζ)` -/
noncomputable def gridPart (s : Sizes.Sizes) (sign : ℝ) (f : Int → Int → ℝ) (k l : Int) : ℝ :=
  (f k l + sign * f (-k % s.nZeta) (-l % s.nThetaEven)) / 2

/-- values of surface `j` of an array on the full angular grid -/
def onGrid (s : Sizes.Sizes) (b : Int → ℝ) (j k l : Int) : ℝ := b (j * s.nZnT + (k * s.nThetaEff + l))

section
variable {s : Sizes.Sizes} {lasym : Bool} {nfp mpol ntor ntheta nzeta mg ng : Int} (hs : Sizes.mk lasym nfp mpol ntor ntheta nzeta mg ng = .ok s)
include hs

theorem synth (num : Int) (A : PolEntry → ℝ) (B : TorEntry → ℝ) (A' : PolEntry → ℝ) (B' : TorEntry → ℝ) (U : PolEntry → ℝ) (V : TorEntry → ℝ) (U' : PolEntry → ℝ) (V' : TorEntry → ℝ)
    (f : Int → ℝ) (f' : Int → Int → ℝ) (j k l : Int) (j0 : 0 ≤ j) (j1 : j < num) (k0 : 0 ≤ k) (k1 : k < s.nZeta) (l0 : 0 ≤ l) (l1 : l < s.nThetaReduced)
    (hf : ∀ k l, 0 ≤ k → k < s.nZeta → 0 ≤ l → l < s.nThetaReduced → f (j * reduced s + (k * s.nThetaReduced + l)) = f' k l) :
    accGrid s num (term s s.nfp A B A' B' (analyse s s.nfp U V f) (analyse s s.nfp U' V' f)) (j * reduced s + (k * s.nThetaReduced + l)) =
      ∑ m ∈ Ico 0 s.mpol, ∑ n ∈ Ico 0 (s.ntor + 1), (coefOf s U V f' m n * A (polEntry s scale m l) * B (torEntry s scale s.nfp n k) +
        coefOf s U' V' f' m n * A' (polEntry s scale m l) * B' (torEntry s scale s.nfp n k)) := by
  have hc (U : PolEntry → ℝ) (V : TorEntry → ℝ) (m n : Int) : coefOf s U V (fun k l => f (j * reduced s + (k * s.nThetaReduced + l))) m n = coefOf s U V f' m n := by
    refine Finset.sum_congr rfl fun k hk => Finset.sum_congr rfl fun l hl => ?_
    rw [Finset.mem_Ico] at hk hl
    simp only [hf k l hk.1 hk.2 hl.1 hl.2]
  rw [accGrid_eq s num _ j k l j0 j1 k0 k1 l0 l1]
  refine Finset.sum_congr rfl fun m hm => Finset.sum_congr rfl fun n hn => ?_
  rw [Finset.mem_Ico] at hm hn
  rw [term_eq hs _ _ _ _ _ _ j m n k l hm.1 hm.2 hn.1 (by omega) k0 k1 l0 l1, analyse_eq hs U V f j m n hm.1 hm.2 hn.1 (by omega),
    analyse_eq hs U' V' f j m n hm.1 hm.2 hn.1 (by omega), hc, hc]

theorem rev_mod (q n : Int) (q0 : 0 ≤ q) (q1 : q < n) : (n - q).tmod n = -q % n := by
  rw [Int.tmod_eq_emod_of_nonneg (by omega), sub_eq_add_neg, Int.add_emod_left]

/-- the reflected grid point -/
theorem theta_rev (l : Int) (l0 : 0 ≤ l) (l1 : l < s.nThetaEven) : ∃ a : Int, thetaGrid s (-l % s.nThetaEven) = a * (2 * Real.pi) - thetaGrid s l := by
  refine ⟨-(-l / s.nThetaEven), ?_⟩
  have h : (s.nThetaEven : ℝ) ≠ 0 := by exact_mod_cast (by omega : s.nThetaEven ≠ 0)
  have e := Int.emod_add_mul_ediv (-l) s.nThetaEven
  have e' : ((-l % s.nThetaEven : Int) : ℝ) + s.nThetaEven * ((-l / s.nThetaEven : Int) : ℝ) = -l := by exact_mod_cast e
  unfold thetaGrid
  push_cast
  field_simp
  linarith
theorem zeta_rev (k : Int) (k0 : 0 ≤ k) (k1 : k < s.nZeta) : ∃ a : Int, zetaGrid s (-k % s.nZeta) = a * (2 * Real.pi) - zetaGrid s k := by
  refine ⟨-(-k / s.nZeta), ?_⟩
  have h : (s.nZeta : ℝ) ≠ 0 := by exact_mod_cast (by omega : s.nZeta ≠ 0)
  have e := Int.emod_add_mul_ediv (-k) s.nZeta
  have e' : ((-k % s.nZeta : Int) : ℝ) + s.nZeta * ((-k / s.nZeta : Int) : ℝ) = -k := by exact_mod_cast e
  unfold zetaGrid
  push_cast
  field_simp
  linarith

/-- what is transformed -/
theorem parts (num : Int) (sign : ℝ) (b : Int → ℝ) (j k l : Int) (j0 : 0 ≤ j) (j1 : j < num) (k0 : 0 ≤ k) (k1 : k < s.nZeta) (l0 : 0 ≤ l) (l1 : l < s.nThetaReduced) :
    decomposeUV s num sign b (j * reduced s + (k * s.nThetaReduced + l)) = if s.lasym then gridPart s sign (onGrid s b j) k l else onGrid s b j k l := by
  obtain ⟨h1, h2, h3, h4, h5⟩ := nZnT_eq hs
  rw [decomposeUV_eq hs num sign b j k l j0 j1 k0 k1 l0 l1, rev_mod hs k s.nZeta k0 k1, rev_mod hs l s.nThetaEven l0 (by omega)]
  rfl

/-- **C86**: on every surface the filtered component is, at every grid point, the sum of a low-pass filtered even part and (with `lasym`)
    a low-pass filtered odd part of the values of the component -/
theorem C86_filter (num : Int) (b : Int → ℝ) (j : Int) (j0 : 0 ≤ j) (j1 : j < num) :
    ∃ Fe Fo : ℝ → ℝ → ℝ,
      EvenFilter s (if s.lasym then gridPart s 1 (onGrid s b j) else onGrid s b j) Fe ∧
      OddFilter s (if s.lasym then gridPart s (-1) (onGrid s b j) else fun _ _ => 0) Fo ∧
      ∀ k l, 0 ≤ k → k < s.nZeta → 0 ≤ l → l < s.nThetaEff →
        onGrid s (filteredUV s s.nfp num b) j k l = Fe (thetaGrid s l) (phiGrid s k) + Fo (thetaGrid s l) (phiGrid s k) := by
  obtain ⟨h1, h2, h3, h4, h5⟩ := nZnT_eq hs
  refine ⟨_, _, evenFilter_of hs _, oddFilter_of hs _, ?_⟩
  intro k l k0 k1 l0 l1
  have E (k l : Int) (k0 : 0 ≤ k) (k1 : k < s.nZeta) (l0 : 0 ≤ l) (l1 : l < s.nThetaReduced) :=
    synth hs num PolEntry.cosmu TorEntry.cosnv PolEntry.sinmu TorEntry.sinnv PolEntry.cosmui TorEntry.cosnv PolEntry.sinmui TorEntry.sinnv
      (decomposeUV s num 1 b) (if s.lasym then gridPart s 1 (onGrid s b j) else onGrid s b j) j k l j0 j1 k0 k1 l0 l1
      (fun k l k0 k1 l0 l1 => by rw [parts hs num 1 b j k l j0 j1 k0 k1 l0 l1]; split_ifs <;> rfl)
  have O (k l : Int) (k0 : 0 ≤ k) (k1 : k < s.nZeta) (l0 : 0 ≤ l) (l1 : l < s.nThetaReduced) (hl : s.lasym = true) :=
    synth hs num PolEntry.sinmu TorEntry.cosnv PolEntry.cosmu TorEntry.sinnv PolEntry.sinmui TorEntry.cosnv PolEntry.cosmui TorEntry.sinnv
      (decomposeUV s num (-1) b) (if s.lasym then gridPart s (-1) (onGrid s b j) else fun _ _ => 0) j k l j0 j1 k0 k1 l0 l1
      (fun k l k0 k1 l0 l1 => by rw [parts hs num (-1) b j k l j0 j1 k0 k1 l0 l1, if_pos hl, if_pos hl])
  unfold onGrid filteredUV
  rw [finish_eq hs num _ _ _ j k l j0 j1 k0 k1 l0 l1]
  by_cases hl : s.lasym = true
  · rw [if_pos hl] at h2 ⊢
    simp only [nfp_phi hs]
    by_cases hh : l < s.nThetaReduced
    · rw [if_pos hh, E k l k0 k1 l0 hh, O k l k0 k1 l0 hh hl]
      rfl
    · have q := rev_range hs k0 k1
      have q' := rev_range hs l0 (by omega : l < s.nThetaEven)
      have lr : (s.nThetaEven - l).tmod s.nThetaEven < s.nThetaReduced := by rw [q'.2.2.2 (by omega)]; omega
      rw [if_neg hh, E _ _ q.1 q.2.1 q'.1 lr, O _ _ q.1 q.2.1 q'.1 lr hl, rev_mod hs k s.nZeta k0 k1, rev_mod hs l s.nThetaEven l0 (by omega)]
      obtain ⟨a, ha⟩ := theta_rev hs l l0 (by omega)
      obtain ⟨a', ha'⟩ := zeta_rev hs k k0 k1
      have r1 := productCos_refl s.mpol s.ntor (coefOf s PolEntry.cosmui TorEntry.cosnv (if s.lasym then gridPart s 1 (onGrid s b j) else onGrid s b j))
        (coefOf s PolEntry.sinmui TorEntry.sinnv (if s.lasym then gridPart s 1 (onGrid s b j) else onGrid s b j)) a a' (thetaGrid s l) (zetaGrid s k)
      have r2 := productSin_refl s.mpol s.ntor (coefOf s PolEntry.sinmui TorEntry.cosnv (if s.lasym then gridPart s (-1) (onGrid s b j) else fun _ _ => 0))
        (coefOf s PolEntry.cosmui TorEntry.sinnv (if s.lasym then gridPart s (-1) (onGrid s b j) else fun _ _ => 0)) a a' (thetaGrid s l) (zetaGrid s k)
      rw [← ha, ← ha'] at r1 r2
      have x1 := r1
      have x2 := r2
      refine Eq.trans ?_ ((congrArg₂ (· - ·) r1 r2).trans ?_)
      · rfl
      · simp only [sub_neg_eq_add]; rfl
  · rw [if_neg hl] at h2 ⊢
    simp only [nfp_phi hs]
    rw [E k l k0 k1 l0 (by omega)]
    have z : productSin s.mpol s.ntor (coefOf s PolEntry.sinmui TorEntry.cosnv (if s.lasym then gridPart s (-1) (onGrid s b j) else fun _ _ => 0))
        (coefOf s PolEntry.cosmui TorEntry.sinnv (if s.lasym then gridPart s (-1) (onGrid s b j) else fun _ _ => 0)) (thetaGrid s l) (zetaGrid s k) = 0 := by
      rw [if_neg hl]
      have c (U : PolEntry → ℝ) (V : TorEntry → ℝ) (m n : Int) : coefOf s U V (fun _ _ => 0) m n = 0 := by
        unfold coefOf; simp
      unfold productSin
      simp [c]
    refine Eq.trans ?_ (congrArg₂ (· + ·) rfl z.symm)
    rw [add_zero]
    rfl

/-- **C86**: without `lasym` the angular derivatives of the covariant components are the derivatives of the filtered components:
    `bsubu`, `bsubv` filtered as even functions, `bsubs` as an odd function -/
theorem C86_derivatives_partial (hl : s.lasym = false) (num : Int) (b : Int → ℝ) (j : Int) (j0 : 0 ≤ j) (j1 : j < num) :
    (∃ F : ℝ → ℝ → ℝ, EvenFilter s (onGrid s b j) F ∧
      ∀ k l, 0 ≤ k → k < s.nZeta → 0 ≤ l → l < s.nThetaEff →
        onGrid s (filteredUV s s.nfp num b) j k l = F (thetaGrid s l) (phiGrid s k) ∧
        HasDerivAt (fun θ => F θ (phiGrid s k)) (onGrid s (bsubvu s s.nfp num b) j k l) (thetaGrid s l) ∧
        HasDerivAt (fun φ => F (thetaGrid s l) φ) (onGrid s (bsubuv s s.nfp num b) j k l) (phiGrid s k)) ∧
    (∃ F : ℝ → ℝ → ℝ, OddFilter s (onGrid s b j) F ∧
      ∀ k l, 0 ≤ k → k < s.nZeta → 0 ≤ l → l < s.nThetaEff →
        HasDerivAt (fun θ => F θ (phiGrid s k)) (onGrid s (bsubsu s s.nfp num b) j k l) (thetaGrid s l) ∧
        HasDerivAt (fun φ => F (thetaGrid s l) φ) (onGrid s (bsubsv s s.nfp num b) j k l) (phiGrid s k)) := by
  obtain ⟨h1, h2, h3, h4, h5⟩ := nZnT_eq hs
  have hl' : ¬ s.lasym = true := by rw [hl]; exact fun h => Bool.noConfusion h
  rw [if_neg hl'] at h2
  have hr : s.nZnT = reduced s := by rw [h1, h2]; rfl
  have hp (k l : Int) (k0 : 0 ≤ k) (k1 : k < s.nZeta) (l0 : 0 ≤ l) (l1 : l < s.nThetaReduced) :
      decomposeUV s num 1 b (j * reduced s + (k * s.nThetaReduced + l)) = onGrid s b j k l := by
    rw [parts hs num 1 b j k l j0 j1 k0 k1 l0 l1, if_neg hl']
  have hq (k l : Int) (k0 : 0 ≤ k) (k1 : k < s.nZeta) (l0 : 0 ≤ l) (l1 : l < s.nThetaReduced) :
      decomposeS s num (-1) b (j * reduced s + (k * s.nThetaReduced + l)) = onGrid s b j k l := by
    obtain ⟨r0, r1⟩ := kl_range k0 k1 l0 l1
    unfold decomposeS
    rw [fillGrid_in (n := reduced s) j0 j1 r0 (by unfold reduced; exact r1)]
    simp only [if_neg hl']
    unfold onGrid
    rw [h2]
  constructor
  · refine ⟨_, evenFilter_of hs (onGrid s b j), ?_⟩
    intro k l k0 k1 l0 l1
    rw [h2] at l1
    have e1 := synth hs num PolEntry.cosmu TorEntry.cosnv PolEntry.sinmu TorEntry.sinnv PolEntry.cosmui TorEntry.cosnv PolEntry.sinmui TorEntry.sinnv
      (decomposeUV s num 1 b) (onGrid s b j) j k l j0 j1 k0 k1 l0 l1 hp
    have e2 := synth hs num PolEntry.sinmum TorEntry.cosnv PolEntry.cosmum TorEntry.sinnv PolEntry.cosmui TorEntry.cosnv PolEntry.sinmui TorEntry.sinnv
      (decomposeUV s num 1 b) (onGrid s b j) j k l j0 j1 k0 k1 l0 l1 hp
    have e3 := synth hs num PolEntry.cosmu TorEntry.sinnvn PolEntry.sinmu TorEntry.cosnvn PolEntry.cosmui TorEntry.cosnv PolEntry.sinmui TorEntry.sinnv
      (decomposeUV s num 1 b) (onGrid s b j) j k l j0 j1 k0 k1 l0 l1 hp
    refine ⟨?_, ?_, ?_⟩
    · conv_lhs => unfold onGrid filteredUV
      rw [finish_eq hs num _ _ _ j k l j0 j1 k0 k1 l0 (by omega), if_neg hl', e1]
      simp only [nfp_phi hs]
      rfl
    · simp only [nfp_phi hs]
      convert productCos_dθ s.mpol s.ntor (coefOf s PolEntry.cosmui TorEntry.cosnv (onGrid s b j)) (coefOf s PolEntry.sinmui TorEntry.sinnv (onGrid s b j)) (thetaGrid s l) (zetaGrid s k) using 1
      conv_lhs => unfold onGrid bsubvu
      simp only [if_neg hl', add_zero]
      rw [hr, h2]
      refine e2.trans ?_
      refine Finset.sum_congr rfl fun m _ => Finset.sum_congr rfl fun n _ => ?_
      simp only [polEntry, torEntry, thetaGrid, zetaGrid]
      ring
    · convert productCos_dφ s.mpol s.ntor (coefOf s PolEntry.cosmui TorEntry.cosnv (onGrid s b j)) (coefOf s PolEntry.sinmui TorEntry.sinnv (onGrid s b j)) s.nfp (thetaGrid s l) (phiGrid s k) using 1
      conv_lhs => unfold onGrid bsubuv
      simp only [if_neg hl', add_zero]
      rw [hr, h2]
      refine e3.trans ?_
      refine Finset.sum_congr rfl fun m _ => Finset.sum_congr rfl fun n _ => ?_
      rw [nfp_phi hs]
      simp only [polEntry, torEntry, thetaGrid, zetaGrid]
      ring
  · refine ⟨_, oddFilter_of hs (onGrid s b j), ?_⟩
    intro k l k0 k1 l0 l1
    rw [h2] at l1
    have e2 := synth hs num PolEntry.cosmum TorEntry.cosnv PolEntry.sinmum TorEntry.sinnv PolEntry.sinmui TorEntry.cosnv PolEntry.cosmui TorEntry.sinnv
      (decomposeS s num (-1) b) (onGrid s b j) j k l j0 j1 k0 k1 l0 l1 hq
    have e3 := synth hs num PolEntry.sinmu TorEntry.sinnvn PolEntry.cosmu TorEntry.cosnvn PolEntry.sinmui TorEntry.cosnv PolEntry.cosmui TorEntry.sinnv
      (decomposeS s num (-1) b) (onGrid s b j) j k l j0 j1 k0 k1 l0 l1 hq
    refine ⟨?_, ?_⟩
    · simp only [nfp_phi hs]
      convert productSin_dθ s.mpol s.ntor (coefOf s PolEntry.sinmui TorEntry.cosnv (onGrid s b j)) (coefOf s PolEntry.cosmui TorEntry.sinnv (onGrid s b j)) (thetaGrid s l) (zetaGrid s k) using 1
      conv_lhs => unfold onGrid bsubsu
      rw [finish_eq hs num _ _ _ j k l j0 j1 k0 k1 l0 (by omega), if_neg hl']
      refine e2.trans ?_
      refine Finset.sum_congr rfl fun m _ => Finset.sum_congr rfl fun n _ => ?_
      simp only [polEntry, torEntry, thetaGrid, zetaGrid]
      ring
    · convert productSin_dφ s.mpol s.ntor (coefOf s PolEntry.sinmui TorEntry.cosnv (onGrid s b j)) (coefOf s PolEntry.cosmui TorEntry.sinnv (onGrid s b j)) s.nfp (thetaGrid s l) (phiGrid s k) using 1
      conv_lhs => unfold onGrid bsubsv
      rw [finish_eq hs num _ _ _ j k l j0 j1 k0 k1 l0 (by omega), if_neg hl']
      refine e3.trans ?_
      refine Finset.sum_congr rfl fun m _ => Finset.sum_congr rfl fun n _ => ?_
      rw [nfp_phi hs]
      simp only [polEntry, torEntry, thetaGrid, zetaGrid]
      ring

/-- **C86**: the filter is a projection: it leaves a function within the band as it is -/
theorem C86_exact (f : Int → Int → ℝ) (F : ℝ → ℝ → ℝ) (c d : Int → Int → ℝ) :
    (EvenFilter s f F → (∀ k l, 0 ≤ k → k < s.nZeta → 0 ≤ l → l < s.nThetaReduced → f k l = productCos s.mpol s.ntor c d (thetaGrid s l) (zetaGrid s k)) →
      ∀ θ φ, F θ φ = productCos s.mpol s.ntor c d θ (s.nfp * φ)) ∧
    (OddFilter s f F → (∀ k l, 0 ≤ k → k < s.nZeta → 0 ≤ l → l < s.nThetaReduced → f k l = productSin s.mpol s.ntor c d (thetaGrid s l) (zetaGrid s k)) →
      ∀ θ φ, F θ φ = productSin s.mpol s.ntor c d θ (s.nfp * φ)) :=
  ⟨fun h hf => evenFilter_exact hs f F h c d hf, fun h hf => oddFilter_exact hs f F h c d hf⟩

/-- with `lasym` the odd part of `bsubs` that is transformed is not the odd part of `bsubs`: the array on the full poloidal grid is read with
    the index of the reduced grid -/
theorem C86_lasym_s_fails (hl : s.lasym = true) (hz : 2 < s.nZeta) (num : Int) (hn : 0 < num) :
    ∃ b : Int → ℝ, decomposeS s num (-1) b (0 * reduced s + (1 * s.nThetaReduced + 0)) ≠ gridPart s (-1) (onGrid s b 0) 1 0 := by
  obtain ⟨h1, h2, h3, h4, h5⟩ := nZnT_eq hs
  rw [if_pos hl] at h2
  obtain ⟨r0, r1⟩ := kl_range (Z := s.nZeta) (T := s.nThetaReduced) (k := 1) (l := 0) (by omega) (by omega) (by omega) (by omega)
  refine ⟨fun i => if i = s.nThetaEven then 1 else 0, ?_⟩
  unfold decomposeS
  rw [fillGrid_in (n := reduced s) (by omega) hn r0 (by unfold reduced; exact r1)]
  have hk : (1 * s.nThetaReduced + 0).tdiv s.nThetaReduced = 1 := by
    rw [one_mul, add_zero]; exact Int.tdiv_self (by omega)
  have hm : (1 * s.nThetaReduced + 0).tmod s.nThetaReduced = 0 := by
    rw [one_mul, add_zero]; exact Int.tmod_self
  have m1 : (s.nZeta - 1).tmod s.nZeta = s.nZeta - 1 := (rev_range hs (by omega) (by omega)).2.2.2 (by omega)
  have m2 : -1 % s.nZeta = s.nZeta - 1 := (rev_mod hs 1 s.nZeta (by omega) (by omega)).symm.trans m1
  have m3 : (s.nThetaEven - 0).tmod s.nThetaEven = 0 := (rev_range hs (by omega) (by omega)).2.2.1 rfl
  have big : (s.nZeta - 1) * s.nThetaEven ≠ s.nThetaEven := by
    have : 2 * s.nThetaEven ≤ (s.nZeta - 1) * s.nThetaEven := mul_le_mul_of_nonneg_right (by omega) (by omega)
    omega
  simp only [hk, hm, hl, if_true, klReversed, m1, m3, gridPart, onGrid, h2, m2]
  simp only [zero_mul, zero_add, one_mul, add_zero, neg_zero, Int.zero_emod]
  rw [if_neg (by omega : ¬ s.nThetaReduced = s.nThetaEven), if_neg big]
  norm_num

/-- with `lasym` the arrays of the derivatives hold zeros at the end, whatever the field is: they are filled with the layout of the
    reduced grid.  For `B_v = sin θ`, which is within the band, the derivative at the last grid point of the last surface is not zero -/
theorem C86_lasym_derivative_fails (hl : s.lasym = true) (num : Int) (hn : 0 < num) (b : Int → ℝ) :
    ¬ HasDerivAt (fun θ => Real.sin θ) (onGrid s (bsubvu s s.nfp num b) (num - 1) (s.nZeta - 1) (s.nThetaEff - 1)) (thetaGrid s (s.nThetaEff - 1)) := by
  obtain ⟨h1, h2, h3, h4, h5⟩ := nZnT_eq hs
  rw [if_pos hl] at h2
  have hz : onGrid s (bsubvu s s.nfp num b) (num - 1) (s.nZeta - 1) (s.nThetaEff - 1) = 0 := by
    unfold onGrid bsubvu
    refine accGrid_beyond s num _ _ ?_
    rw [h1, h2, h3]
    unfold reduced
    have : 1 ≤ num * s.nZeta * (s.nThetaReduced - 2) := by
      have a : 1 ≤ num * s.nZeta := by nlinarith
      nlinarith
    nlinarith
  rw [hz]
  intro h
  have := (Real.hasDerivAt_sin (thetaGrid s (s.nThetaEff - 1))).unique h
  have hT : (8 : ℝ) ≤ s.nThetaEven := by exact_mod_cast (by omega : (8 : Int) ≤ s.nThetaEven)
  have ha : thetaGrid s (s.nThetaEff - 1) = 2 * Real.pi - 2 * Real.pi / s.nThetaEven := by
    unfold thetaGrid
    rw [h2]
    push_cast
    field_simp
  rw [ha, Real.cos_two_pi_sub] at this
  have p := Real.pi_pos
  have hd : 2 * Real.pi / s.nThetaEven ≤ Real.pi / 4 := by
    rw [div_le_iff₀ (by linarith)]
    nlinarith
  have : 0 < Real.cos (2 * Real.pi / s.nThetaEven) :=
    Real.cos_pos_of_mem_Ioo ⟨by have : 0 < 2 * Real.pi / s.nThetaEven := by positivity
                                linarith, by linarith⟩
  linarith

end

/-! ## the hypotheses are met -/

example : ∃ s, Sizes.mk false 5 6 4 0 36 0 0 = .ok s ∧ s.lasym = false ∧ 2 < s.nZeta := by
  obtain ⟨s, hs⟩ : ∃ s, Sizes.mk false 5 6 4 0 36 0 0 = .ok s := ⟨_, rfl⟩
  exact ⟨s, hs, by cases hs; decide, by cases hs; decide⟩

example : ∃ s, Sizes.mk true 5 6 4 0 36 0 0 = .ok s ∧ s.lasym = true ∧ 2 < s.nZeta := by
  obtain ⟨s, hs⟩ : ∃ s, Sizes.mk true 5 6 4 0 36 0 0 = .ok s := ⟨_, rfl⟩
  exact ⟨s, hs, by cases hs; decide, by cases hs; decide⟩

/-- the hypothesis of `C86_exact` is met by a function that is not constant -/
example (s : Sizes.Sizes) : ∃ f : Int → Int → ℝ, ∃ c d, ∀ k l, 0 ≤ k → k < s.nZeta → 0 ≤ l → l < s.nThetaReduced → f k l = productCos s.mpol s.ntor c d (thetaGrid s l) (zetaGrid s k) :=
  ⟨fun k l => productCos s.mpol s.ntor (fun m n => if m = 1 ∧ n = 0 then 1 else 0) (fun _ _ => 0) (thetaGrid s l) (zetaGrid s k), _, _, fun _ _ _ _ _ _ => rfl⟩

end Verif.Output
