import Verif.Sizes.Model
import Verif.Common.FlatSum
import Mathlib.Tactic.FieldSimp
import Mathlib.Tactic.NormNum
import Mathlib.Tactic.Push
import Mathlib.Algebra.CharZero.Defs
import Mathlib.Data.Rat.Cast.CharZero

/-!
# Properties C07 and C08
-/
namespace Verif.Sizes
open Verif Finset

/-- **C07**: construction succeeds exactly for `nfp ≥ 1`, `mpol ≥ 1`, `ntor ≥ 0` and then the grid
    satisfies the Nyquist bounds, honours large enough requests, and all sizes are positive and
    consistent. -/
theorem C07_sizes (lasym : Bool) (nfp mpol ntor ntheta nzeta mg ng : Int) :
    ((nfp ≥ 1 ∧ mpol ≥ 1 ∧ ntor ≥ 0) ↔ (mk lasym nfp mpol ntor ntheta nzeta mg ng).IsOk) ∧
    ∀ s, mk lasym nfp mpol ntor ntheta nzeta mg ng = .ok s →
      -- inputs are kept
      (s.lasym = lasym ∧ s.nfp = nfp ∧ s.mpol = mpol ∧ s.ntor = ntor) ∧
      -- poloidal grid: even, Nyquist, largest even number not above max(request, bound)
      (2 ∣ s.nThetaEven ∧ s.nThetaEven ≥ 2 * mpol + 6 ∧
        s.nThetaEven ≤ max ntheta (2 * mpol + 6) ∧ max ntheta (2 * mpol + 6) ≤ s.nThetaEven + 1) ∧
      -- toroidal grid
      (s.nZeta ≥ 1 ∧ (ntor > 0 → s.nZeta = max nzeta (2 * ntor + 4)) ∧
        (ntor = 0 → s.nZeta = max nzeta 1)) ∧
      -- reduced/effective poloidal grid
      (2 * (s.nThetaReduced - 1) = s.nThetaEven ∧
        s.nThetaEff = (if lasym then s.nThetaEven else s.nThetaReduced) ∧
        s.nZnT = s.nZeta * s.nThetaEff ∧ 1 ≤ s.nZnT) ∧
      -- number of basis functions: one per parity combination
      (s.num_basis = (if ntor > 0 then 2 else 1) * (if lasym then 2 else 1)) ∧
      -- resolution of the geometry
      (1 ≤ s.mpolGeometry ∧ s.mpolGeometry ≤ mpol ∧ 0 ≤ s.ntorGeometry ∧ s.ntorGeometry ≤ ntor ∧
        (1 ≤ mg ∧ mg ≤ mpol → s.mpolGeometry = mg) ∧ (0 ≤ ng ∧ ng ≤ ntor → s.ntorGeometry = ng)) ∧
      -- Nyquist sizes cover grid and twice the state resolution
      (s.mnyq2 = 2 * s.mnyq ∧ s.nnyq2 = 2 * s.nnyq ∧ s.mnyq ≥ mpol - 1 ∧ s.nnyq ≥ ntor ∧
        2 * s.mnyq ≥ s.nThetaEven ∧ 2 * s.nnyq ≥ s.nZeta - 1) ∧
      -- mode counts
      (s.mnmax_nyq = (s.nnyq + 1) + s.mnyq * (2 * s.nnyq + 1) ∧ 1 ≤ s.mnmax ∧ 1 ≤ s.mnsize) := by
  constructor
  · constructor
    · rintro ⟨h1, h2, h3⟩
      unfold mk
      rw [if_neg (by omega), if_neg (by omega), if_neg (by omega)]
      exact ⟨_, rfl⟩
    · rintro ⟨s, hs⟩
      unfold mk at hs
      split at hs
      · cases hs
      split at hs
      · cases hs
      split at hs
      · cases hs
      omega
  · intro s hs
    unfold mk at hs
    split at hs
    · cases hs
    split at hs
    · cases hs
    split at hs
    · cases hs
    rename_i h1 h2 h3
    simp only [Outcome.ok.injEq] at hs
    have hth : (0:Int) ≤ (if ntheta < 2 * mpol + 6 then 2 * mpol + 6 else ntheta) := by
      split <;> omega
    rw [Int.tdiv_eq_ediv_of_nonneg hth] at hs
    have he : (0:Int) ≤ 2 * ((if ntheta < 2 * mpol + 6 then 2 * mpol + 6 else ntheta) / 2) := by omega
    rw [Int.tdiv_eq_ediv_of_nonneg he] at hs
    generalize hT : (if ntheta < 2 * mpol + 6 then 2 * mpol + 6 else ntheta) = T at *
    have hT' : T = max ntheta (2 * mpol + 6) := by rw [← hT]; split <;> omega
    generalize hZ : (if ntor > 0 then (if (if ntor = 0 ∧ nzeta < 1 then 1 else nzeta) < 2 * ntor + 4
      then 2 * ntor + 4 else (if ntor = 0 ∧ nzeta < 1 then 1 else nzeta)) else
      (if ntor = 0 ∧ nzeta < 1 then 1 else nzeta)) = Z at *
    have hZ1 : (ntor > 0 → Z = max nzeta (2 * ntor + 4)) ∧ (ntor = 0 → Z = max nzeta 1) := by
      rw [← hZ]
      refine ⟨?_, ?_⟩
      · intro h
        have hc : ¬ (ntor = 0 ∧ nzeta < 1) := by omega
        rw [if_pos h]; simp only [hc, if_false]; split <;> omega
      · intro h; rw [if_neg (by omega)]; split <;> omega
    have hZ2 : Z ≥ 1 := by
      rcases (show ntor > 0 ∨ ntor = 0 by omega) with h | h
      · have := hZ1.1 h; omega
      · have := hZ1.2 h; omega
    rw [Int.tdiv_eq_ediv_of_nonneg (show 0 ≤ Z by omega)] at hs
    rw [Int.tdiv_eq_ediv_of_nonneg (a := max 0 (max (2 * (Z / 2)) (2 * ntor))) (by omega)] at hs
    rw [Int.tdiv_eq_ediv_of_nonneg (a := max 0 (max (2 * (2 * (T / 2) / 2)) (2 * (mpol - 1)))) (by omega)] at hs
    subst hs
    dsimp only
    refine ⟨⟨by trivial, by trivial, by trivial, by trivial⟩, ⟨⟨_, rfl⟩, by omega, by omega, by omega⟩, ⟨hZ2, hZ1.1, hZ1.2⟩,
      ⟨by omega, by trivial, by trivial, ?_⟩, ?_, ⟨?_, ?_, ?_, ?_, ?_, ?_⟩, ⟨by omega, by omega, by omega, by omega,
        by omega, by omega⟩, ⟨?_, ?_, ?_⟩⟩
    · have : (1:Int) ≤ if lasym then 2 * (T / 2) else 2 * (T / 2) / 2 + 1 := by split <;> omega
      nlinarith
    · by_cases hn : ntor > 0 <;> cases lasym <;> simp [hn]
    · split <;> omega
    · split <;> omega
    · split <;> omega
    · split <;> omega
    · intro h; rw [if_neg (by omega)]
    · intro h; rw [if_neg (by omega)]
    · generalize hA : max 0 (max (2 * (Z / 2)) (2 * ntor)) = A
      have : A = 2 * (A / 2) := by omega
      rw [← this]
    · have : 0 ≤ (mpol - 1) * (2 * ntor + 1) := Int.mul_nonneg (by omega) (by omega)
      show 1 ≤ (ntor + 1) + (mpol - 1) * (2 * ntor + 1)
      omega
    · have : 1 * 1 ≤ mpol * (ntor + 1) := Int.mul_le_mul (by omega) (by omega) (by omega) (by omega)
      show 1 ≤ mpol * (ntor + 1)
      omega

example : mk false 5 12 12 0 36 0 (-1) = .ok
    { lasym := false, nfp := 5, mpol := 12, ntor := 12, mpolGeometry := 12, ntorGeometry := 12,
      ntheta := 30, nZeta := 36, lthreed := true, num_basis := 2, nThetaEven := 30,
      nThetaReduced := 16, nThetaEff := 16, nZnT := 576, mnsize := 156, mnmax := 288, mnyq2 := 30,
      nnyq2 := 36, mnmax_nyq := 574, mnyq := 15, nnyq := 18 } := by decide

/-! ## C08 -/

theorem surfaceAverage_eq {K : Type} [Field K] (s : Sizes) (hEff : 0 < s.nThetaEff)
    (hz : s.nZnT = s.nZeta * s.nThetaEff) (hZ : 0 ≤ s.nZeta) (F : Int → Int → K) :
    surfaceAverage s (fun kl => F (kl / s.nThetaEff) (kl % s.nThetaEff)) =
      ∑ k ∈ Finset.Ico 0 s.nZeta, ∑ l ∈ Finset.Ico 0 s.nThetaEff, F k l * wInt s l := by
  unfold surfaceAverage
  rw [forRange_add, zero_add, hz,
    ← flat_sum hEff (fun k l => F k l * wInt s l)]
  apply Finset.sum_congr rfl
  intro kl h
  rw [Finset.mem_Ico] at h
  rw [Int.tmod_eq_emod_of_nonneg h.1]

/-- sum of an even periodic sequence over one period, folded to the reduced interval -/
theorem fold_even {K : Type} [Field K] (M : Int) (hM : 1 ≤ M) (g : Int → K)
    (hg : ∀ l, g (2 * M - l) = g l) :
    ∑ l ∈ Finset.Ico 0 (2 * M), g l =
      g 0 + g M + 2 * ∑ l ∈ Finset.Ico 1 M, g l := by
  rw [sum_Ico_split (show (0:Int) ≤ M by omega) (show M ≤ 2 * M by omega)]
  rw [sum_Ico_int_first (show (0:Int) < M by omega), sum_Ico_int_first (show M < 2 * M by omega)]
  have : ∑ l ∈ Finset.Ico (M + 1) (2 * M), g l = ∑ l ∈ Finset.Ico 1 M, g l := by
    refine Finset.sum_nbij' (fun j => 2 * M - j) (fun j => 2 * M - j) ?_ ?_ ?_ ?_ ?_
    · intro j h; rw [Finset.mem_Ico] at *; omega
    · intro j h; rw [Finset.mem_Ico] at *; omega
    · intro j _; ring
    · intro j _; ring
    · intro j _; exact (hg j).symm
  rw [this]; ring

/-- the weighted sum over the reduced interval, end points halved -/
theorem reduced_weighted {K : Type} [Field K] [CharZero K] (M Z : Int) (hM : 1 ≤ M) (hZ : 1 ≤ Z) (g : Int → K) :
    ∑ l ∈ Finset.Ico 0 (M + 1), g l * (if l = 0 ∨ l = M then (1 / ((Z * M : Int) : K)) / 2
      else 1 / ((Z * M : Int) : K)) =
    (g 0 + g M + 2 * ∑ l ∈ Finset.Ico 1 M, g l) / ((Z * (2 * M) : Int) : K) := by
  have hZ' : ((Z : Int) : K) ≠ 0 := by exact_mod_cast (show Z ≠ 0 by omega)
  have hM' : ((M : Int) : K) ≠ 0 := by exact_mod_cast (show M ≠ 0 by omega)
  rw [sum_Ico_int_succ (by omega), sum_Ico_int_first (show (0:Int) < M by omega)]
  have : ∑ j ∈ Finset.Ico (0 + 1) M, g j * (if j = 0 ∨ j = M then (1 / ((Z * M : Int) : K)) / 2
      else 1 / ((Z * M : Int) : K)) = (∑ l ∈ Finset.Ico 1 M, g l) * (1 / ((Z * M : Int) : K)) := by
    rw [Finset.sum_mul]
    apply Finset.sum_congr (by simp)
    intro j hj
    rw [Finset.mem_Ico] at hj
    rw [if_neg (by omega)]
  rw [this]
  simp only [true_or, or_true, ↓reduceIte]
  push_cast
  field_simp
  ring

/-- **C08** (constants): the average of a constant is that constant, for every valid resolution and
    both symmetry settings. -/
theorem C08_average_const {K : Type} [Field K] [CharZero K] (lasym : Bool)
    (nfp mpol ntor ntheta nzeta mg ng : Int) (s : Sizes)
    (hs : mk lasym nfp mpol ntor ntheta nzeta mg ng = .ok s) (c : K) :
    surfaceAverage s (fun _ => c) = c := by
  obtain ⟨⟨a1, a2, a3, a4⟩, ⟨b1, b2, b3, b4⟩, ⟨c1, c2, c3⟩, ⟨d1, d2, d3, d4⟩, _⟩ :=
    (C07_sizes lasym nfp mpol ntor ntheta nzeta mg ng).2 s hs
  obtain ⟨hv1, hv2, hv3⟩ := (C07_sizes lasym nfp mpol ntor ntheta nzeta mg ng).1.2 ⟨s, hs⟩
  have hE : 0 < s.nThetaEff := by rw [d2]; split <;> omega
  have h := surfaceAverage_eq s hE d3 (by omega) (fun _ _ => c)
  rw [h]
  have hZ' : ((s.nZeta : Int) : K) ≠ 0 := by exact_mod_cast (show s.nZeta ≠ 0 by omega)
  have card : ∀ n : Int, 0 ≤ n → ∀ x : K, ∑ _j ∈ Finset.Ico 0 n, x = (n : K) * x := by
    intro n hn x
    rw [Finset.sum_const, Int.card_Ico, nsmul_eq_mul]
    congr 1
    have : ((n - 0).toNat : Int) = n := by omega
    exact_mod_cast congrArg (Int.cast (R := K)) this
  rw [card _ (by omega)]
  cases hl : lasym
  · -- symmetric
    have hls : s.lasym = false := by rw [a1, hl]
    have hM : 1 ≤ s.nThetaReduced - 1 := by omega
    have e2 : s.nThetaEff = (s.nThetaReduced - 1) + 1 := by rw [d2, hl]; simp
    have key := reduced_weighted (s.nThetaReduced - 1) s.nZeta hM (by omega) (fun _ => c)
    have e : ∑ l ∈ Finset.Ico 0 s.nThetaEff, c * wInt s l =
        ∑ l ∈ Finset.Ico 0 (s.nThetaReduced - 1 + 1), c * (if l = 0 ∨ l = s.nThetaReduced - 1 then
          (1 / ((s.nZeta * (s.nThetaReduced - 1) : Int) : K)) / 2
          else 1 / ((s.nZeta * (s.nThetaReduced - 1) : Int) : K)) := by
      rw [e2]
      apply Finset.sum_congr rfl
      intro l _
      simp only [wInt, hls, Bool.not_false, Bool.true_and, decide_eq_true_eq]
      simp
    rw [e, key]
    have hM' : (((s.nThetaReduced - 1) : Int) : K) ≠ 0 := by
      exact_mod_cast (show s.nThetaReduced - 1 ≠ 0 by omega)
    have c1' : ∑ _l ∈ Finset.Ico 1 (s.nThetaReduced - 1), c = (((s.nThetaReduced - 1 : Int) : K) - 1) * c := by
      rw [Finset.sum_const, Int.card_Ico, nsmul_eq_mul]
      congr 1
      have : ((s.nThetaReduced - 1 - 1).toNat : Int) = s.nThetaReduced - 1 - 1 := by omega
      have := congrArg (Int.cast (R := K)) this
      push_cast at this ⊢
      exact this
    rw [c1']
    push_cast at *
    field_simp
    ring
  · have hls : s.lasym = true := by rw [a1, hl]
    have e2 : s.nThetaEff = s.nThetaEven := by rw [d2, hl]; simp
    have hT' : ((s.nThetaEven : Int) : K) ≠ 0 := by exact_mod_cast (show s.nThetaEven ≠ 0 by omega)
    have e : ∑ l ∈ Finset.Ico 0 s.nThetaEff, c * wInt s l =
        ∑ _l ∈ Finset.Ico 0 s.nThetaEven, c * (1 / ((s.nZeta * s.nThetaEven : Int) : K)) := by
      rw [e2]
      apply Finset.sum_congr rfl
      intro l _
      simp [wInt, hls]
    rw [e, card _ (by omega)]
    push_cast
    field_simp

/-- **C08** (symmetric functions): for a stellarator-symmetric function on the full, periodic grid
    (`f(-θ,-ζ) = f(θ,ζ)`), the average over the reduced grid with the halved end weights equals the
    plain average over the full grid. -/
theorem C08_reduced_eq_full {K : Type} [Field K] [CharZero K]
    (nfp mpol ntor ntheta nzeta mg ng : Int) (s : Sizes)
    (hs : mk false nfp mpol ntor ntheta nzeta mg ng = .ok s) (f : Int → Int → K)
    (hperL : ∀ k l, f k (l + s.nThetaEven) = f k l) (hperK : ∀ k l, f (k + s.nZeta) l = f k l)
    (hsym : ∀ k l, f (-k) (-l) = f k l) :
    surfaceAverage s (fun kl => f (kl / s.nThetaEff) (kl % s.nThetaEff)) =
      (∑ k ∈ Finset.Ico 0 s.nZeta, ∑ l ∈ Finset.Ico 0 s.nThetaEven, f k l) /
        ((s.nZeta * s.nThetaEven : Int) : K) := by
  obtain ⟨⟨a1, a2, a3, a4⟩, ⟨b1, b2, b3, b4⟩, ⟨c1, c2, c3⟩, ⟨d1, d2, d3, d4⟩, _⟩ :=
    (C07_sizes false nfp mpol ntor ntheta nzeta mg ng).2 s hs
  obtain ⟨hv1, hv2, hv3⟩ := (C07_sizes false nfp mpol ntor ntheta nzeta mg ng).1.2 ⟨s, hs⟩
  simp only [Bool.false_eq_true, if_false] at d2
  have hE : 0 < s.nThetaEff := by omega
  rw [surfaceAverage_eq s hE d3 (by omega) f, Finset.sum_comm]
  have hM : 1 ≤ s.nThetaReduced - 1 := by omega
  have e2 : s.nThetaEff = (s.nThetaReduced - 1) + 1 := by omega
  -- sum over the toroidal direction first
  have hgsym : ∀ l, ∑ k ∈ Finset.Ico 0 s.nZeta, f k (2 * (s.nThetaReduced - 1) - l) =
      ∑ k ∈ Finset.Ico 0 s.nZeta, f k l := by
    intro l
    have h1 : ∀ k, f k (2 * (s.nThetaReduced - 1) - l) = f (-k) l := by
      intro k
      have := hperL k (-l)
      rw [d1, show s.nThetaEven - l = -l + s.nThetaEven by ring, this, ← hsym, neg_neg]
    rw [Finset.sum_congr rfl (fun k _ => h1 k)]
    -- k ↦ -k modulo nZeta
    rw [sum_Ico_int_first (show 0 < s.nZeta by omega), sum_Ico_int_first (show 0 < s.nZeta by omega)]
    congr 1
    · refine Finset.sum_nbij' (fun j => s.nZeta - j) (fun j => s.nZeta - j) ?_ ?_ ?_ ?_ ?_
      · intro j h; rw [Finset.mem_Ico] at *; omega
      · intro j h; rw [Finset.mem_Ico] at *; omega
      · intro j _; ring
      · intro j _; ring
      · intro j _
        rw [show s.nZeta - j = -j + s.nZeta by ring, hperK]
  have hw := reduced_weighted (K := K) (s.nThetaReduced - 1) s.nZeta hM (by omega)
    (fun l => ∑ k ∈ Finset.Ico 0 s.nZeta, f k l)
  rw [← fold_even (s.nThetaReduced - 1) hM (fun l => ∑ k ∈ Finset.Ico 0 s.nZeta, f k l) hgsym, d1] at hw
  rw [Finset.sum_comm (s := Finset.Ico 0 s.nZeta), ← hw, e2]
  apply Finset.sum_congr rfl
  intro l _
  rw [Finset.sum_mul]
  apply Finset.sum_congr rfl
  intro k _
  congr 1
  simp only [wInt, a1, Bool.not_false, Bool.true_and, decide_eq_true_eq]
  simp

/-- a non-constant symmetric function on a valid grid -/
example : ∃ s, mk false 1 2 0 0 0 0 0 = .ok s ∧ s.nThetaEven = 10 ∧ s.nZeta = 1 ∧
    (surfaceAverage s (fun kl => if kl % s.nThetaEff = 0 then (10 : ℚ) else 0)) = 1 := by
  refine ⟨_, rfl, rfl, rfl, ?_⟩
  decide +kernel

end Verif.Sizes
