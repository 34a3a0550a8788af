import Verif.Output.Filter
import Verif.Output.FilterSpec

/-! # Closed forms of the loops of the low-pass filter -/
namespace Verif.Output
open Verif Verif.Fourier Verif.Radial Finset

/-- flat index with three levels -/
theorem flat3_inj {Z T j k l j' k' l' : Int} (k0 : 0 ≤ k) (k1 : k < Z) (l0 : 0 ≤ l) (l1 : l < T) (k0' : 0 ≤ k') (k1' : k' < Z) (l0' : 0 ≤ l') (l1' : l' < T)
    (h : j * (T * Z) + (k * T + l) = j' * (T * Z) + (k' * T + l')) : j = j' ∧ k = k' ∧ l = l' := by
  have e : (j * Z + k) * T + l = (j' * Z + k') * T + l' := by linarith [h, mul_comm T Z, mul_assoc j Z T, mul_assoc j' Z T]
  obtain ⟨h1, h2⟩ := Verif.flat_inj l0 l1 l0' l1' e
  obtain ⟨h3, h4⟩ := Verif.flat_inj k0 k1 k0' k1' h1
  exact ⟨h3, h4, h2⟩

theorem kl_range {Z T k l : Int} (k0 : 0 ≤ k) (k1 : k < Z) (l0 : 0 ≤ l) (l1 : l < T) : 0 ≤ k * T + l ∧ k * T + l < T * Z := by
  constructor
  · have : 0 ≤ k * T := mul_nonneg k0 (by omega)
    omega
  · have : (k + 1) * T ≤ Z * T := mul_le_mul_of_nonneg_right (by omega) (by omega)
    nlinarith

section
variable (s : Sizes.Sizes)

theorem accGrid_eq (num : Int) (v : Int → Int → Int → Int → Int → ℝ) (j k l : Int) (j0 : 0 ≤ j) (j1 : j < num) (k0 : 0 ≤ k) (k1 : k < s.nZeta) (l0 : 0 ≤ l) (l1 : l < s.nThetaReduced) :
    accGrid s num v (j * reduced s + (k * s.nThetaReduced + l)) = ∑ m ∈ Ico 0 s.mpol, ∑ n ∈ Ico 0 (s.ntor + 1), v j m n k l := by
  let pr : (Int → ℝ) → ℝ := fun a => a (j * reduced s + (k * s.nThetaReduced + l))
  have step (j' m n k' l' : Int) (a : Int → ℝ) (h0 : 0 ≤ k') (h1 : k' < s.nZeta) (h2 : 0 ≤ l') (h3 : l' < s.nThetaReduced) :
      pr (upd a (j' * reduced s + (k' * s.nThetaReduced + l')) (a (j' * reduced s + (k' * s.nThetaReduced + l')) + v j' m n k' l'))
      = if j' = j ∧ k' = k ∧ l' = l then pr a + v j m n k l else pr a := by
    by_cases e : j' = j ∧ k' = k ∧ l' = l
    · obtain ⟨rfl, rfl, rfl⟩ := e; simp [pr]
    · rw [if_neg e]
      exact upd_ne _ _ (fun h => e (by
        obtain ⟨a1, a2, a3⟩ := flat3_inj k0 k1 l0 l1 h0 h1 h2 h3 h
        exact ⟨a1.symm, a2.symm, a3.symm⟩))
  have lloop (j' m n k' : Int) (a : Int → ℝ) (h0 : 0 ≤ k') (h1 : k' < s.nZeta) := (pickLoop pr (fun l' a => upd a (j' * reduced s + (k' * s.nThetaReduced + l')) (a (j' * reduced s + (k' * s.nThetaReduced + l')) + v j' m n k' l'))
    (lo := 0) (hi := s.nThetaReduced) (i0 := l) (fun x => if j' = j ∧ k' = k then x + v j m n k l else x)
    (fun i a i0 i1 hne => (step j' m n k' i a h0 h1 i0 i1).trans (if_neg (fun e => hne e.2.2)))
    (fun a i0 i1 => (step j' m n k' l a h0 h1 i0 i1).trans (if_congr (by tauto) rfl rfl)) a).trans (if_pos ⟨l0, l1⟩)
  have kloop (j' m n : Int) (a : Int → ℝ) := (pickLoop pr (fun k' a => forRange 0 s.nThetaReduced (fun l' a => upd a (j' * reduced s + (k' * s.nThetaReduced + l')) (a (j' * reduced s + (k' * s.nThetaReduced + l')) + v j' m n k' l')) a)
    (lo := 0) (hi := s.nZeta) (i0 := k) (fun x => if j' = j then x + v j m n k l else x)
    (fun i a i0 i1 hne => (lloop j' m n i a i0 i1).trans (if_neg (fun e => hne e.2)))
    (fun a i0 i1 => (lloop j' m n k a i0 i1).trans (if_congr (by tauto) rfl rfl)) a).trans (if_pos ⟨k0, k1⟩)
  have nloop (j' m : Int) (a : Int → ℝ) : pr (forRange 0 (s.ntor + 1) (fun n a => forRange 0 s.nZeta (fun k' a => forRange 0 s.nThetaReduced (fun l' a =>
      upd a (j' * reduced s + (k' * s.nThetaReduced + l')) (a (j' * reduced s + (k' * s.nThetaReduced + l')) + v j' m n k' l')) a) a) a)
      = if j' = j then pr a + ∑ n ∈ Ico 0 (s.ntor + 1), v j m n k l else pr a := by
    by_cases e : j' = j
    · rw [if_pos e]
      refine (forRange_map _ (fun n x => x + v j m n k l) pr (fun n a => (kloop j' m n a).trans (if_pos e)) a).trans ?_
      rw [forRange_add]
    · rw [if_neg e]
      refine (forRange_map _ (fun n x => x) pr (fun n a => (kloop j' m n a).trans (if_neg e)) a).trans ?_
      exact forRange_none _ (fun _ _ _ _ => rfl) _
  have mloop (j' : Int) (a : Int → ℝ) : pr (forRange 0 s.mpol (fun m a => forRange 0 (s.ntor + 1) (fun n a => forRange 0 s.nZeta (fun k' a => forRange 0 s.nThetaReduced (fun l' a =>
      upd a (j' * reduced s + (k' * s.nThetaReduced + l')) (a (j' * reduced s + (k' * s.nThetaReduced + l')) + v j' m n k' l')) a) a) a) a)
      = if j' = j then pr a + ∑ m ∈ Ico 0 s.mpol, ∑ n ∈ Ico 0 (s.ntor + 1), v j m n k l else pr a := by
    by_cases e : j' = j
    · rw [if_pos e]
      refine (forRange_map _ (fun m x => x + ∑ n ∈ Ico 0 (s.ntor + 1), v j m n k l) pr (fun m a => (nloop j' m a).trans (if_pos e)) a).trans ?_
      rw [forRange_add]
    · rw [if_neg e]
      refine (forRange_map _ (fun n x => x) pr (fun m a => (nloop j' m a).trans (if_neg e)) a).trans ?_
      exact forRange_none _ (fun _ _ _ _ => rfl) _
  have jloop := (pickLoop pr (fun j' a => forRange 0 s.mpol (fun m a => forRange 0 (s.ntor + 1) (fun n a => forRange 0 s.nZeta (fun k' a => forRange 0 s.nThetaReduced (fun l' a =>
      upd a (j' * reduced s + (k' * s.nThetaReduced + l')) (a (j' * reduced s + (k' * s.nThetaReduced + l')) + v j' m n k' l')) a) a) a) a)
    (lo := 0) (hi := num) (i0 := j) (fun x => x + ∑ m ∈ Ico 0 s.mpol, ∑ n ∈ Ico 0 (s.ntor + 1), v j m n k l)
    (fun i a i0 i1 hne => (mloop i a).trans (if_neg hne)) (fun a i0 i1 => (mloop j a).trans (if_pos rfl)) (fun _ => (0 : ℝ))).trans (if_pos ⟨j0, j1⟩)
  exact jloop.trans (zero_add _)

/-- nothing is written at or behind the position `num * nZnT_reduced` -/
theorem accGrid_beyond (num : Int) (v : Int → Int → Int → Int → Int → ℝ) (i : Int) (hi : num * reduced s ≤ i) : accGrid s num v i = 0 := by
  let pr : (Int → ℝ) → ℝ := fun a => a i
  have L {lo hi : Int} (f : Int → (Int → ℝ) → Int → ℝ) (h : ∀ q a, lo ≤ q → q < hi → pr (f q a) = pr a) (a : Int → ℝ) : pr (forRange lo hi f a) = pr a :=
    (pickLoop pr f (lo := lo) (hi := hi) (i0 := hi) id (fun q a q0 q1 _ => h q a q0 q1) (fun _ _ h => absurd h (lt_irrefl _)) a).trans (if_neg (fun e => lt_irrefl _ e.2))
  refine L _ (fun j a j0 j1 => L _ (fun m a _ _ => L _ (fun n a _ _ => L _ (fun k a k0 k1 => L _ (fun l a l0 l1 => ?_) a) a) a) a) (fun _ => 0)
  refine upd_ne _ _ ?_
  have h1 := kl_range k0 k1 l0 l1
  have h2 : (j + 1) * reduced s ≤ num * reduced s := by
    refine mul_le_mul_of_nonneg_right (by omega) ?_
    unfold reduced; omega
  unfold reduced at *
  nlinarith

variable {s} {lasym : Bool} {nfp mpol ntor ntheta nzeta mg ng : Int} (hs : Sizes.mk lasym nfp mpol ntor ntheta nzeta mg ng = .ok s)
include hs

theorem dnorm1_eq (m n : Int) (m1 : m < s.mpol) (n0 : 0 ≤ n) (n1 : n ≤ s.ntor) : dnorm1 s m n = 1 := by
  obtain ⟨e1, e2, e3, e4⟩ := sizes_eq hs
  obtain ⟨_, ⟨_, b2, _⟩, ⟨_, c2, _⟩, _, _, _, ⟨_, _, d1, d2, d3, d4⟩, _⟩ := (Sizes.C07_sizes lasym nfp mpol ntor ntheta nzeta mg ng).2 s hs
  unfold dnorm1
  rw [if_neg (by omega), if_neg]
  rintro ⟨h1, h2⟩
  have := c2 (by omega)
  omega

theorem analyse_eq (U : PolEntry → ℝ) (V : TorEntry → ℝ) (f : Int → ℝ) (j m n : Int) (m0 : 0 ≤ m) (m1 : m < s.mpol) (n0 : 0 ≤ n) (n1 : n ≤ s.ntor) :
    analyse s s.nfp U V f j m n = coefOf s U V (fun k l => f (j * reduced s + (k * s.nThetaReduced + l))) m n := by
  rw [coefOf_table hs U V _ m n m0 m1 n0 n1]
  unfold analyse
  have inner (k : Int) (acc : ℝ) : forRange 0 s.nThetaReduced (fun l acc =>
      acc + U (polTables fastPoloidal s (m * s.nThetaReduced + l)) * V (torTables fastPoloidal s s.nfp (k * (s.nnyq2 + 1) + n)) * dnorm1 s m n * f (j * reduced s + (k * s.nThetaReduced + l))) acc
      = acc + ∑ l ∈ Ico 0 s.nThetaReduced, f (j * reduced s + (k * s.nThetaReduced + l)) * U (pol fastPoloidal s m l) * V (tor fastPoloidal s s.nfp n k) := by
    rw [forRange_add]
    congr 1
    refine Finset.sum_congr rfl fun l _ => ?_
    rw [dnorm1_eq hs m n m1 n0 n1]
    change U (pol fastPoloidal s m l) * V (tor fastPoloidal s s.nfp n k) * 1 * _ = _
    ring
  simp only [inner]
  rw [forRange_add, zero_add]

theorem term_eq (A : PolEntry → ℝ) (B : TorEntry → ℝ) (A' : PolEntry → ℝ) (B' : TorEntry → ℝ) (c1 c2 : Int → Int → Int → ℝ) (j m n k l : Int)
    (m0 : 0 ≤ m) (m1 : m < s.mpol) (n0 : 0 ≤ n) (n1 : n ≤ s.ntor) (k0 : 0 ≤ k) (k1 : k < s.nZeta) (l0 : 0 ≤ l) (l1 : l < s.nThetaReduced) :
    term s s.nfp A B A' B' c1 c2 j m n k l = c1 j m n * A (polEntry s scale m l) * B (torEntry s scale s.nfp n k) +
      c2 j m n * A' (polEntry s scale m l) * B' (torEntry s scale s.nfp n k) := by
  have g := goodGrid_of_mk hs
  have := g.m2
  have := g.n2
  have e1 := pol_eq fastPoloidal (Or.inl rfl) s m l m0 (by omega) l0 l1
  have e2 := tor_eq fastPoloidal (Or.inl rfl) s s.nfp n k n0 (by omega) k0 k1
  change A (pol fastPoloidal s m l) * B (tor fastPoloidal s s.nfp n k) * c1 j m n + A' (pol fastPoloidal s m l) * B' (tor fastPoloidal s s.nfp n k) * c2 j m n = _
  rw [e1, e2]
  ring

theorem nZnT_eq : s.nZnT = s.nThetaEff * s.nZeta ∧ s.nThetaEff = (if s.lasym then s.nThetaEven else s.nThetaReduced) ∧ s.nThetaEven = 2 * (s.nThetaReduced - 1) ∧
    4 ≤ s.nThetaReduced - 1 ∧ 1 ≤ s.nZeta := by
  obtain ⟨e1, e2, e3, e4⟩ := sizes_eq hs
  obtain ⟨h0, h⟩ := Sizes.C07_sizes lasym nfp mpol ntor ntheta nzeta mg ng
  obtain ⟨_, ⟨_, b2, _⟩, ⟨c1, _, _⟩, ⟨d1, d2, d3, _⟩, _⟩ := h s hs
  have := (h0.2 ⟨s, hs⟩)
  refine ⟨by rw [d3, mul_comm], by rw [e4]; exact d2, by omega, by omega, c1⟩

theorem rev_range {q n : Int} (q0 : 0 ≤ q) (q1 : q < n) : 0 ≤ (n - q).tmod n ∧ (n - q).tmod n < n ∧ (q = 0 → (n - q).tmod n = 0) ∧ (0 < q → (n - q).tmod n = n - q) := by
  rw [Int.tmod_eq_emod_of_nonneg (by omega)]
  refine ⟨Int.emod_nonneg _ (by omega), Int.emod_lt_of_pos _ (by omega), ?_, ?_⟩
  · rintro rfl; simp
  · intro h; exact Int.emod_eq_of_lt (by omega) (by omega)

/-- the grid values that are transformed, by grid point -/
theorem decomposeUV_eq (num : Int) (sign : ℝ) (b : Int → ℝ) (j k l : Int) (j0 : 0 ≤ j) (j1 : j < num) (k0 : 0 ≤ k) (k1 : k < s.nZeta) (l0 : 0 ≤ l) (l1 : l < s.nThetaReduced) :
    decomposeUV s num sign b (j * reduced s + (k * s.nThetaReduced + l)) =
      if s.lasym then (b (j * s.nZnT + (k * s.nThetaEff + l)) +
        sign * b (j * s.nZnT + ((s.nZeta - k).tmod s.nZeta * s.nThetaEff + (s.nThetaEven - l).tmod s.nThetaEven))) / 2
      else b (j * s.nZnT + (k * s.nThetaEff + l)) := by
  obtain ⟨h1, h2, h3, h4, h5⟩ := nZnT_eq hs
  obtain ⟨r0, r1⟩ := kl_range k0 k1 l0 l1
  unfold decomposeUV
  by_cases hl : s.lasym = true
  · rw [if_pos hl, if_pos hl, fillGrid_in (n := reduced s) j0 j1 r0 (by unfold reduced; first | exact r1 | (rw [mul_comm]; exact r1))]
    rw [if_pos hl] at h2
    have hk : (k * s.nThetaReduced + l).tdiv s.nThetaReduced = k := by
      rw [Int.tdiv_eq_ediv_of_nonneg r0, add_comm, Int.add_mul_ediv_right _ _ (by omega), Int.ediv_eq_zero_of_lt l0 l1, zero_add]
    have hm : (k * s.nThetaReduced + l).tmod s.nThetaReduced = l := by
      rw [Int.tmod_eq_emod_of_nonneg r0, add_comm, Int.add_mul_emod_self_right, Int.emod_eq_of_lt l0 l1]
    simp only [hk, hm, klReversed]
    rw [h2]
    ring
  · rw [if_neg hl, if_neg hl]
    rw [if_neg hl] at h2
    have hr : s.nZnT = reduced s := by rw [h1, h2]; rfl
    rw [← hr]
    have := fillGrid_in (v := fun j kl => b (j * s.nZnT + kl)) j0 j1 (n := s.nZnT) (kl := k * s.nThetaReduced + l) r0 (by rw [hr]; exact r1)
    rw [h2]
    exact this

theorem finish_eq (num : Int) (fs fa a : Int → ℝ) (j k l : Int) (j0 : 0 ≤ j) (j1 : j < num) (k0 : 0 ≤ k) (k1 : k < s.nZeta) (l0 : 0 ≤ l) (l1 : l < s.nThetaEff) :
    finish s num fs fa a (j * s.nZnT + (k * s.nThetaEff + l)) =
      if s.lasym then
        if l < s.nThetaReduced then fs (j * reduced s + (k * s.nThetaReduced + l)) + fa (j * reduced s + (k * s.nThetaReduced + l))
        else fs (j * reduced s + ((s.nZeta - k).tmod s.nZeta * s.nThetaReduced + (s.nThetaEven - l).tmod s.nThetaEven)) -
          fa (j * reduced s + ((s.nZeta - k).tmod s.nZeta * s.nThetaReduced + (s.nThetaEven - l).tmod s.nThetaEven))
      else fs (j * reduced s + (k * s.nThetaReduced + l)) := by
  obtain ⟨h1, h2, h3, h4, h5⟩ := nZnT_eq hs
  unfold finish
  by_cases hl : s.lasym = true
  · rw [if_pos hl, if_pos hl]
    rw [if_pos hl] at h2
    set V : Int → Int → Int → ℝ := fun j k l => if l < s.nThetaReduced then fs (j * reduced s + (k * s.nThetaReduced + l)) + fa (j * reduced s + (k * s.nThetaReduced + l))
        else fs (j * reduced s + ((s.nZeta - k).tmod s.nZeta * s.nThetaReduced + (s.nThetaEven - l).tmod s.nThetaEven)) -
          fa (j * reduced s + ((s.nZeta - k).tmod s.nZeta * s.nThetaReduced + (s.nThetaEven - l).tmod s.nThetaEven)) with hV
    let pr : (Int → ℝ) → ℝ := fun a => a (j * s.nZnT + (k * s.nThetaEff + l))
    have pt (j' k' l' : Int) (x : ℝ) (a : Int → ℝ) (q0 : 0 ≤ k') (q1 : k' < s.nZeta) (q2 : 0 ≤ l') (q3 : l' < s.nThetaEff) :
        pr (upd a (j' * s.nZnT + (k' * s.nThetaEff + l')) x) = if j' = j ∧ k' = k ∧ l' = l then x else pr a := by
      by_cases e : j' = j ∧ k' = k ∧ l' = l
      · obtain ⟨rfl, rfl, rfl⟩ := e; simp [pr]
      · rw [if_neg e]
        refine upd_ne _ _ (fun h => e ?_)
        rw [h1] at h
        obtain ⟨a1, a2, a3⟩ := flat3_inj k0 k1 l0 l1 q0 q1 q2 q3 h
        exact ⟨a1.symm, a2.symm, a3.symm⟩
    have A (j' k' : Int) (q0 : 0 ≤ k') (q1 : k' < s.nZeta) (a : Int → ℝ) := pickLoop pr (fun l a => upd a (j' * s.nZnT + (k' * s.nThetaEff + l)) (fs (j' * reduced s + (k' * s.nThetaReduced + l)) + fa (j' * reduced s + (k' * s.nThetaReduced + l))))
      (lo := 0) (hi := s.nThetaReduced) (i0 := l) (fun x => if j' = j ∧ k' = k then V j k l else x)
      (fun i a i0 i1 hne => (pt j' k' i _ a q0 q1 i0 (by omega)).trans (if_neg (fun e => hne e.2.2)))
      (fun a i0 i1 => (pt j' k' l _ a q0 q1 i0 (by omega)).trans (by
        by_cases e : j' = j ∧ k' = k
        · obtain ⟨rfl, rfl⟩ := e; simp [hV, i1]
        · rw [if_neg e, if_neg (by tauto)])) a
    have B (j' k' : Int) (q0 : 0 ≤ k') (q1 : k' < s.nZeta) (a : Int → ℝ) := pickLoop pr (fun l a => upd a (j' * s.nZnT + (k' * s.nThetaEff + l))
        (fs (j' * reduced s + ((s.nZeta - k').tmod s.nZeta * s.nThetaReduced + (s.nThetaEven - l).tmod s.nThetaEven)) -
          fa (j' * reduced s + ((s.nZeta - k').tmod s.nZeta * s.nThetaReduced + (s.nThetaEven - l).tmod s.nThetaEven))))
      (lo := s.nThetaReduced) (hi := s.nThetaEven) (i0 := l) (fun x => if j' = j ∧ k' = k then V j k l else x)
      (fun i a i0 i1 hne => (pt j' k' i _ a q0 q1 (by omega) (by omega)).trans (if_neg (fun e => hne e.2.2)))
      (fun a i0 i1 => (pt j' k' l _ a q0 q1 (by omega) (by omega)).trans (by
        by_cases e : j' = j ∧ k' = k
        · obtain ⟨rfl, rfl⟩ := e; simp [hV, not_lt.2 i0]
        · rw [if_neg e, if_neg (by tauto)])) a
    have K (j' : Int) (a : Int → ℝ) := (pickLoop pr (fun k' a =>
        forRange s.nThetaReduced s.nThetaEven (fun l a => upd a (j' * s.nZnT + (k' * s.nThetaEff + l))
          (fs (j' * reduced s + ((s.nZeta - k').tmod s.nZeta * s.nThetaReduced + (s.nThetaEven - l).tmod s.nThetaEven)) -
            fa (j' * reduced s + ((s.nZeta - k').tmod s.nZeta * s.nThetaReduced + (s.nThetaEven - l).tmod s.nThetaEven))))
          (forRange 0 s.nThetaReduced (fun l a => upd a (j' * s.nZnT + (k' * s.nThetaEff + l)) (fs (j' * reduced s + (k' * s.nThetaReduced + l)) + fa (j' * reduced s + (k' * s.nThetaReduced + l)))) a))
      (lo := 0) (hi := s.nZeta) (i0 := k) (fun x => if j' = j then V j k l else x)
      (fun i a i0 i1 hne => by
        refine (B j' i i0 i1 _).trans ?_
        have e : ¬ (j' = j ∧ i = k) := fun e => hne e.2
        rw [if_neg e, ite_self]
        refine (A j' i i0 i1 _).trans ?_
        rw [if_neg e, ite_self])
      (fun a i0 i1 => by
        refine (B j' k i0 i1 _).trans ?_
        simp only [and_true]
        rw [A j' k i0 i1 _]
        simp only [and_true]
        by_cases e : j' = j
        · simp only [if_pos e]
          split_ifs <;> first | rfl | omega
        · simp only [if_neg e, ite_self]) a).trans (if_pos ⟨k0, k1⟩)
    exact (pickLoop pr _ (lo := 0) (hi := num) (i0 := j) (fun _ => V j k l) (fun i a _ _ hne => (K i a).trans (if_neg hne))
      (fun a _ _ => (K j a).trans (if_pos rfl)) a).trans (if_pos ⟨j0, j1⟩)
  · rw [if_neg hl, if_neg hl]
    rw [if_neg hl] at h2
    have hr : s.nZnT = reduced s := by rw [h1, h2]; rfl
    obtain ⟨r0, r1⟩ := kl_range k0 k1 l0 l1
    unfold copyBack
    rw [fillGridOn_eq _ _ _ _ _ _ _ r0 (by rw [h1]; exact r1), if_pos ⟨j0, j1⟩, hr, h2]

end

end Verif.Output
