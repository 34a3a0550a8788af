import Verif.Common.Trig
import Verif.Fourier.Basis
import Verif.Fourier.Props
import Verif.Sizes.Props

/-!
# Property C12: discrete orthogonality of the solver's basis tables
-/
namespace Verif.Fourier
open Verif Finset

theorem fillScale_eq (count m : Int) (h0 : 0 ≤ m) (h1 : m < count) : fillScale count m = scale m := by
  unfold fillScale
  have := forRange_inv (lo := 0) (hi := count) (by omega)
    (fun m a => upd a m (if m = 0 then (1:ℝ) else Real.sqrt 2)) (fun _ => 0)
    (fun j a => ∀ m, 0 ≤ m → m < j → a m = scale m) (by intro m; omega) (by
      intro j a _ _ ih m hm0 hm1
      by_cases h : m = j
      · subst h; simp [scale]
      · rw [upd_ne _ _ h]; exact ih m hm0 (by omega))
  exact this m h0 h1

/-- A doubly nested loop that assigns `v i j` to distinct slots. -/
theorem fill2 {α : Type} (A B : Int) (hA : 0 ≤ A) (hB : 0 ≤ B) (ix : Int → Int → Int) (v : Int → Int → α)
    (hinj : ∀ i j i' j', 0 ≤ i → i < A → 0 ≤ j → j < B → 0 ≤ i' → i' < A → 0 ≤ j' → j' < B →
      ix i j = ix i' j' → i = i' ∧ j = j') (t0 : Int → α) (i j : Int) (hi0 : 0 ≤ i) (hi1 : i < A)
    (hj0 : 0 ≤ j) (hj1 : j < B) :
    forRange 0 A (fun i t => forRange 0 B (fun j t => upd t (ix i j) (v i j)) t) t0 (ix i j) = v i j := by
  have := forRange_inv hA (fun i t => forRange 0 B (fun j t => upd t (ix i j) (v i j)) t) t0
    (fun a t => ∀ i j, 0 ≤ i → i < a → 0 ≤ j → j < B → i < A → t (ix i j) = v i j)
    (by intro i j; omega) (by
      intro a t ha0 ha1 ih
      have inner := forRange_inv hB (fun j t => upd t (ix a j) (v a j)) t
        (fun b t => (∀ i j, 0 ≤ i → i < a → 0 ≤ j → j < B → i < A → t (ix i j) = v i j) ∧
          ∀ j, 0 ≤ j → j < b → t (ix a j) = v a j) ⟨ih, by intro j; omega⟩ (by
          rintro b t hb0 hb1 ⟨h1, h2⟩
          refine ⟨?_, ?_⟩
          · intro i j hi0 hi1 hj0 hj1 hiA
            rw [upd_ne]
            · exact h1 i j hi0 hi1 hj0 hj1 hiA
            · intro hc
              have := (hinj i j a b hi0 hiA hj0 hj1 ha0 ha1 hb0 hb1 hc).1
              omega
          · intro j hj0 hj1
            by_cases h : j = b
            · subst h; simp
            · rw [upd_ne]
              · exact h2 j hj0 (by omega)
              · intro hc
                exact h (hinj a j a b ha0 ha1 hj0 (by omega) ha0 ha1 hb0 hb1 hc).2)
      intro i j hi0 hi1 hj0 hj1 hiA
      by_cases h : i = a
      · subst h; exact inner.2 j hj0 hj1
      · exact inner.1 i j hi0 (by omega) hj0 hj1 hiA)
  exact this i j hi0 hi1 hj0 hj1 hi1

theorem row_inj {B i j i' j' : Int} (hj0 : 0 ≤ j) (hj1 : j < B) (hj0' : 0 ≤ j') (hj1' : j' < B)
    (h : i * B + j = i' * B + j') : i = i' ∧ j = j' := by
  have hB : 0 < B := by omega
  have e1 : (i * B + j) / B = i := by
    rw [add_comm, Int.add_mul_ediv_right _ _ hB.ne', Int.ediv_eq_zero_of_lt hj0 hj1, zero_add]
  have e2 : (i' * B + j') / B = i' := by
    rw [add_comm, Int.add_mul_ediv_right _ _ hB.ne', Int.ediv_eq_zero_of_lt hj0' hj1', zero_add]
  have : i = i' := by rw [← e1, h, e2]
  subst this
  exact ⟨rfl, by omega⟩

theorem pol_eq (L : Layout) (hL : IsLayout L) (s : Sizes.Sizes) (m l : Int) (hm0 : 0 ≤ m)
    (hm1 : m < s.mnyq2 + 1) (hl0 : 0 ≤ l) (hl1 : l < s.nThetaReduced) :
    pol L s m l = polEntry s scale m l := by
  unfold pol polTables
  rw [fill2 (s.mnyq2 + 1) s.nThetaReduced (by omega) (by omega)
    (fun m l => L.poloidal m l (s.mnyq2 + 1) s.nThetaReduced) (fun m l => polEntry s (fillScale (s.mnyq2 + 1)) m l)
    ?_ _ m l hm0 hm1 hl0 hl1]
  · unfold polEntry
    rw [fillScale_eq _ _ hm0 hm1]
  · intro i j i' j' h1 h2 h3 h4 h1' h2' h3' h4' e
    rcases hL with rfl | rfl
    · exact row_inj h3 h4 h3' h4' e
    · exact (row_inj h1 h2 h1' h2' e).symm

theorem tor_eq (L : Layout) (hL : IsLayout L) (s : Sizes.Sizes) (nfp n k : Int) (hn0 : 0 ≤ n)
    (hn1 : n < s.nnyq2 + 1) (hk0 : 0 ≤ k) (hk1 : k < s.nZeta) :
    tor L s nfp n k = torEntry s scale nfp n k := by
  unfold tor torTables
  rw [fill2 s.nZeta (s.nnyq2 + 1) (by omega) (by omega)
    (fun k n => L.toroidal n k (s.nnyq2 + 1) s.nZeta) (fun k n => torEntry s (fillScale (s.nnyq2 + 1)) nfp n k)
    ?_ _ k n hk0 hk1 hn0 hn1]
  · unfold torEntry
    rw [fillScale_eq _ _ hn0 hn1]
  · intro i j i' j' h1 h2 h3 h4 h1' h2' h3' h4' e
    rcases hL with rfl | rfl
    · exact row_inj h3 h4 h3' h4' e
    · exact (row_inj h1 h2 h1' h2' e).symm

/-- the facts about the grid that orthogonality needs -/
structure GoodGrid (s : Sizes.Sizes) : Prop where
  mpol : 1 ≤ s.mpol
  ntor : 0 ≤ s.ntor
  nz : 1 ≤ s.nZeta
  nyqT : 2 * s.ntor < s.nZeta
  even : s.nThetaEven = 2 * (s.nThetaReduced - 1)
  nyqP : s.mpol ≤ s.nThetaReduced - 2
  m2 : s.mpol < s.mnyq2 + 1
  n2 : s.ntor < s.nnyq2 + 1

theorem goodGrid_of_mk {lasym : Bool} {nfp mpol ntor ntheta nzeta mg ng : Int} {s : Sizes.Sizes}
    (hs : Sizes.mk lasym nfp mpol ntor ntheta nzeta mg ng = .ok s) : GoodGrid s := by
  have hok := ((Sizes.C07_sizes lasym nfp mpol ntor ntheta nzeta mg ng).1).2 ⟨s, hs⟩
  obtain ⟨⟨a1, a2, a3, a4⟩, ⟨b1, b2, b3, b4⟩, ⟨c1, c2, c3⟩, ⟨d1, d2, d3, d4⟩, _, _, ⟨e1, e2, e3, e4, e5, e6⟩, _⟩ :=
    (Sizes.C07_sizes lasym nfp mpol ntor ntheta nzeta mg ng).2 s hs
  obtain ⟨h1, h2, h3⟩ := hok
  refine ⟨by omega, by omega, c1, ?_, by omega, by omega, by omega, by omega⟩
  rw [a4]
  by_cases h : ntor > 0
  · have := c2 h; omega
  · omega

theorem scale_sq {m : Int} (h : m ≠ 0) : scale m * scale m = 2 := by
  unfold scale; rw [if_neg h]; exact Real.mul_self_sqrt (by norm_num)
@[simp] theorem scale_zero : scale 0 = 1 := by simp [scale]

/-! ### toroidal sums -/
section
variable {s : Sizes.Sizes} (g : GoodGrid s) {n n' : Int} (h0 : 0 ≤ n) (h1 : n ≤ s.ntor) (h0' : 0 ≤ n')
  (h1' : n' ≤ s.ntor)
include g h0 h1 h0' h1'

theorem tor_cc (nfp : Int) : ∑ k ∈ Ico 0 s.nZeta, (torEntry s scale nfp n k).cosnv * (torEntry s scale nfp n' k).cosnv =
    if n = n' then (s.nZeta : ℝ) else 0 := by
  have g1 := g.nyqT
  have g2 := g.nz
  have h := cos_cos_sum s.nZeta (by omega) n n'
  have e : ∀ k : Int, (torEntry s scale nfp n k).cosnv * (torEntry s scale nfp n' k).cosnv =
      (Real.cos (n * (2 * Real.pi * k / s.nZeta)) * Real.cos (n' * (2 * Real.pi * k / s.nZeta))) * (scale n * scale n') := by
    intro k; simp only [torEntry]; ring
  simp only [e]
  rw [← Finset.sum_mul, h]
  have d1 := dvd_small (N := s.nZeta) (p := n - n') (by omega) (by omega)
  have d2 := dvd_small (N := s.nZeta) (p := n + n') (by omega) (by omega)
  simp only [d1, d2]
  by_cases hn : n = n'
  · subst hn
    by_cases hz : n = 0
    · subst hz; simp
    · rw [if_pos (by omega), if_neg (by omega), if_pos rfl, scale_sq hz]; ring
  · rw [if_neg (by omega), if_neg (by omega), if_neg hn]; simp

theorem tor_ss (nfp : Int) : ∑ k ∈ Ico 0 s.nZeta, (torEntry s scale nfp n k).sinnv * (torEntry s scale nfp n' k).sinnv =
    if n = n' ∧ n ≠ 0 then (s.nZeta : ℝ) else 0 := by
  have g1 := g.nyqT
  have g2 := g.nz
  have h := sin_sin_sum s.nZeta (by omega) n n'
  have e : ∀ k : Int, (torEntry s scale nfp n k).sinnv * (torEntry s scale nfp n' k).sinnv =
      (Real.sin (n * (2 * Real.pi * k / s.nZeta)) * Real.sin (n' * (2 * Real.pi * k / s.nZeta))) * (scale n * scale n') := by
    intro k; simp only [torEntry]; ring
  simp only [e]
  rw [← Finset.sum_mul, h]
  have d1 := dvd_small (N := s.nZeta) (p := n - n') (by omega) (by omega)
  have d2 := dvd_small (N := s.nZeta) (p := n + n') (by omega) (by omega)
  simp only [d1, d2]
  by_cases hn : n = n'
  · subst hn
    by_cases hz : n = 0
    · subst hz; simp
    · rw [if_pos (by omega), if_neg (by omega), if_pos ⟨rfl, hz⟩, scale_sq hz]; ring
  · rw [if_neg (by omega), if_neg (by omega), if_neg (by tauto)]; simp

omit h0 h1 h0' h1' in
theorem tor_sc (nfp : Int) : ∑ k ∈ Ico 0 s.nZeta, (torEntry s scale nfp n k).sinnv * (torEntry s scale nfp n' k).cosnv = 0 := by
  have g2 := g.nz
  have h := sin_cos_sum s.nZeta (by omega) n n'
  have e : ∀ k : Int, (torEntry s scale nfp n k).sinnv * (torEntry s scale nfp n' k).cosnv =
      (Real.sin (n * (2 * Real.pi * k / s.nZeta)) * Real.cos (n' * (2 * Real.pi * k / s.nZeta))) * (scale n * scale n') := by
    intro k; simp only [torEntry]; ring
  simp only [e]
  rw [← Finset.sum_mul, h, zero_mul]

omit h0 h1 h0' h1' in
theorem tor_cs (nfp : Int) : ∑ k ∈ Ico 0 s.nZeta, (torEntry s scale nfp n k).cosnv * (torEntry s scale nfp n' k).sinnv = 0 := by
  rw [← tor_sc g (n := n') (n' := n) nfp]
  exact Finset.sum_congr rfl fun k _ => mul_comm _ _
end

/-! ### poloidal sums -/

theorem half_sum (M : Int) (hM : 1 ≤ M) (f : Int → ℝ) (hf : ∀ l, f (2 * M - l) = f l) :
    f 0 / 2 + f M / 2 + ∑ l ∈ Ico 1 M, f l = (∑ l ∈ Ico 0 (2 * M), f l) / 2 := by
  rw [Sizes.fold_even M hM f hf]; ring

theorem ends_sum (M : Int) (hM : 1 ≤ M) (f : Int → ℝ) :
    ∑ l ∈ Ico 0 (M + 1), f l = f 0 + f M + ∑ l ∈ Ico 1 M, f l := by
  rw [sum_Ico_int_succ (by omega), sum_Ico_int_first (show (0:Int) < M by omega)]
  simp only [zero_add]; ring

section
variable {s : Sizes.Sizes} (g : GoodGrid s) {m m' : Int} (h0 : 0 ≤ m) (h1 : m < s.mpol) (h0' : 0 ≤ m')
  (h1' : m' < s.mpol)
include g h0 h1 h0' h1'

theorem pol_cc : ∑ l ∈ Ico 0 s.nThetaReduced, (polEntry s scale m l).cosmu * (polEntry s scale m' l).cosmui =
    if m = m' then 1 / (s.nZeta : ℝ) else 0 := by
  obtain ⟨M, hM⟩ : ∃ M, M = s.nThetaReduced - 1 := ⟨_, rfl⟩
  have g1 := g.nyqP
  have g2 := g.nz
  have ge := g.even
  have gm := g.mpol
  rw [← hM] at ge
  have hM1 : 1 ≤ M := by omega
  have hr : s.nThetaReduced = M + 1 := by omega
  have hMr : (M : ℝ) ≠ 0 := by exact_mod_cast (by omega : M ≠ 0)
  have hZr : (s.nZeta : ℝ) ≠ 0 := by exact_mod_cast (by omega : s.nZeta ≠ 0)
  rw [hr, ends_sum M hM1]
  let f : Int → ℝ := fun l => Real.cos (m * (2 * Real.pi * l / ((2 * M : Int) : ℝ))) * Real.cos (m' * (2 * Real.pi * l / ((2 * M : Int) : ℝ)))
  have hf : ∀ l, f (2 * M - l) = f l := by
    intro l
    have hc : ∀ p : Int, Real.cos (p * (2 * Real.pi * ((2 * M - l : Int) : ℝ) / ((2 * M : Int) : ℝ))) =
        Real.cos (p * (2 * Real.pi * l / ((2 * M : Int) : ℝ))) := by
      intro p
      have : (p : ℝ) * (2 * Real.pi * ((2 * M - l : Int) : ℝ) / ((2 * M : Int) : ℝ)) =
          p * (2 * Real.pi) - p * (2 * Real.pi * l / ((2 * M : Int) : ℝ)) := by
        push_cast; field_simp
      rw [this, Real.cos_int_mul_two_pi_sub]
    simp only [f, hc]
  have key := half_sum M hM1 f hf
  have tot := cos_cos_sum (2 * M) (by omega) m m'
  have tot' : ∑ l ∈ Ico 0 (2 * M), f l = _ := tot
  rw [tot'] at key
  have d1 := dvd_small (N := 2 * M) (p := m - m') (by omega) (by omega)
  have d2 := dvd_small (N := 2 * M) (p := m + m') (by omega) (by omega)
  simp only [d1, d2] at key
  have e0 : (polEntry s scale m 0).cosmu * (polEntry s scale m' 0).cosmui =
      f 0 / 2 * (scale m * scale m' / (s.nZeta * M)) := by
    simp only [polEntry, f, ge, hr]; push_cast; simp; ring
  have eM : (polEntry s scale m M).cosmu * (polEntry s scale m' M).cosmui =
      f M / 2 * (scale m * scale m' / (s.nZeta * M)) := by
    simp only [polEntry, f, ge, hr, add_sub_cancel_right, or_true, if_true]; push_cast; ring
  have el : ∑ l ∈ Ico 1 M, (polEntry s scale m l).cosmu * (polEntry s scale m' l).cosmui =
      (∑ l ∈ Ico 1 M, f l) * (scale m * scale m' / (s.nZeta * M)) := by
    rw [Finset.sum_mul]
    apply Finset.sum_congr rfl
    intro l hl
    rw [Finset.mem_Ico] at hl
    have hne : ¬ (l = 0 ∨ l = M) := by omega
    simp only [polEntry, f, ge, hr, add_sub_cancel_right, hne, if_false]; push_cast; ring
  rw [e0, eM, el, ← add_mul, ← add_mul, key]
  by_cases hm : m = m'
  · subst hm
    by_cases hz : m = 0
    · subst hz; simp; field_simp
    · rw [if_pos (by omega), if_neg (by omega), if_pos rfl, scale_sq hz]; push_cast; field_simp; ring
  · rw [if_neg (by omega), if_neg (by omega), if_neg hm]; simp

theorem pol_ss : ∑ l ∈ Ico 0 s.nThetaReduced, (polEntry s scale m l).sinmu * (polEntry s scale m' l).sinmui =
    if m = m' ∧ m ≠ 0 then 1 / (s.nZeta : ℝ) else 0 := by
  obtain ⟨M, hM⟩ : ∃ M, M = s.nThetaReduced - 1 := ⟨_, rfl⟩
  have g1 := g.nyqP
  have g2 := g.nz
  have ge := g.even
  have gm := g.mpol
  rw [← hM] at ge
  have hM1 : 1 ≤ M := by omega
  have hr : s.nThetaReduced = M + 1 := by omega
  have hMr : (M : ℝ) ≠ 0 := by exact_mod_cast (by omega : M ≠ 0)
  have hZr : (s.nZeta : ℝ) ≠ 0 := by exact_mod_cast (by omega : s.nZeta ≠ 0)
  rw [hr, ends_sum M hM1]
  let f : Int → ℝ := fun l => Real.sin (m * (2 * Real.pi * l / ((2 * M : Int) : ℝ))) * Real.sin (m' * (2 * Real.pi * l / ((2 * M : Int) : ℝ)))
  have hf : ∀ l, f (2 * M - l) = f l := by
    intro l
    have hc : ∀ p : Int, Real.sin (p * (2 * Real.pi * ((2 * M - l : Int) : ℝ) / ((2 * M : Int) : ℝ))) =
        -Real.sin (p * (2 * Real.pi * l / ((2 * M : Int) : ℝ))) := by
      intro p
      have : (p : ℝ) * (2 * Real.pi * ((2 * M - l : Int) : ℝ) / ((2 * M : Int) : ℝ)) =
          p * (2 * Real.pi) - p * (2 * Real.pi * l / ((2 * M : Int) : ℝ)) := by
        push_cast; field_simp
      rw [this, Real.sin_int_mul_two_pi_sub]
    simp only [f, hc]; ring
  have key := half_sum M hM1 f hf
  have tot := sin_sin_sum (2 * M) (by omega) m m'
  have tot' : ∑ l ∈ Ico 0 (2 * M), f l = _ := tot
  rw [tot'] at key
  have d1 := dvd_small (N := 2 * M) (p := m - m') (by omega) (by omega)
  have d2 := dvd_small (N := 2 * M) (p := m + m') (by omega) (by omega)
  simp only [d1, d2] at key
  have hs : ∀ p : Int, Real.sin (p * (2 * Real.pi * M / ((2 * M : Int) : ℝ))) = 0 := by
    intro p
    have : (p : ℝ) * (2 * Real.pi * M / ((2 * M : Int) : ℝ)) = p * Real.pi := by push_cast; field_simp
    rw [this, Real.sin_int_mul_pi]
  have f0 : f 0 = 0 := by simp [f]
  have fM : f M = 0 := by simp only [f, hs]; ring
  have el : ∀ l, (polEntry s scale m l).sinmu * (polEntry s scale m' l).sinmui =
      f l * (scale m * scale m' / (s.nZeta * M)) := by
    intro l
    simp only [polEntry, f, ge, hr, add_sub_cancel_right]; push_cast; ring
  simp only [el, f0, fM]
  rw [f0, fM] at key
  rw [← Finset.sum_mul, ← add_mul, ← add_mul]
  simp only [zero_mul, zero_add, add_zero, zero_div] at key ⊢
  rw [key]
  by_cases hm : m = m'
  · subst hm
    by_cases hz : m = 0
    · subst hz; simp
    · rw [if_pos (by omega), if_neg (by omega), if_pos ⟨rfl, hz⟩, scale_sq hz]; push_cast; field_simp; ring
  · rw [if_neg (by omega), if_neg (by omega), if_neg (by tauto)]; simp
end

theorem bilinear (Z R M N : Int) (c : Int → Int → ℝ) (A B : Int → Int → ℝ) (U V : Int → ℝ) :
    ∑ k ∈ Ico 0 Z, ∑ l ∈ Ico 0 R, (∑ m ∈ Ico 0 M, ∑ n ∈ Ico 0 N, c m n * A m l * B n k) * U l * V k =
    ∑ m ∈ Ico 0 M, ∑ n ∈ Ico 0 N, c m n * (∑ l ∈ Ico 0 R, A m l * U l) * (∑ k ∈ Ico 0 Z, B n k * V k) := by
  simp only [Finset.sum_mul, Finset.mul_sum]
  rw [Finset.sum_comm]
  have : ∀ l ∈ Ico 0 R, ∑ k ∈ Ico 0 Z, ∑ m ∈ Ico 0 M, ∑ n ∈ Ico 0 N, c m n * A m l * B n k * U l * V k =
      ∑ m ∈ Ico 0 M, ∑ n ∈ Ico 0 N, ∑ k ∈ Ico 0 Z, c m n * A m l * B n k * U l * V k := by
    intro l _
    rw [Finset.sum_comm]
    refine Finset.sum_congr rfl fun m _ => ?_
    rw [Finset.sum_comm]
  rw [Finset.sum_congr rfl this, Finset.sum_comm]
  refine Finset.sum_congr rfl fun m _ => ?_
  rw [Finset.sum_comm]
  refine Finset.sum_congr rfl fun n _ => ?_
  rw [Finset.sum_comm]
  refine Finset.sum_congr rfl fun k _ => ?_
  refine Finset.sum_congr rfl fun l _ => ?_
  ring

theorem delta2 (M N m n : Int) (hm0 : 0 ≤ m) (hm1 : m < M) (hn0 : 0 ≤ n) (hn1 : n < N) (c : Int → Int → ℝ)
    (P Q : Int → ℝ) (hP : ∀ m', 0 ≤ m' → m' < M → m' ≠ m → P m' = 0)
    (hQ : ∀ n', 0 ≤ n' → n' < N → n' ≠ n → Q n' = 0) :
    ∑ m ∈ Ico 0 M, ∑ n ∈ Ico 0 N, c m n * P m * Q n = c m n * P m * Q n := by
  rw [Finset.sum_eq_single m]
  · rw [Finset.sum_eq_single n]
    · intro b hb hbn; rw [Finset.mem_Ico] at hb; rw [hQ b hb.1 hb.2 hbn, mul_zero]
    · intro h; exact absurd (Finset.mem_Ico.2 ⟨hn0, hn1⟩) h
  · intro b hb hbm; rw [Finset.mem_Ico] at hb
    apply Finset.sum_eq_zero; intro n _; rw [hP b hb.1 hb.2 hbm]; ring
  · intro h; exact absurd (Finset.mem_Ico.2 ⟨hm0, hm1⟩) h

theorem analysis (s : Sizes.Sizes) (g : GoodGrid s) (nfp : Int) (c d : Int → Int → ℝ)
    (A A' : PolEntry → ℝ) (B B' : TorEntry → ℝ) (U : PolEntry → ℝ) (V : TorEntry → ℝ) (m n : Int)
    (hm0 : 0 ≤ m) (hm1 : m < s.mpol) (hn0 : 0 ≤ n) (hn1 : n ≤ s.ntor)
    (hP : ∀ m', 0 ≤ m' → m' < s.mpol → ∑ l ∈ Ico 0 s.nThetaReduced,
      A (polEntry s scale m' l) * U (polEntry s scale m l) = if m' = m then 1 / (s.nZeta : ℝ) else 0)
    (hQ : ∀ n', 0 ≤ n' → n' ≤ s.ntor → ∑ k ∈ Ico 0 s.nZeta,
      B (torEntry s scale nfp n' k) * V (torEntry s scale nfp n k) = if n' = n then (s.nZeta : ℝ) else 0)
    (hQ' : ∀ n', ∑ k ∈ Ico 0 s.nZeta,
      B' (torEntry s scale nfp n' k) * V (torEntry s scale nfp n k) = 0) :
    ∑ k ∈ Ico 0 s.nZeta, ∑ l ∈ Ico 0 s.nThetaReduced,
      (∑ m ∈ Ico 0 s.mpol, ∑ n ∈ Ico 0 (s.ntor + 1),
        (c m n * A (polEntry s scale m l) * B (torEntry s scale nfp n k) +
         d m n * A' (polEntry s scale m l) * B' (torEntry s scale nfp n k))) *
        U (polEntry s scale m l) * V (torEntry s scale nfp n k) = c m n := by
  simp only [Finset.sum_add_distrib, add_mul]
  rw [bilinear s.nZeta s.nThetaReduced s.mpol (s.ntor + 1) c (fun m l => A (polEntry s scale m l))
    (fun n k => B (torEntry s scale nfp n k)) (fun l => U (polEntry s scale m l)) (fun k => V (torEntry s scale nfp n k)),
    bilinear s.nZeta s.nThetaReduced s.mpol (s.ntor + 1) d (fun m l => A' (polEntry s scale m l))
    (fun n k => B' (torEntry s scale nfp n k)) (fun l => U (polEntry s scale m l)) (fun k => V (torEntry s scale nfp n k))]
  simp only [hQ', mul_zero, Finset.sum_const_zero, add_zero]
  rw [delta2 s.mpol (s.ntor + 1) m n hm0 hm1 hn0 (by omega) c
    (fun m' => ∑ l ∈ Ico 0 s.nThetaReduced, A (polEntry s scale m' l) * U (polEntry s scale m l))
    (fun n' => ∑ k ∈ Ico 0 s.nZeta, B (torEntry s scale nfp n' k) * V (torEntry s scale nfp n k))]
  · simp only [hP m hm0 hm1, hQ n hn0 hn1, if_true]
    have := g.nz
    have hZr : (s.nZeta : ℝ) ≠ 0 := by exact_mod_cast (by omega : s.nZeta ≠ 0)
    field_simp
  · intro m' a b h; simp only [hP m' a b, if_neg h]
  · intro n' a b h; simp only [hQ n' a (by omega), if_neg h]

/-- grid angle `θ_l` and `ζ_k` of the solver grid -/
noncomputable def thetaGrid (s : Sizes.Sizes) (l : Int) : ℝ := 2 * Real.pi * l / s.nThetaEven
noncomputable def zetaGrid (s : Sizes.Sizes) (k : Int) : ℝ := 2 * Real.pi * k / s.nZeta

/-- **C12** (even functions): sample the function with product coefficients `cc`, `ss` on the solver's
    grid and analyse it with the solver's tables: the coefficients come back exactly. -/
theorem C12_even (L : Layout) (hL : IsLayout L) (lasym : Bool) (nfp mpol ntor ntheta nzeta mg ng : Int)
    (s : Sizes.Sizes) (hs : Sizes.mk lasym nfp mpol ntor ntheta nzeta mg ng = .ok s)
    (cc ss : Int → Int → ℝ) (m n : Int) (hm0 : 0 ≤ m) (hm1 : m < mpol) (hn0 : 0 ≤ n) (hn1 : n ≤ ntor) :
    ∑ k ∈ Ico 0 s.nZeta, ∑ l ∈ Ico 0 s.nThetaReduced,
      productCos mpol ntor cc ss (thetaGrid s l) (zetaGrid s k) * (pol L s m l).cosmui * (tor L s nfp n k).cosnv
      = cc m n ∧
    (m ≠ 0 → n ≠ 0 → ∑ k ∈ Ico 0 s.nZeta, ∑ l ∈ Ico 0 s.nThetaReduced,
      productCos mpol ntor cc ss (thetaGrid s l) (zetaGrid s k) * (pol L s m l).sinmui * (tor L s nfp n k).sinnv
      = ss m n) := by
  have g := goodGrid_of_mk hs
  obtain ⟨⟨_, _, e3, e4⟩, _⟩ := (Sizes.C07_sizes lasym nfp mpol ntor ntheta nzeta mg ng).2 s hs
  subst e3 e4
  have gm2 := g.m2
  have gn2 := g.n2
  constructor
  · rw [← analysis s g nfp cc ss PolEntry.cosmu PolEntry.sinmu TorEntry.cosnv TorEntry.sinnv
      PolEntry.cosmui TorEntry.cosnv m n hm0 hm1 hn0 hn1
      (fun m' a b => pol_cc g a b hm0 hm1) (fun n' a b => tor_cc g a b hn0 hn1 nfp)
      (fun n' => tor_sc g nfp)]
    refine Finset.sum_congr rfl fun k hk => Finset.sum_congr rfl fun l hl => ?_
    rw [Finset.mem_Ico] at hk hl
    rw [pol_eq L hL s m l hm0 (by omega) hl.1 hl.2, tor_eq L hL s nfp n k hn0 (by omega) hk.1 hk.2]
    rfl
  · intro hm hn
    rw [← analysis s g nfp ss cc PolEntry.sinmu PolEntry.cosmu TorEntry.sinnv TorEntry.cosnv
      PolEntry.sinmui TorEntry.sinnv m n hm0 hm1 hn0 hn1
      (fun m' a b => by
        rw [pol_ss g a b hm0 hm1]
        by_cases h : m' = m
        · subst h; simp [hm]
        · simp [h])
      (fun n' a b => by
        rw [tor_ss g a b hn0 hn1 nfp]
        by_cases h : n' = n
        · subst h; simp [hn]
        · simp [h])
      (fun n' => tor_cs g nfp)]
    refine Finset.sum_congr rfl fun k hk => Finset.sum_congr rfl fun l hl => ?_
    rw [Finset.mem_Ico] at hk hl
    rw [pol_eq L hL s m l hm0 (by omega) hl.1 hl.2, tor_eq L hL s nfp n k hn0 (by omega) hk.1 hk.2]
    congr 2
    unfold productCos
    refine Finset.sum_congr rfl fun m _ => Finset.sum_congr rfl fun n _ => ?_
    rw [add_comm]; rfl

/-- **C12** (odd functions). -/
theorem C12_odd (L : Layout) (hL : IsLayout L) (lasym : Bool) (nfp mpol ntor ntheta nzeta mg ng : Int)
    (s : Sizes.Sizes) (hs : Sizes.mk lasym nfp mpol ntor ntheta nzeta mg ng = .ok s)
    (sc cs : Int → Int → ℝ) (m n : Int) (hm0 : 0 ≤ m) (hm1 : m < mpol) (hn0 : 0 ≤ n) (hn1 : n ≤ ntor) :
    (m ≠ 0 → ∑ k ∈ Ico 0 s.nZeta, ∑ l ∈ Ico 0 s.nThetaReduced,
      productSin mpol ntor sc cs (thetaGrid s l) (zetaGrid s k) * (pol L s m l).sinmui * (tor L s nfp n k).cosnv
      = sc m n) ∧
    (n ≠ 0 → ∑ k ∈ Ico 0 s.nZeta, ∑ l ∈ Ico 0 s.nThetaReduced,
      productSin mpol ntor sc cs (thetaGrid s l) (zetaGrid s k) * (pol L s m l).cosmui * (tor L s nfp n k).sinnv
      = cs m n) := by
  have g := goodGrid_of_mk hs
  obtain ⟨⟨_, _, e3, e4⟩, _⟩ := (Sizes.C07_sizes lasym nfp mpol ntor ntheta nzeta mg ng).2 s hs
  subst e3 e4
  have gm2 := g.m2
  have gn2 := g.n2
  constructor
  · intro hm
    rw [← analysis s g nfp sc cs PolEntry.sinmu PolEntry.cosmu TorEntry.cosnv TorEntry.sinnv
      PolEntry.sinmui TorEntry.cosnv m n hm0 hm1 hn0 hn1
      (fun m' a b => by
        rw [pol_ss g a b hm0 hm1]
        by_cases h : m' = m
        · subst h; simp [hm]
        · simp [h])
      (fun n' a b => tor_cc g a b hn0 hn1 nfp)
      (fun n' => tor_sc g nfp)]
    refine Finset.sum_congr rfl fun k hk => Finset.sum_congr rfl fun l hl => ?_
    rw [Finset.mem_Ico] at hk hl
    rw [pol_eq L hL s m l hm0 (by omega) hl.1 hl.2, tor_eq L hL s nfp n k hn0 (by omega) hk.1 hk.2]
    rfl
  · intro hn
    rw [← analysis s g nfp cs sc PolEntry.cosmu PolEntry.sinmu TorEntry.sinnv TorEntry.cosnv
      PolEntry.cosmui TorEntry.sinnv m n hm0 hm1 hn0 hn1
      (fun m' a b => pol_cc g a b hm0 hm1)
      (fun n' a b => by
        rw [tor_ss g a b hn0 hn1 nfp]
        by_cases h : n' = n
        · subst h; simp [hn]
        · simp [h])
      (fun n' => tor_cs g nfp)]
    refine Finset.sum_congr rfl fun k hk => Finset.sum_congr rfl fun l hl => ?_
    rw [Finset.mem_Ico] at hk hl
    rw [pol_eq L hL s m l hm0 (by omega) hl.1 hl.2, tor_eq L hL s nfp n k hn0 (by omega) hk.1 hk.2]
    congr 2
    unfold productSin
    refine Finset.sum_congr rfl fun m _ => Finset.sum_congr rfl fun n _ => ?_
    rw [add_comm]; rfl

/-- a typical resolution meets the hypotheses -/
example : ∃ s, Sizes.mk false 5 12 12 0 36 0 0 = .ok s ∧ s.nThetaReduced = 16 ∧ s.nZeta = 36 :=
  ⟨_, rfl, by decide, by decide⟩

end Verif.Fourier
