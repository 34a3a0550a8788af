import Verif.Partition.Model
import Mathlib.Tactic.Ring
import Mathlib.Tactic.Linarith
import Mathlib.Tactic.LinearCombination

namespace Verif.Partition
open Verif

theorem split_eq {n nt : Int} (hn : 0 ≤ n) (hnt : 0 < nt) :
    ∃ w r : Int, n.tdiv nt = w ∧ n.tmod nt = r ∧ n = nt * w + r ∧ 0 ≤ r ∧ r < nt ∧ 0 ≤ w := by
  refine ⟨n.tdiv nt, n.tmod nt, rfl, rfl, (Int.mul_tdiv_add_tmod n nt).symm, ?_, ?_, ?_⟩
  · exact Int.tmod_nonneg _ hn
  · exact Int.tmod_lt_of_pos _ hnt
  · exact Int.tdiv_nonneg hn hnt.le

theorem splitMin_zero {n nt : Int} (hn : 0 ≤ n) (hnt : 0 < nt) : splitMin n nt 0 = 0 := by
  obtain ⟨w, r, hw, hr, h1, h2, h3, h4⟩ := split_eq hn hnt
  unfold splitMin; rw [hw, hr]; simp only
  split <;> omega

theorem splitMax_eq_succ {n nt : Int} (hn : 0 ≤ n) (hnt : 0 < nt) (t : Int) :
    splitMax n nt t = splitMin n nt (t + 1) := by
  obtain ⟨w, r, hw, hr, h1, h2, h3, h4⟩ := split_eq hn hnt
  unfold splitMin splitMax; rw [hw, hr]; simp only
  split <;> split <;> omega

theorem splitMin_last {n nt : Int} (hn : 0 ≤ n) (hnt : 0 < nt) : splitMin n nt nt = n := by
  obtain ⟨w, r, hw, hr, h1, h2, h3, h4⟩ := split_eq hn hnt
  unfold splitMin; rw [hw, hr]; simp only
  split
  · omega
  · exact h1.symm

/-- every block has `w` or `w+1` items -/
theorem split_size {n nt : Int} (hn : 0 ≤ n) (hnt : 0 < nt) (t : Int) :
    splitMax n nt t - splitMin n nt t = n.tdiv nt + (if t < n.tmod nt then 1 else 0) := by
  unfold splitMin splitMax; simp only
  split <;> ring

theorem splitMin_le_max {n nt : Int} (hn : 0 ≤ n) (hnt : 0 < nt) (t : Int) :
    splitMin n nt t ≤ splitMax n nt t := by
  have h := split_size hn hnt t
  obtain ⟨w, r, hw, hr, h1, h2, h3, h4⟩ := split_eq hn hnt
  split at h <;> omega

theorem splitMin_mono_succ {n nt : Int} (hn : 0 ≤ n) (hnt : 0 < nt) (t : Int) :
    splitMin n nt t ≤ splitMin n nt (t + 1) := by
  rw [← splitMax_eq_succ hn hnt]; exact splitMin_le_max hn hnt t

theorem splitMin_mono_nat {n nt : Int} (hn : 0 ≤ n) (hnt : 0 < nt) (t : Int) (k : Nat) :
    splitMin n nt t ≤ splitMin n nt (t + k) := by
  induction k with
  | zero => simp
  | succ k ih =>
    have := splitMin_mono_succ hn hnt (t + k)
    push_cast
    have e : t + (k : Int) + 1 = t + (k + 1) := by ring
    rw [e] at this
    omega

theorem splitMin_mono {n nt : Int} (hn : 0 ≤ n) (hnt : 0 < nt) {t t' : Int} (h : t ≤ t') :
    splitMin n nt t ≤ splitMin n nt t' := by
  have := splitMin_mono_nat hn hnt t (t' - t).toNat
  have e : t + ((t' - t).toNat : Int) = t' := by omega
  rwa [e] at this

theorem split_nonneg {n nt : Int} (hn : 0 ≤ n) (hnt : 0 < nt) {t : Int} (h : 0 ≤ t) :
    0 ≤ splitMin n nt t := by
  have := splitMin_mono hn hnt h
  rw [splitMin_zero hn hnt] at this
  exact this

theorem split_le {n nt : Int} (hn : 0 ≤ n) (hnt : 0 < nt) {t : Int} (h : t < nt) :
    splitMax n nt t ≤ n := by
  rw [splitMax_eq_succ hn hnt]
  have := splitMin_mono hn hnt (show t + 1 ≤ nt by omega)
  rwa [splitMin_last hn hnt] at this

theorem split_exists_aux {n nt : Int} (hn : 0 ≤ n) (hnt : 0 < nt) (k : Nat) :
    ∀ j, 0 ≤ j → j < splitMin n nt k →
      ∃ t : Int, 0 ≤ t ∧ t < (k : Int) ∧ splitMin n nt t ≤ j ∧ j < splitMax n nt t := by
  induction k with
  | zero =>
    intro j h0 h1
    have := splitMin_zero hn hnt
    simp at h1
    omega
  | succ k ih =>
    intro j h0 h1
    by_cases hlt : j < splitMin n nt k
    · obtain ⟨t, a, b, c, d⟩ := ih j h0 hlt
      exact ⟨t, a, by push_cast; omega, c, d⟩
    · refine ⟨k, by omega, by push_cast; omega, by omega, ?_⟩
      rw [splitMax_eq_succ hn hnt]
      push_cast at h1
      exact h1

theorem split_exists {n nt : Int} (hn : 0 ≤ n) (hnt : 0 < nt) {j : Int} (h0 : 0 ≤ j) (h1 : j < n) :
    ∃ t, 0 ≤ t ∧ t < nt ∧ splitMin n nt t ≤ j ∧ j < splitMax n nt t := by
  have e : ((nt.toNat : Nat) : Int) = nt := by omega
  have := split_exists_aux hn hnt nt.toNat j h0 (by rw [e, splitMin_last hn hnt]; exact h1)
  rwa [e] at this

theorem split_unique {n nt : Int} (hn : 0 ≤ n) (hnt : 0 < nt) {j t t' : Int}
    (h1 : splitMin n nt t ≤ j) (h2 : j < splitMax n nt t)
    (h1' : splitMin n nt t' ≤ j) (h2' : j < splitMax n nt t') : t = t' := by
  rw [splitMax_eq_succ hn hnt] at h2 h2'
  by_contra hne
  rcases lt_or_gt_of_ne hne with h | h
  · have := splitMin_mono hn hnt (show t + 1 ≤ t' by omega); omega
  · have := splitMin_mono hn hnt (show t' + 1 ≤ t by omega); omega

/-- at least `k` items per block as soon as `k * nt ≤ n` -/
theorem split_ge {n nt k : Int} (hn : 0 ≤ n) (hnt : 0 < nt) (hk : k * nt ≤ n) (t : Int) :
    splitMin n nt t + k ≤ splitMax n nt t := by
  have h := split_size hn hnt t
  obtain ⟨w, r, hw, hr, h1, h2, h3, h4⟩ := split_eq hn hnt
  have hkw : k ≤ w := by
    by_contra hlt
    have h5 : w + 1 ≤ k := by omega
    have : (w + 1) * nt ≤ k * nt := Int.mul_le_mul_of_nonneg_right h5 hnt.le
    have e : (w + 1) * nt = nt * w + nt := by ring
    omega
  rw [hw] at h
  split at h <;> omega

/-- closed form: the single-thread branch is the general formula with one thread -/
theorem adjust_ok_iff {nt t ns : Int} {lfreeb : Bool} (hns : 2 ≤ ns) (hnt : 1 ≤ nt)
    (ht : 0 ≤ t ∧ t < nt) {r : Ranges} :
    adjustRadialPartitioning nt t ns lfreeb = .ok r ↔
      nt ≤ ns.tdiv 2 ∧
      r.nsMinF = splitMin (numSurfacesToDistribute ns lfreeb) nt t ∧
      r.nsMaxF = splitMax (numSurfacesToDistribute ns lfreeb) nt t ∧
      r.nsMinF1 = max 0 (r.nsMinF - 1) ∧ r.nsMaxF1 = min ns (r.nsMaxF + 1) ∧
      r.nsMinH = r.nsMinF1 ∧ r.nsMaxH = r.nsMaxF1 - 1 ∧
      r.nsMinFi = max 1 r.nsMinF ∧ r.nsMaxFi = min (ns - 1) r.nsMaxF ∧
      r.nsMaxFIncludingLcfs = if r.nsMaxF1 = ns then ns else r.nsMaxF := by
  unfold adjustRadialPartitioning
  simp only
  by_cases h1 : nt > ns.tdiv 2
  · simp only [h1, ↓reduceIte, reduceCtorEq, false_iff]; omega
  · by_cases h2 : nt > 1
    · simp only [h1, h2, ↓reduceIte, Outcome.ok.injEq]
      constructor
      · rintro rfl; simp; omega
      · rintro ⟨_, a, b, c, d, e, f, g, h, i⟩
        cases r; simp at *
        subst a b; subst c d; subst e f; subst g h; subst i; simp
    · simp only [h1, h2, ↓reduceIte, Outcome.ok.injEq]
      have hnt1 : nt = 1 := by omega
      have ht0 : t = 0 := by omega
      subst hnt1 ht0
      have hn : 0 ≤ numSurfacesToDistribute ns lfreeb := by
        unfold numSurfacesToDistribute; split <;> omega
      have hN : numSurfacesToDistribute ns lfreeb = ns ∨ numSurfacesToDistribute ns lfreeb = ns - 1 := by
        unfold numSurfacesToDistribute; split <;> simp
      have e1 := splitMin_zero hn (show (0:Int) < 1 by omega)
      have e2 : splitMax (numSurfacesToDistribute ns lfreeb) 1 0 = numSurfacesToDistribute ns lfreeb := by
        rw [splitMax_eq_succ hn (by omega)]; exact splitMin_last hn (by omega)
      rw [e1, e2]
      have e3 : (if lfreeb = true then ns else ns - 1) = numSurfacesToDistribute ns lfreeb := by
        unfold numSurfacesToDistribute; rfl
      rw [e3]
      cases r; simp
      constructor
      · rintro ⟨rfl, rfl, rfl, rfl, rfl, rfl, rfl, rfl, rfl⟩
        refine ⟨by omega, rfl, rfl, by omega, by omega, rfl, by omega, by omega, by omega, ?_⟩
        simp
      · rintro ⟨_, rfl, rfl, rfl, rfl, rfl, rfl, rfl, rfl, rfl⟩
        refine ⟨rfl, rfl, by omega, by omega, by omega, by omega, by omega, by omega, ?_⟩
        have : min ns (numSurfacesToDistribute ns lfreeb + 1) = ns := by omega
        simp [this]

theorem n_nonneg {ns : Int} {lfreeb : Bool} (h : 1 ≤ ns) : 0 ≤ numSurfacesToDistribute ns lfreeb := by
  unfold numSurfacesToDistribute; split <;> omega

end Verif.Partition
