import Verif.Output.GeometryProps

/-!
# C92: extent of the plasma, symmetry planes, and the cases in which the quantities are wrong
-/
namespace Verif.Output
open Verif Verif.Fourier Finset

theorem maxLoop {n : Int} (hn : 0 ≤ n) (f : Int → ℝ) (a : ℝ) :
    a ≤ forRange 0 n (fun k acc => max acc (f k)) a ∧ (∀ k, 0 ≤ k → k < n → f k ≤ forRange 0 n (fun k acc => max acc (f k)) a) ∧
    (forRange 0 n (fun k acc => max acc (f k)) a = a ∨ ∃ k, 0 ≤ k ∧ k < n ∧ forRange 0 n (fun k acc => max acc (f k)) a = f k) := by
  refine forRange_inv hn _ _ (fun i x => a ≤ x ∧ (∀ k, 0 ≤ k → k < i → f k ≤ x) ∧ (x = a ∨ ∃ k, 0 ≤ k ∧ k < i ∧ x = f k)) ⟨le_rfl, fun k h0 h1 => by omega, Or.inl rfl⟩ ?_
  rintro j x j0 j1 ⟨h1, h2, h3⟩
  refine ⟨h1.trans (le_max_left _ _), fun k k0 k1 => ?_, ?_⟩
  · rcases Int.lt_or_le k j with h | h
    · exact (h2 k k0 h).trans (le_max_left _ _)
    · have : k = j := by omega
      subst this; exact le_max_right _ _
  · rcases max_choice x (f j) with e | e
    · rw [e]
      rcases h3 with h3 | ⟨k, k0, k1, h3⟩
      · exact Or.inl h3
      · exact Or.inr ⟨k, k0, by omega, h3⟩
    · exact Or.inr ⟨j, j0, by omega, e⟩

theorem minLoop {n : Int} (hn : 0 ≤ n) (f : Int → ℝ) (a : ℝ) :
    forRange 0 n (fun k acc => min acc (f k)) a ≤ a ∧ (∀ k, 0 ≤ k → k < n → forRange 0 n (fun k acc => min acc (f k)) a ≤ f k) ∧
    (forRange 0 n (fun k acc => min acc (f k)) a = a ∨ ∃ k, 0 ≤ k ∧ k < n ∧ forRange 0 n (fun k acc => min acc (f k)) a = f k) := by
  refine forRange_inv hn _ _ (fun i x => x ≤ a ∧ (∀ k, 0 ≤ k → k < i → x ≤ f k) ∧ (x = a ∨ ∃ k, 0 ≤ k ∧ k < i ∧ x = f k)) ⟨le_rfl, fun k h0 h1 => by omega, Or.inl rfl⟩ ?_
  rintro j x j0 j1 ⟨h1, h2, h3⟩
  refine ⟨(min_le_left _ _).trans h1, fun k k0 k1 => ?_, ?_⟩
  · rcases Int.lt_or_le k j with h | h
    · exact (min_le_left _ _).trans (h2 k k0 h)
    · have : k = j := by omega
      subst this; exact min_le_right _ _
  · rcases min_choice x (f j) with e | e
    · rw [e]
      rcases h3 with h3 | ⟨k, k0, k1, h3⟩
      · exact Or.inl h3
      · exact Or.inr ⟨k, k0, by omega, h3⟩
    · exact Or.inr ⟨j, j0, by omega, e⟩

section
variable {lasym : Bool} {nfp mpol ntor ntheta nzeta mg ng : Int} {I : GeomIn} (hs : Sizes.mk lasym nfp mpol ntor ntheta nzeta mg ng = .ok I.s)
include hs

theorem eff_pos : 0 < I.s.nThetaEff ∧ I.s.nThetaReduced ≤ I.s.nThetaEff ∧ 0 ≤ I.s.nZnT := by
  obtain ⟨q1, q2, q3, q4, q5⟩ := nZnT_eq hs
  have : 0 < I.s.nThetaEff ∧ I.s.nThetaReduced ≤ I.s.nThetaEff := by rw [q2]; split <;> omega
  exact ⟨this.1, this.2, by rw [q1]; exact mul_nonneg this.1.le (by omega)⟩

theorem split_kl {kl : Int} (h0 : 0 ≤ kl) (h1 : kl < I.s.nZnT) : ∃ k l, 0 ≤ k ∧ k < I.s.nZeta ∧ 0 ≤ l ∧ l < I.s.nThetaEff ∧ kl = k * I.s.nThetaEff + l := by
  obtain ⟨hE, _, _⟩ := eff_pos hs
  obtain ⟨q1, _⟩ := nZnT_eq hs
  refine ⟨kl / I.s.nThetaEff, kl % I.s.nThetaEff, Int.ediv_nonneg h0 hE.le, Int.ediv_lt_of_lt_mul hE (by rw [mul_comm, ← q1]; exact h1), Int.emod_nonneg _ hE.ne', Int.emod_lt_of_pos _ hE, ?_⟩
  rw [mul_comm]; exact (Int.mul_ediv_add_emod _ _).symm

/-- every point of the full grid is a point of the grid of the code or, with the symmetry, the mirror image of one -/
theorem mirror (S : Surface I.s) (k l : Int) (k0 : 0 ≤ k) (k1 : k < I.s.nZeta) (l0 : 0 ≤ l) (l1 : l < I.s.nThetaEven) :
    ∃ k' l', 0 ≤ k' ∧ k' < I.s.nZeta ∧ 0 ≤ l' ∧ l' < I.s.nThetaEff ∧ S.R (thetaGrid I.s l) (phiGrid I.s k) = S.R (thetaGrid I.s l') (phiGrid I.s k') ∧
      |S.Z (thetaGrid I.s l) (phiGrid I.s k)| = |S.Z (thetaGrid I.s l') (phiGrid I.s k')| ∧ (l < I.s.nThetaEff → k' = k ∧ l' = l) ∧ (k = 0 → k' = 0) ∧ (2 * k = I.s.nZeta → k' = k) := by
  obtain ⟨q1, q2, q3, q4, q5⟩ := nZnT_eq hs
  rcases Int.lt_or_le l I.s.nThetaEff with h | h
  · exact ⟨k, l, k0, k1, l0, h, rfl, rfl, fun _ => ⟨rfl, rfl⟩, fun h => h, fun _ => rfl⟩
  · have hl : I.s.lasym = false := by
      by_contra hc
      rw [Bool.not_eq_false] at hc
      rw [hc, if_pos rfl] at q2
      omega
    rw [hl] at q2
    simp only [Bool.false_eq_true, if_false] at q2
    have hN : (I.s.nThetaEven : ℝ) ≠ 0 := by exact_mod_cast (by omega : I.s.nThetaEven ≠ 0)
    have hZ : (I.s.nZeta : ℝ) ≠ 0 := by exact_mod_cast (by omega : I.s.nZeta ≠ 0)
    have hnfp := nfp_ne hs
    obtain ⟨r0, r1, _, r3⟩ := rev_in hs k I.s.nZeta k0 k1
    have eθ : thetaGrid I.s l = -thetaGrid I.s (I.s.nThetaEven - l) + 2 * Real.pi := by unfold thetaGrid; push_cast; field_simp; ring
    have per (f : ℝ → ℝ → ℝ) (hf : TrigPoly I.s.nfp (I.s.mpol - 1) I.s.ntor f) : f (thetaGrid I.s l) (phiGrid I.s k) = f (-thetaGrid I.s (I.s.nThetaEven - l)) (-phiGrid I.s (-k % I.s.nZeta)) := by
      rw [eθ, hf.per_theta, r3]
      split_ifs with hk
      · rw [hk]; unfold phiGrid zetaGrid; norm_num
      · have : phiGrid I.s k = -phiGrid I.s (I.s.nZeta - k) + 2 * Real.pi / I.s.nfp := by unfold phiGrid zetaGrid; push_cast; field_simp; ring
        rw [this, hf.per_phi hnfp]
    refine ⟨-k % I.s.nZeta, I.s.nThetaEven - l, r0, r1, by omega, by omega, ?_, ?_, fun h' => absurd h' (by omega), fun h => by rw [h]; simp, fun h => by rw [r3]; split_ifs <;> omega⟩
    · rw [per S.R S.hR, (S.sym hl _ _).1]
    · rw [per S.Z S.hZ, (S.sym hl _ _).2, abs_neg]

/-- **C92** (radial extent): `rmax_surf` and `rmin_surf` are the largest and the smallest `R` on the full angular grid, for a surface with `0 < R < DBL_MAX` -/
theorem C92_extent (S : Surface I.s) (h : Samples I S) (hpos : ∀ θ φ, 0 < S.R θ φ) (hmax : ∀ θ φ, S.R θ φ < I.dblMax) :
    (∀ k l, 0 ≤ k → k < I.s.nZeta → 0 ≤ l → l < I.s.nThetaEven → I.rmin_surf ≤ S.R (thetaGrid I.s l) (phiGrid I.s k) ∧ S.R (thetaGrid I.s l) (phiGrid I.s k) ≤ I.rmax_surf) ∧
    (∃ k l, 0 ≤ k ∧ k < I.s.nZeta ∧ 0 ≤ l ∧ l < I.s.nThetaEven ∧ I.rmin_surf = S.R (thetaGrid I.s l) (phiGrid I.s k)) ∧
    (∃ k l, 0 ≤ k ∧ k < I.s.nZeta ∧ 0 ≤ l ∧ l < I.s.nThetaEven ∧ I.rmax_surf = S.R (thetaGrid I.s l) (phiGrid I.s k)) := by
  obtain ⟨hE, _, hn⟩ := eff_pos hs
  obtain ⟨q1, q2, q3, q4, q5⟩ := nZnT_eq hs
  have hE2 : I.s.nThetaEff ≤ I.s.nThetaEven := by rw [q2]; split <;> omega
  obtain ⟨a1, a2, a3⟩ := maxLoop hn I.rb 0
  obtain ⟨b1, b2, b3⟩ := minLoop hn I.rb I.dblMax
  have at00 := h.r 0 0 le_rfl (by omega) le_rfl hE
  have in00 := grid_lt hs (k := 0) (l := 0) le_rfl (by omega) le_rfl hE
  refine ⟨fun k l k0 k1 l0 l1 => ?_, ?_, ?_⟩
  · obtain ⟨k', l', k0', k1', l0', l1', e, _⟩ := mirror hs S k l k0 k1 l0 l1
    obtain ⟨c0, c1⟩ := grid_lt hs k0' k1' l0' l1'
    rw [e, ← h.r k' l' k0' k1' l0' l1']
    exact ⟨b2 _ c0 c1, a2 _ c0 c1⟩
  · rcases b3 with b3 | ⟨kl, k0, k1, b3⟩
    · exfalso
      have := b2 _ in00.1 in00.2
      rw [b3, at00] at this
      exact absurd this (not_le.2 (hmax _ _))
    · obtain ⟨k, l, c1, c2, c3, c4, e⟩ := split_kl hs k0 k1
      exact ⟨k, l, c1, c2, c3, by omega, by unfold GeomIn.rmin_surf; rw [b3, e, h.r k l c1 c2 c3 c4]⟩
  · rcases a3 with a3 | ⟨kl, k0, k1, a3⟩
    · exfalso
      have := a2 _ in00.1 in00.2
      rw [a3, at00] at this
      exact absurd this (not_le.2 (hpos _ _))
    · obtain ⟨k, l, c1, c2, c3, c4, e⟩ := split_kl hs k0 k1
      exact ⟨k, l, c1, c2, c3, by omega, by unfold GeomIn.rmax_surf; rw [a3, e, h.r k l c1 c2 c3 c4]⟩

/-- **C92** (vertical extent): `zmax_surf` is the largest `|Z|` on the full angular grid if `Z` is not negative on the grid of the code.  The full claim has no such condition and is false:
    `C92_zmax_fails`. -/
theorem C92_zmax_partial (S : Surface I.s) (h : Samples I S) (hpos : ∀ k l, 0 ≤ k → k < I.s.nZeta → 0 ≤ l → l < I.s.nThetaEff → 0 ≤ S.Z (thetaGrid I.s l) (phiGrid I.s k)) :
    (∀ k l, 0 ≤ k → k < I.s.nZeta → 0 ≤ l → l < I.s.nThetaEven → |S.Z (thetaGrid I.s l) (phiGrid I.s k)| ≤ I.zmax_surf) ∧
    (∃ k l, 0 ≤ k ∧ k < I.s.nZeta ∧ 0 ≤ l ∧ l < I.s.nThetaEven ∧ I.zmax_surf = |S.Z (thetaGrid I.s l) (phiGrid I.s k)|) := by
  obtain ⟨hE, _, hn⟩ := eff_pos hs
  obtain ⟨q1, q2, q3, q4, q5⟩ := nZnT_eq hs
  have hE2 : I.s.nThetaEff ≤ I.s.nThetaEven := by rw [q2]; split <;> omega
  obtain ⟨a1, a2, a3⟩ := maxLoop hn I.zb 0
  have in00 := grid_lt hs (k := 0) (l := 0) le_rfl (by omega) le_rfl hE
  constructor
  · intro k l k0 k1 l0 l1
    obtain ⟨k', l', k0', k1', l0', l1', _, e, _⟩ := mirror hs S k l k0 k1 l0 l1
    obtain ⟨c0, c1⟩ := grid_lt hs k0' k1' l0' l1'
    rw [e, abs_of_nonneg (hpos k' l' k0' k1' l0' l1'), ← h.z k' l' k0' k1' l0' l1']
    exact a2 _ c0 c1
  · rcases a3 with a3 | ⟨kl, k0, k1, a3⟩
    · have e := a2 _ in00.1 in00.2
      rw [a3, h.z 0 0 le_rfl (by omega) le_rfl hE] at e
      exact ⟨0, 0, le_rfl, by omega, le_rfl, by omega, by
        unfold GeomIn.zmax_surf; rw [a3, le_antisymm e (hpos 0 0 le_rfl (by omega) le_rfl hE), abs_zero]⟩
    · obtain ⟨k, l, c1, c2, c3, c4, e⟩ := split_kl hs k0 k1
      exact ⟨k, l, c1, c2, c3, by omega, by unfold GeomIn.zmax_surf; rw [a3, e, h.z k l c1 c2 c3 c4, abs_of_nonneg (hpos k l c1 c2 c3 c4)]⟩

/-- **C92** (field strength): `bmax` and `bmin` are the largest and the smallest `|B|` over the toroidal angle, for each half-grid surface and each poloidal angle of the upper half -/
theorem C92_field (j l : Int) (j0 : 0 ≤ j) (j1 : j < I.ns - 1) (l0 : 0 ≤ l) (l1 : l < I.s.nThetaReduced) (hmax : ∀ k, I.mod_b j (k * I.s.nThetaEff + l) < I.dblMax) :
    (∀ k, 0 ≤ k → k < I.s.nZeta → I.bmin (j * I.s.nThetaReduced + l) ≤ I.mod_b j (k * I.s.nThetaEff + l) ∧ I.mod_b j (k * I.s.nThetaEff + l) ≤ I.bmax (j * I.s.nThetaReduced + l)) ∧
    (∃ k, 0 ≤ k ∧ k < I.s.nZeta ∧ I.bmin (j * I.s.nThetaReduced + l) = I.mod_b j (k * I.s.nThetaEff + l)) ∧
    (∃ k, 0 ≤ k ∧ k < I.s.nZeta ∧ I.bmax (j * I.s.nThetaReduced + l) = I.mod_b j (k * I.s.nThetaEff + l)) := by
  obtain ⟨_, _, _, _, q5⟩ := nZnT_eq hs
  have loop (g : ℝ → ℝ → ℝ) (a0 : Int → ℝ) : forRange 0 (I.ns - 1) (fun jH a => forRange 0 I.s.nZeta (fun k a => forRange 0 I.s.nThetaReduced (fun l a =>
      upd a (jH * I.s.nThetaReduced + l) (g (a (jH * I.s.nThetaReduced + l)) (I.mod_b jH (k * I.s.nThetaEff + l)))) a) a) a0 (j * I.s.nThetaReduced + l) =
      forRange 0 I.s.nZeta (fun k x => g x (I.mod_b j (k * I.s.nThetaEff + l))) (a0 (j * I.s.nThetaReduced + l)) := by
    have row (jH k : Int) (a : Int → ℝ) : forRange 0 I.s.nThetaReduced (fun l a =>
        upd a (jH * I.s.nThetaReduced + l) (g (a (jH * I.s.nThetaReduced + l)) (I.mod_b jH (k * I.s.nThetaEff + l)))) a (j * I.s.nThetaReduced + l) =
        if jH = j then g (a (j * I.s.nThetaReduced + l)) (I.mod_b j (k * I.s.nThetaEff + l)) else a (j * I.s.nThetaReduced + l) := by
      refine (Radial.pickLoop (fun a : Int → ℝ => a (j * I.s.nThetaReduced + l)) _ (lo := 0) (hi := I.s.nThetaReduced) (i0 := l)
        (fun x => if jH = j then g x (I.mod_b j (k * I.s.nThetaEff + l)) else x) ?_ ?_ a).trans (if_pos ⟨l0, l1⟩)
      · intro i a i0 i1 hne
        exact upd_ne _ _ (fun e => hne (Verif.flat_inj l0 l1 i0 i1 e).2.symm)
      · intro a _ _
        by_cases e : jH = j
        · subst e; simp
        · rw [if_neg e]
          exact upd_ne _ _ (fun h => e (Verif.flat_inj l0 l1 l0 l1 h).1.symm)
    refine (Radial.pickLoop (fun a : Int → ℝ => a (j * I.s.nThetaReduced + l)) _ (lo := 0) (hi := I.ns - 1) (i0 := j)
      (fun x => forRange 0 I.s.nZeta (fun k x => g x (I.mod_b j (k * I.s.nThetaEff + l))) x) ?_ ?_ a0).trans (if_pos ⟨j0, j1⟩)
    · intro i a _ _ hne
      refine (forRange_map (lo := 0) (hi := I.s.nZeta) _ (fun _ x => x) (fun a : Int → ℝ => a (j * I.s.nThetaReduced + l)) (fun k a => (row i k a).trans (if_neg hne)) a).trans ?_
      exact forRange_inv (by omega) _ _ (fun _ x => x = a (j * I.s.nThetaReduced + l)) rfl (fun _ _ _ _ h => h)
    · intro a _ _
      exact forRange_map (lo := 0) (hi := I.s.nZeta) _ _ (fun a : Int → ℝ => a (j * I.s.nThetaReduced + l)) (fun k a => (row j k a).trans (if_pos rfl)) a
  have eM := loop max (fun _ => 0)
  have em := loop min (fun _ => I.dblMax)
  obtain ⟨a1, a2, a3⟩ := maxLoop (by omega : (0 : Int) ≤ I.s.nZeta) (fun k => I.mod_b j (k * I.s.nThetaEff + l)) 0
  obtain ⟨b1, b2, b3⟩ := minLoop (by omega : (0 : Int) ≤ I.s.nZeta) (fun k => I.mod_b j (k * I.s.nThetaEff + l)) I.dblMax
  have eM' : I.bmax (j * I.s.nThetaReduced + l) = _ := eM
  have em' : I.bmin (j * I.s.nThetaReduced + l) = _ := em
  rw [eM', em']
  refine ⟨fun k k0 k1 => ⟨b2 k k0 k1, a2 k k0 k1⟩, ?_, ?_⟩
  · rcases b3 with b3 | b3
    · have := b2 0 le_rfl (by omega)
      rw [b3] at this
      exact absurd this (not_le.2 (hmax 0))
    · exact b3
  · rcases a3 with a3 | a3
    · have := a2 0 le_rfl (by omega)
      rw [a3] at this
      exact ⟨0, le_rfl, by omega, by rw [a3]; exact le_antisymm (Real.sqrt_nonneg _) this⟩
    · exact a3

/-! ## symmetry planes -/

theorem planes_eq : (I.s.nZeta = 1 → I.planes = .ok (1, upd (fun _ => 0) 0 (I.waistOf 0), upd (fun _ => 0) 0 (I.heightOf 0))) ∧
    (2 ≤ I.s.nZeta → I.planes = if I.s.ntor > 0 then
      .ok (2, upd (upd (fun _ => 0) 0 (I.waistOf 0)) 1 (I.waistOf (I.s.nZeta.tdiv 2)), upd (upd (fun _ => 0) 0 (I.heightOf 0)) 1 (I.heightOf (I.s.nZeta.tdiv 2)))
      else .ub "waist[symmetry_plane_index]") := by
  have hz := (nZnT_eq hs).2.2.2.2
  have htd : I.s.nZeta.tdiv 2 = I.s.nZeta / 2 := Int.tdiv_eq_ediv_of_nonneg (by omega)
  constructor
  · intro h
    unfold GeomIn.planes
    rw [h, show ((1 : Int).tdiv 2 + 1) = 0 + 1 by rfl, forRange_succ le_rfl, forRange_empty le_rfl]
    have hc : (0 : Int) < (if I.s.ntor > 0 then 2 else 1) := by split <;> decide
    simp [hc]
  · intro h
    unfold GeomIn.planes
    simp only
    generalize hF : (fun (k : Int) (st : Outcome (Int × (Int → ℝ) × (Int → ℝ))) => (do
      let (i, waist, height) ← st
      if k ≠ 0 ∧ k ≠ I.s.nZeta.tdiv 2 then return (i, waist, height)
      if i < (if I.s.ntor > 0 then 2 else 1) then return (i + 1, upd waist i (I.waistOf k), upd height i (I.heightOf k))
      else .ub "waist[symmetry_plane_index]" : Outcome (Int × (Int → ℝ) × (Int → ℝ)))) = F
    have F0 : F 0 (.ok (0, fun _ => 0, fun _ => 0)) = .ok (1, upd (fun _ => 0) 0 (I.waistOf 0), upd (fun _ => 0) 0 (I.heightOf 0)) := by
      rw [← hF]
      have hc : (0 : Int) < (if I.s.ntor > 0 then 2 else 1) := by split <;> decide
      simp [hc]
    have Fm (k : Int) (h0 : k ≠ 0) (h1 : k ≠ I.s.nZeta.tdiv 2) (st) : F k (.ok st) = .ok st := by
      rw [← hF]; simp [h0, h1]
    rw [forRange_succ (by omega), forRange_cons (by omega), F0]
    have mid : forRange (0 + 1) (I.s.nZeta.tdiv 2) F (.ok (1, upd (fun _ => 0) 0 (I.waistOf 0), upd (fun _ => 0) 0 (I.heightOf 0))) =
        .ok (1, upd (fun _ => 0) 0 (I.waistOf 0), upd (fun _ => 0) 0 (I.heightOf 0)) :=
      forRange_inv (by omega) F _ (fun _ st => st = .ok (1, upd (fun _ => 0) 0 (I.waistOf 0), upd (fun _ => 0) 0 (I.heightOf 0))) rfl (fun k st k0 k1 hst => by
        rw [hst]; exact Fm k (by omega) (by omega) _)
    rw [mid, ← hF]
    by_cases hn : I.s.ntor > 0
    · simp [hn]
    · simp [hn]

omit hs in
theorem lcfs_index (hq : I.s.nZnT = I.s.nThetaEff * I.s.nZeta) (k l : Int) :
    ((I.ns - 1) * I.s.nZeta + k) * I.s.nThetaEff + l = (I.ns - 1) * I.s.nZnT + (k * I.s.nThetaEff + l) := by rw [hq]; ring

theorem grid_angles : thetaGrid I.s 0 = 0 ∧ phiGrid I.s 0 = 0 ∧ thetaGrid I.s (I.s.nThetaReduced - 1) = Real.pi ∧ (2 ∣ I.s.nZeta → phiGrid I.s (I.s.nZeta.tdiv 2) = Real.pi / I.s.nfp) := by
  obtain ⟨q1, q2, q3, q4, q5⟩ := nZnT_eq hs
  have hnfp := nfp_ne hs
  refine ⟨by unfold thetaGrid; simp, by unfold phiGrid zetaGrid; simp, ?_, ?_⟩
  · have : ((I.s.nThetaReduced - 1 : Int) : ℝ) ≠ 0 := by exact_mod_cast (by omega : I.s.nThetaReduced - 1 ≠ 0)
    unfold thetaGrid
    rw [q3]
    push_cast at this ⊢
    field_simp
  · rintro ⟨n, hn⟩
    have : (n : ℝ) ≠ 0 := by exact_mod_cast (by omega : n ≠ 0)
    unfold phiGrid zetaGrid
    rw [hn, Int.mul_tdiv_cancel_left _ (by decide)]
    push_cast
    field_simp

/-- **C92** (waist): without `lasym`, with `nzeta = 1` or `ntor > 0`, `waist` is the distance between the outer and the inner point of the surface in the symmetry plane `φ = 0` and, for an
    even number of toroidal points, in the plane `φ = π/nfp`.  The full claim has none of these conditions: `C92_planes_fail`, `C92_waist_fails`. -/
theorem C92_waist_partial (S : Surface I.s) (h : Samples I S) (hl : I.s.lasym = false) (hz : I.s.nZeta = 1 ∨ 0 < I.s.ntor) :
    ∃ n w ht, I.planes = .ok (n, w, ht) ∧ n = (if 0 < I.s.ntor then 2 else 1) ∧ w 0 = S.R 0 0 - S.R Real.pi 0 ∧
      (0 < I.s.ntor → 2 ∣ I.s.nZeta → w 1 = S.R 0 (Real.pi / I.s.nfp) - S.R Real.pi (Real.pi / I.s.nfp)) := by
  obtain ⟨q1, q2, q3, q4, q5⟩ := nZnT_eq hs
  obtain ⟨r1, r2, r3, r4⟩ := resolution hs
  obtain ⟨t1, t2, t3, t4⟩ := grid_angles hs
  obtain ⟨p1, p2⟩ := planes_eq hs
  have q2' := q2
  rw [hl] at q2
  simp only [Bool.false_eq_true, if_false] at q2
  have wk (k : Int) (k0 : 0 ≤ k) (k1 : k < I.s.nZeta) : I.waistOf k = S.R 0 (phiGrid I.s k) - S.R Real.pi (phiGrid I.s k) := by
    have a1 := h.r k 0 k0 k1 le_rfl (by omega)
    have a2 := h.r k (I.s.nThetaReduced - 1) k0 k1 (by omega) (by omega)
    rw [t1] at a1
    rw [t3] at a2
    unfold GeomIn.waistOf
    simp only
    rw [← a1, ← a2, lcfs_index q1, show ((I.ns - 1) * I.s.nZeta + k) * I.s.nThetaReduced + (I.s.nThetaReduced - 1) = (I.ns - 1) * I.s.nZnT + (k * I.s.nThetaEff + (I.s.nThetaReduced - 1)) by
      rw [← q2, ← lcfs_index q1]]
    rfl
  rcases Int.lt_or_le 0 I.s.ntor with hn | hn
  · have htd : I.s.nZeta.tdiv 2 = I.s.nZeta / 2 := Int.tdiv_eq_ediv_of_nonneg (by omega)
    have hp := p2 (by omega)
    rw [if_pos hn] at hp
    refine ⟨_, _, _, hp, by rw [if_pos hn], ?_, fun _ hd => ?_⟩
    · rw [upd_ne _ _ (by decide), upd_same, wk 0 le_rfl (by omega), t2]
    · rw [upd_same, wk _ (by omega) (by omega), t4 hd]
  · refine ⟨_, _, _, p1 (by omega), by rw [if_neg (by omega)], ?_, fun h => absurd h (by omega)⟩
    rw [upd_same, wk 0 le_rfl (by omega), t2]

/-- **C92** (height): without `lasym`, if the upper half of the cross section lies above the midplane, `height` is the difference of the largest and the smallest `Z` of the cross section on the
    grid: half of it is the largest `|Z|`, taken with both signs.  Planes: `φ = 0`, and `φ = π/nfp` for an even number of toroidal points. -/
theorem C92_height_partial (S : Surface I.s) (h : Samples I S) (k : Int) (hk : k = 0 ∨ 2 * k = I.s.nZeta)
    (hpos : ∀ l, 0 ≤ l → l < I.s.nThetaEff → 0 ≤ S.Z (thetaGrid I.s l) (phiGrid I.s k)) :
    (∀ l, 0 ≤ l → l < I.s.nThetaEven → |S.Z (thetaGrid I.s l) (phiGrid I.s k)| ≤ I.heightOf k / 2) ∧
    (∃ l, 0 ≤ l ∧ l < I.s.nThetaEff ∧ S.Z (thetaGrid I.s l) (phiGrid I.s k) = I.heightOf k / 2) := by
  obtain ⟨q1, q2, q3, q4, q5⟩ := nZnT_eq hs
  obtain ⟨hE, _, _⟩ := eff_pos hs
  have k0 : 0 ≤ k := by omega
  have k1 : k < I.s.nZeta := by omega
  obtain ⟨a1, a2, a3⟩ := maxLoop hE.le (fun l => I.zb (k * I.s.nThetaEff + l)) 0
  have e : I.heightOf k / 2 = forRange 0 I.s.nThetaEff (fun l acc => max acc (I.zb (k * I.s.nThetaEff + l))) 0 := by
    unfold GeomIn.heightOf
    rw [mul_div_assoc, div_self two_ne_zero, mul_one]
    simp only [lcfs_index q1]
    rfl
  rw [e]
  constructor
  · intro l l0 l1
    obtain ⟨k', l', _, _, l0', l1', _, e2, _, e3, e4⟩ := mirror hs S k l k0 k1 l0 l1
    have : k' = k := by rcases hk with hk | hk; · rw [e3 hk, hk]
                        · exact e4 hk
    rw [this] at e2
    rw [e2, abs_of_nonneg (hpos l' l0' l1'), ← h.z k l' k0 k1 l0' l1']
    exact a2 l' l0' l1'
  · rcases a3 with a3 | ⟨l, l0, l1, a3⟩
    · have := a2 0 le_rfl hE
      rw [a3, h.z k 0 k0 k1 le_rfl hE] at this
      exact ⟨0, le_rfl, hE, by rw [a3]; exact le_antisymm this (hpos 0 le_rfl hE)⟩
    · exact ⟨l, l0, l1, by rw [a3, h.z k l k0 k1 l0 l1]⟩

/-- **C92** (symmetry planes): an axisymmetric run with more than one toroidal point writes behind the end of `waist` and `height` -/
theorem C92_planes_fail (h0 : I.s.ntor = 0) (h2 : 2 ≤ I.s.nZeta) : I.planes = .ub "waist[symmetry_plane_index]" := by
  rw [(planes_eq hs).2 h2, if_neg (by omega)]

end
end Verif.Output
