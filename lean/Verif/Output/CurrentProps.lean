import Verif.Output.Gather
import Verif.Sizes.Props
import Verif.Radial.Apply
import Verif.Profiles.Props

/-! # Blended `B_zeta`, its poloidal current, and the toroidal flux (C83) -/
namespace Verif.Output
open Verif Verif.Radial

/-- a loop that updates one row of a flat matrix, each entry from itself and from entries of another row -/
theorem updRow {N j : Int} (w : Int → (Int → ℝ) → ℝ) (b : Int → ℝ) (j0 kl0 : Int) (h0 : 0 ≤ kl0) (h1 : kl0 < N)
    (hw : ∀ kl b b', 0 ≤ kl → kl < N → b (j * N + kl) = b' (j * N + kl) → b ((j + 1) * N + kl) = b' ((j + 1) * N + kl) → w kl b = w kl b') :
    forRange 0 N (fun kl b => upd b (j * N + kl) (w kl b)) b (j0 * N + kl0) = if j0 = j then w kl0 b else b (j0 * N + kl0) := by
  have key := forRange_inv (by omega : 0 ≤ N) (fun kl b => upd b (j * N + kl) (w kl b)) b
    (fun k t => ∀ j0 kl0, 0 ≤ kl0 → kl0 < N → t (j0 * N + kl0) = if j0 = j ∧ kl0 < k then w kl0 b else b (j0 * N + kl0)) (by
      intro j0 kl0 a _; rw [if_neg (by omega)]) (by
      intro k t k0 k1 ih j0 kl0 a0 a1
      by_cases e : j0 * N + kl0 = j * N + k
      · obtain ⟨e1, e2⟩ := flat_inj a0 a1 k0 k1 e
        subst e1; subst e2
        rw [upd_same, if_pos (by omega)]
        refine hw kl0 _ _ a0 a1 ?_ ?_
        · rw [ih j0 kl0 a0 a1, if_neg (by omega)]
        · rw [ih (j0 + 1) kl0 a0 a1, if_neg (by omega)]
      · rw [upd_ne _ _ e, ih j0 kl0 a0 a1]
        refine if_congr (and_congr_right fun e1 => ?_) rfl rfl
        have : kl0 ≠ k := fun e2 => e (by rw [e1, e2])
        omega)
  rw [key j0 kl0 h0 h1]
  exact if_congr (by simp [h1]) rfl rfl

/-- blending at one surface -/
theorem mesh_eq (s : Sizes.Sizes) (ns : Int) (hns : 2 ≤ ns) (bF b : Int → ℝ) (kl : Int) (k0 : 0 ≤ kl) (k1 : kl < s.nZnT) :
    (∀ jH, 0 ≤ jH → jH < ns - 2 → meshBlending s ns bF b (jH * s.nZnT + kl) = 2 * bF ((jH + 1) * s.nZnT + kl) - meshBlending s ns bF b ((jH + 1) * s.nZnT + kl)) ∧
    ∀ jH, jH < 0 ∨ ns - 2 ≤ jH → meshBlending s ns bF b (jH * s.nZnT + kl) = b (jH * s.nZnT + kl) := by
  have row (jH : Int) (b : Int → ℝ) (j0 : Int) := updRow (N := s.nZnT) (j := jH) (fun kl b => 2 * bF ((jH + 1) * s.nZnT + kl) - b ((jH + 1) * s.nZnT + kl)) b j0 kl k0 k1
    (by intro kl b b' _ _ _ h; rw [h])
  have key := forRangeRev_inv (by omega : 0 ≤ ns - 2) (fun jH b => forRange 0 s.nZnT (fun kl b => upd b (jH * s.nZnT + kl) (2 * bF ((jH + 1) * s.nZnT + kl) - b ((jH + 1) * s.nZnT + kl))) b) b
    (fun k t => (∀ jH, k ≤ jH → jH < ns - 2 → t (jH * s.nZnT + kl) = 2 * bF ((jH + 1) * s.nZnT + kl) - t ((jH + 1) * s.nZnT + kl)) ∧
      ∀ jH, jH < k ∨ ns - 2 ≤ jH → t (jH * s.nZnT + kl) = b (jH * s.nZnT + kl)) ⟨by intro jH h1 h2; omega, fun _ _ => rfl⟩ (by
      intro k t k0' k1' ih
      refine ⟨?_, ?_⟩
      · intro jH h1 h2
        rw [row k t jH, row k t (jH + 1)]
        rw [if_neg (show ¬ jH + 1 = k by omega)]
        by_cases e : jH = k
        · rw [if_pos e, e]
        · rw [if_neg e]
          exact ih.1 jH (by omega) h2
      · intro jH h
        rw [row k t jH, if_neg (by omega)]
        exact ih.2 jH (by omega))
  exact key

/-- the current fix at one point -/
theorem fix_eq (s : Sizes.Sizes) (num_half : Int) (hn : 0 ≤ num_half) (dev b : Int → ℝ) (jH kl : Int) (k0 : 0 ≤ kl) (k1 : kl < s.nZnT) :
    fixupPoloidalCurrent s num_half dev b (jH * s.nZnT + kl) = if 0 ≤ jH ∧ jH < num_half then b (jH * s.nZnT + kl) - dev jH else b (jH * s.nZnT + kl) := by
  have row (j : Int) (b : Int → ℝ) := updRow (N := s.nZnT) (j := j) (fun kl b => b (j * s.nZnT + kl) - dev j) b jH kl k0 k1
    (by intro kl b b' _ _ h _; rw [h])
  refine pickLoop (fun b : Int → ℝ => b (jH * s.nZnT + kl)) _ (i0 := jH) (fun x => x - dev jH) ?_ ?_ b
  · intro i t _ _ hne
    exact (row i t).trans (if_neg (fun e => hne e.symm))
  · intro t _ _
    exact (row jH t).trans (if_pos rfl)

/-- **C83** (blending): after `MeshBledingBSubZeta` the mean of neighbouring half-grid surfaces is the full-grid
    value at every interior surface, and the outermost half-grid surface keeps its value. -/
theorem C83_blending (s : Sizes.Sizes) (ns : Int) (hns : 2 ≤ ns) (bF b : Int → ℝ) (kl : Int) (k0 : 0 ≤ kl) (k1 : kl < s.nZnT) :
    (∀ jF, 1 ≤ jF → jF < ns - 1 → (meshBlending s ns bF b ((jF - 1) * s.nZnT + kl) + meshBlending s ns bF b (jF * s.nZnT + kl)) / 2 = bF (jF * s.nZnT + kl)) ∧
    meshBlending s ns bF b ((ns - 2) * s.nZnT + kl) = b ((ns - 2) * s.nZnT + kl) := by
  obtain ⟨h1, h2⟩ := mesh_eq s ns hns bF b kl k0 k1
  refine ⟨?_, h2 _ (.inr le_rfl)⟩
  intro jF j0 j1
  have := h1 (jF - 1) (by omega) (by omega)
  rw [sub_add_cancel] at this
  rw [this]; ring

/-- **C83** (current): after `FixupPoloidalCurrent` with the deviation from `ComputePoloidalCurrentToFixBSubV` the
    flux-surface average of `bsubv` on every half-grid surface is the poloidal current profile `bvcoH`, and the
    variation of `bsubv` within the surface is unchanged. -/
theorem C83_current (lasym : Bool) (nfp mpol ntor ntheta nzeta mg ng : Int) (s : Sizes.Sizes) (hs : Sizes.mk lasym nfp mpol ntor ntheta nzeta mg ng = .ok s)
    (num_half : Int) (b bvco : Int → ℝ) (jH : Int) (j0 : 0 ≤ jH) (j1 : jH < num_half) :
    let b' := fixupPoloidalCurrent s num_half (poloidalCurrentDeviation s b bvco) b
    Sizes.surfaceAverage s (fun kl => b' (jH * s.nZnT + kl)) = bvco jH ∧
    ∀ kl kl', 0 ≤ kl → kl < s.nZnT → 0 ≤ kl' → kl' < s.nZnT → b' (jH * s.nZnT + kl) - b' (jH * s.nZnT + kl') = b (jH * s.nZnT + kl) - b (jH * s.nZnT + kl') := by
  intro b'
  have hb (kl : Int) (k0 : 0 ≤ kl) (k1 : kl < s.nZnT) : b' (jH * s.nZnT + kl) = b (jH * s.nZnT + kl) - poloidalCurrentDeviation s b bvco jH :=
    (fix_eq s num_half (by omega) _ b jH kl k0 k1).trans (if_pos ⟨j0, j1⟩)
  refine ⟨?_, ?_⟩
  · have avg (f : Int → ℝ) : Sizes.surfaceAverage s f = ∑ kl ∈ Finset.Ico 0 s.nZnT, f kl * Sizes.wInt s (kl.tmod s.nThetaEff) := by
      unfold Sizes.surfaceAverage; rw [forRange_add, zero_add]
    have hconst := Sizes.C08_average_const lasym nfp mpol ntor ntheta nzeta mg ng s hs (poloidalCurrentDeviation s b bvco jH)
    rw [avg] at hconst
    have hdev : poloidalCurrentDeviation s b bvco jH = ∑ kl ∈ Finset.Ico 0 s.nZnT, b (jH * s.nZnT + kl) * Sizes.wInt s (kl.tmod s.nThetaEff) - bvco jH := by
      unfold poloidalCurrentDeviation
      simp only []
      rw [forRange_add, zero_add]
    rw [avg]
    have : ∑ kl ∈ Finset.Ico 0 s.nZnT, b' (jH * s.nZnT + kl) * Sizes.wInt s (kl.tmod s.nThetaEff)
        = ∑ kl ∈ Finset.Ico 0 s.nZnT, (b (jH * s.nZnT + kl) * Sizes.wInt s (kl.tmod s.nThetaEff) - poloidalCurrentDeviation s b bvco jH * Sizes.wInt s (kl.tmod s.nThetaEff)) := by
      refine Finset.sum_congr rfl fun kl hk => ?_
      rw [Finset.mem_Ico] at hk
      rw [hb kl hk.1 hk.2]; ring
    rw [this, Finset.sum_sub_distrib, hconst, hdev]; ring
  · intro kl kl' a b c d
    rw [hb kl a b, hb kl' c d]; ring

/-- the recomputed flux is the left Riemann sum of the flux derivative on the full grid -/
theorem flux_eq (ns : Int) (sgn pi2 dS : ℝ) (phip phi : Int → ℝ) (j : Int) (j0 : 0 ≤ j) (j1 : j < ns) :
    recomputeToroidalFlux ns sgn pi2 dS phip phi j = sgn * pi2 * dS * ∑ i ∈ Finset.Ico 0 j, phip i := by
  have h1 : ∀ j, 0 ≤ j → j < ns → forRange 1 ns (fun jF p => upd p jF (p (jF - 1) + phip (jF - 1))) (upd phi 0 0) j = ∑ i ∈ Finset.Ico 0 j, phip i := by
    have key := forRange_inv (by omega : (1:Int) ≤ ns) (fun jF p => upd p jF (p (jF - 1) + phip (jF - 1))) (upd phi 0 0)
      (fun k p => ∀ j, 0 ≤ j → j < k → p j = ∑ i ∈ Finset.Ico 0 j, phip i) (by
        intro j a b
        have : j = 0 := by omega
        subst this; simp) (by
        intro k p k0 k1 ih j a b
        by_cases e : j = k
        · subst e
          rw [upd_same, ih (j - 1) (by omega) (by omega)]
          conv_rhs => rw [show j = (j - 1) + 1 by ring]
          rw [sum_Ico_int_succ (by omega)]
        · rw [upd_ne _ _ e]; exact ih j a (by omega))
    exact key
  unfold recomputeToroidalFlux
  refine (pickLoop (fun p : Int → ℝ => p j) _ (i0 := j) (fun x => x * (sgn * pi2 * dS)) ?_ ?_ _).trans ?_
  · intro i t _ _ hne
    exact upd_ne _ _ (fun e => hne e.symm)
  · intro t _ _
    exact upd_same _ _ _
  · rw [if_pos ⟨j0, j1⟩, h1 j j0 j1]; ring

/-- `phipF[jF]` of `RadialProfiles::evalRadialProfiles`, `vmec/radial_profiles/radial_profiles.cc:1211`; the full-grid
    position `jF * deltaS` is `fullGridPos` -/
noncomputable def phipF (aphi : Profiles.RVec) (sgn phiedge dS : ℝ) (jF : Int) : ℝ :=
  Profiles.maxToroidalFlux aphi sgn phiedge * Profiles.torfluxDeriv aphi ((jF : ℝ) * dS)

/-- **C83** (flux), proved part: if the flux profile is linear in `s` (the default `aphi = [1]`, or any one non-zero
    coefficient), the recomputed flux is `phiedge * s`, in particular `phiedge` at the edge.  For other profiles the
    claim "the recomputed flux at the edge is `phiedge`" fails, see `C83_flux_fails`. -/
theorem C83_flux_partial (aphi : Profiles.RVec) (h1 : aphi.n = 1) (ha : aphi.v 0 ≠ 0) (ns : Int) (sgn phiedge dS : ℝ) (hsgn : sgn * sgn = 1)
    (phi : Int → ℝ) (j : Int) (j0 : 0 ≤ j) (j1 : j < ns) :
    recomputeToroidalFlux ns sgn (2 * Real.pi) dS (phipF aphi sgn phiedge dS) phi j = phiedge * ((j : ℝ) * dS) := by
  have hp : phipF aphi sgn phiedge dS = fun _ => sgn * phiedge / (2 * Real.pi) := by
    funext i
    unfold phipF Profiles.maxToroidalFlux
    rw [Profiles.torfluxDeriv_eq, Profiles.torflux_eq, h1]
    simp only [Int.toNat_one, Finset.sum_range_one, Nat.cast_zero, zero_add, one_mul, pow_zero, mul_one, pow_one]
    rw [if_pos (by simpa using ha)]
    field_simp
  rw [hp, flux_eq ns _ _ _ _ _ j j0 j1, Finset.sum_const, Int.card_Ico, nsmul_eq_mul]
  have : (((j - 0).toNat : ℕ) : ℝ) = (j : ℝ) := by
    rw [sub_zero]; exact_mod_cast congrArg (fun z : ℤ => (z : ℝ)) (Int.toNat_of_nonneg j0)
  rw [this]
  have hpi : Real.pi ≠ 0 := Real.pi_ne_zero
  field_simp
  linear_combination (j : ℝ) * dS * phiedge * hsgn

/-- **C83** (flux), counterexample: for the flux profile `s²` (`aphi = [0, 1]`) the recomputed edge flux is too
    small by the fraction `1/(ns-1)`, for every number of surfaces and every prescribed flux. -/
theorem C83_flux_fails (ns : Int) (hns : 2 ≤ ns) (sgn phiedge : ℝ) (hsgn : sgn * sgn = 1) (phi : Int → ℝ) :
    recomputeToroidalFlux ns sgn (2 * Real.pi) (1 / ((ns : ℝ) - 1)) (phipF ⟨2, fun i => if i = 1 then 1 else 0⟩ sgn phiedge (1 / ((ns : ℝ) - 1))) phi (ns - 1)
      = phiedge * (1 - 1 / ((ns : ℝ) - 1)) := by
  have hs : ∀ n : Int, 0 ≤ n → ∑ i ∈ Finset.Ico 0 n, ((i : ℝ)) = (n : ℝ) * ((n : ℝ) - 1) / 2 := by
    intro n hn
    obtain ⟨k, rfl⟩ := Int.eq_ofNat_of_zero_le hn
    induction k with
    | zero => simp
    | succ k ih =>
      have e : (((k + 1 : ℕ)) : ℤ) = (k : ℤ) + 1 := by push_cast; ring
      rw [e, sum_Ico_int_succ (by omega), ih (by omega)]
      push_cast; ring
  have hne : ((ns : ℝ) - 1) ≠ 0 := by
    have : (2 : ℝ) ≤ (ns : ℝ) := by exact_mod_cast hns
    linarith
  have hp : phipF ⟨2, fun i => if i = 1 then 1 else 0⟩ sgn phiedge (1 / ((ns : ℝ) - 1)) = fun i : Int => (sgn * phiedge / (2 * Real.pi) * 2 / ((ns : ℝ) - 1)) * (i : ℝ) := by
    funext i
    unfold phipF Profiles.maxToroidalFlux
    rw [Profiles.torfluxDeriv_eq, Profiles.torflux_eq]
    simp [Finset.sum_range_succ]
    field_simp
    norm_num
  rw [hp, flux_eq ns _ _ _ _ _ (ns - 1) (by omega) (by omega), ← Finset.mul_sum, hs (ns - 1) (by omega)]
  push_cast
  have hpi : Real.pi ≠ 0 := Real.pi_ne_zero
  field_simp
  linear_combination (phiedge * ((ns : ℝ) - 1 - 1)) * hsgn

example : (1 : ℝ) * 1 = 1 ∧ (-1 : ℝ) * (-1) = 1 := by norm_num
example : ∃ s, Sizes.mk true 5 4 3 0 0 4 3 = .ok s ∧ 1 < s.nZnT := by
  refine ⟨_, rfl, ?_⟩; decide

end Verif.Output
