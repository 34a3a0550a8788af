import Verif.Output.Threed1
import Verif.Output.MercierProps

/-! # C91: the first table of the `threed1` file -/
namespace Verif.Output
open Verif Finset

namespace TableIn
variable (I : TableIn)

theorem fill_eq (lo hi : Int) (v a : Int → ℝ) (j : Int) : forRange lo hi (fun i a => upd a i (v i)) a j = if lo ≤ j ∧ j < hi then v j else a j :=
  Radial.pickLoop (fun a : Int → ℝ => a j) (fun i a => upd a i (v i)) (lo := lo) (hi := hi) (i0 := j) (fun _ => v j)
    (fun i a _ _ h => upd_ne _ _ (Ne.symm h)) (fun a _ _ => upd_same _ _ _) a

theorem onHalf_in (v : Int → ℝ) {j : Int} (j0 : 0 ≤ j) (j1 : j < I.ns - 1) : I.onHalf v j = v j := by
  unfold onHalf; rw [fill_eq, if_pos ⟨j0, j1⟩]
theorem onFull_in (v : Int → ℝ) {j : Int} (j0 : 1 ≤ j) (j1 : j < I.ns - 1) : I.onFull v j = v j := by
  unfold onFull; rw [fill_eq, if_pos ⟨j0, j1⟩]
theorem onFull_out (v : Int → ℝ) {j : Int} (h : ¬ (1 ≤ j ∧ j < I.ns - 1)) : I.onFull v j = 0 := by
  unfold onFull; rw [fill_eq, if_neg h]
theorem onAll_in (v : Int → ℝ) {j : Int} (j0 : 0 ≤ j) (j1 : j < I.ns) : I.onAll v j = v j := by
  unfold onAll; rw [fill_eq, if_pos ⟨j0, j1⟩]

theorem toFull_eq (hns : 3 ≤ I.ns) (c : ℝ) (p : Int → ℝ) (j : Int) (j0 : 0 ≤ j) (j1 : j < I.ns) :
    I.toFull c p j = if j = 0 then c * (3 / 2 * p 0 - 1 / 2 * p 1) else if j = I.ns - 1 then c * (3 / 2 * p (I.ns - 2) - 1 / 2 * p (I.ns - 3)) else c * (p j + p (j - 1)) / 2 := by
  unfold toFull
  by_cases h : j = I.ns - 1
  · rw [if_neg (by omega), if_pos h, h]; exact upd_same _ _ _
  · by_cases h0 : j = 0
    · rw [if_pos h0]
      rw [upd_ne _ _ h, fill_eq, if_neg (by omega), h0]; exact upd_same _ _ _
    · rw [if_neg h0, if_neg h]
      rw [upd_ne _ _ h, fill_eq, if_pos (by omega)]

theorem ends_in (a : Int → ℝ) {j : Int} (j0 : 1 ≤ j) (j1 : j < I.ns - 1) : I.ends a j = a j := by
  unfold ends; rw [upd_ne _ _ (by omega), upd_ne _ _ (by omega)]

theorem prefix_eq (n : Int) (v : Int → ℝ) (j : Int) (j0 : 0 ≤ j) (j1 : j < n) :
    forRange 1 n (fun i a => upd a i (a (i - 1) + v (i - 1))) (fun _ => 0) j = ∑ i ∈ Ico 0 j, v i := by
  have key : ∀ k, 1 ≤ k → (∀ j, 0 ≤ j → j < k → forRange 1 k (fun i a => upd a i (a (i - 1) + v (i - 1))) (fun _ => 0) j = ∑ i ∈ Ico 0 j, v i) := by
    intro k hk
    induction k, hk using Int.leInduction with
    | base => intro j j0 j1; rw [forRange_empty (by omega), show j = 0 by omega]; simp
    | succ k hk ih =>
      intro j j0 j1
      rw [forRange_succ hk]
      by_cases h : j = k
      · subst h
        rw [upd_same, ih (j - 1) (by omega) (by omega)]
        have := sum_Ico_int_succ (lo := 0) (hi := j - 1) (by omega) v
        rw [sub_add_cancel] at this
        rw [this]
      · rw [upd_ne _ _ h]; exact ih j j0 (by omega)
  exact key n (by omega) j j0 j1

theorem avg_eq (c : GridH) {j : Int} (j0 : 0 ≤ j) (j1 : j < I.ns - 1) :
    I.avg c j = ∑ kl ∈ Ico 0 I.s.nZnT, I.R.gridH c (j * I.s.nZnT + kl) * (Sizes.wInt I.s (kl.tmod I.s.nThetaEff) : ℝ) := by
  have row (i : Int) (a : Int → ℝ) : (forRange 0 I.s.nZnT (fun kl a => upd a i (a i + I.R.gridH c (i * I.s.nZnT + kl) * (Sizes.wInt I.s (kl.tmod I.s.nThetaEff) : ℝ))) a) j =
      if i = j then a j + ∑ kl ∈ Ico 0 I.s.nZnT, I.R.gridH c (j * I.s.nZnT + kl) * (Sizes.wInt I.s (kl.tmod I.s.nThetaEff) : ℝ) else a j := by
    by_cases h : i = j
    · rw [if_pos h]; subst h
      have := forRange_map (lo := 0) (hi := I.s.nZnT) (fun kl (a : Int → ℝ) => upd a i (a i + I.R.gridH c (i * I.s.nZnT + kl) * (Sizes.wInt I.s (kl.tmod I.s.nThetaEff) : ℝ)))
        (fun kl x => x + I.R.gridH c (i * I.s.nZnT + kl) * (Sizes.wInt I.s (kl.tmod I.s.nThetaEff) : ℝ)) (fun b => b i) (fun kl b => upd_same _ _ _) a
      rw [this, forRange_add]
    · rw [if_neg h]
      have := forRange_map (lo := 0) (hi := I.s.nZnT) (fun kl (a : Int → ℝ) => upd a i (a i + I.R.gridH c (i * I.s.nZnT + kl) * (Sizes.wInt I.s (kl.tmod I.s.nThetaEff) : ℝ)))
        (fun kl x => x + (fun _ => 0) kl) (fun b => b j) (fun kl b => (upd_ne _ _ (Ne.symm h)).trans (add_zero _).symm) a
      rw [this, forRange_add, Finset.sum_const_zero, add_zero]
  have := Radial.pickLoop (fun a : Int → ℝ => a j) (fun jH a => forRange 0 I.s.nZnT (fun kl a =>
    upd a jH (a jH + I.R.gridH c (jH * I.s.nZnT + kl) * (Sizes.wInt I.s (kl.tmod I.s.nThetaEff) : ℝ))) a) (lo := 0) (hi := I.ns - 1) (i0 := j)
    (fun x => x + ∑ kl ∈ Ico 0 I.s.nZnT, I.R.gridH c (j * I.s.nZnT + kl) * (Sizes.wInt I.s (kl.tmod I.s.nThetaEff) : ℝ))
    (fun i a _ _ h => (row i a).trans (if_neg h)) (fun a _ _ => (row j a).trans (if_pos rfl)) (fun _ => 0)
  rw [if_pos ⟨j0, j1⟩, zero_add] at this
  exact this


/-! ## specification -/

/-- surface average `∬ f du dv / 4π²` of a half-grid field with the quadrature weights of the grid -/
noncomputable def mean (c : GridH) (j : Int) : ℝ := ∑ kl ∈ Ico 0 I.s.nZnT, I.R.gridH c (j * I.s.nZnT + kl) * (Sizes.wInt I.s (kl.tmod I.s.nThetaEff) : ℝ)
/-- volume element `|√g| w` of a grid point -/
noncomputable def dV (j kl : Int) : ℝ := I.sign * I.R.gridH .gsqrt (j * I.s.nZnT + kl) * (Sizes.wInt I.s (kl.tmod I.s.nThetaEff) : ℝ)
/-- difference quotient on the full-grid surface `j` -/
noncomputable def dds (f : Int → ℝ) (j : Int) : ℝ := (f j - f (j - 1)) / I.deltaS
/-- `V' = dV/ds / 4π²` on the full grid -/
noncomputable def vol (j : Int) : ℝ := (I.R.profH .dVdsH j + I.R.profH .dVdsH (j - 1)) / 2
/-- the three terms of the radial force balance `χ' I_tor' + φ' I_pol' + p' V'` with `I_tor' = σ d<B_u>/ds` and `I_pol' = σ d<B_v>/ds` -/
noncomputable def torTerm (j : Int) : ℝ := I.R.profF .chipF j * (I.sign * I.dds (I.mean .bsubu) j)
noncomputable def polTerm (j : Int) : ℝ := I.R.profF .phipF j * (I.sign * I.dds (I.mean .bsubv) j)
noncomputable def presTerm (j : Int) : ℝ := I.dds (I.R.profH .presH) j * I.vol j

/-! ## theorems -/

theorem interior {j : Int} (j0 : 1 ≤ j) (j1 : j < I.ns - 1) :
    I.jcurv0 j = I.sign * I.dds (I.mean .bsubu) j ∧ I.jcuru0 j = -(I.sign * I.dds (I.mean .bsubv) j) ∧ I.presgrad0 j = I.dds (I.R.profH .presH) j ∧ I.vpphi0 j = I.vol j := by
  unfold jcurv0 jcuru0 presgrad0 vpphi0
  rw [I.onFull_in _ j0 j1, I.onFull_in _ j0 j1, I.onFull_in _ j0 j1, I.onFull_in _ j0 j1, I.avg_eq .bsubu (by omega) (by omega), I.avg_eq .bsubu (by omega) (by omega),
    I.avg_eq .bsubv (by omega) (by omega), I.avg_eq .bsubv (by omega) (by omega)]
  unfold dds mean vol
  exact ⟨by ring, by ring, rfl, by ring⟩

/-- **C91** (beta): if the Jacobian integral of the surface is `V'`, `beta_vol` is the pressure divided by the volume average of `B²/2`, and `over_r` is the volume average of `1/R` -/
theorem C91_beta {j : Int} (j0 : 0 ≤ j) (j1 : j < I.ns - 1) (B : Int → ℝ) (hp : ∀ kl, 0 ≤ kl → kl < I.s.nZnT → I.R.gridH .total_pressure (j * I.s.nZnT + kl) = I.R.profH .presH j + B kl ^ 2 / 2)
    (hV : I.R.profH .dVdsH j = ∑ kl ∈ Ico 0 I.s.nZnT, I.dV j kl) (hV0 : I.R.profH .dVdsH j ≠ 0) :
    I.beta_vol j = I.R.profH .presH j / ((∑ kl ∈ Ico 0 I.s.nZnT, B kl ^ 2 / 2 * I.dV j kl) / ∑ kl ∈ Ico 0 I.s.nZnT, I.dV j kl) ∧
    I.overr j = (∑ kl ∈ Ico 0 I.s.nZnT, 1 / I.R.gridH .r12 (j * I.s.nZnT + kl) * I.dV j kl) / ∑ kl ∈ Ico 0 I.s.nZnT, I.dV j kl := by
  have tau (kl : Int) (h : kl ∈ Ico 0 I.s.nZnT) : I.tau (j * I.s.nZnT + kl) = I.dV j kl := by
    rw [Finset.mem_Ico] at h
    unfold TableIn.tau dV
    rw [fillGrid_in j0 j1 h.1 h.2]; ring
  unfold beta_vol overr s2sum
  rw [I.onHalf_in _ j0 j1, I.onHalf_in _ j0 j1, forRange_add, forRange_add, zero_add, zero_add]
  constructor
  · have : ∑ kl ∈ Ico 0 I.s.nZnT, I.R.gridH .total_pressure (j * I.s.nZnT + kl) * I.tau (j * I.s.nZnT + kl) =
        I.R.profH .presH j * I.R.profH .dVdsH j + ∑ kl ∈ Ico 0 I.s.nZnT, B kl ^ 2 / 2 * I.dV j kl := by
      rw [hV, Finset.mul_sum, ← Finset.sum_add_distrib]
      refine Finset.sum_congr rfl fun kl h => ?_
      have h' := Finset.mem_Ico.1 h
      rw [tau kl h, hp kl h'.1 h'.2]; ring
    rw [this, ← hV, add_div, mul_div_cancel_right₀ _ hV0]
    simp only [add_sub_cancel_left]
  · rw [hV]
    congr 1
    refine Finset.sum_congr rfl fun kl h => ?_
    rw [tau kl h]; ring

/-- **C91** (force): the column `<RADIAL FORCE>` of an interior surface is the force imbalance divided by the sum of the moduli of its three terms; so its modulus is at most one
    and it vanishes exactly when the forces balance -/
theorem C91_force {j : Int} (j0 : 1 ≤ j) (j1 : j < I.ns - 1) (hv : I.vol j ≠ 0) (hd : |I.torTerm j| + |I.polTerm j| + |I.presTerm j| ≠ 0) :
    I.equif j = (I.torTerm j + I.polTerm j + I.presTerm j) / (|I.torTerm j| + |I.polTerm j| + |I.presTerm j|) ∧ |I.equif j| ≤ 1 ∧
    (I.equif j = 0 ↔ I.torTerm j + I.polTerm j + I.presTerm j = 0) := by
  obtain ⟨e1, e2, e3, e4⟩ := I.interior j0 j1
  have main : I.equif j = (I.torTerm j + I.polTerm j + I.presTerm j) / (|I.torTerm j| + |I.polTerm j| + |I.presTerm j|) := by
    unfold equif
    rw [I.ends_in _ j0 j1]
    unfold equif1
    have := Radial.pickLoop (fun a : Int → ℝ => a j) (fun jF a => upd a jF (a jF *
      (I.vpphi0 jF / (|I.jcurv0 jF * I.R.profF .chipF jF| + |I.jcuru0 jF * I.R.profF .phipF jF| + |I.presgrad0 jF * I.vpphi0 jF|)))) (lo := 1) (hi := I.ns - 1) (i0 := j)
      (fun x => x * (I.vpphi0 j / (|I.jcurv0 j * I.R.profF .chipF j| + |I.jcuru0 j * I.R.profF .phipF j| + |I.presgrad0 j * I.vpphi0 j|)))
      (fun i a _ _ h => upd_ne _ _ (Ne.symm h)) (fun a _ _ => upd_same _ _ _) I.equif0
    rw [this, if_pos ⟨j0, j1⟩]
    unfold equif0
    rw [I.onFull_in _ j0 j1, e1, e2, e3, e4]
    have t1 : |I.sign * I.dds (I.mean .bsubu) j * I.R.profF .chipF j| = |I.torTerm j| := by unfold torTerm; rw [mul_comm]
    have t2 : |(-(I.sign * I.dds (I.mean .bsubv) j)) * I.R.profF .phipF j| = |I.polTerm j| := by unfold polTerm; rw [neg_mul, abs_neg, mul_comm]
    rw [t1, t2]
    show _ * (_ / (_ + _ + |I.presTerm j|)) = _
    have : ((I.R.profF .chipF j * (I.sign * I.dds (I.mean .bsubu) j) - I.R.profF .phipF j * (-(I.sign * I.dds (I.mean .bsubv) j))) / I.vol j + I.dds (I.R.profH .presH) j) * I.vol j =
        I.torTerm j + I.polTerm j + I.presTerm j := by
      unfold torTerm polTerm presTerm
      field_simp
      ring
    rw [← this]
    ring
  refine ⟨main, ?_, ?_⟩
  · rw [main, abs_div]
    refine div_le_one_of_le₀ ?_ (abs_nonneg _)
    refine le_trans ?_ (le_abs_self _)
    exact (abs_add_le _ _).trans (add_le_add (abs_add_le _ _) (le_refl _))
  · rw [main, div_eq_zero_iff]
    exact ⟨fun h => h.resolve_right hd, Or.inl⟩

theorem loc_in (hns : 3 ≤ I.ns) {j : Int} (j0 : 1 ≤ j) (j1 : j < I.ns - 1) : I.phipf_loc j = 2 * Real.pi * I.sign * ((I.R.profH .phipH j + I.R.profH .phipH (j - 1)) / 2) := by
  unfold phipf_loc
  rw [I.toFull_eq hns _ _ j (by omega) (by omega), if_neg (by omega), if_neg (by omega)]; ring

/-- **C91** (balance): the radial forces balance exactly when the printed averages satisfy `<J^u> - ι <J^v> = 2π σ dp/dΦ` with the printed pressure derivative, where `ι = χ'/φ'` -/
theorem C91_balance {j : Int} (j0 : 1 ≤ j) (j1 : j < I.ns - 1) (hσ : I.sign = 1 ∨ I.sign = -1) (hmu : I.mu_0 ≠ 0) (hv : I.vol j ≠ 0) (hφ : I.R.profF .phipF j ≠ 0)
    (hφH : I.R.profF .phipF j = (I.R.profH .phipH j + I.R.profH .phipH (j - 1)) / 2) :
    I.torTerm j + I.polTerm j + I.presTerm j = 0 ↔
      I.avg_jsupu j - I.R.profF .chipF j / I.R.profF .phipF j * I.avg_jsupv j = 2 * Real.pi * I.sign * I.d_pressure_d_phi j := by
  obtain ⟨e1, e2, e3, e4⟩ := I.interior j0 j1
  have hs2 : I.sign * I.sign = 1 := by rcases hσ with h | h <;> rw [h] <;> norm_num
  have hs : I.sign ≠ 0 := fun h => by rw [h] at hs2; norm_num at hs2
  unfold avg_jsupu avg_jsupv d_pressure_d_phi jcuru jcurv presgrad vpphi
  rw [I.onAll_in _ (by omega) (by omega), I.onAll_in _ (by omega) (by omega), I.onAll_in _ (by omega) (by omega), I.ends_in _ j0 j1, I.ends_in _ j0 j1, I.ends_in _ j0 j1, I.ends_in _ j0 j1,
    e1, e2, e3, e4, I.loc_in (by omega) j0 j1, ← hφH]
  have hpi := Real.pi_ne_zero
  unfold torTerm polTerm presTerm
  rw [← sub_eq_zero (b := 2 * Real.pi * I.sign * _)]
  have : -(I.sign * I.dds (I.mean .bsubv) j) / I.vol j / I.mu_0 - I.R.profF .chipF j / I.R.profF .phipF j * (I.sign * I.dds (I.mean .bsubu) j / I.vol j / I.mu_0) -
      2 * Real.pi * I.sign * (I.dds (I.R.profH .presH) j / (2 * Real.pi * I.sign * I.R.profF .phipF j) / I.mu_0) =
      -(I.R.profF .chipF j * (I.sign * I.dds (I.mean .bsubu) j) + I.R.profF .phipF j * (I.sign * I.dds (I.mean .bsubv) j) + I.dds (I.R.profH .presH) j * I.vol j) / (I.vol j * I.R.profF .phipF j * I.mu_0) := by
    field_simp
    ring
  rw [this, div_eq_zero_iff, neg_eq_zero]
  exact ⟨Or.inl, fun h => h.resolve_right (by positivity)⟩

/-- **C91** (volume): the column `d(VOL)/d(PHI)` times `dΦ/ds` is `σ dV/ds`, with `dV/ds = 4π² V'` -/
theorem C91_volume_partial {j : Int} (j0 : 1 ≤ j) (j1 : j < I.ns - 1) (hφ : I.phipf_loc j ≠ 0) :
    I.d_volume_d_phi j * I.phipf_loc j = I.sign * (4 * Real.pi ^ 2 * I.vol j) := by
  obtain ⟨_, _, _, e4⟩ := I.interior j0 j1
  unfold d_volume_d_phi cur0 vpphi
  rw [I.onAll_in _ (by omega) (by omega), I.ends_in _ j0 j1, e4, div_mul_cancel₀ _ hφ]; ring

/-- **C91** fails for the sign that the code uses: with `σ = -1` the column `d(VOL)/d(PHI)` has the wrong sign -/
theorem C91_volume_fails {j : Int} (j0 : 1 ≤ j) (j1 : j < I.ns - 1) (hσ : I.sign = -1) (hφ : I.phipf_loc j ≠ 0) :
    I.d_volume_d_phi j = -(4 * Real.pi ^ 2 * I.vol j / I.phipf_loc j) := by
  have := I.C91_volume_partial j0 j1 hφ
  rw [hσ] at this
  field_simp
  linarith

theorem phi1_eq {j : Int} (j0 : 0 ≤ j) (j1 : j < I.ns) : I.phi1 j = ∑ i ∈ Ico 0 j, I.R.profH .phipH i * I.deltaS :=
  prefix_eq I.ns (fun i => I.R.profH .phipH i * I.deltaS) j j0 j1
theorem chi1_eq {j : Int} (j0 : 0 ≤ j) (j1 : j < I.ns) : I.chi1 j = ∑ i ∈ Ico 0 j, I.R.profH .phipH i * I.R.profH .iotaH i * I.deltaS :=
  prefix_eq I.ns (fun i => I.R.profH .phipH i * I.R.profH .iotaH i * I.deltaS) j j0 j1

theorem chi_eq {j : Int} (j0 : 0 ≤ j) (j1 : j < I.ns) : I.chi j = 2 * Real.pi * ∑ i ∈ Ico 0 j, I.R.profH .phipH i * I.R.profH .iotaH i * I.deltaS := by
  unfold chi
  rw [fill_eq]
  split_ifs with h
  · rw [I.chi1_eq j0 j1]
  · rw [show j = 0 by omega]; simp

/-- **C91** (flux): for a flux derivative that is linear in `s` the printed toroidal flux is exactly `2π σ ∫ φ' ds` -/
theorem C91_flux {j : Int} (j0 : 0 ≤ j) (j1 : j < I.ns) (α β : ℝ) (h : ∀ i, 0 ≤ i → I.R.profH .phipH i = α + β * ((i + 1 / 2) * I.deltaS)) :
    I.toroidal_flux j = 2 * Real.pi * I.sign * (α * (j * I.deltaS) + β * (j * I.deltaS) ^ 2 / 2) := by
  unfold toroidal_flux
  rw [I.onAll_in _ j0 j1, I.phi1_eq j0 j1]
  congr 1
  clear j1
  induction j, j0 using Int.leInduction with
  | base => simp
  | succ k hk ih =>
    rw [sum_Ico_int_succ hk, ih, h k hk]
    push_cast
    ring

/-- **C91** (poloidal flux): the two poloidal fluxes of the output, `wout.chi` and `psi` of the second table, differ by the factor `σ` -/
theorem C91_psi {j : Int} (j0 : 0 ≤ j) (j1 : j < I.ns) : I.psi j = I.sign * I.chi j := by
  rw [I.chi_eq j0 j1]
  unfold psi
  refine (prefix_eq I.ns (I.onHalf fun jH => 2 * Real.pi * I.deltaS * I.sign * I.R.profH .phipH jH * I.R.profH .iotaH jH) j j0 j1).trans ?_
  rw [Finset.mul_sum, Finset.mul_sum]
  refine Finset.sum_congr rfl fun i hi => ?_
  rw [Finset.mem_Ico] at hi
  rw [I.onHalf_in _ hi.1 (by omega)]
  ring

/-- **C91** fails for the poloidal flux with `σ = -1`: for constant `φ'` and `ι` the toroidal flux has the derivative `wout.phipf`, but `wout.chi` has the derivative `-wout.chipf` -/
theorem C91_chi_fails {j : Int} (j0 : 1 ≤ j) (j1 : j < I.ns) (hσ : I.sign = -1) (hds : I.deltaS ≠ 0) (c i0 : ℝ) (hp : ∀ i, I.R.profH .phipH i = c) (hi : ∀ i, I.R.profH .iotaH i = i0)
    (hpF : I.R.profF .phipF j = c) (hcF : I.R.profF .chipF j = i0 * c) :
    (I.toroidal_flux j - I.toroidal_flux (j - 1)) / I.deltaS = I.wout_phipf j ∧ (I.chi j - I.chi (j - 1)) / I.deltaS = -I.wout_chipf j := by
  have step (v : Int → ℝ) : ∑ i ∈ Ico 0 j, v i = ∑ i ∈ Ico 0 (j - 1), v i + v (j - 1) := by
    have := sum_Ico_int_succ (lo := 0) (hi := j - 1) (by omega) v
    rw [sub_add_cancel] at this; exact this
  unfold toroidal_flux wout_phipf wout_chipf
  rw [I.onAll_in _ (by omega) j1, I.onAll_in _ (by omega) (by omega), I.onAll_in _ (by omega) j1, I.onAll_in _ (by omega) j1, I.phi1_eq (by omega) j1, I.phi1_eq (by omega) (by omega), I.chi_eq (by omega) j1,
    I.chi_eq (by omega) (by omega), step, step, hp, hi, hpF, hcF, hσ]
  generalize ∑ i ∈ Ico 0 (j - 1), I.R.profH .phipH i * I.deltaS = X
  generalize ∑ i ∈ Ico 0 (j - 1), I.R.profH .phipH i * I.R.profH .iotaH i * I.deltaS = Y
  constructor
  · field_simp; ring
  · field_simp; ring

/-- **C91** (full grid): pressure and poloidal current on the full grid are exact for profiles that are linear in `s`, ends included -/
theorem C91_full_grid (hns : 3 ≤ I.ns) (c : ℝ) (p : Int → ℝ) (α β : ℝ) (h : ∀ i, 0 ≤ i → p i = α + β * ((i + 1 / 2) * I.deltaS)) {j : Int} (j0 : 0 ≤ j) (j1 : j < I.ns) :
    I.toFull c p j = c * (α + β * (j * I.deltaS)) := by
  rw [I.toFull_eq hns c p j j0 j1]
  split_ifs with h0 h1
  · rw [h 0 (by omega), h 1 (by omega), h0]; push_cast; ring
  · rw [h _ (by omega), h _ (by omega), h1]; push_cast; ring
  · rw [h _ (by omega), h _ (by omega)]; push_cast; ring

/-- **C91** (enclosed current): the toroidal current on the full grid is exact, axis and boundary included, if the average of `B_u` is proportional to `s` -/
theorem C91_current (hns : 3 ≤ I.ns) (β : ℝ) (h : ∀ i, 0 ≤ i → i < I.ns - 1 → I.mean .bsubu i = β * ((i + 1 / 2) * I.deltaS)) {j : Int} (j0 : 0 ≤ j) (j1 : j < I.ns) :
    I.bucof j = β * (j * I.deltaS) := by
  have ha {i : Int} (i0 : 0 ≤ i) (i1 : i < I.ns - 1) : I.avg .bsubu i = β * ((i + 1 / 2) * I.deltaS) := (I.avg_eq .bsubu i0 i1).trans (h i i0 i1)
  unfold bucof
  by_cases hj : j = I.ns - 1
  · rw [hj]
    simp only [upd_same]
    rw [ha (by omega) (by omega), ha (by omega) (by omega)]
    push_cast
    ring
  · rw [upd_ne _ _ hj, fill_eq]
    split_ifs with hc
    · rw [ha (by omega) (by omega), ha (by omega) (by omega)]
      push_cast
      ring
    · rw [show j = 0 by omega, upd_same]
      simp

/-- **C91** (ends): current densities, pressure gradient, `V'` and force of the axis and of the boundary continue the interior linearly, with four surfaces or more -/
theorem C91_ends_partial (hns : 4 ≤ I.ns) (a : Int → ℝ) : I.ends a 1 - I.ends a 0 = I.ends a 2 - I.ends a 1 ∧
    I.ends a (I.ns - 1) - I.ends a (I.ns - 2) = I.ends a (I.ns - 2) - I.ends a (I.ns - 3) := by
  have e0 : I.ends a 0 = 2 * a 1 - a 2 := by unfold ends; rw [upd_ne _ _ (by omega), upd_same]
  have e1 : I.ends a (I.ns - 1) = 2 * a (I.ns - 2) - a (I.ns - 3) := by
    unfold ends; rw [upd_same, upd_ne _ _ (by omega), upd_ne _ _ (by omega)]
  rw [e0, e1, I.ends_in _ (by omega) (by omega), I.ends_in _ (by omega) (by omega), I.ends_in _ (by omega) (by omega), I.ends_in _ (by omega) (by omega)]
  constructor <;> ring

/-- **C91** fails with three surfaces: the volume derivative `V'`, if it is the same on all surfaces, is doubled at the axis and zero at the boundary, so that `<J^u>` there is divided by zero -/
theorem C91_ends_fails (hns : I.ns = 3) (v : ℝ) (h : ∀ i, I.R.profH .dVdsH i = v) : I.vpphi 0 = 2 * v ∧ I.vpphi 1 = v ∧ I.vpphi 2 = 0 := by
  have a1 : I.vpphi0 1 = v := by unfold vpphi0; rw [I.onFull_in _ (by omega) (by omega), h, h]; ring
  have a2 : I.vpphi0 2 = 0 := by unfold vpphi0; rw [I.onFull_out _ (by omega)]
  refine ⟨?_, ?_, ?_⟩
  · unfold vpphi ends; rw [hns, upd_ne _ _ (by omega), upd_same, a1, a2]; ring
  · unfold vpphi; rw [I.ends_in _ (by omega) (by omega), a1]
  · unfold vpphi ends
    rw [hns, show (3 : Int) - 1 = 2 by omega, upd_same, show (3 : Int) - 2 = 1 by omega, show (3 : Int) - 3 = 0 by omega, upd_ne _ _ (by omega), upd_same, a1, a2]; ring

end TableIn

/-! ## the hypotheses are met -/

/-- five surfaces, `σ = -1`, falling pressure, `φ' = 2`, `ι = 1/2` -/
noncomputable def tableExample (s : Sizes.Sizes) : TableIn where
  s := s
  ns := 5
  deltaS := 1 / 4
  mu_0 := 1
  sign := -1
  R := { Results.zero with
    profH := fun c i => match c with | .presH => -i | .dVdsH => 3 | .phipH => 2 | .iotaH => 1 / 2 | _ => 0
    profF := fun c _ => match c with | .phipF => 2 | .chipF => 1 | _ => 0 }

example (s : Sizes.Sizes) : let I := tableExample s
    I.vol 2 ≠ 0 ∧ |I.torTerm 2| + |I.polTerm 2| + |I.presTerm 2| ≠ 0 ∧ I.sign = -1 ∧ I.mu_0 ≠ 0 ∧ I.R.profF .phipF 2 ≠ 0 ∧ I.R.profF .phipF 2 = (I.R.profH .phipH 2 + I.R.profH .phipH (2 - 1)) / 2 ∧
    I.phipf_loc 2 ≠ 0 ∧ (∀ i, I.R.profH .iotaH i = 1 / 2) ∧ I.R.profF .chipF 2 = 1 / 2 * 2 := by
  intro I
  have hv : I.vol 2 = 3 := by unfold TableIn.vol; show ((3 : ℝ) + 3) / 2 = 3; norm_num
  have hp : I.presTerm 2 = -12 := by
    unfold TableIn.presTerm; rw [hv]; unfold TableIn.dds
    show (-((2 : Int) : ℝ) - -((2 - 1 : Int) : ℝ)) / (1 / 4) * 3 = -12
    norm_num
  refine ⟨by rw [hv]; norm_num, ?_, rfl, one_ne_zero, two_ne_zero, ?_, ?_, fun _ => rfl, ?_⟩
  · have := abs_nonneg (I.torTerm 2)
    have := abs_nonneg (I.polTerm 2)
    have : |I.presTerm 2| = 12 := by rw [hp]; norm_num
    intro h; linarith
  · show (2 : ℝ) = (2 + 2) / 2; norm_num
  · rw [I.loc_in (show (3 : Int) ≤ 5 by norm_num) (by norm_num) (show (2 : Int) < 5 - 1 by norm_num)]
    have := Real.pi_pos
    show 2 * Real.pi * (-1) * (((2 : ℝ) + 2) / 2) ≠ 0
    intro h; nlinarith
  · show (1 : ℝ) = 1 / 2 * 2; norm_num

/-- a state whose average of `B_u` is proportional to `s`, for `C91_current` -/
example (s : Sizes.Sizes) (h : ∑ kl ∈ Ico 0 s.nZnT, (Sizes.wInt s (kl.tmod s.nThetaEff) : ℝ) = 1) (hn : 0 < s.nZnT) : ∃ I : TableIn, I.s = s ∧ 3 ≤ I.ns ∧
    ∀ i, 0 ≤ i → i < I.ns - 1 → I.mean .bsubu i = 2 * ((i + 1 / 2) * I.deltaS) := by
  refine ⟨{ tableExample s with R := { Results.zero with gridH := fun _ k => 2 * (((k / s.nZnT : Int) : ℝ) + 1 / 2) * (1 / 4) } }, rfl, by norm_num [tableExample], fun i _ _ => ?_⟩
  have e : ∀ kl ∈ Ico 0 s.nZnT, 2 * ((((i * s.nZnT + kl) / s.nZnT : Int) : ℝ) + 1 / 2) * (1 / 4) * (Sizes.wInt s (kl.tmod s.nThetaEff) : ℝ) =
      2 * ((i : ℝ) + 1 / 2) * (1 / 4) * (Sizes.wInt s (kl.tmod s.nThetaEff) : ℝ) := fun kl hk => by
    rw [Finset.mem_Ico] at hk
    rw [show i * s.nZnT + kl = kl + s.nZnT * i by ring, Int.add_mul_ediv_left _ _ (by omega), Int.ediv_eq_zero_of_lt hk.1 hk.2, zero_add]
  show ∑ kl ∈ Ico 0 s.nZnT, 2 * ((((i * s.nZnT + kl) / s.nZnT : Int) : ℝ) + 1 / 2) * (1 / 4) * (Sizes.wInt s (kl.tmod s.nThetaEff) : ℝ) = 2 * (((i : ℝ) + 1 / 2) * (1 / 4))
  rw [Finset.sum_congr rfl e, ← Finset.mul_sum, h]
  ring

/-- a surface with magnetic field and volume, for the volume average -/
example (s : Sizes.Sizes) (h : ∑ kl ∈ Ico 0 s.nZnT, (Sizes.wInt s (kl.tmod s.nThetaEff) : ℝ) = 1) : ∃ I : TableIn, I.s = s ∧ (1 : Int) < I.ns - 1 ∧ ∃ B : Int → ℝ,
    (∀ kl, 0 ≤ kl → kl < I.s.nZnT → I.R.gridH .total_pressure (1 * I.s.nZnT + kl) = I.R.profH .presH 1 + B kl ^ 2 / 2) ∧
    I.R.profH .dVdsH 1 = ∑ kl ∈ Ico 0 I.s.nZnT, I.dV 1 kl ∧ I.R.profH .dVdsH 1 ≠ 0 := by
  refine ⟨{ tableExample s with R := { Results.zero with profH := fun _ _ => 3, gridH := fun c _ => match c with | .gsqrt => -3 | .total_pressure => 5 | _ => 1 } }, rfl, by norm_num [tableExample], fun _ => 2, ?_, ?_, ?_⟩
  · intro kl _ _; show (5 : ℝ) = 3 + 2 ^ 2 / 2; norm_num
  · show (3 : ℝ) = ∑ kl ∈ Ico 0 s.nZnT, (-1 * -3 * (Sizes.wInt s (kl.tmod s.nThetaEff) : ℝ))
    rw [← Finset.mul_sum, h]; norm_num
  · show (3 : ℝ) ≠ 0; norm_num

end Verif.Output
