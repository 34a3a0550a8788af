import Verif.Output.Geometry
import Verif.Output.Threed1Props
import Mathlib.Tactic.Positivity

/-!
# C93: energies, betas, fluxes and the parallel current
-/
namespace Verif.Output
open Verif Finset

namespace GeomIn
variable (I : GeomIn)

/-- specification: the volume integral of a function on the half grid, `∫ f dV = 4π² Δs Σ_j Σ_kl f |√g| w`, with the volume element `dV` of `C91_average` -/
noncomputable def volInt (f : Int → Int → ℝ) : ℝ := 4 * Real.pi ^ 2 * I.deltaS * ∑ j ∈ Ico 0 (I.ns - 1), ∑ kl ∈ Ico 0 I.s.nZnT, f j kl * I.dV j kl

theorem sumH_eq (f : Int → ℝ) : I.sumH f = ∑ j ∈ Ico 0 (I.ns - 1), f j := by
  unfold sumH; rw [forRange_add, zero_add]

theorem sumHK_eq (f : Int → ℝ) : I.sumHK f = ∑ j ∈ Ico 0 (I.ns - 1), ∑ kl ∈ Ico 0 I.s.nZnT, f (j * I.s.nZnT + kl) := by
  unfold sumHK
  simp only [forRange_add]
  rw [zero_add]

theorem tau_in {j kl : Int} (j0 : 0 ≤ j) (j1 : j < I.ns - 1) (k0 : 0 ≤ kl) (k1 : kl < I.s.nZnT) : I.tau (j * I.s.nZnT + kl) = I.dV j kl := by
  unfold TableIn.tau TableIn.dV
  rw [fillGrid_in j0 j1 k0 k1]
  ring

theorem sumHK_tau (f : Int → Int → ℝ) (g : Int → ℝ) (h : ∀ j kl, 0 ≤ j → j < I.ns - 1 → 0 ≤ kl → kl < I.s.nZnT → g (j * I.s.nZnT + kl) = f j kl * I.tau (j * I.s.nZnT + kl)) :
    I.vnorm * I.sumHK g = I.volInt f := by
  unfold volInt vnorm anorm
  rw [I.sumHK_eq]
  have : ∑ j ∈ Ico 0 (I.ns - 1), ∑ kl ∈ Ico 0 I.s.nZnT, g (j * I.s.nZnT + kl) = ∑ j ∈ Ico 0 (I.ns - 1), ∑ kl ∈ Ico 0 I.s.nZnT, f j kl * I.dV j kl := by
    refine Finset.sum_congr rfl fun j hj => Finset.sum_congr rfl fun kl hk => ?_
    rw [Finset.mem_Ico] at hj hk
    rw [h j kl hj.1 hj.2 hk.1 hk.2, I.tau_in hj.1 hj.2 hk.1 hk.2]
  rw [this]
  ring

/-- the state behind the tables: the total pressure is `p + B²/2`, and `dV/ds` is the sum of the volume elements -/
structure State (B : Int → Int → ℝ) : Prop where
  pressure : ∀ j kl, 0 ≤ j → j < I.ns - 1 → 0 ≤ kl → kl < I.s.nZnT → I.R.gridH .total_pressure (j * I.s.nZnT + kl) = I.R.profH .presH j + B j kl ^ 2 / 2
  volume : ∀ j, 0 ≤ j → j < I.ns - 1 → I.R.profH .dVdsH j = ∑ kl ∈ Ico 0 I.s.nZnT, I.dV j kl

theorem sump_eq {B : Int → Int → ℝ} (h : I.State B) : I.sump = I.volInt (fun j _ => I.R.profH .presH j) := by
  unfold sump volInt vnorm anorm
  rw [I.sumH_eq]
  have : ∑ j ∈ Ico 0 (I.ns - 1), I.R.profH .dVdsH j * I.R.profH .presH j = ∑ j ∈ Ico 0 (I.ns - 1), ∑ kl ∈ Ico 0 I.s.nZnT, I.R.profH .presH j * I.dV j kl := by
    refine Finset.sum_congr rfl fun j hj => ?_
    rw [Finset.mem_Ico] at hj
    rw [h.volume j hj.1 hj.2, ← Finset.mul_sum, mul_comm]
  rw [this]
  ring

theorem sump2_eq {B : Int → Int → ℝ} (h : I.State B) : I.sump2 = I.volInt (fun j _ => I.R.profH .presH j ^ 2) := by
  unfold sump2 volInt vnorm anorm
  rw [I.sumH_eq]
  have : ∑ j ∈ Ico 0 (I.ns - 1), I.R.profH .presH j * I.R.profH .presH j * I.R.profH .dVdsH j = ∑ j ∈ Ico 0 (I.ns - 1), ∑ kl ∈ Ico 0 I.s.nZnT, I.R.profH .presH j ^ 2 * I.dV j kl := by
    refine Finset.sum_congr rfl fun j hj => ?_
    rw [Finset.mem_Ico] at hj
    rw [h.volume j hj.1 hj.2, ← Finset.mul_sum, sq]
  rw [this]
  ring

theorem volInt_sub (f g : Int → Int → ℝ) : I.volInt (fun j kl => f j kl - g j kl) = I.volInt f - I.volInt g := by
  unfold volInt
  simp only [sub_mul, Finset.sum_sub_distrib]
  ring

theorem volInt_nonneg (hd : 0 ≤ I.deltaS) (hV : ∀ j kl, 0 ≤ I.dV j kl) (f : Int → Int → ℝ) (hf : ∀ j kl, 0 ≤ j → j < I.ns - 1 → 0 ≤ kl → kl < I.s.nZnT → 0 ≤ f j kl) : 0 ≤ I.volInt f := by
  unfold volInt
  refine mul_nonneg (by positivity) (Finset.sum_nonneg fun j hj => Finset.sum_nonneg fun kl hk => ?_)
  rw [Finset.mem_Ico] at hj hk
  exact mul_nonneg (hf j kl hj.1 hj.2 hk.1 hk.2) (hV j kl)

/-- **C93** (energies): `sump`, `sump2`, `sumbtot`, `sumbtor`, `sumbpol` are the volume integrals of `p`, `p²`, `B²`, `(R B^φ)²` and `B² - (R B^φ)²` -/
theorem C93_energies {B : Int → Int → ℝ} (h : I.State B) :
    I.sump = I.volInt (fun j _ => I.R.profH .presH j) ∧ I.sump2 = I.volInt (fun j _ => I.R.profH .presH j ^ 2) ∧ I.sumbtot = I.volInt (fun j kl => B j kl ^ 2) ∧
    I.sumbtor = I.volInt (fun j kl => (I.R.gridH .r12 (j * I.s.nZnT + kl) * I.R.gridH .bsupv (j * I.s.nZnT + kl)) ^ 2) ∧
    I.sumbpol = I.volInt (fun j kl => B j kl ^ 2 - (I.R.gridH .r12 (j * I.s.nZnT + kl) * I.R.gridH .bsupv (j * I.s.nZnT + kl)) ^ 2) := by
  have ht : I.sumbtot = I.volInt (fun j kl => B j kl ^ 2) := by
    unfold sumbtot
    rw [I.sumHK_tau (fun j kl => I.R.profH .presH j + B j kl ^ 2 / 2) _ (fun j kl j0 j1 k0 k1 => by rw [h.pressure j kl j0 j1 k0 k1]), I.sump_eq h, ← volInt_sub]
    unfold volInt
    rw [← mul_assoc, mul_comm (2 : ℝ), mul_assoc, Finset.mul_sum]
    congr 1
    refine Finset.sum_congr rfl fun j _ => ?_
    rw [Finset.mul_sum]
    refine Finset.sum_congr rfl fun kl _ => by ring
  have hr : I.sumbtor = I.volInt (fun j kl => (I.R.gridH .r12 (j * I.s.nZnT + kl) * I.R.gridH .bsupv (j * I.s.nZnT + kl)) ^ 2) := by
    unfold sumbtor
    exact I.sumHK_tau _ _ (fun j kl _ _ _ _ => by ring)
  refine ⟨I.sump_eq h, I.sump2_eq h, ht, hr, ?_⟩
  unfold sumbpol
  rw [volInt_sub, ht, hr]

/-- **C93** (signs): with positive volume elements, non-negative pressure and a field at least as large as its toroidal component, all energies are non-negative -/
theorem C93_energies_nonneg {B : Int → Int → ℝ} (h : I.State B) (hd : 0 ≤ I.deltaS) (hV : ∀ j kl, 0 ≤ I.dV j kl) (hp : ∀ j, 0 ≤ I.R.profH .presH j)
    (hB : ∀ j kl, (I.R.gridH .r12 (j * I.s.nZnT + kl) * I.R.gridH .bsupv (j * I.s.nZnT + kl)) ^ 2 ≤ B j kl ^ 2) :
    0 ≤ I.sump ∧ 0 ≤ I.sumbtor ∧ 0 ≤ I.sumbpol ∧ I.sumbtor ≤ I.sumbtot := by
  obtain ⟨e1, _, e3, e4, e5⟩ := I.C93_energies h
  have hpol : 0 ≤ I.sumbpol := by rw [e5]; exact I.volInt_nonneg hd hV _ (fun j kl _ _ _ _ => sub_nonneg.2 (hB j kl))
  refine ⟨by rw [e1]; exact I.volInt_nonneg hd hV _ (fun j _ _ _ _ _ => hp j), by rw [e4]; exact I.volInt_nonneg hd hV _ (fun _ _ _ _ _ _ => sq_nonneg _), hpol, ?_⟩
  unfold sumbpol at hpol
  linarith

/-- **C93** (betas): each beta is `2 ∫p dV / ∫B² dV` with the total, the toroidal or the poloidal field (the pressure contains `μ₀`); hence `1/β_tot = 1/β_pol + 1/β_tor` -/
theorem C93_betas {B : Int → Int → ℝ} (h : I.State B) :
    I.betatot = 2 * I.volInt (fun j _ => I.R.profH .presH j) / I.volInt (fun j kl => B j kl ^ 2) ∧
    1 / I.betatot = 1 / I.betapol + 1 / I.betator ∧ I.int_modb = I.int_btor + I.int_bpol ∧ I.int_ekin = 3 / 2 * I.int_p := by
  obtain ⟨e1, _, e3, _, _⟩ := I.C93_energies h
  refine ⟨by unfold betatot; rw [e1, e3], ?_, by unfold int_modb int_btor int_bpol sumbpol; ring, by unfold int_ekin int_p; ring⟩
  unfold betatot betapol betator sumbpol
  rw [one_div_div, one_div_div, one_div_div, ← add_div]
  ring

/-- **C93** (averages): `betstr` is `2 √<p²> / <B²>`, `VolAvgB` is `√<B²>`, `pavg` is `<p>`, with the averages over the volume `volume_p` -/
theorem C93_averages {B : Int → Int → ℝ} (h : I.State B) (hd : 0 ≤ I.deltaS) (hV : ∀ j kl, 0 ≤ I.dV j kl) :
    I.betstr = 2 * Real.sqrt (I.volInt (fun j _ => I.R.profH .presH j ^ 2) / I.volume_p) / (I.volInt (fun j kl => B j kl ^ 2) / I.volume_p) ∧
    I.VolAvgB ^ 2 = I.volInt (fun j kl => B j kl ^ 2) / I.volume_p ∧ I.pavg = I.volInt (fun j _ => I.R.profH .presH j) / I.volume_p := by
  obtain ⟨e1, e2, e3, _, _⟩ := I.C93_energies h
  have hv : 0 ≤ I.volume_p := by unfold volume_p; positivity
  have hq : 0 ≤ I.volInt (fun j kl => B j kl ^ 2) / I.volume_p := div_nonneg (I.volInt_nonneg hd hV _ fun _ _ _ _ _ _ => sq_nonneg _) hv
  refine ⟨by unfold betstr; rw [e2, e3], ?_, by unfold pavg; rw [e1]⟩
  unfold VolAvgB
  rw [e3, abs_of_nonneg hq, Real.sq_sqrt hq]

/-- **C93** (flux): if the surface average of `√g B^φ` is `φ'`, the toroidal flux of the plasma is the flux of the boundary in the first table, `2π σ Δs Σ φ'` -/
theorem C93_flux (h1 : 1 ≤ I.ns) (hb : ∀ j, 0 ≤ j → j < I.ns - 1 →
    ∑ kl ∈ Ico 0 I.s.nZnT, I.R.gridH .gsqrt (j * I.s.nZnT + kl) * I.R.gridH .bsupv (j * I.s.nZnT + kl) * Sizes.wInt I.s (kl.tmod I.s.nThetaEff) = I.R.profH .phipH j) :
    I.toroidal_flux_p = I.toroidal_flux (I.ns - 1) := by
  unfold toroidal_flux_p TableIn.toroidal_flux anorm
  rw [I.onAll_in _ (by omega) (by omega), I.phi1_eq (by omega) (by omega), I.sumHK_eq]
  have : ∑ j ∈ Ico 0 (I.ns - 1), ∑ kl ∈ Ico 0 I.s.nZnT, I.R.gridH .bsupv (j * I.s.nZnT + kl) * I.tau (j * I.s.nZnT + kl) = ∑ j ∈ Ico 0 (I.ns - 1), I.sign * I.R.profH .phipH j := by
    refine Finset.sum_congr rfl fun j hj => ?_
    rw [Finset.mem_Ico] at hj
    rw [← hb j hj.1 hj.2, Finset.mul_sum]
    refine Finset.sum_congr rfl fun kl hk => ?_
    rw [Finset.mem_Ico] at hk
    rw [I.tau_in hj.1 hj.2 hk.1 hk.2]
    unfold TableIn.dV
    ring
  rw [this, ← Finset.mul_sum, ← Finset.sum_mul]
  ring

/-- **C93** (diamagnetic flux): `delphid_exact` is the flux of the vacuum field `R B_φ = rBtor` minus the flux of the plasma; it vanishes when the field is the vacuum field -/
theorem C93_diamagnetic : I.delphid_exact = I.anorm * I.sumHK (fun i => I.rBtor / I.R.gridH .r12 i ^ 2 * I.tau i) - I.toroidal_flux_p ∧
    ((∀ i, I.R.gridH .bsupv i = I.rBtor / I.R.gridH .r12 i ^ 2) → I.delphid_exact = 0) := by
  have e : I.delphid_exact = I.anorm * I.sumHK (fun i => I.rBtor / I.R.gridH .r12 i ^ 2 * I.tau i) - I.toroidal_flux_p := by
    unfold delphid_exact toroidal_flux_p
    rw [← mul_sub, mul_comm]
    congr 1
    rw [I.sumHK_eq, I.sumHK_eq, I.sumHK_eq, ← Finset.sum_sub_distrib]
    refine Finset.sum_congr rfl fun j _ => ?_
    rw [← Finset.sum_sub_distrib]
    refine Finset.sum_congr rfl fun kl _ => ?_
    rw [div_div, ← sq, sub_mul]
  refine ⟨e, fun h => ?_⟩
  rw [e]
  unfold toroidal_flux_p
  rw [← mul_sub, I.sumHK_eq, I.sumHK_eq, ← Finset.sum_sub_distrib]
  simp only [h, sub_self, Finset.sum_const_zero, mul_zero]

/-- **C93** (Pfirsch-Schlüter part): if `<J·B>² ≤ <J_∥²> <B²>` on the interior surfaces (`C87_parallel`), the Pfirsch-Schlüter part lies between 0 and the parallel current, surface by surface and in
    the averages of the output file -/
theorem C93_parallel (hB : ∀ j, 0 < I.bdotb j) (hC : ∀ j, 1 ≤ j → j < I.ns - 1 → I.jdotb j ^ 2 ≤ I.jpar2 j * I.bdotb j) (hp : ∀ j, 0 ≤ I.jperp2 j) (hV : ∀ j, 0 < I.R.profH .dVdsH j) :
    (∀ j, 1 ≤ j → j < I.ns - 1 → 0 ≤ I.jPS2 j ∧ I.jPS2 j ≤ I.jpar2 j) ∧ 0 ≤ I.jparPS_perp ∧ I.jparPS_perp ≤ I.jpar_perp := by
  have hj (j : Int) (j0 : 1 ≤ j) (j1 : j < I.ns - 1) : 0 ≤ I.jPS2 j ∧ I.jPS2 j ≤ I.jpar2 j := by
    unfold jPS2
    rw [TableIn.fill_eq, if_pos ⟨j0, j1⟩, ← sq]
    refine ⟨?_, by have := div_nonneg (sq_nonneg (I.jdotb j)) (hB j).le; linarith⟩
    rw [sub_nonneg, div_le_iff₀ (hB j)]
    exact hC j j0 j1
  have hs (f : Int → ℝ) : I.sumF f = ∑ j ∈ Ico 1 (I.ns - 1), f j * (I.R.profH .dVdsH j + I.R.profH .dVdsH (j - 1)) := by
    unfold sumF; rw [forRange_add, zero_add]
  have n0 : 0 ≤ I.sumF I.jPS2 := by
    rw [hs]
    refine Finset.sum_nonneg fun j h => ?_
    rw [Finset.mem_Ico] at h
    exact mul_nonneg (hj j h.1 h.2).1 (add_pos (hV _) (hV _)).le
  have n1 : I.sumF I.jPS2 ≤ I.sumF I.jpar2 := by
    rw [hs, hs]
    refine Finset.sum_le_sum fun j h => ?_
    rw [Finset.mem_Ico] at h
    exact mul_le_mul_of_nonneg_right (hj j h.1 h.2).2 (add_pos (hV _) (hV _)).le
  have n2 : 0 ≤ I.sumF I.jperp2 := by
    rw [hs]
    exact Finset.sum_nonneg fun j _ => mul_nonneg (hp j) (add_pos (hV _) (hV _)).le
  refine ⟨hj, ?_, ?_⟩
  · unfold jparPS_perp
    split_ifs
    · exact div_nonneg n0 n2
    · exact n0
  · unfold jparPS_perp jpar_perp
    split_ifs
    · exact div_le_div_of_nonneg_right n1 n2
    · exact n1

end GeomIn

/-- a run with three surfaces: `p = 3`, `B = 2`, `R B^φ = 1`, `√g = -3`, and a parallel current with `<J_∥²> = 2`, `<J·B> = 1`, `<B²> = 4` -/
noncomputable def energyExample (s : Sizes.Sizes) : GeomIn where
  s := s
  ns := 3
  deltaS := 1 / 2
  mu_0 := 1
  sign := -1
  R := { Results.zero with
    profH := fun c _ => match c with | .phipH => -3 | _ => 3
    gridH := fun c _ => match c with | .gsqrt => -3 | .total_pressure => 5 | _ => 1 }
  rBtor := 1
  r_00 := 1
  r_outer := 1
  r_inner := 1
  dblMax := 1000
  jpar2 := fun _ => 2
  jdotb := fun _ => 1
  bdotb := fun _ => 4
  jperp2 := fun _ => 1

/-- the example meets the hypotheses of `C93_energies`, `C93_energies_nonneg`, `C93_betas`, `C93_averages`, `C93_flux`, `C93_parallel` -/
example {s : Sizes.Sizes} {lasym : Bool} {nfp mpol ntor ntheta nzeta mg ng : Int} (hs : Sizes.mk lasym nfp mpol ntor ntheta nzeta mg ng = .ok s) :
    let I := energyExample s
    I.State (fun _ _ => 2) ∧ 0 ≤ I.deltaS ∧ (∀ j kl, 0 ≤ I.dV j kl) ∧ (∀ j, 0 ≤ I.R.profH .presH j) ∧ I.sump ≠ 0 ∧
    (∀ j kl, (I.R.gridH .r12 (j * I.s.nZnT + kl) * I.R.gridH .bsupv (j * I.s.nZnT + kl)) ^ 2 ≤ (2 : ℝ) ^ 2) ∧
    (∀ j, 0 ≤ j → j < I.ns - 1 → ∑ kl ∈ Ico 0 I.s.nZnT, I.R.gridH .gsqrt (j * I.s.nZnT + kl) * I.R.gridH .bsupv (j * I.s.nZnT + kl) * Sizes.wInt I.s (kl.tmod I.s.nThetaEff) = I.R.profH .phipH j) ∧
    (∀ j, 0 < I.bdotb j) ∧ (∀ j, I.jdotb j ^ 2 ≤ I.jpar2 j * I.bdotb j) ∧ (∀ j, 0 < I.R.profH .dVdsH j) := by
  have hw := wInt_sum hs
  refine ⟨⟨fun j kl _ _ _ _ => ?_, fun j _ _ => ?_⟩, ?_, fun j kl => ?_, fun j => ?_, ?_, fun j kl => ?_, fun j _ _ => ?_, fun j => ?_, fun j => ?_, fun j => ?_⟩
  · show (5 : ℝ) = 3 + 2 ^ 2 / 2; norm_num
  · show (3 : ℝ) = ∑ kl ∈ Ico 0 s.nZnT, (-1 * -3 * (Sizes.wInt s (kl.tmod s.nThetaEff) : ℝ))
    rw [← Finset.mul_sum, hw]; norm_num
  · show (0 : ℝ) ≤ 1 / 2; norm_num
  · show (0 : ℝ) ≤ -1 * -3 * (Sizes.wInt s (kl.tmod s.nThetaEff) : ℝ)
    have := wInt_pos hs (kl.tmod s.nThetaEff)
    nlinarith
  · show (0 : ℝ) ≤ 3; norm_num
  · unfold GeomIn.sump
    rw [GeomIn.sumH_eq]
    have e : ∑ j ∈ Ico 0 ((energyExample s).ns - 1), (energyExample s).R.profH .dVdsH j * (energyExample s).R.profH .presH j = 18 := by
      show ∑ j ∈ Ico (0 : Int) (3 - 1), (3 : ℝ) * 3 = 18
      rw [Finset.sum_const, Int.card_Ico, show ((3 : Int) - 1 - 0).toNat = 2 from rfl]; norm_num
    rw [e]
    have : (energyExample s).vnorm = 2 * Real.pi ^ 2 := by
      show 2 * Real.pi * (2 * Real.pi * (1 / 2)) = _
      ring
    rw [this]
    have := Real.pi_pos
    positivity
  · show ((1 : ℝ) * 1) ^ 2 ≤ 2 ^ 2; norm_num
  · show ∑ kl ∈ Ico 0 s.nZnT, ((-3 : ℝ) * 1 * (Sizes.wInt s (kl.tmod s.nThetaEff) : ℝ)) = -3
    rw [← Finset.mul_sum, hw]; norm_num
  · show (0 : ℝ) < 4; norm_num
  · show (1 : ℝ) ^ 2 ≤ 2 * 4; norm_num
  · show (0 : ℝ) < 3; norm_num

end Verif.Output
