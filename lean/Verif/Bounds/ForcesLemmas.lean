import Verif.Bounds.GeometryLemmas

/-!
# The accesses of the force and preconditioner part are in range
-/
namespace Verif.Bounds
open Verif Arr

variable {E : Env}

/-- `j * mpol + m` (axisymmetric forward transforms) -/
theorem rowM {j J m : Int} (h0 : 0 ≤ E.s.ntor) (h1 : 0 ≤ j) (h2 : j < J) (h3 : 0 ≤ m)
    (h4 : m < E.s.mpol) : In (j * E.s.mpol + m) (J * E.s.mpol * (E.s.ntor + 1)) := by
  have a := row h1 h2 h3 h4
  refine a.mono ?_
  have := a.lo
  have := a.hi
  nlinarith

/-- filling a part of an array -/
theorem fillLe {i n q N : Int} (h0 : 0 ≤ i) (h1 : i < n * q) (h2 : n ≤ N) (h3 : 0 ≤ q) :
    In i (q * N) := by
  refine In.mono ⟨h0, h1⟩ ?_
  rw [Int.mul_comm q]
  exact Int.mul_le_mul_of_nonneg_right h2 h3

macro "leaves2" F:term : tactic => `(tactic|
  (repeat' first | refine And.intro ?_ ?_ | intro _
   all_goals first
     | exact fillLe (by assumption) (by assumption) (by omega) (by omega)
     | (try refine In_ite (by assumption) ?_
        exact rowM (by omega) (by omega) (by omega) (by omega) (by omega))
     | leaf $F))

theorem safe_lambdaForce (F : Facts E) : Safe E (hybridLambdaForce E) := by
  unfold hybridLambdaForce; opn F; leaves F

theorem safe_norms (F : Facts E) : Safe E (computeForceNorms E) := by
  unfold computeForceNorms; opn F; leaves F

theorem jMax_le {b : Bool} :
    (if b = true then min E.r.nsMaxF E.ns else min E.r.nsMaxF (E.ns - 1)) ≤ E.r.nsMaxF := by
  split <;> omega

set_option maxHeartbeats 1000000 in
theorem safe_mhd (F : Facts E) : Safe E (computeMHDForces E) := by
  have hj := jMax_le (E := E) (b := E.lfreeb)
  unfold computeMHDForces scratchI scratchO scratchAvg mhdHalf
  generalize (if E.lfreeb = true then min E.r.nsMaxF E.ns else min E.r.nsMaxF (E.ns - 1)) = jm at *
  opn F; leaves F

theorem jFirst_ge (F : Facts E) : E.r.nsMinF ≤ jFirst E ∧ 0 ≤ jFirst E := by
  have := F.minF
  unfold jFirst; split <;> omega

theorem safe_lambdaPrec (F : Facts E) : Safe E (updateLambdaPreconditioner E) := by
  have hj := jFirst_ge F
  unfold updateLambdaPreconditioner
  generalize jFirst E = jm at *
  opn F; leaves F

set_option maxHeartbeats 1000000 in
theorem safe_radialPrec (F : Facts E) : Safe E (updateRadialPreconditioner E) := by
  unfold updateRadialPreconditioner precondMatrix; opn F; leaves F

theorem safe_multiplier (F : Facts E) : Safe E (constraintForceMultiplier E) := by
  have hj := jFirst_ge F
  unfold constraintForceMultiplier
  generalize jFirst E = jm at *
  opn F; leaves F

theorem safe_effective (F : Facts E) : Safe E (effectiveConstraintForce E) := by
  have hj := jFirst_ge F
  unfold effectiveConstraintForce
  generalize jFirst E = jm at *
  opn F; leaves F

set_option maxHeartbeats 1000000 in
theorem safe_deAlias (F : Facts E) : Safe E (deAliasConstraintForce E) := by
  have hj := jFirst_ge F
  unfold deAliasConstraintForce deAliasForward deAliasBackward deAliasExtend
  generalize jFirst E = jm at *
  opn F; leaves2 F

theorem safe_total (F : Facts E) : Safe E (assembleTotalForces E) := by
  unfold assembleTotalForces; opn F; leaves F

set_option maxHeartbeats 1000000 in
theorem safe_symforce (F : Facts E) (ha : E.s.lasym = true) : Safe E (symforce E) := by
  unfold symforce fold; opn F; leaves F

theorem jMaxRZ_bounds (F : Facts E) : jMaxRZ E ≤ E.r.nsMaxF ∧ E.r.nsMinF ≤ jMaxRZ E := by
  have f1 := F.last
  have f2 := F.minMax
  have f3 := F.maxF1
  have f4 := F.maxF
  unfold jMaxRZ; split <;> omega

set_option maxHeartbeats 1000000 in
theorem safe_f2dSymm (F : Facts E) :
    Safe E (forcesToFourier2d E fE fO [blmn_e] [blmn_o] [frcc, fzsc] [flsc]) := by
  have hj := jMaxRZ_bounds F
  unfold forcesToFourier2d fE fO
  generalize jMaxRZ E = jm at *
  opn F; leaves2 F

set_option maxHeartbeats 1000000 in
theorem safe_f2dAsymm (F : Facts E) (ha : E.s.lasym = true) :
    Safe E (forcesToFourier2d E fAE fAO [blmn_asym_e] [blmn_asym_o] [frsc, fzcc] [flcc]) := by
  have hj := jMaxRZ_bounds F
  unfold forcesToFourier2d fAE fAO
  generalize jMaxRZ E = jm at *
  opn F; leaves2 F

set_option maxHeartbeats 1000000 in
theorem safe_f3dSymm (F : Facts E) (h3 : E.s.lthreed = true) :
    Safe E (forcesToFourier3d E (fE ++ [crmn_e, czmn_e]) (fO ++ [crmn_o, czmn_o])
      [blmn_e, clmn_e] [blmn_o, clmn_o] [frcc, frss, fzsc, fzcs] [flsc, flcs]) := by
  have hj := jMaxRZ_bounds F
  unfold forcesToFourier3d forces3dBody fE fO
  generalize jMaxRZ E = jm at *
  opn F; leaves F

set_option maxHeartbeats 1000000 in
theorem safe_f3dAsymm (F : Facts E) (h3 : E.s.lthreed = true) (ha : E.s.lasym = true) :
    Safe E (forcesToFourier3d E (fAE ++ [crmn_asym_e, czmn_asym_e])
      (fAO ++ [crmn_asym_o, czmn_asym_o]) [blmn_asym_e, clmn_asym_e] [blmn_asym_o, clmn_asym_o]
      [frsc, frcs, fzcc, fzss] [flcc, flss]) := by
  have hj := jMaxRZ_bounds F
  unfold forcesToFourier3d forces3dBody fAE fAO
  generalize jMaxRZ E = jm at *
  opn F; leaves F

theorem safe_forces (F : Facts E) : Safe E (forcesToFourier E) := by
  unfold forcesToFourier
  simp only [Safe_append, Safe_whenB, Safe_ite]
  exact ⟨⟨safe_symforce F, safe_f3dSymm F, fun _ => safe_f2dSymm F⟩,
    fun ha => ⟨fun h3 => safe_f3dAsymm F h3 ha, fun _ => safe_f2dAsymm F ha⟩⟩

theorem safe_m1 (F : Facts E) : Safe E (applyM1Preconditioner E) := by
  unfold applyM1Preconditioner; opn F; leaves F

theorem tmod2 (m : Int) (h : 0 ≤ m) : 0 ≤ m.tmod 2 ∧ m.tmod 2 < 2 :=
  ⟨Int.tmod_nonneg _ h, Int.tmod_lt_of_pos _ (by omega)⟩

theorem parRow {j n m : Int} (h1 : 0 ≤ j) (h2 : j < n) (h3 : 0 ≤ m) :
    In (j * 2 + m.tmod 2) (n * 2) := row h1 h2 (tmod2 m h3).1 (tmod2 m h3).2

/-- the first entry of a surface in the matrix arrays -/
theorem row00 {j J : Int} (h1 : 0 ≤ j) (h2 : j < J) (h3 : 0 < E.s.mpol) (h4 : 0 < E.s.ntor + 1) :
    In (j * E.s.mpol * (E.s.ntor + 1)) (J * (E.s.ntor + 1) * E.s.mpol) := by
  have := rowMn2 (E := E) h1 h2 (le_refl 0) h3 (le_refl 0) h4
  simpa using this

set_option maxHeartbeats 1000000 in
theorem safe_assemble (F : Facts E) : Safe E (assembleRZPreconditioner E) := by
  unfold assembleRZPreconditioner
  generalize jMaxPrec E = jm at *
  opn F
  repeat' first | refine And.intro ?_ ?_ | intro _
  all_goals first
    | exact parRow (by omega) (by omega) (by omega)
    | exact row00 (by omega) (by omega) (by omega) (by omega)
    | leaf F

theorem safe_on_cRZ (F : Facts E) {j m : Int} (h1 : 0 ≤ j)
    (h2 : j < E.r.nsMaxFIncludingLcfs - E.r.nsMinF) (h3 : 0 ≤ m) (h4 : m < E.s.mnsize) :
    Safe E (on (cRZ E) (j * E.s.mnsize + m)) := by
  have h := rowMnsize F h1 h2 h3 h4
  unfold cRZ
  cases h3 : E.s.lthreed <;> cases ha : E.s.lasym <;>
    simp [Safe_on, bnd, h3, ha, numFc_frc F, h]

theorem safe_applyRZ (F : Facts E) : Safe E (applyRZPreconditioner E) := by
  unfold applyRZPreconditioner
  simp only [Safe_append, Safe_loop]
  intro jF h1 h2 mn h3 h4
  have f1 := F.minF
  have f2 := F.maxF
  have f3 := F.incl1
  have f4 := F.incl2
  have f5 := F.maxF1
  have hJ : In jF E.ns := ⟨by omega, by omega⟩
  refine ⟨⟨⟨?_, ?_⟩, safe_on_cRZ F (by omega) (by omega) h3 h4⟩, ?_⟩
  · opn F; leaves F
  · intro x hx
    have : x.idx = [mn, jF] ∧ E.dims x.arr = [E.s.mnsize, E.ns] := by
      simp only [List.map_cons, List.map_nil, List.mem_cons, List.not_mem_nil, or_false] at hx
      rcases hx with rfl | rfl | rfl | rfl | rfl | rfl <;> exact ⟨rfl, rfl⟩
    rw [this.1, this.2]
    exact .cons ⟨h3, h4⟩ (.cons hJ .nil)
  · intro b hb1 hb2 x hx
    have : x.idx = [mn, b, jF] ∧ E.dims x.arr = [E.s.mnsize, E.s.num_basis, E.ns] := by
      simp only [List.map_cons, List.map_nil, List.mem_cons, List.not_mem_nil, or_false] at hx
      rcases hx with rfl | rfl <;> exact ⟨rfl, rfl⟩
    rw [this.1, this.2]
    exact .cons ⟨h3, h4⟩ (.cons ⟨hb1, hb2⟩ (.cons hJ .nil))

theorem safe_applyLambda (F : Facts E) : Safe E (applyLambdaPreconditioner E) := by
  unfold applyLambdaPreconditioner; opn F; leaves F

theorem safe_delbsq (F : Facts E) : Safe E (getDelbsq E) := by
  unfold getDelbsq; opn F; leaves F

end Verif.Bounds
