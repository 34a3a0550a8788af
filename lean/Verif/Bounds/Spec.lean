import Verif.Bounds.Forces

/-!
# What it means that all accesses are in range

An index list is in range when it has one index per extent and every index is at least 0 and below
its extent. The environment of a thread is admissible when its ranges are those the partitioning
gives to a thread of a team and the sizes are those of an accepted input.
-/
namespace Verif.Bounds
open Verif

/-- index in range of an extent -/
structure In (i d : Int) : Prop where
  lo : 0 ≤ i
  hi : i < d

/-- every access of the list is to an existing element -/
def Safe (E : Env) (l : List Acc) : Prop :=
  ∀ x ∈ l, List.Forall₂ In x.idx (E.dims x.arr)

/-- The environments a run can have: a thread of a team on `ns ≥ 3` surfaces, sizes with `mpol ≥ 2`
    (both enforced by `VmecINDATA::IsConsistent`). -/
structure Admissible (E : Env) : Prop where
  ranges : ∃ nt t : Int, 1 ≤ nt ∧ 0 ≤ t ∧ t < nt ∧
    Partition.adjustRadialPartitioning nt t E.ns E.lfreeb = .ok E.r
  sizes : ∃ lasym nfp mpol ntor ntheta nzeta mg ng,
    Sizes.mk lasym nfp mpol ntor ntheta nzeta mg ng = .ok E.s
  surfaces : 3 ≤ E.ns
  modes : 2 ≤ E.s.mpol

/-- everything a thread runs in one evaluation of the forces with all preconditioner updates -/
def forward (E : Env) : List Acc :=
  geometryFromFourier E ++ rzConIntoVolume E ++ computeJacobian E ++ computeMetricElements E ++
  updateDifferentialVolume E ++ volumeSum E ++ computeBContra E ++ computeBCo E ++
  pressureAndEnergies E ++ radialForceBalance E ++
  (if E.lfreeb && E.vacOn then vacuumPressure E else []) ++
  hybridLambdaForce E ++ updateRadialPreconditioner E ++ updateLambdaPreconditioner E ++
  computeForceNorms E ++ constraintForceMultiplier E ++ computeMHDForces E ++
  effectiveConstraintForce E ++ deAliasConstraintForce E ++ assembleTotalForces E ++
  forcesToFourier E ++ applyM1Preconditioner E ++ assembleRZPreconditioner E ++
  applyRZPreconditioner E ++ applyLambdaPreconditioner E ++ getDelbsq E

end Verif.Bounds
