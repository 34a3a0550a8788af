import Verif.Bounds.ForcesLemmas

/-!
# C119: no array of the force model is accessed out of range
-/
namespace Verif.Bounds
open Verif Arr

/-- **C119.** For every number of threads the partitioning accepts, every thread, every number of
    surfaces from 3 on, all sizes with at least two poloidal modes, fixed or free boundary, with or
    without the vacuum contribution: every access of one evaluation of the forces, including the
    preconditioners, is to an existing element of the array. -/
theorem C119_no_access_out_of_range (E : Env) (h : Admissible E) : Safe E (forward E) := by
  have F := facts h
  have hv : Safe E (if (E.lfreeb && E.vacOn) = true then vacuumPressure E else []) := by
    rw [Safe_ite]; exact ⟨fun _ => safe_vacuum F, fun _ => Safe_nil.2 trivial⟩
  unfold forward
  simp only [Safe_append]
  exact ⟨⟨⟨⟨⟨⟨⟨⟨⟨⟨⟨⟨⟨⟨⟨⟨⟨⟨⟨⟨⟨⟨⟨⟨⟨safe_geometry F, safe_rzCon F⟩, safe_jacobian F⟩, safe_metric F⟩,
    safe_dV F⟩, safe_volume F⟩, safe_bContra F⟩, safe_bCo F⟩, safe_pressure F⟩, safe_balance F⟩,
    hv⟩, safe_lambdaForce F⟩, safe_radialPrec F⟩, safe_lambdaPrec F⟩, safe_norms F⟩,
    safe_multiplier F⟩, safe_mhd F⟩, safe_effective F⟩, safe_deAlias F⟩, safe_total F⟩,
    safe_forces F⟩, safe_m1 F⟩, safe_assemble F⟩, safe_applyRZ F⟩, safe_applyLambda F⟩, safe_delbsq F⟩

/-- a size object for the examples -/
def sizesOf (lasym : Bool) (mpol ntor : Int) : Sizes.Sizes :=
  match Sizes.mk lasym 1 mpol ntor 0 0 0 0 with
  | .ok s => s
  | _ => ⟨false, 0, 0, 0, 0, 0, 0, 0, false, 0, 0, 0, 0, 0, 0, 0, 0, 0, 0, 0, 0⟩

def rangesOf (nt t ns : Int) (lfreeb : Bool) : Partition.Ranges :=
  match Partition.adjustRadialPartitioning nt t ns lfreeb with
  | .ok r => r
  | _ => ⟨0, 0, 0, 0, 0, 0, 0, 0, 0⟩

/-- non-trivial case: second of two threads, 5 surfaces, free boundary, no symmetry, 3D -/
def exEnv : Env := ⟨rangesOf 2 1 5 true, sizesOf true 3 1, 5, true, true⟩

example : Admissible exEnv :=
  ⟨⟨2, 1, by decide, by decide, by decide, rfl⟩, ⟨true, 1, 3, 1, 0, 0, 0, 0, rfl⟩, by decide,
    by decide⟩

/-- and accesses do reach the last element of an array -/
example : (⟨gConEff, [2 * exEnv.s.nZnT - 1]⟩ : Acc) ∈ effectiveConstraintForce exEnv ∧
    exEnv.dims gConEff = [2 * exEnv.s.nZnT] := by
  constructor
  · refine List.mem_flatMap.2 ⟨4, mem_irange.2 ⟨by decide, by decide⟩, ?_⟩
    refine List.mem_flatMap.2 ⟨exEnv.s.nZnT - 1, mem_irange.2 ⟨by decide, by decide⟩, ?_⟩
    exact List.mem_cons_self ..
  · decide

theorem mem_left {α : Type} {x : α} {l m : List α} (h : x ∈ l) : x ∈ l ++ m :=
  List.mem_append.2 (.inl h)

theorem mem_right {α : Type} {x : α} {l m : List α} (h : x ∈ m) : x ∈ l ++ m :=
  List.mem_append.2 (.inr h)

theorem need_iotaH1 (E : Env) (h : Safe E (forward E)) (h0 : E.r.nsMinF1 = 0) :
    1 < E.r.nsMaxH - E.r.nsMinH := by
  have hx : (⟨iotaH, [1]⟩ : Acc) ∈ computeBContra E := by
    unfold computeBContra
    iterate 3 apply mem_left
    apply mem_right
    unfold whenB
    rw [if_pos (by simpa using h0)]
    exact mem_right (List.mem_cons_self ..)
  have hy : (⟨iotaH, [1]⟩ : Acc) ∈ forward E := by
    unfold forward
    iterate 19 apply mem_left
    exact mem_right hx
  have hz : List.Forall₂ In [1] [E.r.nsMaxH - E.r.nsMinH] := h _ hy
  cases hz with
  | cons a _ => exact a.hi

theorem need_xmpq1 (E : Env) (h : Safe E (forward E)) (h0 : E.r.nsMinF = 0)
    (h1 : 0 < E.r.nsMaxFIncludingLcfs) (h3 : E.s.lthreed = false) : 1 < E.s.mpol := by
  have hx : (⟨xmpq, [1]⟩ : Acc) ∈ geometryFromFourier E := by
    unfold geometryFromFourier
    iterate 4 apply mem_left
    rw [if_neg (by simp [h3])]
    unfold dftFourierToReal2dSymm fourierToReal2d
    apply mem_right
    refine List.mem_flatMap.2 ⟨0, mem_irange.2 ⟨by omega, h1⟩, ?_⟩
    refine List.mem_flatMap.2 ⟨1, mem_irange.2 ⟨by decide, by simp⟩, ?_⟩
    exact mem_left (mem_left (List.mem_cons_self ..))
  have hy : (⟨xmpq, [1]⟩ : Acc) ∈ forward E := by
    unfold forward
    iterate 25 apply mem_left
    exact hx
  have hz : List.Forall₂ In [1] [E.s.mpol] := h _ hy
  cases hz with
  | cons a _ => exact a.hi

/-- **C119 (why three surfaces).** On two surfaces the rotational transform at the axis is
    extrapolated from a half-grid point that does not exist (`iotaH[1]`): the condition on the
    number of surfaces cannot be dropped. -/
theorem C119_two_surfaces_out_of_range :
    ∃ E : Env, (∃ nt t : Int, 1 ≤ nt ∧ 0 ≤ t ∧ t < nt ∧
        Partition.adjustRadialPartitioning nt t E.ns E.lfreeb = .ok E.r) ∧
      (∃ lasym nfp mpol ntor ntheta nzeta mg ng,
        Sizes.mk lasym nfp mpol ntor ntheta nzeta mg ng = .ok E.s) ∧
      E.ns = 2 ∧ 2 ≤ E.s.mpol ∧ ¬ Safe E (forward E) := by
  refine ⟨⟨rangesOf 1 0 2 false, sizesOf false 2 0, 2, false, false⟩,
    ⟨1, 0, by decide, by decide, by decide, rfl⟩, ⟨false, 1, 2, 0, 0, 0, 0, 0, rfl⟩, rfl,
    by decide, ?_⟩
  exact fun h => absurd (need_iotaH1 _ h (by decide)) (by decide)

/-- **C119 (why two poloidal modes).** With `mpol = 1`, which `Sizes` accepts, the transform of the
    axis reads the mode `m = 1` that does not exist (`xmpq[1]`). -/
theorem C119_one_mode_out_of_range :
    ∃ E : Env, (∃ nt t : Int, 1 ≤ nt ∧ 0 ≤ t ∧ t < nt ∧
        Partition.adjustRadialPartitioning nt t E.ns E.lfreeb = .ok E.r) ∧
      (∃ lasym nfp mpol ntor ntheta nzeta mg ng,
        Sizes.mk lasym nfp mpol ntor ntheta nzeta mg ng = .ok E.s) ∧
      3 ≤ E.ns ∧ E.s.mpol = 1 ∧ ¬ Safe E (forward E) := by
  refine ⟨⟨rangesOf 1 0 3 false, sizesOf false 1 0, 3, false, false⟩,
    ⟨1, 0, by decide, by decide, by decide, rfl⟩, ⟨false, 1, 1, 0, 0, 0, 0, 0, rfl⟩, by decide,
    by decide, ?_⟩
  exact fun h => absurd (need_xmpq1 _ h (by decide) (by decide) (by decide)) (by decide)

end Verif.Bounds
