import Verif.Common.Loop

/-!
# Model of the work partitioning

C++ `int` is modelled by `Int`; `/` and `%` of C++ truncate towards zero, so `Int.tdiv`/`Int.tmod`.
-/
namespace Verif.Partition
open Verif

/-- Start of the block of thread `t` when `n` items are split among `nt` threads.
    `vmec/radial_partitioning/radial_partitioning.cc:69-80`,
    `free_boundary/tangential_partitioning/tangential_partitioning.cc:20-31`,
    `vmec/ideal_mhd_model/ideal_mhd_model.cc:3110-3122`. -/
def splitMin (n nt t : Int) : Int :=
  let work_per_cpu := n.tdiv nt
  let work_remainder := n.tmod nt
  if t < work_remainder then t * work_per_cpu + t else t * work_per_cpu + work_remainder

/-- End (exclusive) of the block of thread `t`; same source lines as `splitMin`. -/
def splitMax (n nt t : Int) : Int :=
  let work_per_cpu := n.tdiv nt
  let work_remainder := n.tmod nt
  if t < work_remainder then (t + 1) * work_per_cpu + (t + 1)
  else (t + 1) * work_per_cpu + work_remainder

/-- The index ranges held by one thread; `vmec/radial_partitioning/radial_partitioning.h:25-75`.
    All `Max` members are exclusive. -/
structure Ranges where
  nsMinF : Int
  nsMaxF : Int
  nsMinF1 : Int
  nsMaxF1 : Int
  nsMinH : Int
  nsMaxH : Int
  nsMinFi : Int
  nsMaxFi : Int
  nsMaxFIncludingLcfs : Int
  deriving Repr, DecidableEq

/-- `num_surfaces_to_distribute`, `radial_partitioning.cc:23-26` and `vmec/vmec/vmec.cc:552-555`. -/
def numSurfacesToDistribute (ns : Int) (lfreeb : Bool) : Int :=
  if lfreeb then ns else ns - 1

/-- `RadialPartitioning::adjustRadialPartitioning`, `radial_partitioning.cc:19-127`
    (the printout is dropped). `abort` is the `LOG(FATAL)` of line 29. -/
def adjustRadialPartitioning (num_threads thread_id ns : Int) (lfreeb : Bool) : Outcome Ranges :=
  let n := numSurfacesToDistribute ns lfreeb
  if num_threads > ns.tdiv 2 then .abort "Cannot make use of more than ns/2 threads"
  else if num_threads > 1 then
    let nsMinF := splitMin n num_threads thread_id
    let nsMaxF := splitMax n num_threads thread_id
    let nsMinF1 := max 0 (nsMinF - 1)
    let nsMaxF1 := min ns (nsMaxF + 1)
    .ok {
      nsMinF := nsMinF
      nsMaxF := nsMaxF
      nsMinF1 := nsMinF1
      nsMaxF1 := nsMaxF1
      nsMinH := nsMinF1
      nsMaxH := nsMaxF1 - 1
      nsMinFi := max 1 nsMinF
      nsMaxFi := min (ns - 1) nsMaxF
      nsMaxFIncludingLcfs := if nsMaxF1 = ns then ns else nsMaxF }
  else
    let nsMaxF := if lfreeb then ns else ns - 1
    .ok {
      nsMinF := 0
      nsMaxF := nsMaxF
      nsMinF1 := 0
      nsMaxF1 := ns
      nsMinH := 0
      nsMaxH := ns - 1
      nsMinFi := 1
      nsMaxFi := ns - 1
      nsMaxFIncludingLcfs := if ns = ns then ns else nsMaxF }

/-- `RadialPartitioning::has_boundary`, `radial_partitioning.cc:133`. -/
def hasBoundary (ns : Int) (r : Ranges) : Bool := r.nsMaxF1 = ns

/-- `vmec_adjust_num_threads`, `common/util/util.cc:318-336` (the OpenMP runtime calls are dropped). -/
def vmecAdjustNumThreads (max_threads num_surfaces_to_distribute : Int) : Int :=
  min max_threads (num_surfaces_to_distribute.tdiv 2)

/-- `vmec_adjust_vacuum_num_threads`, `common/util/util.cc:338-347`. -/
def vmecAdjustVacuumNumThreads (max_threads n_znt : Int) : Int := min max_threads n_znt

/-- The guard used wherever unique half-grid points are needed: the loop
    `for (jH = nsMinH; jH < nsMaxH; ++jH) if (jH < nsMaxH - 1 || jH == ns - 2)`;
    `vmec/ideal_mhd_model/ideal_mhd_model.cc:1722,1752,1918,1943,2079`,
    `vmec/radial_profiles/radial_profiles.cc:1192,1261`,
    `vmec/output_quantities/output_quantities.cc:1675`. -/
def countsHalf (ns : Int) (r : Ranges) (jH : Int) : Prop :=
  r.nsMinH ≤ jH ∧ jH < r.nsMaxH ∧ (jH < r.nsMaxH - 1 ∨ jH = ns - 2)

instance (ns : Int) (r : Ranges) (jH : Int) : Decidable (countsHalf ns r jH) := by
  unfold countsHalf; infer_instance

/-- Thread-local part of a volume integral, e.g. `localPlasmaVolume`,
    `ideal_mhd_model.cc:1716-1725` (before multiplication with `deltaS`);
    `f jH` is the integrand of half-grid surface `jH`. -/
def localHalfSum {M : Type} [Add M] [Zero M] (ns : Int) (r : Ranges) (f : Int → M) : M :=
  (irange r.nsMinH r.nsMaxH).foldl
    (fun acc jH => if jH < r.nsMaxH - 1 ∨ jH = ns - 2 then acc + f jH else acc) 0

end Verif.Partition
