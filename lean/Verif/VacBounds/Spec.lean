import Verif.VacBounds.Model

/-!
# What it means that all accesses are in range
-/
namespace Verif.VacBounds
open Verif

/-- index in range of an extent -/
structure In (i d : Int) : Prop where
  lo : 0 ≤ i
  hi : i < d

/-- every access of the list is to an existing element -/
def Safe (E : Env) (l : List Acc) : Prop :=
  ∀ x ∈ l, List.Forall₂ In x.idx (E.dims x.arr)

/-- The environments a run can have: any thread of a team of any size, the sizes of any accepted
    input, and the Fourier resolution `Nestor` chooses
    (`free_boundary/nestor/nestor.cc:19-20`). -/
structure Admissible (E : Env) : Prop where
  ranges : ∃ nt t : Int, 1 ≤ nt ∧ 0 ≤ t ∧ t < nt ∧
    E.ztMin = Partition.splitMin E.s.nZnT nt t ∧ E.ztMax = Partition.splitMax E.s.nZnT nt t
  sizes : ∃ lasym nfp mpol ntor ntheta nzeta mg ng,
    Sizes.mk lasym nfp mpol ntor ntheta nzeta mg ng = .ok E.s
  nf : E.nf = E.s.ntor
  mf : E.mf = E.s.mpol + 1

end Verif.VacBounds
