import Verif.VacBounds.SourceLemmas
import Verif.VacBounds.Props

/-!
# Property C122: surface geometry and the integrals over it stay inside their arrays
-/
namespace Verif.VacSrc
open Verif.VacBounds (Env In Admissible)

/-- C122: in a vacuum update, in every thread and for every size, with and without the part that is
    done only in full updates, surface geometry, external field, singular and regularised integrals and
    the vacuum pressure access no array outside its extent; the loops that move their own counter come
    to an end. -/
theorem C122_no_access_out_of_range (E : Env) (full : Bool) (h : Admissible E) :
    Safe E (update E full) := by
  have F := facts2 h
  unfold update
  rw [Safe_append, Safe_append, Safe_append, Safe_append, Safe_append, Safe_append, Safe_append, Safe_append,
    Safe_append, Safe_append, Safe_whenB]
  refine ⟨⟨⟨⟨⟨⟨⟨⟨⟨⟨sgConstants_safe, coefficients_safe F⟩, riConstants_safe⟩, inverseDFT_safe F⟩,
    mirror_safe F⟩, derived_safe F⟩, external_safe F⟩, prepare_safe F⟩, perform_safe F⟩, fun _ => ?_⟩,
    pressure_safe F⟩
  split
  · next h1 => exact ri2d_safe F h1
  · exact ri3d_safe F

/-- a case with four threads and another one without toroidal modes -/
example : Safe (VacBounds.envOf true 3 2 4 1) (update (VacBounds.envOf true 3 2 4 1) true) ∧
    Safe (VacBounds.envOf false 3 0 2 1) (update (VacBounds.envOf false 3 0 2 1) true) :=
  ⟨C122_no_access_out_of_range _ _
    ⟨⟨4, 1, by decide, by decide, by decide, rfl, rfl⟩, ⟨true, 1, 3, 2, 0, 0, 0, 0, rfl⟩, rfl, rfl⟩,
   C122_no_access_out_of_range _ _
    ⟨⟨2, 1, by decide, by decide, by decide, rfl, rfl⟩, ⟨false, 1, 3, 0, 0, 0, 0, 0, rfl⟩, rfl, rfl⟩⟩

/-- the second case takes the axisymmetric branch, the first one the other one -/
example : (VacBounds.envOf true 3 2 4 1).s.nZeta = 8 ∧
    (VacBounds.envOf false 3 0 2 1).s.nZeta = 1 := by decide

/-- C122: the two calls of the loop over the first field period add to every point of the grid but
    the singular one exactly once. -/
theorem C122_every_other_point_once (E : Env) (h : Admissible E) (klp : Int)
    (h1 : E.ztMin ≤ klp) (h2 : klp < E.ztMax) :
    (doLoop E klp 0 klp ++ doLoop E klp (klp + 1) (E.s.nThetaEven * E.s.nZeta)).filter isGreen =
      ((irange 0 (E.s.nThetaEven * E.s.nZeta)).filter (fun p => decide (p ≠ klp))).map
        fun p => ⟨.greenp, [(klp - E.ztMin) * (E.s.nThetaEven * E.s.nZeta) + p]⟩ := by
  have F := facts2 h
  have h0 := F.min0
  have hm := F.maxEven
  rw [List.filter_append, doLoop_green F le_rfl, doLoop_green F (by omega), ← List.map_append]
  congr 1
  have e := irange_split (lo := 0) (mid := klp) (hi := E.s.nThetaEven * E.s.nZeta) (by omega)
    (by omega)
  rw [irange_cons (lo := klp) (by omega)] at e
  rw [e, List.filter_append, List.filter_cons, if_neg (by simp)]
  congr 1
  · symm
    rw [List.filter_eq_self]
    intro p hp
    rw [mem_irange] at hp
    exact decide_eq_true (by omega)
  · symm
    rw [List.filter_eq_self]
    intro p hp
    rw [mem_irange] at hp
    exact decide_eq_true (by omega)

/-- C122: the loop that takes four points of a row at a time takes every point of the thread exactly
    once. -/
theorem C122_every_point_of_thread_once (E : Env) (full : Bool) (h : Admissible E)
    (fl n m posn negn : Int) :
    (rows (remaining E) (rowAcc E full fl n m posn negn) E.ztMax (E.ztMax - E.ztMin).toNat
      E.ztMin).filter isNormalField =
      (irange E.ztMin E.ztMax).map fun kl => ⟨.bDotN, [kl - E.ztMin]⟩ := by
  have F := facts2 h
  have hm := F.minMax
  refine rows_filter (lo := E.ztMin) (fun kl z1 z2 => ⟨remaining_pos F z1 z2, ?_⟩)
    (fun kl z1 z2 => rowAcc_filter F z1 z2) _ _ le_rfl (by omega)
  unfold remaining; omega

end Verif.VacSrc
