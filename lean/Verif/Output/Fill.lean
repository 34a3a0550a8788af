import Verif.Common.Fam
import Verif.Radial.Apply
import Mathlib.Data.Real.Basic

/-! # Arrays that are filled surface by surface

`fillGrid lo hi n v` is the loop nest `for j in [lo, hi) for kl in [0, n) a(j*n + kl) = v(j, kl)` on a zero-initialised
array, the form of most loops in `vmec/output_quantities/output_quantities.cc` (e.g. 1923-1967). -/
namespace Verif.Output
open Verif

/-- the loop nest, on the array `a` -/
def fillGridOn {α : Type} (lo hi n : Int) (v : Int → Int → α) (a : Int → α) : Int → α :=
  forRange lo hi (fun j a => forRange 0 n (fun kl a => upd a (j * n + kl) (v j kl)) a) a

theorem fillGridOn_eq {α : Type} (lo hi n : Int) (v : Int → Int → α) (a : Int → α) (j kl : Int) (k0 : 0 ≤ kl) (k1 : kl < n) :
    fillGridOn lo hi n v a (j * n + kl) = if lo ≤ j ∧ j < hi then v j kl else a (j * n + kl) := by
  have row (j' : Int) (a : Int → α) : (forRange 0 n (fun kl a => upd a (j' * n + kl) (v j' kl)) a) (j * n + kl)
      = if j' = j then v j kl else a (j * n + kl) := by
    refine (Radial.pickLoop (fun a : Int → α => a (j * n + kl)) _ (lo := 0) (hi := n) (i0 := kl) (fun x => if j' = j then v j kl else x) ?_ ?_ a).trans (if_pos ⟨k0, k1⟩)
    · intro i a i0 i1 hne
      exact upd_ne _ _ (fun e => hne (Verif.flat_inj k0 k1 i0 i1 e).2.symm)
    · intro a _ _
      by_cases e : j' = j
      · subst e; simp
      · rw [if_neg e]
        exact upd_ne _ _ (fun h => e (Verif.flat_inj k0 k1 k0 k1 h).1.symm)
  refine Radial.pickLoop (fun a : Int → α => a (j * n + kl)) _ (lo := lo) (hi := hi) (i0 := j) (fun _ => v j kl) ?_ ?_ a
  · intro i a _ _ hne
    exact (row i a).trans (if_neg hne)
  · intro a _ _
    exact (row j a).trans (if_pos rfl)

/-- on a zero-initialised array -/
noncomputable def fillGrid (lo hi n : Int) (v : Int → Int → ℝ) : Int → ℝ := fillGridOn lo hi n v (fun _ => 0)

theorem fillGrid_eq (lo hi n : Int) (v : Int → Int → ℝ) (j kl : Int) (k0 : 0 ≤ kl) (k1 : kl < n) :
    fillGrid lo hi n v (j * n + kl) = if lo ≤ j ∧ j < hi then v j kl else 0 := fillGridOn_eq lo hi n v _ j kl k0 k1

/-- one full row of points: a loop over `kl` that writes the rows `j` of the set `rows` at column `kl` only -/
theorem fillGrid_in {lo hi n : Int} {v : Int → Int → ℝ} {j kl : Int} (j0 : lo ≤ j) (j1 : j < hi) (k0 : 0 ≤ kl) (k1 : kl < n) :
    fillGrid lo hi n v (j * n + kl) = v j kl := (fillGrid_eq lo hi n v j kl k0 k1).trans (if_pos ⟨j0, j1⟩)

end Verif.Output
