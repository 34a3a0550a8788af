import Verif.VacBounds.Lemmas

/-!
# C121: the Laplace solver of the vacuum field stays inside its arrays and fills its system
-/
namespace Verif.VacBounds
open Verif Arr

/-- **C121 (main).** For every accepted input, every number of threads (also more threads than grid
    points) and every thread, no access of the constructor tables and of a full update of the vacuum
    potential is out of range: not in the arrays of the thread, not in the shared matrix, pivots and
    right-hand side, not in the arguments and not in the Fourier basis. -/
theorem C121_no_access_out_of_range (E : Env) (h : Admissible E) : Safe E (fullUpdate E) := by
  have F := facts h
  unfold fullUpdate
  simp only [Safe_append]
  exact ⟨⟨⟨⟨⟨⟨⟨⟨⟨⟨⟨⟨tables_safe F, transform_safe F⟩, symmetrise_safe F⟩, accumulate_safe⟩,
    toroidalSource_safe F⟩, toroidalMatrix_safe F⟩, poloidalSource_safe F⟩,
    poloidalMatrix_safe F⟩, buildAdd_safe F⟩, buildDiag_safe F⟩, decompose_safe F⟩,
    solve_safe F⟩, inverse_safe F⟩

/-- the sizes of an accepted input with all other arguments 0 -/
def sizesOf (lasym : Bool) (mpol ntor : Int) : Sizes.Sizes :=
  match Sizes.mk lasym 1 mpol ntor 0 0 0 0 with
  | .ok s => s
  | _ => { lasym := false, nfp := 0, mpol := 0, ntor := 0, mpolGeometry := 0, ntorGeometry := 0,
           ntheta := 0, nZeta := 0, lthreed := false, num_basis := 0, nThetaEven := 0,
           nThetaReduced := 0, nThetaEff := 0, nZnT := 0, mnsize := 0, mnmax := 0, mnyq2 := 0,
           nnyq2 := 0, mnmax_nyq := 0, mnyq := 0, nnyq := 0 }

/-- thread `t` of `nt` -/
def envOf (lasym : Bool) (mpol ntor nt t : Int) : Env :=
  let s := sizesOf lasym mpol ntor
  ⟨s, Partition.splitMin s.nZnT nt t, Partition.splitMax s.nZnT nt t, s.ntor, s.mpol + 1⟩

example : Admissible (envOf true 3 2 4 1) :=
  ⟨⟨4, 1, by decide, by decide, by decide, rfl, rfl⟩, ⟨true, 1, 3, 2, 0, 0, 0, 0, rfl⟩, rfl, rfl⟩

/-- the grid, the range of the thread and the size of the linear system of this case -/
example : (envOf true 3 2 4 1).s.nZnT = 96 ∧ (envOf true 3 2 4 1).ztMin = 24 ∧
    (envOf true 3 2 4 1).ztMax = 48 ∧ (envOf true 3 2 4 1).mnpdDim = 50 := by decide

theorem mem_loop {lo hi j : Int} {body : Int → List Acc} {x : Acc} (h1 : lo ≤ j) (h2 : j < hi)
    (hx : x ∈ body j) : x ∈ loop lo hi body :=
  List.mem_flatMap.2 ⟨j, mem_irange.2 ⟨h1, h2⟩, hx⟩

/-- quotient and remainder of an index -/
theorem split_idx {i n q : Int} (hi : In i (n * q)) (hq : 0 < q) :
    ∃ j k, In j n ∧ In k q ∧ i = j * q + k := by
  obtain ⟨h1, h2⟩ := hi
  refine ⟨i / q, i % q, ⟨Int.ediv_nonneg h1 (by omega), Int.ediv_lt_of_lt_mul hq h2⟩,
    ⟨Int.emod_nonneg _ (by omega), Int.emod_lt_of_pos _ hq⟩, ?_⟩
  rw [Int.mul_comm]; exact (Int.mul_ediv_add_emod i q).symm

/-- **C121 (completeness).** The poloidal transforms, which access these arrays only to assign to
    them, assign to every element of the thread's right-hand side and of the blocks of its matrix:
    no element keeps the value of an earlier update. -/
theorem C121_system_is_filled (E : Env) (h : Admissible E) :
    (∀ i, In i E.mnpd → (⟨bvec_sin, [i]⟩ : Acc) ∈ poloidalSource E) ∧
    (∀ i, In i (E.mnpd * E.mnpd) → (⟨amat_sin_sin, [i]⟩ : Acc) ∈ poloidalMatrix E) ∧
    (E.s.lasym = true →
      (∀ i, In i E.mnpd → (⟨bvec_cos, [i]⟩ : Acc) ∈ poloidalSource E) ∧
      (∀ i, In i (E.mnpd * E.mnpd) → ∀ a ∈ [amat_sin_cos, amat_cos_sin, amat_cos_cos],
        (⟨a, [i]⟩ : Acc) ∈ poloidalMatrix E)) := by
  have F := facts h
  have hm := F.mf0
  have hp := mnpd_pos F
  have key : ∀ i, In i (E.mnpd * E.mnpd) → ∃ a m mn, In a (2 * E.nf + 1) ∧ In m (E.mf + 1) ∧
      In mn E.mnpd ∧ i = (a * (E.mf + 1) + m) * E.mnpd + mn := by
    intro i hi
    obtain ⟨r, mn, hr, hmn, rfl⟩ := split_idx hi (by omega)
    obtain ⟨a, m, ha, hm', rfl⟩ := split_idx (show In r ((2 * E.nf + 1) * (E.mf + 1)) from hr)
      (by omega)
    exact ⟨a, m, mn, ha, hm', hmn, rfl⟩
  refine ⟨fun i hi => ?_, fun i hi => ?_, fun hl => ⟨fun i hi => ?_, fun i hi a ha => ?_⟩⟩
  · obtain ⟨a, m, ha, hm', rfl⟩ := split_idx (show In i ((2 * E.nf + 1) * (E.mf + 1)) from hi)
      (by omega)
    refine mem_loop ha.lo ha.hi ?_
    refine List.mem_append_left _ (List.mem_append_right _ (mem_loop hm'.lo hm'.hi ?_))
    exact List.mem_append_left _ (List.mem_cons_self ..)
  · obtain ⟨a, m, mn, ha, hm', hmn, rfl⟩ := key i hi
    refine mem_loop hmn.lo hmn.hi (mem_loop ha.lo ha.hi ?_)
    refine List.mem_append_left _ (List.mem_append_right _ (mem_loop hm'.lo hm'.hi ?_))
    exact List.mem_append_left _ (List.mem_cons_self ..)
  · obtain ⟨a, m, ha, hm', rfl⟩ := split_idx (show In i ((2 * E.nf + 1) * (E.mf + 1)) from hi)
      (by omega)
    refine mem_loop ha.lo ha.hi ?_
    refine List.mem_append_right _ ?_
    unfold whenB; rw [if_pos hl]
    refine List.mem_append_right _ (mem_loop hm'.lo hm'.hi ?_)
    exact List.mem_append_left _ (List.mem_cons_self ..)
  · obtain ⟨n, m, mn, hn, hm', hmn, rfl⟩ := key i hi
    refine mem_loop hmn.lo hmn.hi (mem_loop hn.lo hn.hi ?_)
    refine List.mem_append_right _ ?_
    unfold whenB; rw [if_pos hl]
    simp only [List.mem_cons, List.not_mem_nil, or_false] at ha
    rcases ha with rfl | rfl | rfl
    · refine List.mem_append_left _ (List.mem_append_left _ (List.mem_append_left _
        (List.mem_append_left _ (List.mem_append_left _ (List.mem_append_left _
        (List.mem_append_right _ (mem_loop hm'.lo hm'.hi ?_)))))))
      exact List.mem_append_left _ (List.mem_cons_self ..)
    · refine List.mem_append_right _ (mem_loop hm'.lo hm'.hi ?_)
      exact List.mem_append_left _ (List.mem_cons_self ..)
    · refine List.mem_append_right _ (mem_loop hm'.lo hm'.hi ?_)
      exact List.mem_append_left _ (List.mem_cons_of_mem _ (List.mem_cons_self ..))

example : In 624 ((envOf true 3 2 4 1).mnpd * (envOf true 3 2 4 1).mnpd) := ⟨by decide, by decide⟩

/-- **C121 (why the basis is large enough).** The potential uses the poloidal modes up to
    `mpol + 1`, two more than the state has. With a basis of the state's modes only the tables of
    the solver would be read beyond their end; the condition `mf ≤ mnyq2` is necessary. -/
theorem C121_needs_nyquist_modes (E : Env) (hl : 0 < E.s.nThetaReduced) (hf : 0 ≤ E.mf)
    (h : Safe E (tables E)) : E.mf ≤ E.s.mnyq2 := by
  have hx : (⟨mscale, [E.mf]⟩ : Acc) ∈ tables E := by
    refine List.mem_append_right _ (mem_loop (j := 0) (by omega) hl
      (mem_loop (j := E.mf) hf (by omega) ?_))
    exact List.mem_append_left _ (List.mem_append_left _ (List.mem_cons_self ..))
  have hy : List.Forall₂ In [E.mf] [E.s.mnyq2 + 1] := h _ hx
  cases hy with
  | cons a _ => have := a.hi; omega

example : 0 < (envOf true 3 2 4 1).s.nThetaReduced ∧ 0 ≤ (envOf true 3 2 4 1).mf ∧
    Safe (envOf true 3 2 4 1) (tables (envOf true 3 2 4 1)) :=
  ⟨by decide, by decide, tables_safe (facts ⟨⟨4, 1, by decide, by decide, by decide, rfl, rfl⟩,
    ⟨true, 1, 3, 2, 0, 0, 0, 0, rfl⟩, rfl, rfl⟩)⟩

end Verif.VacBounds
