import Mathlib.Analysis.SpecialFunctions.Trigonometric.Deriv
import Mathlib.Analysis.Calculus.Deriv.Add
import Verif.Fourier.Spec
import Mathlib.Algebra.BigOperators.Field
import Verif.Radial.Apply
import Verif.Output.Currents

/-!
# Property of the current density of the `wout` file

The coefficients are compared with the curl of the covariant field as a function of `(s, θ, φ)`; the derivatives are the derivatives of analysis.
-/
namespace Verif.Output
open Verif Verif.Fourier Finset

namespace CurrIn
variable (A : CurrIn)

theorem interior_eq (v : Int → Int → ℝ) (mn c : Int) (m0 : 0 ≤ mn) (m1 : mn < A.mnmax) : A.interior v mn c = if 1 ≤ c ∧ c < A.ns - 1 then v mn c else 0 := by
  have row (j : Int) (w : Int → Int → ℝ) : (forRange 0 A.mnmax (fun mn w => fun r c => if r = mn ∧ c = j then v mn j else w r c) w) mn c = if j = c then v mn c else w mn c := by
    refine (Radial.pickLoop (fun w : Int → Int → ℝ => w mn c) (fun mn w => fun r c => if r = mn ∧ c = j then v mn j else w r c) (lo := 0) (hi := A.mnmax) (i0 := mn)
      (fun x => if j = c then v mn c else x) ?_ ?_ w).trans (if_pos ⟨m0, m1⟩)
    · intro i w _ _ hne
      exact if_neg (fun h => hne h.1.symm)
    · intro w _ _
      by_cases e : j = c
      · subst e; simp
      · simp only
        rw [if_neg (by omega), if_neg e]
  exact Radial.pickLoop (fun w : Int → Int → ℝ => w mn c) (fun j w => forRange 0 A.mnmax (fun mn w => fun r c => if r = mn ∧ c = j then v mn j else w r c) w)
    (lo := 1) (hi := A.ns - 1) (i0 := c) (fun _ => v mn c) (fun j w _ _ hne => (row j w).trans (if_neg hne)) (fun w _ _ => (row _ w).trans (if_pos rfl)) (fun _ _ => 0)

theorem axis_eq (w : Int → Int → ℝ) (mn c : Int) (m0 : 0 ≤ mn) (m1 : mn < A.mnmax) : A.axis w mn c = if c = 0 ∧ A.xm mn ≤ 1 then 2 * w mn 1 - w mn 2 else w mn c := by
  have := Radial.pickLoop (fun w : Int → Int → ℝ => w mn) (fun mn w => if A.xm mn ≤ 1 then fun r c => if r = mn ∧ c = 0 then 2 * w mn 1 - w mn 2 else w r c else w) (lo := 0) (hi := A.mnmax) (i0 := mn)
    (fun x => if A.xm mn ≤ 1 then fun c => if c = 0 then 2 * x 1 - x 2 else x c else x) ?_ ?_ w
  · rw [if_pos ⟨m0, m1⟩] at this
    unfold axis
    rw [congrFun this c]
    by_cases h : A.xm mn ≤ 1 <;> simp [h]
  · intro i w _ _ hne
    by_cases h : A.xm i ≤ 1
    · simp only [if_pos h]
      funext c
      exact if_neg (fun h => hne h.1.symm)
    · simp only [if_neg h]
  · intro w _ _
    by_cases h : A.xm mn ≤ 1 <;> simp [h]

theorem edge_eq (w : Int → Int → ℝ) (mn c : Int) (m0 : 0 ≤ mn) (m1 : mn < A.mnmax) :
    A.edge w mn c = if c = A.ns - 1 then 2 * w mn (A.ns - 2) - w mn (A.ns - 3) else w mn c := by
  have := Radial.pickLoop (fun w : Int → Int → ℝ => w mn) (fun mn w => fun r c => if r = mn ∧ c = A.ns - 1 then 2 * w mn (A.ns - 2) - w mn (A.ns - 3) else w r c) (lo := 0) (hi := A.mnmax) (i0 := mn)
    (fun x => fun c => if c = A.ns - 1 then 2 * x (A.ns - 2) - x (A.ns - 3) else x c) ?_ ?_ w
  · rw [if_pos ⟨m0, m1⟩] at this
    exact congrFun this c
  · intro i w _ _ hne
    funext c
    exact if_neg (fun h => hne h.1.symm)
  · intro w _ _
    simp

theorem matrix_interior (v : Int → Int → ℝ) (mn j : Int) (m0 : 0 ≤ mn) (m1 : mn < A.mnmax) (j0 : 1 ≤ j) (j1 : j < A.ns - 1) : A.matrix v mn j = v mn j / A.mu_0 := by
  unfold matrix
  rw [A.edge_eq _ _ _ m0 m1, if_neg (by omega), A.axis_eq _ _ _ m0 m1, if_neg (by omega), A.interior_eq _ _ _ m0 m1, if_pos ⟨j0, j1⟩]

/-- what the radial grids of the code contain: `s_j = j Δs` on the full grid, `s_{j+1/2} = (j + 1/2) Δs` on the half grid -/
structure Grid : Prop where
  ds : 0 < A.deltaS
  full : ∀ j, 0 ≤ j → A.sqrtSF j = Real.sqrt (j * A.deltaS)
  half : ∀ j, 0 ≤ j → A.sqrtSH j = Real.sqrt ((j + 1 / 2) * A.deltaS)

end CurrIn

/-! ## specification -/

/-- radial dependence of a coefficient of `B_u`, `B_v`: linear in `s` for even `m`, `√s` times a linear function for odd `m` -/
noncomputable def angular (m : Int) (α β s : ℝ) : ℝ := if Even m then α + β * s else Real.sqrt s * (α + β * s)
/-- radial dependence of a coefficient of `B_s`, which contains a derivative by `s`: a linear function divided by `√s` for odd `m` -/
noncomputable def radialPart (m : Int) (α β s : ℝ) : ℝ := if Even m then α + β * s else (α + β * s) / Real.sqrt s

theorem tmod_odd (m : Int) (h : 0 ≤ m) : m.tmod 2 = 1 ↔ ¬ Even m := by
  rw [Int.tmod_eq_emod_of_nonneg h, Int.not_even_iff]

namespace CurrIn
variable (A : CurrIn)

theorem t1_exact (hg : A.Grid) (mn j : Int) (j0 : 1 ≤ j) (hm : 0 ≤ A.xm mn) (α β : ℝ) (h : ∀ i, 1 ≤ i → A.bs mn i = radialPart (A.xm mn) α β ((i - 1 / 2) * A.deltaS)) :
    A.t1 mn j = radialPart (A.xm mn) α β (j * A.deltaS) := by
  have hd := hg.ds
  have jr : (1 : ℝ) ≤ j := by exact_mod_cast j0
  have p1 : 0 < ((j : ℝ) + 1 / 2) * A.deltaS := by positivity
  have p2 : 0 < ((j : ℝ) - 1 / 2) * A.deltaS := mul_pos (by linarith) hd
  unfold t1
  rw [h j j0, h (j + 1) (by omega), hg.full j (by omega), hg.half j (by omega), hg.half (j - 1) (by omega)]
  push_cast
  rw [show (j : ℝ) + 1 - 1 / 2 = j + 1 / 2 by ring, show (j : ℝ) - 1 + 1 / 2 = j - 1 / 2 by ring]
  unfold radialPart
  by_cases he : Even (A.xm mn)
  · simp only [if_pos he]
    rw [if_neg (fun h => (tmod_odd _ hm).1 h he)]
    ring
  · simp only [if_neg he]
    rw [if_pos ((tmod_odd _ hm).2 he), mul_div_cancel₀ _ (Real.sqrt_pos.2 p1).ne', mul_div_cancel₀ _ (Real.sqrt_pos.2 p2).ne']
    ring

theorem dds_exact (hg : A.Grid) (b : Int → Int → ℝ) (mn j : Int) (j0 : 1 ≤ j) (hm : 0 ≤ A.xm mn) (α β : ℝ) (h : ∀ i, 1 ≤ i → b mn i = angular (A.xm mn) α β ((i - 1 / 2) * A.deltaS)) :
    HasDerivAt (angular (A.xm mn) α β) (A.dds b mn j) (j * A.deltaS) := by
  have hd := hg.ds
  have jr : (1 : ℝ) ≤ j := by exact_mod_cast j0
  have p0 : 0 < (j : ℝ) * A.deltaS := by positivity
  have p1 : 0 < ((j : ℝ) + 1 / 2) * A.deltaS := by positivity
  have p2 : 0 < ((j : ℝ) - 1 / 2) * A.deltaS := mul_pos (by linarith) hd
  have lin : HasDerivAt (fun s : ℝ => α + β * s) β (j * A.deltaS) := by
    simpa using ((hasDerivAt_id ((j : ℝ) * A.deltaS)).const_mul β).const_add α
  unfold dds
  rw [h j j0, h (j + 1) (by omega), hg.full j (by omega), hg.half j (by omega), hg.half (j - 1) (by omega)]
  push_cast
  rw [show (j : ℝ) + 1 - 1 / 2 = j + 1 / 2 by ring, show (j : ℝ) - 1 + 1 / 2 = j - 1 / 2 by ring]
  by_cases he : Even (A.xm mn)
  · rw [if_neg (fun h => (tmod_odd _ hm).1 h he)]
    have e : angular (A.xm mn) α β = fun s => α + β * s := by funext s; unfold angular; rw [if_pos he]
    rw [e]
    refine lin.congr_deriv ?_
    simp only
    field_simp
    ring
  · rw [if_pos ((tmod_odd _ hm).2 he)]
    have e : angular (A.xm mn) α β = fun s => Real.sqrt s * (α + β * s) := by funext s; unfold angular; rw [if_neg he]
    rw [e]
    refine ((Real.hasDerivAt_sqrt p0.ne').mul lin).congr_deriv ?_
    simp only
    rw [mul_div_cancel_left₀ _ (Real.sqrt_pos.2 p1).ne', mul_div_cancel_left₀ _ (Real.sqrt_pos.2 p2).ne']
    have := (Real.sqrt_pos.2 p0).ne'
    field_simp
    ring

end CurrIn

/-- derivatives of a Fourier series with coefficients that depend on `s` -/
theorem series_ds (count : Int) (xm xn : Int → Int) (c : Int → ℝ → ℝ) (c' : Int → ℝ) (s₀ θ φ : ℝ) (h : ∀ i ∈ Ico 0 count, HasDerivAt (c i) (c' i) s₀) :
    HasDerivAt (fun s => combinedCos count xm xn (fun i => c i s) θ φ) (combinedCos count xm xn c' θ φ) s₀ ∧
    HasDerivAt (fun s => combinedSin count xm xn (fun i => c i s) θ φ) (combinedSin count xm xn c' θ φ) s₀ := by
  unfold combinedCos combinedSin
  exact ⟨HasDerivAt.fun_sum fun i hi => (h i hi).mul_const _, HasDerivAt.fun_sum fun i hi => (h i hi).mul_const _⟩

theorem phase_dphi (m n θ φ : ℝ) : HasDerivAt (fun φ => m * θ - n * φ) (-n) φ := by
  simpa using ((hasDerivAt_id φ).const_mul n).const_sub (m * θ)
theorem phase_dtheta (m n θ φ : ℝ) : HasDerivAt (fun θ => m * θ - n * φ) m θ := by
  simpa using ((hasDerivAt_id θ).const_mul m).sub_const (n * φ)

theorem series_dangle (count : Int) (xm xn : Int → Int) (c : Int → ℝ) (θ φ : ℝ) :
    HasDerivAt (fun φ => combinedSin count xm xn c θ φ) (combinedCos count xm xn (fun i => -(xn i : ℝ) * c i) θ φ) φ ∧
    HasDerivAt (fun φ => combinedCos count xm xn c θ φ) (combinedSin count xm xn (fun i => (xn i : ℝ) * c i) θ φ) φ ∧
    HasDerivAt (fun θ => combinedSin count xm xn c θ φ) (combinedCos count xm xn (fun i => (xm i : ℝ) * c i) θ φ) θ ∧
    HasDerivAt (fun θ => combinedCos count xm xn c θ φ) (combinedSin count xm xn (fun i => -(xm i : ℝ) * c i) θ φ) θ := by
  unfold combinedCos combinedSin
  refine ⟨HasDerivAt.fun_sum fun i _ => ?_, HasDerivAt.fun_sum fun i _ => ?_, HasDerivAt.fun_sum fun i _ => ?_, HasDerivAt.fun_sum fun i _ => ?_⟩
  · exact (((Real.hasDerivAt_sin _).comp φ (phase_dphi (xm i) (xn i) θ φ)).const_mul (c i)).congr_deriv (by ring)
  · exact (((Real.hasDerivAt_cos _).comp φ (phase_dphi (xm i) (xn i) θ φ)).const_mul (c i)).congr_deriv (by ring)
  · exact (((Real.hasDerivAt_sin _).comp θ (phase_dtheta (xm i) (xn i) θ φ)).const_mul (c i)).congr_deriv (by ring)
  · exact (((Real.hasDerivAt_cos _).comp θ (phase_dtheta (xm i) (xn i) θ φ)).const_mul (c i)).congr_deriv (by ring)

/-- the covariant field: even and odd series with the radial dependence `angular`/`radialPart` -/
structure Profile where
  α : Int → ℝ
  β : Int → ℝ
/-- the coefficients of `B_u`, `B_v` -/
noncomputable def Profile.ang (p : Profile) (xm : Int → Int) (i : Int) (s : ℝ) : ℝ := angular (xm i) (p.α i) (p.β i) s
/-- the coefficients of `B_s` -/
noncomputable def Profile.rad (p : Profile) (xm : Int → Int) (i : Int) (s : ℝ) : ℝ := radialPart (xm i) (p.α i) (p.β i) s

/-- **C90**: for covariant fields whose coefficients have the radial dependence that regularity at the axis gives to first order (linear in `s` for even `m`,
    with the factor `√s`, or `1/√s` for `B_s`, for odd `m`), the coefficients stored for an interior surface are those of `√g J^u = (∂_φ B_s - ∂_s B_v)/μ0`
    and `√g J^v = (∂_s B_u - ∂_θ B_s)/μ0`, with all derivatives exact.  `A` has the symmetric, `A'` the antisymmetric part of the field. -/
theorem C90_ampere_partial (A A' : CurrIn) (hg : A.Grid)
    (same : A'.mnmax = A.mnmax ∧ A'.ns = A.ns ∧ A'.deltaS = A.deltaS ∧ A'.mu_0 = A.mu_0 ∧ A'.xm = A.xm ∧ A'.xn = A.xn ∧ A'.sqrtSH = A.sqrtSH ∧ A'.sqrtSF = A.sqrtSF)
    (hm : ∀ i, 0 ≤ i → i < A.mnmax → 0 ≤ A.xm i) (ps pu pv qs qu qv : Profile)
    (hA : ∀ mn, 0 ≤ mn → mn < A.mnmax → ∀ i, 1 ≤ i → A.bs mn i = ps.rad A.xm mn ((i - 1 / 2) * A.deltaS) ∧ A.bu mn i = pu.ang A.xm mn ((i - 1 / 2) * A.deltaS) ∧ A.bv mn i = pv.ang A.xm mn ((i - 1 / 2) * A.deltaS))
    (hA' : ∀ mn, 0 ≤ mn → mn < A.mnmax → ∀ i, 1 ≤ i → A'.bs mn i = qs.rad A.xm mn ((i - 1 / 2) * A.deltaS) ∧ A'.bu mn i = qu.ang A.xm mn ((i - 1 / 2) * A.deltaS) ∧ A'.bv mn i = qv.ang A.xm mn ((i - 1 / 2) * A.deltaS))
    (j : Int) (j0 : 1 ≤ j) (j1 : j < A.ns - 1) (θ φ : ℝ) :
    let Bs := fun s θ φ => combinedSin A.mnmax A.xm A.xn (fun i => ps.rad A.xm i s) θ φ + combinedCos A.mnmax A.xm A.xn (fun i => qs.rad A.xm i s) θ φ
    let Bu := fun s θ φ => combinedCos A.mnmax A.xm A.xn (fun i => pu.ang A.xm i s) θ φ + combinedSin A.mnmax A.xm A.xn (fun i => qu.ang A.xm i s) θ φ
    let Bv := fun s θ φ => combinedCos A.mnmax A.xm A.xn (fun i => pv.ang A.xm i s) θ φ + combinedSin A.mnmax A.xm A.xn (fun i => qv.ang A.xm i s) θ φ
    let sj := (j : ℝ) * A.deltaS
    ∃ dφBs dθBs dsBu dsBv, HasDerivAt (fun φ => Bs sj θ φ) dφBs φ ∧ HasDerivAt (fun θ => Bs sj θ φ) dθBs θ ∧ HasDerivAt (fun s => Bu s θ φ) dsBu sj ∧ HasDerivAt (fun s => Bv s θ φ) dsBv sj ∧
      combinedCos A.mnmax A.xm A.xn (fun i => A.currumnc i j) θ φ + combinedSin A.mnmax A.xm A.xn (fun i => A'.currumns i j) θ φ = (dφBs - dsBv) / A.mu_0 ∧
      combinedCos A.mnmax A.xm A.xn (fun i => A.currvmnc i j) θ φ + combinedSin A.mnmax A.xm A.xn (fun i => A'.currvmns i j) θ φ = (dsBu - dθBs) / A.mu_0 := by
  intro Bs Bu Bv sj
  obtain ⟨e1, e2, e3, e4, e5, e6, e7, e8⟩ := same
  have hg' : A'.Grid := ⟨by rw [e3]; exact hg.ds, by rw [e3, e8]; exact hg.full, by rw [e3, e7]; exact hg.half⟩
  have du := (series_ds A.mnmax A.xm A.xn (pu.ang A.xm) (fun i => A.dds A.bu i j) sj θ φ (fun i hi => by
    rw [Finset.mem_Ico] at hi
    exact A.dds_exact hg A.bu i j j0 (hm i hi.1 hi.2) _ _ (fun k hk => (hA i hi.1 hi.2 k hk).2.1))).1
  have dv := (series_ds A.mnmax A.xm A.xn (pv.ang A.xm) (fun i => A.dds A.bv i j) sj θ φ (fun i hi => by
    rw [Finset.mem_Ico] at hi
    exact A.dds_exact hg A.bv i j j0 (hm i hi.1 hi.2) _ _ (fun k hk => (hA i hi.1 hi.2 k hk).2.2))).1
  have du' := (series_ds A.mnmax A.xm A.xn (qu.ang A.xm) (fun i => A'.dds A'.bu i j) sj θ φ (fun i hi => by
    rw [Finset.mem_Ico] at hi
    have := A'.dds_exact hg' A'.bu i j j0 (by rw [e5]; exact hm i hi.1 hi.2) (qu.α i) (qu.β i) (fun k hk => by rw [e3, e5]; exact (hA' i hi.1 hi.2 k hk).2.1)
    rw [e3, e5] at this; exact this)).2
  have dv' := (series_ds A.mnmax A.xm A.xn (qv.ang A.xm) (fun i => A'.dds A'.bv i j) sj θ φ (fun i hi => by
    rw [Finset.mem_Ico] at hi
    have := A'.dds_exact hg' A'.bv i j j0 (by rw [e5]; exact hm i hi.1 hi.2) (qv.α i) (qv.β i) (fun k hk => by rw [e3, e5]; exact (hA' i hi.1 hi.2 k hk).2.2)
    rw [e3, e5] at this; exact this)).2
  obtain ⟨f1, _, f3, _⟩ := series_dangle A.mnmax A.xm A.xn (fun i => ps.rad A.xm i sj) θ φ
  obtain ⟨_, g2, _, g4⟩ := series_dangle A.mnmax A.xm A.xn (fun i => qs.rad A.xm i sj) θ φ
  have T (i : Int) (hi : i ∈ Ico 0 A.mnmax) : A.t1 i j = ps.rad A.xm i sj := by
    rw [Finset.mem_Ico] at hi
    exact A.t1_exact hg i j j0 (hm i hi.1 hi.2) _ _ (fun k hk => (hA i hi.1 hi.2 k hk).1)
  have T' (i : Int) (hi : i ∈ Ico 0 A.mnmax) : A'.t1 i j = qs.rad A.xm i sj := by
    rw [Finset.mem_Ico] at hi
    have := A'.t1_exact hg' i j j0 (by rw [e5]; exact hm i hi.1 hi.2) (qs.α i) (qs.β i) (fun k hk => by rw [e3, e5]; exact (hA' i hi.1 hi.2 k hk).1)
    rw [e3, e5] at this; exact this
  refine ⟨_, _, _, _, f1.add g2, f3.add g4, du.add du', dv.add dv', ?_, ?_⟩
  · unfold combinedCos combinedSin
    simp only [← Finset.sum_add_distrib, ← Finset.sum_sub_distrib, Finset.sum_div]
    refine Finset.sum_congr rfl fun i hi => ?_
    have hi' := Finset.mem_Ico.1 hi
    unfold CurrIn.currumnc CurrIn.currumns
    rw [A.matrix_interior _ i j hi'.1 hi'.2 j0 j1, A'.matrix_interior _ i j hi'.1 (by rw [e1]; exact hi'.2) j0 (by rw [e2]; exact j1), T i hi, T' i hi, e4, e6]
    ring
  · unfold combinedCos combinedSin
    simp only [← Finset.sum_add_distrib, ← Finset.sum_sub_distrib, Finset.sum_div]
    refine Finset.sum_congr rfl fun i hi => ?_
    have hi' := Finset.mem_Ico.1 hi
    unfold CurrIn.currvmnc CurrIn.currvmns
    rw [A.matrix_interior _ i j hi'.1 hi'.2 j0 j1, A'.matrix_interior _ i j hi'.1 (by rw [e1]; exact hi'.2) j0 (by rw [e2]; exact j1), T i hi, T' i hi, e4, e5]
    ring

namespace CurrIn
variable (A : CurrIn)

/-- **C90**: whatever the covariant field is, the toroidal current density of the mode `(0, 0)` summed over the surfaces up to `j` is the circulation of
    `B_u` gained between the first and that surface: Ampère's law for the enclosed current. -/
theorem C90_enclosed (hds : A.deltaS ≠ 0) (mn : Int) (m0 : 0 ≤ mn) (m1 : mn < A.mnmax) (hx : A.xm mn = 0) (j : Int) (j0 : 0 ≤ j) (j1 : j < A.ns - 1) :
    A.deltaS * ∑ i ∈ Ico 1 (j + 1), A.currvmnc mn i = (A.bu mn (j + 1) - A.bu mn 1) / A.mu_0 := by
  revert j1
  induction j, j0 using Int.leInduction with
  | base => intro _; simp
  | succ k hk ih =>
    intro j1
    rw [sum_Ico_int_succ (by omega), mul_add, ih (by omega)]
    unfold currvmnc
    rw [A.matrix_interior _ mn (k + 1) m0 m1 (by omega) j1]
    unfold dds
    rw [hx]
    simp
    field_simp
    ring

/-- `√g J^s` of a mode: the coefficient of the sine series `(∂_θ B_v - ∂_φ B_u)/μ0` -/
noncomputable def jsups (mn j : Int) : ℝ := -((A.xm mn : ℝ) * A.bv mn j + (A.xn mn : ℝ) * A.bu mn j) / A.mu_0

/-- **C90**: whatever the covariant field is, the stored current is free of divergence: `∂_s(√g J^s) + ∂_θ(√g J^u) + ∂_φ(√g J^v) = 0` mode by mode (the
    derivatives of `cos(mθ - nφ)` are `-m sin` and `n sin`), with the radial derivative of the code. -/
theorem C90_divergence (mn : Int) (m0 : 0 ≤ mn) (m1 : mn < A.mnmax) (j : Int) (j0 : 1 ≤ j) (j1 : j < A.ns - 1) :
    A.dds A.jsups mn j + (-(A.xm mn : ℝ) * A.currumnc mn j + (A.xn mn : ℝ) * A.currvmnc mn j) = 0 := by
  unfold currumnc currvmnc
  rw [A.matrix_interior _ mn j m0 m1 j0 j1, A.matrix_interior _ mn j m0 m1 j0 j1]
  unfold dds jsups
  simp only
  split_ifs <;> ring

/-- **C90** (ends): with four surfaces or more the values at the axis (for `m = 0, 1`) and at the boundary continue the neighbouring values linearly; for
    `m > 1` the current at the axis is zero. -/
theorem C90_ends_partial (hns : 4 ≤ A.ns) (v : Int → Int → ℝ) (mn : Int) (m0 : 0 ≤ mn) (m1 : mn < A.mnmax) :
    (A.xm mn ≤ 1 → A.matrix v mn 1 - A.matrix v mn 0 = A.matrix v mn 2 - A.matrix v mn 1) ∧ (1 < A.xm mn → A.matrix v mn 0 = 0) ∧
    A.matrix v mn (A.ns - 1) - A.matrix v mn (A.ns - 2) = A.matrix v mn (A.ns - 2) - A.matrix v mn (A.ns - 3) := by
  have e (j : Int) : A.matrix v mn j = _ / A.mu_0 := congrArg (· / A.mu_0) (A.edge_eq _ mn j m0 m1)
  have a (j : Int) := A.axis_eq (A.interior v) mn j m0 m1
  have i (j : Int) := A.interior_eq v mn j m0 m1
  refine ⟨fun h => ?_, fun h => ?_, ?_⟩
  · rw [A.matrix_interior v mn 1 m0 m1 (by omega) (by omega), A.matrix_interior v mn 2 m0 m1 (by omega) (by omega), e 0, if_neg (by omega), a 0, if_pos ⟨rfl, h⟩, i 1, i 2, if_pos (by omega), if_pos (by omega)]
    ring
  · rw [e 0, if_neg (by omega), a 0, if_neg (by omega), i 0, if_neg (by omega), zero_div]
  · rw [e (A.ns - 1), if_pos rfl, A.matrix_interior v mn (A.ns - 2) m0 m1 (by omega) (by omega), A.matrix_interior v mn (A.ns - 3) m0 m1 (by omega) (by omega), a (A.ns - 2), if_neg (by omega), a (A.ns - 3),
      if_neg (by omega), i (A.ns - 2), i (A.ns - 3), if_pos (by omega), if_pos (by omega)]
    ring

/-- **C90** fails with three surfaces: of a current that is the same on all surfaces, twice the value is stored at the axis and zero at the boundary -/
theorem C90_ends_fails (hns : A.ns = 3) (v : Int → Int → ℝ) (mn : Int) (m0 : 0 ≤ mn) (m1 : mn < A.mnmax) (hx : A.xm mn ≤ 1) (c : ℝ) (hv : ∀ j, v mn j = c) :
    A.matrix v mn 0 = 2 * (c / A.mu_0) ∧ A.matrix v mn 1 = c / A.mu_0 ∧ A.matrix v mn 2 = 0 := by
  have e (j : Int) : A.matrix v mn j = _ / A.mu_0 := congrArg (· / A.mu_0) (A.edge_eq _ mn j m0 m1)
  have a (j : Int) := A.axis_eq (A.interior v) mn j m0 m1
  have i (j : Int) := A.interior_eq v mn j m0 m1
  rw [hns] at e
  rw [hns] at i
  refine ⟨?_, ?_, ?_⟩
  · rw [e 0, if_neg (by omega), a 0, if_pos ⟨rfl, hx⟩, i 1, i 2, if_pos (by omega), if_neg (by omega), hv]; ring
  · rw [A.matrix_interior v mn 1 m0 m1 (by omega) (by omega), hv]
  · rw [e 2, if_pos (by omega), show (3 : Int) - 2 = 1 by omega, show (3 : Int) - 3 = 0 by omega, a 1, if_neg (by omega), a 0, if_pos ⟨rfl, hx⟩, i 1, i 2, if_pos (by omega), if_neg (by omega), hv]; ring

end CurrIn

/-! ## the hypotheses are met -/

/-- modes (0, 0), (1, 0), (2, 3) with a linear field -/
noncomputable def currExample : CurrIn where
  mnmax := 3
  ns := 5
  deltaS := 1 / 4
  mu_0 := 2
  xm := fun i => i
  xn := fun i => if i = 2 then 3 else 0
  sqrtSH := fun j => Real.sqrt ((j + 1 / 2) * (1 / 4))
  sqrtSF := fun j => Real.sqrt (j * (1 / 4))
  bs := fun mn i => radialPart mn 1 (mn + 1) ((i - 1 / 2) * (1 / 4))
  bu := fun mn i => angular mn 1 (mn + 1) ((i - 1 / 2) * (1 / 4))
  bv := fun mn i => angular mn 3 (mn - 1) ((i - 1 / 2) * (1 / 4))

example : currExample.Grid ∧ (∀ i, 0 ≤ i → i < currExample.mnmax → 0 ≤ currExample.xm i) ∧
    ∃ ps pu pv : Profile, ∀ mn, 0 ≤ mn → mn < currExample.mnmax → ∀ i, 1 ≤ i → currExample.bs mn i = ps.rad currExample.xm mn ((i - 1 / 2) * currExample.deltaS) ∧
      currExample.bu mn i = pu.ang currExample.xm mn ((i - 1 / 2) * currExample.deltaS) ∧ currExample.bv mn i = pv.ang currExample.xm mn ((i - 1 / 2) * currExample.deltaS) := by
  refine ⟨⟨?_, fun _ _ => rfl, fun _ _ => rfl⟩, fun i h _ => h, ⟨fun _ => 1, fun i => i + 1⟩, ⟨fun _ => 1, fun i => i + 1⟩, ⟨fun _ => 3, fun i => i - 1⟩, fun mn _ _ i _ => ⟨rfl, rfl, rfl⟩⟩
  norm_num [currExample]
example : currExample.xm 0 = 0 ∧ 4 ≤ currExample.ns ∧ currExample.deltaS ≠ 0 := by
  refine ⟨rfl, ?_, ?_⟩ <;> norm_num [currExample]
example : ∃ A : CurrIn, A.ns = 3 ∧ A.xm 0 ≤ 1 ∧ (0 : Int) < A.mnmax := ⟨{ currExample with ns := 3 }, rfl, by norm_num [currExample], by norm_num [currExample]⟩

end Verif.Output
