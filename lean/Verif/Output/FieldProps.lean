import Verif.Output.Field
import Mathlib.Analysis.SpecialFunctions.Sqrt
import Mathlib.Analysis.Calculus.Deriv.Mul
import Mathlib.Analysis.SpecialFunctions.Trigonometric.Basic
import Mathlib.Analysis.Calculus.Deriv.Add
import Mathlib.Data.Fin.VecNotation
import Mathlib.LinearAlgebra.Matrix.DotProduct

/-! # The field components of the output are those of the vector `B^u e_u + B^v e_v` (C85) -/
namespace Verif.Output
open Verif

/-! ## Specification -/

/-- a quantity between two neighbouring surfaces at `σ₀`, `σ₁`: even and odd part linear in `σ`, the odd part times `√σ` -/
noncomputable def between (σ₀ σ₁ e₀ e₁ o₀ o₁ σ : ℝ) : ℝ :=
  (e₀ + (e₁ - e₀) * (σ - σ₀) / (σ₁ - σ₀)) + Real.sqrt σ * (o₀ + (o₁ - o₀) * (σ - σ₀) / (σ₁ - σ₀))

/-- the radial derivative half way between the surfaces -/
theorem between_deriv {σ₀ σ₁ : ℝ} (h : σ₀ < σ₁) (h0 : 0 ≤ σ₀) (e₀ e₁ o₀ o₁ : ℝ) :
    HasDerivAt (between σ₀ σ₁ e₀ e₁ o₀ o₁)
      (((e₁ - e₀) + Real.sqrt ((σ₀ + σ₁) / 2) * (o₁ - o₀)) / (σ₁ - σ₀) + (o₁ + o₀) / 2 / (2 * Real.sqrt ((σ₀ + σ₁) / 2))) ((σ₀ + σ₁) / 2) := by
  have hm : (σ₀ + σ₁) / 2 ≠ 0 := by linarith
  have hd : σ₁ - σ₀ ≠ 0 := by linarith
  have h1 (a b : ℝ) : HasDerivAt (fun σ => a + b * (σ - σ₀) / (σ₁ - σ₀)) (b / (σ₁ - σ₀)) ((σ₀ + σ₁) / 2) := by
    have := ((((hasDerivAt_id ((σ₀ + σ₁) / 2)).sub_const σ₀).const_mul b).div_const (σ₁ - σ₀)).const_add a
    simpa using this
  have h2 := (h1 e₀ (e₁ - e₀)).add ((Real.hasDerivAt_sqrt hm).mul (h1 o₀ (o₁ - o₀)))
  refine h2.congr_deriv ?_
  have : (σ₀ + σ₁) / 2 - σ₀ = (σ₁ - σ₀) / 2 := by ring
  rw [this]
  have hs : Real.sqrt ((σ₀ + σ₁) / 2) ≠ 0 := (Real.sqrt_pos.2 (by linarith)).ne'
  field_simp
  ring

theorem between_mid {σ₀ σ₁ : ℝ} (h : σ₀ < σ₁) (e₀ e₁ o₀ o₁ : ℝ) :
    between σ₀ σ₁ e₀ e₁ o₀ o₁ ((σ₀ + σ₁) / 2) = (e₁ + e₀) / 2 + Real.sqrt ((σ₀ + σ₁) / 2) * ((o₁ + o₀) / 2) := by
  have hd : σ₁ - σ₀ ≠ 0 := by linarith
  unfold between
  have : (σ₀ + σ₁) / 2 - σ₀ = (σ₁ - σ₀) / 2 := by ring
  rw [this]
  field_simp
  ring

/-- the quantity with even part `e` and odd part `o` at angle point `kl` between the surfaces `jH` and `jH + 1` -/
noncomputable def Results.profile (R : Results) (s : Sizes.Sizes) (sF : Int → ℝ) (e o : GridF) (jH kl : Int) : ℝ → ℝ :=
  between (sF jH) (sF (jH + 1)) (R.gridF e (jH * s.nZnT + kl)) (R.gridF e ((jH + 1) * s.nZnT + kl)) (R.gridF o (jH * s.nZnT + kl)) (R.gridF o ((jH + 1) * s.nZnT + kl))

/-- the radial mesh, and the radial differences of the Jacobian kernel (`jacobian_kernel.h:25-63`, modelled in `Kernels.jacobianPoint`) -/
structure Mesh (s : Sizes.Sizes) (ns : Int) (R : Results) (sF : Int → ℝ) : Prop where
  nonneg : 0 ≤ sF 0
  mono : ∀ j, 0 ≤ j → j < ns - 1 → sF j < sF (j + 1)
  half : ∀ j, 0 ≤ j → j < ns - 1 → R.profH .sqrtSH j = Real.sqrt ((sF j + sF (j + 1)) / 2)
  rs : ∀ j kl, 0 ≤ j → j < ns - 1 → 0 ≤ kl → kl < s.nZnT → R.gridH .rs (j * s.nZnT + kl) =
    ((R.gridF .r_e ((j + 1) * s.nZnT + kl) - R.gridF .r_e (j * s.nZnT + kl)) +
      R.profH .sqrtSH j * (R.gridF .r_o ((j + 1) * s.nZnT + kl) - R.gridF .r_o (j * s.nZnT + kl))) / (sF (j + 1) - sF j)
  zs : ∀ j kl, 0 ≤ j → j < ns - 1 → 0 ≤ kl → kl < s.nZnT → R.gridH .zs (j * s.nZnT + kl) =
    ((R.gridF .z_e ((j + 1) * s.nZnT + kl) - R.gridF .z_e (j * s.nZnT + kl)) +
      R.profH .sqrtSH j * (R.gridF .z_o ((j + 1) * s.nZnT + kl) - R.gridF .z_o (j * s.nZnT + kl))) / (sF (j + 1) - sF j)

theorem Mesh.pos {s : Sizes.Sizes} {ns : Int} {R : Results} {sF : Int → ℝ} (h : Mesh s ns R sF) (j : Int) (j0 : 0 ≤ j) (j1 : j < ns) : 0 ≤ sF j := by
  induction j, j0 using Int.leInduction with
  | base => exact h.nonneg
  | succ k hk ih => exact (ih (by omega)).trans (h.mono k hk (by omega)).le

/-! ## C85 -/

/-- **C85** (basis): on the half grid `rs12`, `zs12` are the radial derivatives of `R`, `Z` interpolated between the surfaces, and
    `rv12`, `zv12` are the interpolated toroidal derivatives. -/
theorem C85_basis {s : Sizes.Sizes} {ns : Int} {R : Results} {sF : Int → ℝ} (h : Mesh s ns R sF) (jH kl : Int) (j0 : 0 ≤ jH) (j1 : jH < ns - 1)
    (k0 : 0 ≤ kl) (k1 : kl < s.nZnT) :
    HasDerivAt (R.profile s sF .r_e .r_o jH kl) ((remainingMetric s (ns - 1) R).rs12 (jH * s.nZnT + kl)) ((sF jH + sF (jH + 1)) / 2) ∧
    HasDerivAt (R.profile s sF .z_e .z_o jH kl) ((remainingMetric s (ns - 1) R).zs12 (jH * s.nZnT + kl)) ((sF jH + sF (jH + 1)) / 2) ∧
    (remainingMetric s (ns - 1) R).rv12 (jH * s.nZnT + kl) = R.profile s sF .rv_e .rv_o jH kl ((sF jH + sF (jH + 1)) / 2) ∧
    (remainingMetric s (ns - 1) R).zv12 (jH * s.nZnT + kl) = R.profile s sF .zv_e .zv_o jH kl ((sF jH + sF (jH + 1)) / 2) := by
  have hm := h.mono jH j0 j1
  refine ⟨(between_deriv hm (h.pos jH j0 (by omega)) _ _ _ _).congr_deriv ?_, (between_deriv hm (h.pos jH j0 (by omega)) _ _ _ _).congr_deriv ?_, ?_, ?_⟩
  · simp only [remainingMetric]
    rw [fillGrid_in j0 j1 k0 k1, h.rs jH kl j0 j1 k0 k1, h.half jH j0 j1]
  · simp only [remainingMetric]
    rw [fillGrid_in j0 j1 k0 k1, h.zs jH kl j0 j1 k0 k1, h.half jH j0 j1]
  · unfold Results.profile
    rw [between_mid hm]
    simp only [remainingMetric]
    rw [fillGrid_in j0 j1 k0 k1, h.half jH j0 j1]
  · unfold Results.profile
    rw [between_mid hm]
    simp only [remainingMetric]
    rw [fillGrid_in j0 j1 k0 k1, h.half jH j0 j1]

open Matrix in
/-- **C85** (field): in the cylindrical basis the written components are those of `B = B^u e_u + B^v e_v`, the written metric elements
    are `e_s · e_u`, `e_s · e_v`, and the written radial component is `B · e_s`. -/
theorem C85_field (s : Sizes.Sizes) (num_half : Int) (R : Results) (jH kl : Int) (j0 : 0 ≤ jH) (j1 : jH < num_half) (k0 : 0 ≤ kl) (k1 : kl < s.nZnT) :
    let M := remainingMetric s num_half R
    let i := jH * s.nZnT + kl
    let e_s : Fin 3 → ℝ := ![M.rs12 i, 0, M.zs12 i]
    let e_u : Fin 3 → ℝ := ![R.gridH .ru12 i, 0, R.gridH .zu12 i]
    let e_v : Fin 3 → ℝ := ![M.rv12 i, R.gridH .r12 i, M.zv12 i]
    let B := R.gridH .bsupu i • e_u + R.gridH .bsupv i • e_v
    let C := bCylindrical s num_half R M
    ![C.b_r i, C.b_phi i, C.b_z i] = B ∧ M.gsu i = e_s ⬝ᵥ e_u ∧ M.gsv i = e_s ⬝ᵥ e_v ∧ bsubsHalf s num_half R M i = B ⬝ᵥ e_s := by
  intro M i e_s e_u e_v B C
  have hu : M.gsu i = e_s ⬝ᵥ e_u := by
    simp only [M, i, e_s, e_u, remainingMetric, fillGrid_in j0 j1 k0 k1, dotProduct, Fin.sum_univ_three]
    simp
  have hv : M.gsv i = e_s ⬝ᵥ e_v := by
    simp only [M, i, e_s, e_v, remainingMetric, fillGrid_in j0 j1 k0 k1, dotProduct, Fin.sum_univ_three]
    simp
  refine ⟨?_, hu, hv, ?_⟩
  · funext x
    simp only [C, B, bCylindrical, i, e_u, e_v, fillGrid_in j0 j1 k0 k1]
    fin_cases x <;> simp
  · simp only [bsubsHalf, i, fillGrid_in j0 j1 k0 k1]
    change R.gridH .bsupu i * M.gsu i + R.gridH .bsupv i * M.gsv i = _
    rw [hu, hv]
    simp only [B, add_dotProduct, smul_dotProduct, smul_eq_mul, dotProduct_comm e_s]

theorem extrapolate_eq (s : Sizes.Sizes) (ns : Int) (b : Int → ℝ) (j kl : Int) (k0 : 0 ≤ kl) (k1 : kl < s.nZnT) :
    extrapolate s ns b (j * s.nZnT + kl) = (
      let r := upd (fun j => b (j * s.nZnT + kl)) 0 (2 * b (1 * s.nZnT + kl) - b (2 * s.nZnT + kl))
      upd r (ns - 1) (2 * r (ns - 2) - r (ns - 3))) j := by
  let w : (Int → ℝ) → Int → ℝ := fun r =>
    let r := upd r 0 (2 * r 1 - r 2)
    upd r (ns - 1) (2 * r (ns - 2) - r (ns - 3))
  have row (j j' : Int) (kl' : Int) (c : Int → ℝ) (v : ℝ) (h0 : 0 ≤ kl') (h1 : kl' < s.nZnT) :
      upd c (j' * s.nZnT + kl') v (j * s.nZnT + kl) = if kl' = kl then upd (fun j => c (j * s.nZnT + kl)) j' v j else c (j * s.nZnT + kl) := by
    by_cases e : kl' = kl
    · subst e
      rw [if_pos rfl]
      by_cases ej : j = j'
      · subst ej; simp
      · rw [upd_ne _ _ (fun h => ej (Verif.flat_inj h0 h1 h0 h1 h).1), upd_ne _ _ ej]
    · rw [if_neg e, upd_ne _ _ (fun h => e (Verif.flat_inj k0 k1 h0 h1 h).2.symm)]
  have key := Radial.pickLoop (fun (b : Int → ℝ) j => b (j * s.nZnT + kl)) (fun kl b =>
    upd (upd b (0 * s.nZnT + kl) (2 * b (1 * s.nZnT + kl) - b (2 * s.nZnT + kl))) ((ns - 1) * s.nZnT + kl)
      (2 * upd b (0 * s.nZnT + kl) (2 * b (1 * s.nZnT + kl) - b (2 * s.nZnT + kl)) ((ns - 2) * s.nZnT + kl) -
        upd b (0 * s.nZnT + kl) (2 * b (1 * s.nZnT + kl) - b (2 * s.nZnT + kl)) ((ns - 3) * s.nZnT + kl)))
    (lo := 0) (hi := s.nZnT) (i0 := kl) w
    (by
      intro i b i0 i1 hne
      funext j
      rw [row _ _ _ _ _ i0 i1, if_neg hne, row _ _ _ _ _ i0 i1, if_neg hne])
    (by
      intro b _ _
      funext j
      rw [row _ _ _ _ _ k0 k1, if_pos rfl]
      have e : (fun j => upd b (0 * s.nZnT + kl) (2 * b (1 * s.nZnT + kl) - b (2 * s.nZnT + kl)) (j * s.nZnT + kl))
          = upd (fun j => b (j * s.nZnT + kl)) 0 (2 * b (1 * s.nZnT + kl) - b (2 * s.nZnT + kl)) := by
        funext j
        rw [row _ _ _ _ _ k0 k1, if_pos rfl]
      rw [e, show upd b (0 * s.nZnT + kl) (2 * b (1 * s.nZnT + kl) - b (2 * s.nZnT + kl)) ((ns - 2) * s.nZnT + kl) = _ from congrFun e (ns - 2),
        show upd b (0 * s.nZnT + kl) (2 * b (1 * s.nZnT + kl) - b (2 * s.nZnT + kl)) ((ns - 3) * s.nZnT + kl) = _ from congrFun e (ns - 3)]) b
  rw [if_pos ⟨k0, k1⟩] at key
  exact congrFun key j

/-- **C85** (full grid): between the axis and the boundary the full-grid value is the average of the two half-grid values; on the axis
    and on the boundary it continues the two neighbouring full-grid values linearly.  This needs four surfaces. -/
theorem C85_full_partial (s : Sizes.Sizes) (ns : Int) (h4 : 4 ≤ ns) (b : Int → ℝ) (kl : Int) (k0 : 0 ≤ kl) (k1 : kl < s.nZnT) :
    let f := fun j => extrapolate s ns (bsubsFull s ns b) (j * s.nZnT + kl)
    (∀ j, 1 ≤ j → j < ns - 1 → f j = (b (j * s.nZnT + kl) + b ((j - 1) * s.nZnT + kl)) / 2) ∧
    f 1 - f 0 = f 2 - f 1 ∧ f (ns - 1) - f (ns - 2) = f (ns - 2) - f (ns - 3) := by
  intro f
  have hf (j : Int) : f j = _ := extrapolate_eq s ns (bsubsFull s ns b) j kl k0 k1
  have f0 : f 0 = 2 * bsubsFull s ns b (1 * s.nZnT + kl) - bsubsFull s ns b (2 * s.nZnT + kl) := by
    rw [hf]; simp only; rw [upd_ne _ _ (by omega), upd_same]
  have fi (j : Int) (j0 : 1 ≤ j) (j1 : j < ns - 1) : f j = bsubsFull s ns b (j * s.nZnT + kl) := by
    rw [hf]; simp only; rw [upd_ne _ _ (by omega), upd_ne _ _ (by omega)]
  have fe : f (ns - 1) = 2 * bsubsFull s ns b ((ns - 2) * s.nZnT + kl) - bsubsFull s ns b ((ns - 3) * s.nZnT + kl) := by
    rw [hf]; simp only; rw [upd_same, upd_ne _ _ (by omega), upd_ne _ _ (by omega)]
  refine ⟨?_, ?_, ?_⟩
  · intro j j0 j1
    rw [fi j j0 j1]
    unfold bsubsFull
    rw [fillGrid_in j0 (by omega) k0 k1]
  · rw [f0, fi 1 (by omega) (by omega), fi 2 (by omega) (by omega)]; ring
  · rw [fe, fi (ns - 2) (by omega) (by omega), fi (ns - 3) (by omega) (by omega)]; ring

/-- **C85** fails with three surfaces, the smallest number that is accepted: the only interior value is used as if the value of the
    boundary, which is still zero, was known; a constant field is extrapolated to twice its value on the axis and to zero on the boundary. -/
theorem C85_full_fails (s : Sizes.Sizes) (b : Int → ℝ) (kl : Int) (k0 : 0 ≤ kl) (k1 : kl < s.nZnT) (hb : ∀ i, b i = 1) :
    let f := fun j => extrapolate s 3 (bsubsFull s 3 b) (j * s.nZnT + kl)
    f 0 = 2 ∧ f 1 = 1 ∧ f 2 = 0 := by
  intro f
  have hf (j : Int) : f j = _ := extrapolate_eq s 3 (bsubsFull s 3 b) j kl k0 k1
  have e1 : bsubsFull s 3 b (1 * s.nZnT + kl) = 1 := by
    unfold bsubsFull
    rw [fillGrid_in (by omega) (by omega) k0 k1]; simp only [hb]; norm_num
  have e2 : bsubsFull s 3 b (2 * s.nZnT + kl) = 0 := by
    unfold bsubsFull
    rw [fillGrid_eq _ _ _ _ _ _ k0 k1, if_neg (by omega)]
  refine ⟨?_, ?_, ?_⟩
  · rw [hf]; simp only; rw [upd_ne _ _ (by omega), upd_same, e1, e2]; norm_num
  · rw [hf]; simp only; rw [upd_ne _ _ (by omega), upd_ne _ _ (by omega), e1]
  · rw [hf]; simp only
    rw [show (3 : Int) - 1 = 2 from rfl, upd_same, show (3 : Int) - 2 = 1 from rfl, show (3 : Int) - 3 = 0 from rfl, upd_same, upd_ne _ _ (by omega), e1, e2]; norm_num

/-! ### non-vacuity -/

/-- a mesh with three surfaces `s = j / 2` and a torus with circular surfaces: `R = 4 + √s cos θ`, `Z = √s sin θ` -/
example : ∃ (s : Sizes.Sizes) (R : Results) (sF : Int → ℝ), Mesh s 3 R sF ∧ 0 < s.nZnT ∧ R.gridF .r_e 0 = 4 ∧ R.gridF .r_o 0 = 1 := by
  obtain ⟨s, hs⟩ : ∃ s, Sizes.mk false 1 4 0 0 0 0 0 = .ok s := ⟨_, rfl⟩
  refine ⟨s, { Results.zero with
    gridF := fun c i => match c with | .r_e => 4 | .r_o => Real.cos ((i % s.nZnT : Int) : ℝ) | .z_o => Real.sin ((i % s.nZnT : Int) : ℝ) | _ => 0
    profH := fun _ j => Real.sqrt ((2 * j + 1) / 4) }, fun j => j / 2, ⟨by simp, ?_, ?_, ?_, ?_⟩, by cases hs; decide, rfl, ?_⟩
  · intro j _ _; push_cast; linarith
  · intro j _ _; simp only; congr 1; push_cast; ring
  · intro j kl _ _ _ _
    simp [Results.zero, Int.add_emod]
  · intro j kl _ _ _ _
    simp [Results.zero, Int.add_emod]
  · simp

end Verif.Output
