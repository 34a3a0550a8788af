import Verif.Asym.PropsC

/-!
# The circular torus with any number of modes
-/
namespace Verif.Constraint
open Verif Verif.Fourier Partition Finset Transform

/-- a series with a single coefficient -/
theorem even_single (nfp ntor : Int) (hn : 0 ≤ ntor) (M : Finset Int) {a b : Int → Int → ℝ} (m0 : Int)
    (ha : ∀ m ∈ M, ∀ n, (m, n) ≠ (m0, 0) → a m n = 0) (hb : ∀ m n, b m n = 0) (θ φ : ℝ) :
    Transform.Spec.evenSeries nfp ntor M a b θ φ = if m0 ∈ M then scale m0 * scale 0 * (a m0 0 * Real.cos (m0 * θ)) else 0 := by
  unfold Transform.Spec.evenSeries
  split
  · rename_i h
    rw [Finset.sum_eq_single_of_mem m0 h, Finset.sum_eq_single_of_mem 0 (by rw [Finset.mem_Ico]; omega)]
    · rw [hb]; simp
    · intro n _ hne
      rw [ha m0 h n (by simp [hne]), hb]; simp
    · intro m hm hne
      refine Finset.sum_eq_zero fun n _ => ?_
      rw [ha m hm n (by simp [hne]), hb]; simp
  · rename_i h
    refine Finset.sum_eq_zero fun m hm => Finset.sum_eq_zero fun n _ => ?_
    rw [ha m hm n (by rintro ⟨⟩; exact h hm), hb]; simp

theorem odd_single (nfp ntor : Int) (hn : 0 ≤ ntor) (M : Finset Int) {a b : Int → Int → ℝ} (m0 : Int)
    (ha : ∀ m ∈ M, ∀ n, (m, n) ≠ (m0, 0) → a m n = 0) (hb : ∀ m n, b m n = 0) (θ φ : ℝ) :
    Transform.Spec.oddSeries nfp ntor M a b θ φ = if m0 ∈ M then scale m0 * scale 0 * (a m0 0 * Real.sin (m0 * θ)) else 0 := by
  unfold Transform.Spec.oddSeries
  split
  · rename_i h
    rw [Finset.sum_eq_single_of_mem m0 h, Finset.sum_eq_single_of_mem 0 (by rw [Finset.mem_Ico]; omega)]
    · rw [hb]; simp
    · intro n _ hne
      rw [ha m0 h n (by simp [hne]), hb]; simp
    · intro m hm hne
      refine Finset.sum_eq_zero fun n _ => ?_
      rw [ha m hm n (by simp [hne]), hb]; simp
  · rename_i h
    refine Finset.sum_eq_zero fun m hm => Finset.sum_eq_zero fun n _ => ?_
    rw [ha m hm n (by rintro ⟨⟩; exact h hm), hb]; simp

theorem mem_modes {mpol : Int} (h : 2 ≤ mpol) (j : Int) :
    (0 ∈ Transform.Spec.modes mpol j true ∧ 1 ∉ Transform.Spec.modes mpol j true) ∧
      0 ∉ Transform.Spec.modes mpol j false ∧ 1 ∈ Transform.Spec.modes mpol j false := by
  unfold Transform.Spec.modes
  simp only [Finset.mem_filter, Finset.mem_Ico]
  refine ⟨⟨⟨by omega, by simp⟩, ?_⟩, ?_, ⟨by omega, by simp⟩⟩
  · rintro ⟨_, h1, _⟩
    simp at h1
  · rintro ⟨_, h1, _⟩
    simp at h1

theorem ring_point' (s : Sizes.Sizes) (h : 2 ≤ s.mpol ∧ 0 ≤ s.ntor) (kl : Int) :
    ∃ θ : ℝ, ∀ i, Transform.Spec.geo s ringCoef i kl =
      { r1_e := 10, r1_o := Real.cos θ, ru_e := 0, ru_o := -Real.sin θ, rv_e := 0, rv_o := 0, z1_e := 0, z1_o := Real.sin θ
        zu_e := 0, zu_o := Real.cos θ, zv_e := 0, zv_o := 0, lu_e := 0, lu_o := 0, lv_e := 0, lv_o := 0 } := by
  refine ⟨Transform.Spec.gridTheta s (kl % s.nThetaEff), fun i => ?_⟩
  have h2 : Real.sqrt 2 ≠ 0 := by positivity
  obtain ⟨⟨m1, m2⟩, m3, m4⟩ := mem_modes h.1 i
  have r0 : Transform.Spec.evenSeries s.nfp s.ntor (Transform.Spec.modes s.mpol i true) (ringCoef .rcc i) (ringCoef .rss i) = fun _ _ => 10 := by
    funext θ φ
    rw [even_single _ _ h.2 _ 0 (b := ringCoef .rss i) _ (fun _ _ => rfl), if_pos m1]
    · simp [ringCoef, scale]
    · intro m hm n hne
      have : m ≠ 1 := fun e => m2 (e ▸ hm)
      simp only [ringCoef]
      rw [if_neg (fun e => hne (by rw [e.1, e.2])), if_neg (by simp [this])]
  have r1 : Transform.Spec.evenSeries s.nfp s.ntor (Transform.Spec.modes s.mpol i false) (ringCoef .rcc i) (ringCoef .rss i) = fun θ _ => Real.cos θ := by
    funext θ φ
    rw [even_single _ _ h.2 _ 1 (b := ringCoef .rss i) _ (fun _ _ => rfl), if_pos m4]
    · simp [ringCoef, scale, h2]
    · intro m hm n hne
      have : m ≠ 0 := fun e => m3 (e ▸ hm)
      simp only [ringCoef]
      rw [if_neg (by simp [this]), if_neg (fun e => hne (by rw [e.1, e.2]))]
  have z0 : Transform.Spec.oddSeries s.nfp s.ntor (Transform.Spec.modes s.mpol i true) (ringCoef .zsc i) (ringCoef .zcs i) = fun _ _ => 0 := by
    funext θ φ
    rw [odd_single _ _ h.2 _ 1 (b := ringCoef .zcs i) _ (fun _ _ => rfl), if_neg m2]
    intro m hm n hne
    simp only [ringCoef]
    rw [if_neg (fun e => hne (by rw [e.1, e.2]))]
  have z1 : Transform.Spec.oddSeries s.nfp s.ntor (Transform.Spec.modes s.mpol i false) (ringCoef .zsc i) (ringCoef .zcs i) = fun θ _ => Real.sin θ := by
    funext θ φ
    rw [odd_single _ _ h.2 _ 1 (b := ringCoef .zcs i) _ (fun _ _ => rfl), if_pos m4]
    · simp [ringCoef, scale, h2]
    · intro m hm n hne
      simp only [ringCoef]
      rw [if_neg (fun e => hne (by rw [e.1, e.2]))]
  have l0 : ∀ M, Transform.Spec.oddSeries s.nfp s.ntor M (ringCoef .lsc i) (ringCoef .lcs i) = fun _ _ => 0 := by
    intro M
    funext θ φ
    simp [Transform.Spec.oddSeries, ringCoef]
  unfold Transform.Spec.geo Transform.Spec.geoPoint
  simp only [r0, r1, z0, z1, l0]
  simp

theorem lift_point' (s : Sizes.Sizes) (h : 2 ≤ s.mpol ∧ 0 ≤ s.ntor) (j k l : Int) :
    Asym.antiPoint s Asym.liftCoef j k l =
      { r1_e := 0, r1_o := 0, ru_e := 0, ru_o := 0, rv_e := 0, rv_o := 0, z1_e := 1, z1_o := 0
        zu_e := 0, zu_o := 0, zv_e := 0, zv_o := 0, lu_e := 0, lu_o := 0, lv_e := 0, lv_o := 0 } := by
  obtain ⟨⟨m1, m2⟩, m3, m4⟩ := mem_modes h.1 j
  have z0 : Transform.Spec.evenSeries s.nfp s.ntor (Transform.Spec.modes s.mpol j true) (Asym.liftCoef .zcc j) (Asym.liftCoef .zss j) = fun _ _ => 1 := by
    funext θ φ
    rw [even_single _ _ h.2 _ 0 (b := Asym.liftCoef .zss j) _ (fun _ _ => rfl), if_pos m1]
    · simp [Asym.liftCoef, scale]
    · intro m hm n hne
      simp only [Asym.liftCoef]
      rw [if_neg (fun e => hne (by rw [e.1, e.2]))]
  have z1 : Transform.Spec.evenSeries s.nfp s.ntor (Transform.Spec.modes s.mpol j false) (Asym.liftCoef .zcc j) (Asym.liftCoef .zss j) = fun _ _ => 0 := by
    funext θ φ
    rw [even_single _ _ h.2 _ 0 (b := Asym.liftCoef .zss j) _ (fun _ _ => rfl), if_neg m3]
    intro m hm n hne
    simp only [Asym.liftCoef]
    rw [if_neg (fun e => hne (by rw [e.1, e.2]))]
  have r0 : ∀ M, Transform.Spec.oddSeries s.nfp s.ntor M (Asym.liftCoef .rsc j) (Asym.liftCoef .rcs j) = fun _ _ => 0 := by
    intro M
    funext θ φ
    simp [Transform.Spec.oddSeries, Asym.liftCoef]
  have l0 : ∀ M, Transform.Spec.evenSeries s.nfp s.ntor M (Asym.liftCoef .lcc j) (Asym.liftCoef .lss j) = fun _ _ => 0 := by
    intro M
    funext θ φ
    simp [Transform.Spec.evenSeries, Asym.liftCoef]
  unfold Asym.antiPoint
  simp only [z0, z1, r0, l0]
  simp

theorem ring_gsqrt' (s : Sizes.Sizes) (h : 2 ≤ s.mpol ∧ 0 ≤ s.ntor) (j kl : Int) :
    Kernels.Spec.gsqrt (1 / 4) (1 / 2) (Transform.Spec.geo s ringCoef j kl) (Transform.Spec.geo s ringCoef (j + 1) kl) < 0 := by
  obtain ⟨θ, hθ⟩ := ring_point' s h kl
  rw [hθ, hθ]
  unfold Kernels.Spec.gsqrt Kernels.Spec.tau Kernels.Spec.mid Kernels.Spec.ds Kernels.Spec.rootTerm Kernels.Spec.R Kernels.Spec.Z
    Kernels.Spec.Ru Kernels.Spec.Zu
  dsimp only
  have h1 := Real.neg_one_le_cos θ
  have h2 := Real.sin_sq_add_cos_sq θ
  nlinarith

theorem lifted' (s : Sizes.Sizes) (h : 2 ≤ s.mpol ∧ 0 ≤ s.ntor) (j kl : Int) :
    Asym.Spec.geo s ringCoef Asym.liftCoef j kl =
      { Transform.Spec.geo s ringCoef j kl with z1_e := (Transform.Spec.geo s ringCoef j kl).z1_e + 1 } := by
  refine Asym.geo_ext fun a e => ?_
  unfold Asym.Spec.geo Transform.Spec.geo
  rw [Asym.point_split, lift_point' s h]
  cases a <;> cases e <;> simp [Asym.get]

theorem lifted_gsqrt' (s : Sizes.Sizes) (h : 2 ≤ s.mpol ∧ 0 ≤ s.ntor) (j kl : Int) :
    Kernels.Spec.gsqrt (1 / 4) (1 / 2) (Asym.Spec.geo s ringCoef Asym.liftCoef j kl) (Asym.Spec.geo s ringCoef Asym.liftCoef (j + 1) kl) < 0 := by
  have key := ring_gsqrt' s h j kl
  rw [lifted' s h, lifted' s h]
  obtain ⟨θ, hθ⟩ := ring_point' s h kl
  rw [hθ, hθ] at key ⊢
  unfold Kernels.Spec.gsqrt Kernels.Spec.tau Kernels.Spec.mid Kernels.Spec.ds Kernels.Spec.rootTerm Kernels.Spec.R Kernels.Spec.Z
    Kernels.Spec.Ru Kernels.Spec.Zu at key ⊢
  dsimp only at key ⊢
  have h1 := Real.neg_one_le_cos θ
  have h2 := Real.sin_sq_add_cos_sq θ
  nlinarith

/-- arrays with the coefficients of the torus on every surface -/
theorem ring_arrays {C : Type} (A : C → Int → Int → Int → ℝ) (hA : ∀ a j m n, A a j m n = A a 0 m n) (mpol ntor j0 : Int)
    {j m n : Int} (m0 : 0 ≤ m) (m1 : m < mpol) (n0 : 0 ≤ n) (n1 : n ≤ ntor) (a : C) :
    (fun a i => A a 0 (i / (ntor + 1) % mpol) (i % (ntor + 1))) a (((j - j0) * mpol + m) * (ntor + 1) + n) = A a j m n := by
  obtain ⟨e1, e2⟩ := divmod (b := (j - j0) * mpol + m) n0 (show n < ntor + 1 by omega)
  obtain ⟨e3, e4⟩ := divmod (b := j - j0) m0 m1
  dsimp only
  rw [e1, e2, e4, ← hA]

theorem ring_volume (s : Sizes.Sizes) (X : Int → Int → Kernels.Geo) (hp : 0 < s.nZnT) (hw : ∀ l, (0 : ℝ) < Sizes.wInt s l)
    (hX : ∀ j kl, Kernels.Spec.gsqrt (1 / 4) (1 / 2) (X j kl) (X (j + 1) kl) < 0) (h : Int) :
    0 < Kernels.Spec.volume (ringCtx s).deltaS (ringCtx s).signOfJacobian (ringCtx s).nZnT (Kernels.wt (ringCtx s))
      (Kernels.ringProf.qH h) (X h) (X (h + 1)) := by
  have e : (ringCtx s).signOfJacobian = -1 := rfl
  unfold Kernels.Spec.volume Kernels.Spec.integral
  rw [e, neg_one_mul, ← Finset.sum_neg_distrib]
  refine Finset.sum_pos (fun kl _ => ?_) ⟨0, by rw [Finset.mem_Ico]; exact ⟨le_refl _, hp⟩⟩
  have k1 := hX h kl
  have k2 : 0 < Kernels.wt (ringCtx s) kl := hw _
  show 0 < -(Kernels.Spec.gsqrt (1 / 4) (1 / 2) _ _ * _)
  nlinarith [mul_pos (neg_pos.2 k1) k2]

end Verif.Constraint
