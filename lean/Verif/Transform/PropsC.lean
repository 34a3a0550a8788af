import Verif.Transform.PropsB
import Verif.Transform.Adjoint
import Verif.Transform.SpecC
import Verif.Kernels.PropsC
import Mathlib.Analysis.SpecialFunctions.Trigonometric.Deriv

/-!
# C64: the Fourier forces are the gradient of the energy with respect to the Fourier coefficients
-/
namespace Verif.Transform
open Verif Verif.Fourier Partition Finset

section
variable {c : Ctx} {nfp mpol ntor ntheta nzeta mg ng : Int}

/-- the arrays of a force at a point, in the names of the transform; `con` are the two constraint arrays -/
noncomputable def forceArrays (f : Int → Kernels.Force) (lam : Int → Kernels.Lam) (con : FArr → Bool → Int → ℝ) :
    FArr → Bool → Int → ℝ
  | .armn, true, i => (f i).armn_e
  | .armn, false, i => (f i).armn_o
  | .azmn, true, i => (f i).azmn_e
  | .azmn, false, i => (f i).azmn_o
  | .brmn, true, i => (f i).brmn_e
  | .brmn, false, i => (f i).brmn_o
  | .bzmn, true, i => (f i).bzmn_e
  | .bzmn, false, i => (f i).bzmn_o
  | .crmn, true, i => (f i).crmn_e
  | .crmn, false, i => (f i).crmn_o
  | .czmn, true, i => (f i).czmn_e
  | .czmn, false, i => (f i).czmn_o
  | .blmn, true, i => (lam i).blmn_e
  | .blmn, false, i => (lam i).blmn_o
  | .clmn, true, i => (lam i).clmn_e
  | .clmn, false, i => (lam i).clmn_o
  | .frcon, e, i => con .frcon e i
  | .fzcon, e, i => con .fzcon e i

/-- sizes of a symmetric run -/
theorem sizes_symm (hs : Sizes.mk false nfp mpol ntor ntheta nzeta mg ng = .ok c.s) :
    c.s.lasym = false ∧ c.s.nThetaEff = c.s.nThetaReduced ∧ c.s.nZnT = c.s.nZeta * c.s.nThetaEff := by
  obtain ⟨⟨a1, _⟩, _, _, ⟨_, d2, d3, _⟩, _⟩ := (Sizes.C07_sizes false nfp mpol ntor ntheta nzeta mg ng).2 c.s hs
  exact ⟨a1, by rw [d2]; simp, d3⟩

theorem pw_eq (hs : Sizes.mk false nfp mpol ntor ntheta nzeta mg ng = .ok c.s) (l : Int) : pw c l = Sizes.wInt c.s l := by
  unfold pw Sizes.wInt
  rw [(sizes_symm hs).1]
  by_cases e : l = 0 ∨ l = c.s.nThetaReduced - 1
  · simp [e]
  · rw [if_neg e, div_one]
    simp [e]

/-- the sums of the transform are the geometry of the coefficients -/
theorem sums_geo (h : GoodP c) (A : Coef → Int → Int → Int → ℝ) {j k l : Int} (h0 : 0 ≤ j) (hk : 0 ≤ k ∧ k < c.s.nZeta)
    (hl : 0 ≤ l ∧ l < c.s.nThetaReduced) :
    let g := fun a e => ∑ m ∈ Spec.modes c.s.mpol j e, ∑ n ∈ Ico 0 (c.s.ntor + 1),
      gVal a (torTerm (fun a => A a j m n) (torAt c k n)) (polAt c m l)
    Spec.geoPoint c.s A j k l =
      { r1_e := g .r1 true, r1_o := g .r1 false, ru_e := g .ru true, ru_o := g .ru false, rv_e := g .rv true, rv_o := g .rv false
        z1_e := g .z1 true, z1_o := g .z1 false, zu_e := g .zu true, zu_o := g .zu false, zv_e := g .zv true, zv_o := g .zv false
        lu_e := g .lu true, lu_o := g .lu false, lv_e := g .lv true, lv_o := g .lv false } := by
  intro g
  have hv : ∀ e, ∀ m ∈ Spec.modes c.s.mpol j e, ∀ n ∈ Ico 0 (c.s.ntor + 1), _ := fun e m hm n hn =>
    mode_values h (fun a => A a j m n) (Finset.mem_Ico.1 ((mode_mem e h0).1 hm).1).1 (Finset.mem_Ico.1 ((mode_mem e h0).1 hm).1).2
      (Finset.mem_Ico.1 hn).1 (by have := (Finset.mem_Ico.1 hn).2; omega) hk hl
  have r1 : ∀ e, Spec.evenSeries c.s.nfp c.s.ntor (Spec.modes c.s.mpol j e) (A .rcc j) (A .rss j) (Spec.gridTheta c.s l)
      (Spec.gridPhi c.s k) = g .r1 e := fun e =>
    Finset.sum_congr rfl fun m hm => Finset.sum_congr rfl fun n hn => ((hv e m hm n hn).1).symm
  have ru : ∀ e, deriv (fun θ => Spec.evenSeries c.s.nfp c.s.ntor (Spec.modes c.s.mpol j e) (A .rcc j) (A .rss j) θ
      (Spec.gridPhi c.s k)) (Spec.gridTheta c.s l) = g .ru e := fun e =>
    (HasDerivAt.fun_sum fun m hm => HasDerivAt.fun_sum fun n hn => (hv e m hm n hn).2.1).deriv
  have rv : ∀ e, deriv (fun φ => Spec.evenSeries c.s.nfp c.s.ntor (Spec.modes c.s.mpol j e) (A .rcc j) (A .rss j)
      (Spec.gridTheta c.s l) φ) (Spec.gridPhi c.s k) = g .rv e := fun e =>
    (HasDerivAt.fun_sum fun m hm => HasDerivAt.fun_sum fun n hn => (hv e m hm n hn).2.2.1).deriv
  have z1 : ∀ e, Spec.oddSeries c.s.nfp c.s.ntor (Spec.modes c.s.mpol j e) (A .zsc j) (A .zcs j) (Spec.gridTheta c.s l)
      (Spec.gridPhi c.s k) = g .z1 e := fun e =>
    Finset.sum_congr rfl fun m hm => Finset.sum_congr rfl fun n hn => ((hv e m hm n hn).2.2.2.1).symm
  have zu : ∀ e, deriv (fun θ => Spec.oddSeries c.s.nfp c.s.ntor (Spec.modes c.s.mpol j e) (A .zsc j) (A .zcs j) θ
      (Spec.gridPhi c.s k)) (Spec.gridTheta c.s l) = g .zu e := fun e =>
    (HasDerivAt.fun_sum fun m hm => HasDerivAt.fun_sum fun n hn => (hv e m hm n hn).2.2.2.2.1).deriv
  have zv : ∀ e, deriv (fun φ => Spec.oddSeries c.s.nfp c.s.ntor (Spec.modes c.s.mpol j e) (A .zsc j) (A .zcs j)
      (Spec.gridTheta c.s l) φ) (Spec.gridPhi c.s k) = g .zv e := fun e =>
    (HasDerivAt.fun_sum fun m hm => HasDerivAt.fun_sum fun n hn => (hv e m hm n hn).2.2.2.2.2.1).deriv
  have lu : ∀ e, deriv (fun θ => Spec.oddSeries c.s.nfp c.s.ntor (Spec.modes c.s.mpol j e) (A .lsc j) (A .lcs j) θ
      (Spec.gridPhi c.s k)) (Spec.gridTheta c.s l) = g .lu e := fun e =>
    (HasDerivAt.fun_sum fun m hm => HasDerivAt.fun_sum fun n hn => (hv e m hm n hn).2.2.2.2.2.2.1).deriv
  have lv : ∀ e, -deriv (fun φ => Spec.oddSeries c.s.nfp c.s.ntor (Spec.modes c.s.mpol j e) (A .lsc j) (A .lcs j)
      (Spec.gridTheta c.s l) φ) (Spec.gridPhi c.s k) = g .lv e := by
    intro e
    have := (HasDerivAt.fun_sum fun m hm => HasDerivAt.fun_sum fun n hn => (hv e m hm n hn).2.2.2.2.2.2.2).deriv
    have e1 : deriv (fun φ => Spec.oddSeries c.s.nfp c.s.ntor (Spec.modes c.s.mpol j e) (A .lsc j) (A .lcs j)
      (Spec.gridTheta c.s l) φ) (Spec.gridPhi c.s k) = _ := this
    rw [e1]
    simp only [Finset.sum_neg_distrib, neg_neg, g]
  unfold Spec.geoPoint
  simp only [r1, ru, rv, z1, zu, zv, lu, lv]

/-- the flat index of the kernels is the one of the transforms -/
theorem idx_flat (hs : Sizes.mk false nfp mpol ntor ntheta nzeta mg ng = .ok c.s) (j0 j k l : Int) :
    idxKl c j0 j k + l = (j - j0) * c.s.nZnT + (k * c.s.nThetaEff + l) := by
  unfold idxKl
  rw [(sizes_symm hs).2.2]
  ring

/-- sum over a surface in the order of the arrays -/
theorem surface_sum (hs : Sizes.mk false nfp mpol ntor ntheta nzeta mg ng = .ok c.s) (f : Int → ℝ) (g : Int → Int → ℝ)
    (hfg : ∀ k l, 0 ≤ k → k < c.s.nZeta → 0 ≤ l → l < c.s.nThetaReduced → f (k * c.s.nThetaEff + l) = g k l) :
    ∑ kl ∈ Ico 0 c.s.nZnT, f kl = ∑ k ∈ Ico 0 c.s.nZeta, ∑ l ∈ Ico 0 c.s.nThetaReduced, g k l := by
  have hg := goodP_of_mk hs
  obtain ⟨_, h2, h3⟩ := sizes_symm hs
  have hpos : 0 < c.s.nThetaEff := by have := hg.red; omega
  have e := flat_sum (a := c.s.nZeta) hpos (fun k l => f (k * c.s.nThetaEff + l))
  rw [← h3] at e
  have e1 : ∑ kl ∈ Ico 0 c.s.nZnT, f kl = ∑ kl ∈ Ico 0 c.s.nZnT, f (kl / c.s.nThetaEff * c.s.nThetaEff + kl % c.s.nThetaEff) :=
    Finset.sum_congr rfl fun kl _ => by rw [mul_comm, Int.mul_ediv_add_emod]
  rw [e1, e]
  refine Finset.sum_congr rfl fun k hk => ?_
  rw [Finset.mem_Ico] at hk
  rw [h2]
  refine Finset.sum_congr rfl fun l hl => ?_
  rw [Finset.mem_Ico] at hl
  have := hfg k l hk.1 hk.2 hl.1 hl.2
  rw [h2] at this
  exact this

/-- **C64**, transposition on one surface, `R` and `Z`: for every force and every displacement the sum over the modes of
    Fourier force times coefficient is the surface integral of force times displacement. The constraint arrays act on the
    displacement with its modes weighted with `xmpq`. On the axis the displacement has the modes m = 0 only. -/
theorem C64_transpose (hs : Sizes.mk false nfp mpol ntor ntheta nzeta mg ng = .ok c.s) (f : Int → Kernels.Force)
    (lam : Int → Kernels.Lam) (con : FArr → Bool → Int → ℝ) (ξ : Coef → Int → Int → Int → ℝ) {j : Int}
    (hj : c.r.nsMinF ≤ j ∧ j < jMaxRZ c) (h0 : 0 ≤ j) (hax : j = 0 → ∀ a m n, 1 ≤ m → ξ a j m n = 0) :
    Spec.modePower mpol ntor (fun a m n => forcesToFourierDft c (forceArrays f lam con) a
        (((j - c.r.nsMinF) * mpol + m) * (ntor + 1) + n)) (fun a => ξ a j) =
      Kernels.Spec.integral c.s.nZnT (fun kl => Sizes.wInt c.s (kl % c.s.nThetaEff)) fun kl =>
        let i := (j - c.r.nsMinF) * c.s.nZnT + kl
        let q := Spec.geo c.s (fun a j m n => c.xmpq m * ξ a j m n) j kl
        Kernels.Spec.power true (f i) (Spec.geo c.s ξ j kl) +
          (con .frcon true i * q.r1_e + con .frcon false i * q.r1_o + con .fzcon true i * q.z1_e + con .fzcon false i * q.z1_o) := by
  have hg := goodP_of_mk hs
  obtain ⟨⟨a1, a2, a3, a4⟩, _⟩ := (Sizes.C07_sizes false nfp mpol ntor ntheta nzeta mg ng).2 c.s hs
  obtain ⟨_, h2, h3⟩ := sizes_symm hs
  have key := surface_rz hg (forceArrays f lam con) (fun a => ξ a j) hj h0 hax
  unfold Spec.modePower Kernels.Spec.integral
  rw [← a3, ← a4]
  refine Eq.trans key ?_
  symm
  refine surface_sum hs _ _ fun k l k0 k1 l0 l1 => ?_
  have hl : l < c.s.nThetaEff := by omega
  obtain ⟨e1, e2⟩ := divmod (b := k) l0 hl
  have s1 := sums_geo hg ξ h0 ⟨k0, k1⟩ ⟨l0, l1⟩
  have s2 := sums_geo hg (fun a j m n => c.xmpq m * ξ a j m n) h0 ⟨k0, k1⟩ ⟨l0, l1⟩
  have ex : ∀ a e, (∑ m ∈ Spec.modes c.s.mpol j e, ∑ n ∈ Ico 0 (c.s.ntor + 1),
      gVal a (torTerm (fun a => c.xmpq m * ξ a j m n) (torAt c k n)) (polAt c m l)) =
      ∑ m ∈ Spec.modes c.s.mpol j e, ∑ n ∈ Ico 0 (c.s.ntor + 1),
        c.xmpq m * gVal a (torTerm (fun a => ξ a j m n) (torAt c k n)) (polAt c m l) := by
    intro a e
    refine Finset.sum_congr rfl fun m _ => Finset.sum_congr rfl fun n _ => ?_
    cases a <;> simp only [gVal, torTerm] <;> ring
  simp only [ex] at s2
  beta_reduce
  unfold Spec.geo
  rw [e1, e2, s1, s2, ← pw_eq hs, ← idx_flat hs, Fintype.sum_bool]
  simp only [forceArrays, Kernels.Spec.power, if_true]
  ring

/-- **C64**, transposition on one surface, lambda -/
theorem C64_transpose_lambda (hs : Sizes.mk false nfp mpol ntor ntheta nzeta mg ng = .ok c.s) (f : Int → Kernels.Force)
    (lam : Int → Kernels.Lam) (con : FArr → Bool → Int → ℝ) (ξ : Coef → Int → Int → Int → ℝ) {j : Int}
    (hj : c.r.nsMinF ≤ j ∧ (j < jMaxRZ c ∨ j < c.r.nsMaxFIncludingLcfs)) (h0 : 1 ≤ j) :
    Spec.modePowerL mpol ntor (fun a m n => forcesToFourierDft c (forceArrays f lam con) a
        (((j - c.r.nsMinF) * mpol + m) * (ntor + 1) + n)) (fun a => ξ a j) =
      Kernels.Spec.integral c.s.nZnT (fun kl => Sizes.wInt c.s (kl % c.s.nThetaEff)) fun kl =>
        Kernels.Spec.powerL true (lam ((j - c.r.nsMinF) * c.s.nZnT + kl)) (Spec.geo c.s ξ j kl) := by
  have hg := goodP_of_mk hs
  obtain ⟨⟨a1, a2, a3, a4⟩, _⟩ := (Sizes.C07_sizes false nfp mpol ntor ntheta nzeta mg ng).2 c.s hs
  obtain ⟨_, h2, h3⟩ := sizes_symm hs
  have key := surface_l hg (forceArrays f lam con) (fun a => ξ a j) hj h0
  unfold Spec.modePowerL Kernels.Spec.integral
  rw [← a3, ← a4]
  refine Eq.trans key ?_
  symm
  refine surface_sum hs _ _ fun k l k0 k1 l0 l1 => ?_
  have hl : l < c.s.nThetaEff := by omega
  obtain ⟨e1, e2⟩ := divmod (b := k) l0 hl
  have s1 := sums_geo hg ξ (j := j) (by omega) ⟨k0, k1⟩ ⟨l0, l1⟩
  beta_reduce
  unfold Spec.geo
  rw [e1, e2, s1, ← pw_eq hs, ← idx_flat hs, Fintype.sum_bool]
  simp only [forceArrays, Kernels.Spec.powerL, if_true]
  ring

/-! ## The gradient -/

/-- the geometry arrays of a thread as the vector of points that the force kernels read -/
noncomputable def geoVec (c : Ctx) (x : Coef → Int → ℝ) : Vec Kernels.Geo where
  size := (c.r.nsMaxF1 - c.r.nsMinF1) * c.s.nZnT
  val := fun i =>
    let g := fun a e => fourierToRealDft c x (.geo a e) i
    { r1_e := g .r1 true, r1_o := g .r1 false, ru_e := g .ru true, ru_o := g .ru false, rv_e := g .rv true, rv_o := g .rv false
      z1_e := g .z1 true, z1_o := g .z1 false, zu_e := g .zu true, zu_o := g .zu false, zv_e := g .zv true, zv_o := g .zv false
      lu_e := g .lu true, lu_o := g .lu false, lv_e := g .lv true, lv_o := g .lv false }

/-- **C64**, geometry: if the coefficient arrays of a thread hold the coefficients `A` of its surfaces, its geometry arrays
    hold the values and derivatives of the surfaces that `A` describes -/
theorem C64_geometry (hs : Sizes.mk false nfp mpol ntor ntheta nzeta mg ng = .ok c.s) (A : Coef → Int → Int → Int → ℝ)
    (x : Coef → Int → ℝ) (h0 : 0 ≤ c.r.nsMinF1)
    (hx : ∀ a j m n, c.r.nsMinF1 ≤ j → j < c.r.nsMaxF1 → 0 ≤ m → m < mpol → 0 ≤ n → n ≤ ntor →
      x a (((j - c.r.nsMinF1) * mpol + m) * (ntor + 1) + n) = A a j m n) :
    Kernels.Holds (geoVec c x) c.r.nsMinF1 c.r.nsMaxF1 c.s.nZnT (Spec.geo c.s A) := by
  have hg := goodP_of_mk hs
  obtain ⟨⟨a1, a2, a3, a4⟩, _⟩ := (Sizes.C07_sizes false nfp mpol ntor ntheta nzeta mg ng).2 c.s hs
  obtain ⟨_, h2, h3⟩ := sizes_symm hs
  have hpos : 0 < c.s.nThetaEff := by have := hg.red; omega
  refine ⟨rfl, fun j kl hj0 hj1 hk0 hk1 => ?_⟩
  have hk : 0 ≤ kl / c.s.nThetaEff ∧ kl / c.s.nThetaEff < c.s.nZeta :=
    ⟨Int.ediv_nonneg hk0 hpos.le, Int.ediv_lt_of_lt_mul hpos (by rw [← h3]; exact hk1)⟩
  have hl : 0 ≤ kl % c.s.nThetaEff ∧ kl % c.s.nThetaEff < c.s.nThetaReduced :=
    ⟨Int.emod_nonneg _ hpos.ne', by rw [← h2]; exact Int.emod_lt_of_pos _ hpos⟩
  have ei : (j - c.r.nsMinF1) * c.s.nZnT + kl = idxKl c c.r.nsMinF1 j (kl / c.s.nThetaEff) + kl % c.s.nThetaEff := by
    rw [idx_flat hs, mul_comm (kl / c.s.nThetaEff), Int.mul_ediv_add_emod]
  have ev : ∀ a e, fourierToRealDft c x (.geo a e) ((j - c.r.nsMinF1) * c.s.nZnT + kl) =
      ∑ m ∈ Spec.modes c.s.mpol j e, ∑ n ∈ Ico 0 (c.s.ntor + 1),
        gVal a (torTerm (fun a => A a j m n) (torAt c (kl / c.s.nThetaEff) n)) (polAt c m (kl % c.s.nThetaEff)) := by
    intro a e
    rw [ei, geo_apply x a e ⟨hj0, hj1⟩ (by omega) hk hl hg.eff]
    refine Finset.sum_congr rfl fun m hm => Finset.sum_congr rfl fun n hn => ?_
    have hm' := Finset.mem_Ico.1 ((mode_mem e (by omega)).1 hm).1
    have hn' := Finset.mem_Ico.1 hn
    have : (fun a => x a (idxMn c c.r.nsMinF1 j m n)) = fun a => A a j m n := by
      funext a
      unfold idxMn
      rw [a3, a4]
      exact hx a j m n hj0 hj1 hm'.1 (by omega) hn'.1 (by omega)
    rw [this]
  unfold Spec.geo
  rw [sums_geo hg A (by omega) hk hl]
  simp only [geoVec, ev]

end

theorem even_linear (nfp ntor : Int) (M : Finset Int) (a b a' b' : Int → Int → ℝ) (ε θ φ : ℝ) :
    Spec.evenSeries nfp ntor M (fun m n => a m n + ε * a' m n) (fun m n => b m n + ε * b' m n) θ φ =
      Spec.evenSeries nfp ntor M a b θ φ + ε * Spec.evenSeries nfp ntor M a' b' θ φ := by
  unfold Spec.evenSeries
  simp only [Finset.mul_sum, ← Finset.sum_add_distrib]
  refine Finset.sum_congr rfl fun m _ => Finset.sum_congr rfl fun n _ => ?_
  ring

theorem odd_linear (nfp ntor : Int) (M : Finset Int) (a b a' b' : Int → Int → ℝ) (ε θ φ : ℝ) :
    Spec.oddSeries nfp ntor M (fun m n => a m n + ε * a' m n) (fun m n => b m n + ε * b' m n) θ φ =
      Spec.oddSeries nfp ntor M a b θ φ + ε * Spec.oddSeries nfp ntor M a' b' θ φ := by
  unfold Spec.oddSeries
  simp only [Finset.mul_sum, ← Finset.sum_add_distrib]
  refine Finset.sum_congr rfl fun m _ => Finset.sum_congr rfl fun n _ => ?_
  ring

theorem even_diff (nfp ntor : Int) (M : Finset Int) (a b : Int → Int → ℝ) :
    (∀ φ, Differentiable ℝ fun θ => Spec.evenSeries nfp ntor M a b θ φ) ∧
      ∀ θ, Differentiable ℝ fun φ => Spec.evenSeries nfp ntor M a b θ φ := by
  unfold Spec.evenSeries
  constructor <;> intro <;> fun_prop

theorem odd_diff (nfp ntor : Int) (M : Finset Int) (a b : Int → Int → ℝ) :
    (∀ φ, Differentiable ℝ fun θ => Spec.oddSeries nfp ntor M a b θ φ) ∧
      ∀ θ, Differentiable ℝ fun φ => Spec.oddSeries nfp ntor M a b θ φ := by
  unfold Spec.oddSeries
  constructor <;> intro <;> fun_prop

theorem deriv_lin {f g : ℝ → ℝ} (hf : Differentiable ℝ f) (hg : Differentiable ℝ g) (ε t : ℝ) :
    deriv (fun t => f t + ε * g t) t = deriv f t + ε * deriv g t :=
  ((hf t).hasDerivAt.fun_add ((hg t).hasDerivAt.const_mul ε)).deriv

/-- moving the coefficients of `R` and `Z` moves the geometry -/
theorem geo_move (s : Sizes.Sizes) (A ξ : Coef → Int → Int → Int → ℝ) (hξ : ∀ j m n, ξ .lsc j m n = 0 ∧ ξ .lcs j m n = 0)
    (ε : ℝ) (j kl : Int) :
    Spec.geo s (fun a j m n => A a j m n + ε * ξ a j m n) j kl = Kernels.Spec.move (Spec.geo s A j kl) (Spec.geo s ξ j kl) ε := by
  have hl : ∀ m n, ξ .lsc j m n = 0 := fun m n => (hξ j m n).1
  have hl' : ∀ m n, ξ .lcs j m n = 0 := fun m n => (hξ j m n).2
  unfold Spec.geo Spec.geoPoint Kernels.Spec.move
  simp only [even_linear, hl, hl', mul_zero, add_zero]
  simp only [odd_linear]
  rw [deriv_lin ((even_diff _ _ _ _ _).1 _) ((even_diff _ _ _ _ _).1 _), deriv_lin ((even_diff _ _ _ _ _).1 _) ((even_diff _ _ _ _ _).1 _),
    deriv_lin ((even_diff _ _ _ _ _).2 _) ((even_diff _ _ _ _ _).2 _), deriv_lin ((even_diff _ _ _ _ _).2 _) ((even_diff _ _ _ _ _).2 _),
    deriv_lin ((odd_diff _ _ _ _ _).1 _) ((odd_diff _ _ _ _ _).1 _), deriv_lin ((odd_diff _ _ _ _ _).1 _) ((odd_diff _ _ _ _ _).1 _),
    deriv_lin ((odd_diff _ _ _ _ _).2 _) ((odd_diff _ _ _ _ _).2 _), deriv_lin ((odd_diff _ _ _ _ _).2 _) ((odd_diff _ _ _ _ _).2 _)]

/-- no displacement, no geometry -/
theorem geo_zero (s : Sizes.Sizes) (ξ : Coef → Int → Int → Int → ℝ) (j kl : Int) (h : ∀ a m n, ξ a j m n = 0) :
    Spec.geo s ξ j kl = ⟨0, 0, 0, 0, 0, 0, 0, 0, 0, 0, 0, 0, 0, 0, 0, 0⟩ := by
  have e : ∀ a, ξ a j = fun _ _ => 0 := fun a => by funext m n; exact h a m n
  have e1 : ∀ M θ φ, Spec.evenSeries s.nfp s.ntor M (fun _ _ => 0) (fun _ _ => 0) θ φ = 0 := by
    intro M θ φ; simp [Spec.evenSeries]
  have e2 : ∀ M θ φ, Spec.oddSeries s.nfp s.ntor M (fun _ _ => 0) (fun _ _ => 0) θ φ = 0 := by
    intro M θ φ; simp [Spec.oddSeries]
  unfold Spec.geo Spec.geoPoint
  simp only [e, e1, e2, deriv_const, neg_zero]

/-- without toroidal modes nothing depends on the toroidal angle -/
theorem geo_flat (s : Sizes.Sizes) (h : s.ntor = 0) (A : Coef → Int → Int → Int → ℝ) (j kl : Int) :
    let g := Spec.geo s A j kl
    g.rv_e = 0 ∧ g.rv_o = 0 ∧ g.zv_e = 0 ∧ g.zv_o = 0 ∧ g.lv_e = 0 ∧ g.lv_o = 0 := by
  have e0 : (Ico 0 (s.ntor + 1) : Finset Int) = {0} := by rw [h]; rfl
  have e1 : ∀ M a b θ φ, Spec.evenSeries s.nfp s.ntor M a b θ φ = Spec.evenSeries s.nfp s.ntor M a b θ 0 := by
    intro M a b θ φ; simp [Spec.evenSeries, e0]
  have e2 : ∀ M a b θ φ, Spec.oddSeries s.nfp s.ntor M a b θ φ = Spec.oddSeries s.nfp s.ntor M a b θ 0 := by
    intro M a b θ φ; simp [Spec.oddSeries, e0]
  intro g
  have d1 : ∀ M a b θ φ, deriv (fun φ => Spec.evenSeries s.nfp s.ntor M a b θ φ) φ = 0 := by
    intro M a b θ φ
    rw [show (fun φ => Spec.evenSeries s.nfp s.ntor M a b θ φ) = fun _ => Spec.evenSeries s.nfp s.ntor M a b θ 0 from
      funext fun φ => e1 M a b θ φ, deriv_const]
  have d2 : ∀ M a b θ φ, deriv (fun φ => Spec.oddSeries s.nfp s.ntor M a b θ φ) φ = 0 := by
    intro M a b θ φ
    rw [show (fun φ => Spec.oddSeries s.nfp s.ntor M a b θ φ) = fun _ => Spec.oddSeries s.nfp s.ntor M a b θ 0 from
      funext fun φ => e2 M a b θ φ, deriv_const]
  exact ⟨d1 .., d1 .., d2 .., d2 .., neg_eq_zero.2 (d2 ..), neg_eq_zero.2 (d2 ..)⟩

/-- the gradient for any arrays that hold the geometry of the series -/
theorem gradient_core {s : Sizes.Sizes} {nfp mpol ntor ntheta nzeta mg ng : Int} {K : Kernels.Ctx} {P : Kernels.Prof} {nt : Int}
    {R : Int → Ranges} {g : Int → Kernels.Given} {w : Int → Kernels.Work} {sqrtSF : Int → Int → ℝ} {xmpq : Int → ℝ} {vacuum : Bool}
    {v : Int → Vec Kernels.Geo} (A : Coef → Int → Int → Int → ℝ)
    (hs : Sizes.mk false nfp mpol ntor ntheta nzeta mg ng = .ok s)
    (hK : (K.lthreed = true ∨ ntor = 0) ∧ K.nZnT = s.nZnT ∧ K.nThetaEff = s.nThetaEff ∧ K.wInt.size = s.nThetaEff ∧
      ∀ l, 0 ≤ l → l < s.nThetaEff → K.wInt.val l = Sizes.wInt s l)
    (hT : Multigrid.GoodTeam nt K.ns K.lfreeb R)
    (hW' : ∀ t, isThread nt t → Kernels.Windows K (R t) P (Spec.geo s A) (g t) (v t) (w t))
    (hγ : K.adiabaticIndex ≠ 1)
    (hg : ∀ h kl, 0 ≤ h → h < K.ns - 1 → 0 ≤ kl → kl < K.nZnT →
      Kernels.Spec.gsqrt K.deltaS (P.qH h) (Spec.geo s A h kl) (Spec.geo s A (h + 1) kl) ≠ 0)
    (hV : ∀ h, 0 ≤ h → h < K.ns - 1 → 0 < Kernels.Spec.volume K.deltaS K.signOfJacobian K.nZnT (Kernels.wt K) (P.qH h)
      (Spec.geo s A h) (Spec.geo s A (h + 1))) :
    let ct : Int → Ctx := fun t => ⟨s, R t, K.ns, K.lfreeb, vacuum, xmpq, sqrtSF t⟩
    ∃ e : Int → Kernels.Evaluated,
      (∀ t, isThread nt t → Kernels.evaluate K (R t) (g t) (v t) (w t) = .ok (e t)) ∧
      ∀ ξ : Coef → Int → Int → Int → ℝ, (∀ j m n, ξ .lsc j m n = 0 ∧ ξ .lcs j m n = 0) → (∀ a m n, 1 ≤ m → ξ a 0 m n = 0) →
        (¬ (K.lfreeb = true ∧ vacuum = true) → ∀ a m n, ξ a (K.ns - 1) m n = 0) →
        HasDerivAt (fun ε => Kernels.torusEnergy K P (Kernels.fluxU K P (Spec.geo s A)) (Kernels.fluxV K P (Spec.geo s A))
            (Spec.geo s fun a j m n => A a j m n + ε * ξ a j m n))
          (-(K.deltaS * K.signOfJacobian * ∑ t ∈ Ico 0 nt, ∑ j ∈ Ico (R t).nsMinF (R t).nsMaxF,
            Spec.modePower mpol ntor (fun a m n =>
              forcesToFourierDft (ct t) (forceArrays (e t).force.val (e t).lam.val fun _ _ _ => 0) a
                (((j - (R t).nsMinF) * mpol + m) * (ntor + 1) + n)) fun a => ξ a j)) 0 := by
  intro ct
  obtain ⟨k1, k2, k3, k4, k5⟩ := hK
  have hs0 : Sizes.mk false nfp mpol ntor ntheta nzeta mg ng = .ok (ct 0).s := hs
  have hgp := goodP_of_mk hs0
  obtain ⟨_, h2, h3⟩ := sizes_symm hs0
  have hpos : 0 < s.nThetaEff := by
    have h2' : s.nThetaEff = s.nThetaReduced := h2
    have h4 : 2 ≤ s.nThetaReduced := hgp.red
    omega
  have hz : 0 ≤ s.nZeta := by
    have a : 2 * s.ntor < s.nZeta := hgp.nyq
    have b : 0 ≤ s.ntor := hgp.ntor
    omega
  have hc : Kernels.GoodCtx K := ⟨by rw [k3]; exact hpos, by rw [k2]; exact h3 ▸ mul_nonneg hz hpos.le, by rw [k4, k3]⟩
  have hwt : Kernels.wt K = fun kl => Sizes.wInt s (kl % s.nThetaEff) := by
    funext kl
    unfold Kernels.wt
    rw [k3]
    exact k5 _ (Int.emod_nonneg _ hpos.ne') (Int.emod_lt_of_pos _ hpos)
  obtain ⟨e, he, hD⟩ := Kernels.C59_team hc hT hW' hγ hg hV
  refine ⟨e, he, fun ξ hlam hax hbd => ?_⟩
  have hD' := hD (Spec.geo s ξ) fun hl kl => geo_zero s ξ _ kl (hbd (by rw [hl]; simp))
  have efun : (fun ε => Kernels.torusEnergy K P (Kernels.fluxU K P (Spec.geo s A)) (Kernels.fluxV K P (Spec.geo s A))
      (Spec.geo s fun a j m n => A a j m n + ε * ξ a j m n)) =
      fun ε => Kernels.torusEnergy K P (Kernels.fluxU K P (Spec.geo s A)) (Kernels.fluxV K P (Spec.geo s A))
        fun j kl => Kernels.Spec.move (Spec.geo s A j kl) (Spec.geo s ξ j kl) ε := by
    funext ε
    congr 1
    funext j kl
    exact geo_move s A ξ hlam ε j kl
  rw [efun]
  refine hD'.congr_deriv ?_
  congr 2
  refine Finset.sum_congr rfl fun t ht => Finset.sum_congr rfl fun j hj => ?_
  rw [Finset.mem_Ico] at ht hj
  have gt := Kernels.good_of_team hT ht
  by_cases hb : j = K.ns - 1 ∧ ¬ (K.lfreeb = true ∧ vacuum = true)
  · have z : ∀ a m n, ξ a j m n = 0 := by rw [hb.1]; exact hbd hb.2
    have z1 : ∀ kl, Spec.geo s ξ j kl = _ := fun kl => geo_zero s ξ j kl z
    simp only [z1, Kernels.Spec.integral, Kernels.Spec.power, Spec.modePower, z]
    simp
  · have hjm : j < jMaxRZ (ct t) := by
      have e1 : (ct t).lfreeb = K.lfreeb := rfl
      have e2 : (ct t).vacuum = vacuum := rfl
      have e3 : (ct t).r = R t := rfl
      have e4 : (ct t).ns = K.ns := rfl
      have := gt.maxF_le
      have : numSurfacesToDistribute K.ns K.lfreeb ≤ K.ns := by unfold numSurfacesToDistribute; split <;> omega
      unfold jMaxRZ
      rw [e1, e2, e3, e4]
      split
      · rename_i hh
        rw [lt_min_iff]; omega
      · rename_i hh
        have : j ≠ K.ns - 1 := fun h => hb ⟨h, hh⟩
        rw [lt_min_iff]; omega
    have h0 : 0 ≤ j := by have := gt.minF; omega
    have key := C64_transpose (c := ct t) hs (e t).force.val (e t).lam.val (fun _ _ _ => 0) ξ ⟨hj.1, hjm⟩ h0
      (fun hj a m n hm => by rw [hj]; exact hax a m n hm)
    refine Eq.trans ?_ key.symm
    have hp : ∀ f kl, Kernels.Spec.power K.lthreed f (Spec.geo s ξ j kl) = Kernels.Spec.power true f (Spec.geo s ξ j kl) := by
      intro f kl
      rcases k1 with k1 | k1
      · rw [k1]
      · have a4 := ((Sizes.C07_sizes false nfp mpol ntor ntheta nzeta mg ng).2 s hs).1.2.2.2
        obtain ⟨z1, z2, z3, z4, _⟩ := geo_flat s (by rw [a4, k1]) ξ j kl
        unfold Kernels.Spec.power
        rw [z1, z2, z3, z4]
        simp
    simp only [hp]
    rw [k2, hwt]
    simp only [zero_mul, add_zero]
    rfl

/-- **C64**, gradient: from the Fourier coefficients to the Fourier forces. Coefficients `A` describe a torus; the threads of
    a team transform their part of it to real space, evaluate the force kernels and transform the forces back. Then the
    Fourier forces of all threads together are the gradient, with respect to the coefficients of `R` and `Z`, of the energy of
    the torus at fixed fluxes and fixed mass (three-dimensional kernels, or no toroidal modes). The displacement has the m = 0 modes only on the axis, and none on the boundary
    unless it is free and the vacuum field is on; the constraint force is not part of it. -/
theorem C64_gradient {s : Sizes.Sizes} {nfp mpol ntor ntheta nzeta mg ng : Int} {K : Kernels.Ctx} {P : Kernels.Prof} {nt : Int}
    {R : Int → Ranges} {g : Int → Kernels.Given} {w : Int → Kernels.Work} {sqrtSF : Int → Int → ℝ} {xmpq : Int → ℝ} {vacuum : Bool}
    (A : Coef → Int → Int → Int → ℝ) (x : Int → Coef → Int → ℝ)
    (hs : Sizes.mk false nfp mpol ntor ntheta nzeta mg ng = .ok s)
    (hK : (K.lthreed = true ∨ ntor = 0) ∧ K.nZnT = s.nZnT ∧ K.nThetaEff = s.nThetaEff ∧ K.wInt.size = s.nThetaEff ∧
      ∀ l, 0 ≤ l → l < s.nThetaEff → K.wInt.val l = Sizes.wInt s l)
    (hT : Multigrid.GoodTeam nt K.ns K.lfreeb R)
    (hx : ∀ t, isThread nt t → ∀ a j m n, (R t).nsMinF1 ≤ j → j < (R t).nsMaxF1 → 0 ≤ m → m < mpol → 0 ≤ n → n ≤ ntor →
      x t a (((j - (R t).nsMinF1) * mpol + m) * (ntor + 1) + n) = A a j m n)
    (hW : ∀ t, isThread nt t → ∃ v, Kernels.Windows K (R t) P (Spec.geo s A) (g t) v (w t))
    (hγ : K.adiabaticIndex ≠ 1)
    (hg : ∀ h kl, 0 ≤ h → h < K.ns - 1 → 0 ≤ kl → kl < K.nZnT →
      Kernels.Spec.gsqrt K.deltaS (P.qH h) (Spec.geo s A h kl) (Spec.geo s A (h + 1) kl) ≠ 0)
    (hV : ∀ h, 0 ≤ h → h < K.ns - 1 → 0 < Kernels.Spec.volume K.deltaS K.signOfJacobian K.nZnT (Kernels.wt K) (P.qH h)
      (Spec.geo s A h) (Spec.geo s A (h + 1))) :
    let ct : Int → Ctx := fun t => ⟨s, R t, K.ns, K.lfreeb, vacuum, xmpq, sqrtSF t⟩
    ∃ e : Int → Kernels.Evaluated,
      (∀ t, isThread nt t → Kernels.evaluate K (R t) (g t) (geoVec (ct t) (x t)) (w t) = .ok (e t)) ∧
      ∀ ξ : Coef → Int → Int → Int → ℝ, (∀ j m n, ξ .lsc j m n = 0 ∧ ξ .lcs j m n = 0) → (∀ a m n, 1 ≤ m → ξ a 0 m n = 0) →
        (¬ (K.lfreeb = true ∧ vacuum = true) → ∀ a m n, ξ a (K.ns - 1) m n = 0) →
        HasDerivAt (fun ε => Kernels.torusEnergy K P (Kernels.fluxU K P (Spec.geo s A)) (Kernels.fluxV K P (Spec.geo s A))
            (Spec.geo s fun a j m n => A a j m n + ε * ξ a j m n))
          (-(K.deltaS * K.signOfJacobian * ∑ t ∈ Ico 0 nt, ∑ j ∈ Ico (R t).nsMinF (R t).nsMaxF,
            Spec.modePower mpol ntor (fun a m n =>
              forcesToFourierDft (ct t) (forceArrays (e t).force.val (e t).lam.val fun _ _ _ => 0) a
                (((j - (R t).nsMinF) * mpol + m) * (ntor + 1) + n)) fun a => ξ a j)) 0 := by
  intro ct
  refine gradient_core A hs hK hT (fun t ht => ?_) hγ hg hV
  obtain ⟨v, hv⟩ := hW t ht
  refine { hv with geo := ?_ }
  have := C64_geometry (c := ct t) hs A (x t) (by have := (Kernels.good_of_team hT ht).minF1; show 0 ≤ (R t).nsMinF1; omega) (hx t ht)
  rw [hK.2.1]
  exact this

/-! ## A case: a circular torus with mpol = 2, ntor = 1, five field periods -/

/-- coefficients of the torus `R = 10 + √s cos θ`, `Z = √s sin θ`, with the odd parts divided by √s -/
noncomputable def ringCoef : Coef → Int → Int → Int → ℝ
  | .rcc, _, m, n => if m = 0 ∧ n = 0 then 10 else if m = 1 ∧ n = 0 then 1 / Real.sqrt 2 else 0
  | .zsc, _, m, n => if m = 1 ∧ n = 0 then 1 / Real.sqrt 2 else 0
  | _, _, _, _ => 0

theorem modes_two (j : Int) : Spec.modes 2 j true = {0} ∧ Spec.modes 2 j false = {1} := by
  have e : (Ico 0 2 : Finset Int) = {0, 1} := rfl
  constructor <;> unfold Spec.modes <;> rw [e] <;> ext m <;> simp only [Finset.mem_filter, Finset.mem_insert, Finset.mem_singleton, iff_true,
      Bool.false_eq_true, iff_false] <;> omega

theorem ring_point (s : Sizes.Sizes) (h : s.mpol = 2 ∧ (s.ntor = 0 ∨ s.ntor = 1)) (j kl : Int) :
    ∃ θ : ℝ, ∀ i, i = j ∨ i = j + 1 → Spec.geo s ringCoef i kl =
      { r1_e := 10, r1_o := Real.cos θ, ru_e := 0, ru_o := -Real.sin θ, rv_e := 0, rv_o := 0, z1_e := 0, z1_o := Real.sin θ
        zu_e := 0, zu_o := Real.cos θ, zv_e := 0, zv_o := 0, lu_e := 0, lu_o := 0, lv_e := 0, lv_o := 0 } := by
  refine ⟨Spec.gridTheta s (kl % s.nThetaEff), fun i _ => ?_⟩
  have e2 : (Ico 0 2 : Finset Int) = {0, 1} := rfl
  have e1 : (Ico 0 1 : Finset Int) = {0} := rfl
  have h2 : Real.sqrt 2 ≠ 0 := by positivity
  have r0 : Spec.evenSeries s.nfp s.ntor (Spec.modes s.mpol i true) (ringCoef .rcc i) (ringCoef .rss i) = fun _ _ => 10 := by
    funext θ φ
    unfold Spec.evenSeries
    rcases h with ⟨h0, h | h⟩ <;> rw [h0, h, (modes_two i).1] <;> simp [ringCoef, e1, e2, scale]
  have r1 : Spec.evenSeries s.nfp s.ntor (Spec.modes s.mpol i false) (ringCoef .rcc i) (ringCoef .rss i) = fun θ _ => Real.cos θ := by
    funext θ φ
    unfold Spec.evenSeries
    rcases h with ⟨h0, h | h⟩ <;> rw [h0, h, (modes_two i).2] <;> simp [ringCoef, e1, e2, scale, h2]
  have z0 : Spec.oddSeries s.nfp s.ntor (Spec.modes s.mpol i true) (ringCoef .zsc i) (ringCoef .zcs i) = fun _ _ => 0 := by
    funext θ φ
    unfold Spec.oddSeries
    rcases h with ⟨h0, h | h⟩ <;> rw [h0, h, (modes_two i).1] <;> simp [ringCoef, e1, e2]
  have z1 : Spec.oddSeries s.nfp s.ntor (Spec.modes s.mpol i false) (ringCoef .zsc i) (ringCoef .zcs i) = fun θ _ => Real.sin θ := by
    funext θ φ
    unfold Spec.oddSeries
    rcases h with ⟨h0, h | h⟩ <;> rw [h0, h, (modes_two i).2] <;> simp [ringCoef, e1, e2, scale, h2]
  have l0 : ∀ M, Spec.oddSeries s.nfp s.ntor M (ringCoef .lsc i) (ringCoef .lcs i) = fun _ _ => 0 := by
    intro M
    funext θ φ
    simp [Spec.oddSeries, ringCoef]
  unfold Spec.geo Spec.geoPoint
  simp only [r0, r1, z0, z1, l0]
  simp

theorem ring_gsqrt (s : Sizes.Sizes) (h : s.mpol = 2 ∧ (s.ntor = 0 ∨ s.ntor = 1)) (j kl : Int) :
    Kernels.Spec.gsqrt (1 / 4) (1 / 2) (Spec.geo s ringCoef j kl) (Spec.geo s ringCoef (j + 1) kl) < 0 := by
  obtain ⟨θ, hθ⟩ := ring_point s h j kl
  rw [hθ j (Or.inl rfl), hθ (j + 1) (Or.inr rfl)]
  unfold Kernels.Spec.gsqrt Kernels.Spec.tau Kernels.Spec.mid Kernels.Spec.ds Kernels.Spec.rootTerm Kernels.Spec.R Kernels.Spec.Z
    Kernels.Spec.Ru Kernels.Spec.Zu
  dsimp only
  have h1 := Real.neg_one_le_cos θ
  have h2 := Real.sin_sq_add_cos_sq θ
  nlinarith

/-- five surfaces, three-dimensional, on the grid of `s` -/
noncomputable def ringCtx (s : Sizes.Sizes) : Kernels.Ctx :=
  { Kernels.demo with nZnT := s.nZnT, nThetaEff := s.nThetaEff, wInt := ⟨s.nThetaEff, Sizes.wInt s⟩ }

example (ξ : Coef → Int → Int → Int → ℝ) (h1 : ∀ j m n, ξ .lsc j m n = 0 ∧ ξ .lcs j m n = 0) (h2 : ∀ a m n, 1 ≤ m → ξ a 0 m n = 0)
    (h3 : ∀ a m n, ξ a 4 m n = 0) : ∃ (s : Sizes.Sizes) (R : Int → Ranges) (x : Int → Coef → Int → ℝ) (e : Int → Kernels.Evaluated),
    Sizes.mk false 5 2 1 0 0 0 0 = .ok s ∧ HasDerivAt (fun ε => Kernels.torusEnergy (ringCtx s) Kernels.ringProf
        (Kernels.fluxU (ringCtx s) Kernels.ringProf (Spec.geo s ringCoef)) (Kernels.fluxV (ringCtx s) Kernels.ringProf (Spec.geo s ringCoef))
        (Spec.geo s fun a j m n => ringCoef a j m n + ε * ξ a j m n))
      (-((ringCtx s).deltaS * (ringCtx s).signOfJacobian * ∑ t ∈ Ico 0 2, ∑ j ∈ Ico (R t).nsMinF (R t).nsMaxF,
        Spec.modePower 2 1 (fun a m n =>
          forcesToFourierDft ⟨s, R t, 5, false, false, fun _ => 1, fun _ => 1⟩ (forceArrays (e t).force.val (e t).lam.val fun _ _ _ => 0) a
            (((j - (R t).nsMinF) * 2 + m) * (1 + 1) + n)) fun a => ξ a j)) 0 := by
  obtain ⟨s, hs⟩ : ∃ s, Sizes.mk false 5 2 1 0 0 0 0 = .ok s := ⟨_, rfl⟩
  obtain ⟨R, hR⟩ := Kernels.demo_team 2 (by omega) (by omega)
  have hsz : s.mpol = 2 ∧ s.ntor = 1 := by
    obtain ⟨⟨a1, a2, a3, a4⟩, _⟩ := (Sizes.C07_sizes false 5 2 1 0 0 0 0).2 s hs
    exact ⟨a3, a4⟩
  have hc : (⟨s, R 0, 5, false, false, fun _ => 1, fun _ => 1⟩ : Ctx).s = s := rfl
  have hgp := goodP_of_mk (c := ⟨s, R 0, 5, false, false, fun _ => 1, fun _ => 1⟩) hs
  have hsy := sizes_symm (c := ⟨s, R 0, 5, false, false, fun _ => 1, fun _ => 1⟩) hs
  have hred : 2 ≤ s.nThetaReduced := hgp.red
  have hz : 1 ≤ s.nZeta := by
    have a : 2 * s.ntor < s.nZeta := hgp.nyq
    omega
  choose g geo w hw using fun t => Kernels.windows_exist (ringCtx s) (R t) Kernels.ringProf (Spec.geo s ringCoef)
  -- arrays that hold the coefficients of the surfaces of a thread
  have hx : ∀ t, ∃ x : Coef → Int → ℝ, ∀ a j m n, (R t).nsMinF1 ≤ j → j < (R t).nsMaxF1 → 0 ≤ m → m < 2 → 0 ≤ n → n ≤ 1 →
      x a (((j - (R t).nsMinF1) * 2 + m) * (1 + 1) + n) = ringCoef a j m n := by
    intro t
    refine ⟨fun a i => ringCoef a 0 (i / 2 % 2) (i % 2), fun a j m n _ _ m0 m1 n0 n1 => ?_⟩
    have e1 : (((j - (R t).nsMinF1) * 2 + m) * (1 + 1) + n) / 2 % 2 = m := by omega
    have e2 : (((j - (R t).nsMinF1) * 2 + m) * (1 + 1) + n) % 2 = n := by omega
    show ringCoef a 0 _ _ = _
    rw [e1, e2]
    cases a <;> rfl
  choose x hx using hx
  have hV : ∀ h, 0 < Kernels.Spec.volume (ringCtx s).deltaS (ringCtx s).signOfJacobian (ringCtx s).nZnT (Kernels.wt (ringCtx s))
      (Kernels.ringProf.qH h) (Spec.geo s ringCoef h) (Spec.geo s ringCoef (h + 1)) := by
    intro h
    have e : (ringCtx s).signOfJacobian = -1 := rfl
    unfold Kernels.Spec.volume Kernels.Spec.integral
    rw [e, neg_one_mul, ← Finset.sum_neg_distrib]
    have hp : 0 < s.nZnT := by
      rw [show s.nZnT = s.nZeta * s.nThetaEff from hsy.2.2, show s.nThetaEff = s.nThetaReduced from hsy.2.1]
      exact mul_pos (by omega) (by omega)
    refine Finset.sum_pos (fun kl _ => ?_) ⟨0, by rw [Finset.mem_Ico]; exact ⟨le_refl _, hp⟩⟩
    have k1 := ring_gsqrt s ⟨hsz.1, Or.inr hsz.2⟩ h kl
    have k2 : 0 < Kernels.wt (ringCtx s) kl := by
      show 0 < Sizes.wInt s (kl % s.nThetaEff)
      rw [← pw_eq (c := ⟨s, R 0, 5, false, false, fun _ => 1, fun _ => 1⟩) hs]
      unfold pw
      have : (0 : ℝ) < (s.nZeta * (s.nThetaReduced - 1) : Int) := by
        exact_mod_cast mul_pos (show 0 < s.nZeta by omega) (show 0 < s.nThetaReduced - 1 by omega)
      dsimp only
      split <;> positivity
    show 0 < -(Kernels.Spec.gsqrt (1 / 4) (1 / 2) _ _ * _)
    nlinarith [mul_pos (neg_pos.2 k1) k2]
  obtain ⟨e, he, hD⟩ := C64_gradient (K := ringCtx s) (P := Kernels.ringProf) (R := R) (g := g) (w := w) (sqrtSF := fun _ _ => 1)
    (xmpq := fun _ => 1) (vacuum := false) ringCoef x hs ⟨Or.inl rfl, rfl, rfl, rfl, fun _ _ _ => rfl⟩ hR (fun t _ => hx t)
    (fun t _ => ⟨_, hw t⟩) (by norm_num [ringCtx, Kernels.demo]) (fun h kl _ _ _ _ => (ring_gsqrt s ⟨hsz.1, Or.inr hsz.2⟩ h kl).ne) (fun h _ _ => hV h)
  exact ⟨s, R, x, e, hs, hD ξ h1 h2 fun _ => h3⟩

end Verif.Transform
