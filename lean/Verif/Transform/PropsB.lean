import Verif.Transform.Props
import Verif.Transform.Series

/-!
# C63: the geometry arrays hold the Fourier series and its derivatives
-/
namespace Verif.Transform
open Verif Verif.Fourier Partition Finset

theorem goodP_of_mk {c : Ctx} {lasym : Bool} {nfp mpol ntor ntheta nzeta mg ng : Int}
    (hs : Sizes.mk lasym nfp mpol ntor ntheta nzeta mg ng = .ok c.s) : GoodP c := by
  have g := goodGrid_of_mk hs
  have hok := ((Sizes.C07_sizes lasym nfp mpol ntor ntheta nzeta mg ng).1).2 ⟨c.s, hs⟩
  obtain ⟨⟨a1, a2, a3, a4⟩, ⟨b1, b2, b3, b4⟩, _, ⟨d1, d2, _⟩, _⟩ :=
    (Sizes.C07_sizes lasym nfp mpol ntor ntheta nzeta mg ng).2 c.s hs
  refine ⟨good_of_mk hs, by omega, by have := g.m2; omega, by omega, by omega, ?_⟩
  rw [d2]
  split <;> omega

section
variable {c : Ctx} {lasym : Bool} {nfp mpol ntor ntheta nzeta mg ng : Int}

/-- **C63**, geometry: at every grid point of every surface of the thread the even (`e = true`) and the odd arrays hold
    the series over their poloidal modes and its derivatives with respect to the poloidal and the geometric toroidal
    angle; `lv` is minus the toroidal derivative of lambda -/
theorem C63_geometry (hs : Sizes.mk lasym nfp mpol ntor ntheta nzeta mg ng = .ok c.s) (x : Coef → Int → ℝ) (e : Bool)
    {jF k l : Int} (hj : c.r.nsMinF1 ≤ jF ∧ jF < c.r.nsMaxF1) (h0 : 0 ≤ jF) (hk : 0 ≤ k ∧ k < c.s.nZeta)
    (hl : 0 ≤ l ∧ l < c.s.nThetaReduced) :
    let X : Coef → Int → Int → ℝ := fun a m n => x a (((jF - c.r.nsMinF1) * mpol + m) * (ntor + 1) + n)
    let M := Spec.modes mpol jF e
    let R := Spec.evenSeries nfp ntor M (X .rcc) (X .rss)
    let Z := Spec.oddSeries nfp ntor M (X .zsc) (X .zcs)
    let lam := Spec.oddSeries nfp ntor M (X .lsc) (X .lcs)
    let θ := Spec.gridTheta c.s l
    let φ := Spec.gridPhi c.s k
    let g := fun a => fourierToRealDft c x (.geo a e) (((jF - c.r.nsMinF1) * c.s.nZeta + k) * c.s.nThetaEff + l)
    g .r1 = R θ φ ∧ HasDerivAt (fun θ => R θ φ) (g .ru) θ ∧ HasDerivAt (fun φ => R θ φ) (g .rv) φ ∧
    g .z1 = Z θ φ ∧ HasDerivAt (fun θ => Z θ φ) (g .zu) θ ∧ HasDerivAt (fun φ => Z θ φ) (g .zv) φ ∧
    HasDerivAt (fun θ => lam θ φ) (g .lu) θ ∧ HasDerivAt (fun φ => lam θ φ) (-g .lv) φ := by
  have hg := goodP_of_mk hs
  obtain ⟨⟨a1, a2, a3, a4⟩, _⟩ := (Sizes.C07_sizes lasym nfp mpol ntor ntheta nzeta mg ng).2 c.s hs
  subst a2 a3 a4
  intro X M R Z lam θ φ g
  have hga : ∀ a, g a = _ := fun a => geo_apply x a e hj h0 hk hl hg.eff
  have hv : ∀ m ∈ M, ∀ n ∈ Ico 0 (c.s.ntor + 1), _ := fun m hm n hn =>
    mode_values hg (fun a => X a m n) (Finset.mem_Ico.1 ((mode_mem e h0).1 hm).1).1 (Finset.mem_Ico.1 ((mode_mem e h0).1 hm).1).2
      (Finset.mem_Ico.1 hn).1 (by have := (Finset.mem_Ico.1 hn).2; omega) hk hl
  refine ⟨?_, ?_, ?_, ?_, ?_, ?_, ?_, ?_⟩
  · rw [hga]
    exact Finset.sum_congr rfl fun m hm => Finset.sum_congr rfl fun n hn => (hv m hm n hn).1
  · rw [hga]
    exact HasDerivAt.fun_sum fun m hm => HasDerivAt.fun_sum fun n hn => (hv m hm n hn).2.1
  · rw [hga]
    exact HasDerivAt.fun_sum fun m hm => HasDerivAt.fun_sum fun n hn => (hv m hm n hn).2.2.1
  · rw [hga]
    exact Finset.sum_congr rfl fun m hm => Finset.sum_congr rfl fun n hn => (hv m hm n hn).2.2.2.1
  · rw [hga]
    exact HasDerivAt.fun_sum fun m hm => HasDerivAt.fun_sum fun n hn => (hv m hm n hn).2.2.2.2.1
  · rw [hga]
    exact HasDerivAt.fun_sum fun m hm => HasDerivAt.fun_sum fun n hn => (hv m hm n hn).2.2.2.2.2.1
  · rw [hga]
    exact HasDerivAt.fun_sum fun m hm => HasDerivAt.fun_sum fun n hn => (hv m hm n hn).2.2.2.2.2.2.1
  · rw [hga]
    simp only [← Finset.sum_neg_distrib]
    exact HasDerivAt.fun_sum fun m hm => HasDerivAt.fun_sum fun n hn => (hv m hm n hn).2.2.2.2.2.2.2

/-- **C63**, constraint arrays: the series with every poloidal mode weighted with its condensation factor `xmpq`, odd
    modes times √s -/
theorem C63_constraint (hs : Sizes.mk lasym nfp mpol ntor ntheta nzeta mg ng = .ok c.s) (x : Coef → Int → ℝ)
    {jF k l : Int} (hj : c.r.nsMinF1 ≤ jF ∧ jF < c.r.nsMaxF1) (hc : c.r.nsMinF ≤ jF ∧ jF < c.r.nsMaxFIncludingLcfs) (h0 : 0 ≤ jF)
    (hk : 0 ≤ k ∧ k < c.s.nZeta) (hl : 0 ≤ l ∧ l < c.s.nThetaReduced) :
    let X : Coef → Int → Int → ℝ := fun a m n => c.xmpq m * x a (((jF - c.r.nsMinF1) * mpol + m) * (ntor + 1) + n)
    let R := fun e => Spec.evenSeries nfp ntor (Spec.modes mpol jF e) (X .rcc) (X .rss) (Spec.gridTheta c.s l) (Spec.gridPhi c.s k)
    let Z := fun e => Spec.oddSeries nfp ntor (Spec.modes mpol jF e) (X .zsc) (X .zcs) (Spec.gridTheta c.s l) (Spec.gridPhi c.s k)
    let g := fun a => fourierToRealDft c x a (((jF - c.r.nsMinF) * c.s.nZeta + k) * c.s.nThetaEff + l)
    g .rCon = R true + c.sqrtSF (jF - c.r.nsMinF1) * R false ∧ g .zCon = Z true + c.sqrtSF (jF - c.r.nsMinF1) * Z false := by
  have hg := goodP_of_mk hs
  obtain ⟨⟨a1, a2, a3, a4⟩, _⟩ := (Sizes.C07_sizes lasym nfp mpol ntor ntheta nzeta mg ng).2 c.s hs
  subst a2 a3 a4
  intro X R Z g
  have hv : ∀ e, ∀ m ∈ Spec.modes c.s.mpol jF e, ∀ n ∈ Ico 0 (c.s.ntor + 1), _ := fun e m hm n hn =>
    mode_values hg (fun a => x a (idxMn c c.r.nsMinF1 jF m n)) (Finset.mem_Ico.1 ((mode_mem e h0).1 hm).1).1
      (Finset.mem_Ico.1 ((mode_mem e h0).1 hm).1).2
      (Finset.mem_Ico.1 hn).1 (by have := (Finset.mem_Ico.1 hn).2; omega) hk hl
  have e1 : g .rCon = _ := con_apply x hj hc h0 hk hl hg.eff .rCon .r1 (Or.inl ⟨rfl, rfl⟩)
  have e2 : g .zCon = _ := con_apply x hj hc h0 hk hl hg.eff .zCon .z1 (Or.inr ⟨rfl, rfl⟩)
  rw [e1, e2]
  refine ⟨?_, ?_⟩
  · congr 1
    · refine Finset.sum_congr rfl fun m hm => Finset.sum_congr rfl fun n hn => ?_
      rw [(hv true m hm n hn).1]
      simp only [evenMode, X, idxMn]; ring
    · congr 1
      refine Finset.sum_congr rfl fun m hm => Finset.sum_congr rfl fun n hn => ?_
      rw [(hv false m hm n hn).1]
      simp only [evenMode, X, idxMn]; ring
  · congr 1
    · refine Finset.sum_congr rfl fun m hm => Finset.sum_congr rfl fun n hn => ?_
      rw [(hv true m hm n hn).2.2.2.1]
      simp only [oddMode, X, idxMn]; ring
    · congr 1
      refine Finset.sum_congr rfl fun m hm => Finset.sum_congr rfl fun n hn => ?_
      rw [(hv false m hm n hn).2.2.2.1]
      simp only [oddMode, X, idxMn]; ring

end

/-- C63 on the second of three surfaces of a stellarator -/
example (x : Coef → Int → ℝ) : ∃ s, Sizes.mk false 5 5 4 0 0 0 0 = .ok s ∧
    fourierToRealDft (stellarator s) x (.geo .r1 true) (((1 - 0) * s.nZeta + 3) * s.nThetaEff + 2) =
      Spec.evenSeries 5 4 {0, 2, 4} (fun m n => x .rcc (((1 - 0) * 5 + m) * (4 + 1) + n)) (fun m n => x .rss (((1 - 0) * 5 + m) * (4 + 1) + n))
        (Spec.gridTheta s 2) (Spec.gridPhi s 3) := by
  refine ⟨_, rfl, ?_⟩
  have h := (C63_geometry (c := stellarator _) (lasym := false) (nfp := 5) (mpol := 5) (ntor := 4) (ntheta := 0) (nzeta := 0)
    (mg := 0) (ng := 0) rfl x true (jF := 1) (k := 3) (l := 2) ⟨by decide, by decide⟩ (by decide) ⟨by decide, by decide⟩
    ⟨by decide, by decide⟩).1
  have e : Spec.modes 5 1 true = {0, 2, 4} := by
    have e : (Finset.Ico 0 5 : Finset Int) = {0, 1, 2, 3, 4} := rfl
    unfold Spec.modes
    rw [e]
    ext m
    simp only [Finset.mem_filter, Finset.mem_insert, Finset.mem_singleton, iff_true]
    omega
  dsimp only at h
  rw [e] at h
  exact h

end Verif.Transform
