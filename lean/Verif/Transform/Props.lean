import Verif.Transform.Agree

/-!
# C47: the FFT variants of the toroidal transforms agree with the direct sums
-/
namespace Verif.Transform
open Verif Verif.Fourier Partition Finset

/-- every accepted resolution is good -/
theorem good_of_mk {c : Ctx} {lasym : Bool} {nfp mpol ntor ntheta nzeta mg ng : Int}
    (hs : Sizes.mk lasym nfp mpol ntor ntheta nzeta mg ng = .ok c.s) : Good c := by
  have g := goodGrid_of_mk hs
  have := g.mpol; have := g.ntor; have := g.nyqT; have := g.n2
  exact ⟨by omega, by omega, by omega, by omega⟩

/-- **C47**, geometry: with a library that computes the transform it documents, for all coefficients and whatever is
    left in the scratch arrays -/
theorem C47_geometry {c : Ctx} {lib : Lib} {lasym : Bool} {nfp mpol ntor ntheta nzeta mg ng : Int}
    (hs : Sizes.mk lasym nfp mpol ntor ntheta nzeta mg ng = .ok c.s) (hl : Spec.Documented lib c.s.nZeta (12 * c.s.mpol))
    (x : Coef → Int → ℝ) (X : Int → Cpx) (Y : Int → ℝ) : fourierToRealFft c lib x X Y = fourierToRealDft c x :=
  fourierToRealFft_eq (good_of_mk hs) hl x X Y

/-- **C47**, forces -/
theorem C47_forces {c : Ctx} {lib : Lib} {lasym : Bool} {nfp mpol ntor ntheta nzeta mg ng : Int}
    (hs : Sizes.mk lasym nfp mpol ntor ntheta nzeta mg ng = .ok c.s) (hl : Spec.Documented lib c.s.nZeta (12 * c.s.mpol))
    (d : FArr → Bool → Int → ℝ) (b : Int → ℝ) (o : Int → Cpx) :
    forcesToFourierFft c lib d b o = forcesToFourierDft c d :=
  forcesToFourierFft_eq (good_of_mk hs) hl d b o

/-! ### a library as documented exists -/

/-- the sums themselves -/
noncomputable def sumLib (N : Int) : Lib where
  c2r X _ i := Spec.synthesis N (fun n => X (i / N * (N / 2 + 1) + n)) (i % N)
  r2c f _ i :=
    let n := i % (N / 2 + 1)
    let F := Spec.analysis N (fun k => f (i / (N / 2 + 1) * N + k)) n
    let a : ℝ := if n = 0 then 1 else Real.sqrt 2
    ⟨a * F.re, a * F.im⟩

theorem divmod {b N k : Int} (h0 : 0 ≤ k) (h1 : k < N) : (b * N + k) / N = b ∧ (b * N + k) % N = k := by
  have e : b * N + k = k + N * b := by ring
  rw [e, Int.add_mul_ediv_left _ _ (by omega), Int.add_mul_emod_self_left, Int.ediv_eq_zero_of_lt h0 h1, Int.emod_eq_of_lt h0 h1]
  exact ⟨by omega, rfl⟩

theorem sumLib_documented (N B : Int) : Spec.Documented (sumLib N) N B where
  c2r X Y b k _ _ h0 h1 := by
    unfold sumLib
    dsimp only
    rw [(divmod h0 h1).1, (divmod h0 h1).2]
  r2c f o b n _ _ h0 h1 := by
    unfold sumLib
    dsimp only
    rw [(divmod h0 h1).1, (divmod h0 h1).2]

/-- a stellarator with mpol = 5, ntor = 4, 5 periods on three surfaces, one thread -/
noncomputable def stellarator (s : Sizes.Sizes) : Ctx :=
  { s, r := ⟨0, 2, 0, 3, 0, 2, 1, 2, 3⟩, ns := 3, lfreeb := false, vacuum := false, xmpq := fun m => m * (m - 1),
    sqrtSF := fun j => Real.sqrt (j / 2) }

example : ∃ s, Sizes.mk false 5 5 4 0 0 0 0 = .ok s ∧
    (∀ x X Y, fourierToRealFft (stellarator s) (sumLib s.nZeta) x X Y = fourierToRealDft (stellarator s) x) ∧
    (∀ d b o, forcesToFourierFft (stellarator s) (sumLib s.nZeta) d b o = forcesToFourierDft (stellarator s) d) :=
  ⟨_, rfl, fun x X Y => C47_geometry (c := stellarator _) (lasym := false) (nfp := 5) (mpol := 5) (ntor := 4) (ntheta := 0) (nzeta := 0) (mg := 0) (ng := 0) rfl (sumLib_documented _ _) x X Y,
    fun d b o => C47_forces (c := stellarator _) (lasym := false) (nfp := 5) (mpol := 5) (ntor := 4) (ntheta := 0) (nzeta := 0) (mg := 0) (ng := 0) rfl (sumLib_documented _ _) d b o⟩

end Verif.Transform
