import Verif.Transform.AxisymLemmas
import Verif.Transform.PropsC

/-!
# C65: the axisymmetric transforms
-/
namespace Verif.Transform
open Verif Verif.Fourier Partition Finset

variable {c : Ctx}

/-- a run without toroidal modes on one plane -/
structure Plane (c : Ctx) : Prop extends GoodP c where
  noTor : c.s.ntor = 0
  one : c.s.nZeta = 1
  two : 2 ≤ c.s.mpol
  mn : c.s.mnsize = c.s.mpol * (c.s.ntor + 1)

theorem plane_tor (h : Plane c) : torAt c 0 0 = ⟨1, 0, 0, 0⟩ := by
  rw [torAt_eq h.toGood (le_refl _) (by have := h.one; omega) (le_refl _) (by have := h.noTor; omega)]
  simp [torEntry, scale]

theorem numM_modes (h : 2 ≤ c.s.mpol) {jF : Int} (h0 : 0 ≤ jF) (e : Bool) (f : Int → ℝ) :
    ∑ m ∈ Ico 0 (numM c jF), (if isEven m = e then f m else 0) = ∑ m ∈ Spec.modes c.s.mpol jF e, f m := by
  rw [← Finset.sum_filter]
  refine Finset.sum_congr ?_ fun _ _ => rfl
  ext m
  rw [mode_mem e h0, Finset.mem_filter, Finset.mem_Ico, Finset.mem_Ico]
  unfold numM jMin
  by_cases hj : jF = 0
  · rw [if_pos hj]
    constructor
    · rintro ⟨h1, h2⟩
      exact ⟨by omega, by rw [if_pos (by omega)]; omega, h2⟩
    · rintro ⟨h1, h2, h3⟩
      refine ⟨?_, h3⟩
      by_contra hh
      rw [if_neg (by omega)] at h2
      omega
  · rw [if_neg hj]
    constructor
    · rintro ⟨h1, h2⟩
      exact ⟨h1, by split <;> omega, h2⟩
    · rintro ⟨h1, h2, h3⟩
      exact ⟨h1, h3⟩

theorem plane_val (h : Plane c) (x : Coef → Int → ℝ) (a : GArr) (e : Bool) (ha : isGeo2d (.geo a e) = true) (jF m : Int) (p : PolEntry) :
    ∑ n ∈ Ico 0 (c.s.ntor + 1), gVal a (torTerm (fun a => x a (idxMn c c.r.nsMinF1 jF m n)) (torAt c 0 n)) p =
      val2d a (fun a m => x a ((jF - c.r.nsMinF1) * c.s.mnsize + m)) (fun _ => p) m := by
  have e1 : (Ico 0 (c.s.ntor + 1) : Finset Int) = {0} := by rw [h.noTor]; rfl
  have e2 : idxMn c c.r.nsMinF1 jF m 0 = (jF - c.r.nsMinF1) * c.s.mnsize + m := by
    unfold idxMn
    rw [h.mn, h.noTor]; ring
  rw [e1, Finset.sum_singleton, plane_tor h, e2]
  cases a <;> simp [isGeo2d] at ha <;> simp [gVal, torTerm, val2d]

theorem plane_idx (h : Plane c) (j0 jF l : Int) : idxKl c j0 jF 0 + l = (jF - j0) * c.s.nThetaEff + l := by
  unfold idxKl
  rw [h.one]; ring

theorem plane_of_mk {lasym : Bool} {nfp mpol ntheta nzeta mg ng : Int} (hs : Sizes.mk lasym nfp mpol 0 ntheta nzeta mg ng = .ok c.s)
    (hz : nzeta ≤ 1) (hm : 2 ≤ mpol) : Plane c := by
  have hg := goodP_of_mk hs
  obtain ⟨⟨a1, a2, a3, a4⟩, _⟩ :=
    (Sizes.C07_sizes lasym nfp mpol 0 ntheta nzeta mg ng).2 c.s hs
  obtain ⟨hz', hmn⟩ : c.s.nZeta = 1 ∧ c.s.mnsize = c.s.mpol * (c.s.ntor + 1) := by
    unfold Sizes.mk at hs
    simp only [gt_iff_lt, lt_self_iff_false, if_false, true_and] at hs
    split_ifs at hs <;> (injection hs with hs; rw [← hs]; refine ⟨?_, rfl⟩; first | rfl | (show nzeta = 1; omega))
  exact ⟨hg, a4, hz', by omega, hmn⟩

section
variable {lasym : Bool} {nfp mpol ntheta nzeta mg ng : Int}

/-- **C65**, geometry: on one plane the axisymmetric inverse transform gives what the three-dimensional one gives for
    `ntor = 0`, whatever the arrays held before -/
theorem C65_geometry_partial (hs : Sizes.mk lasym nfp mpol 0 ntheta nzeta mg ng = .ok c.s) (hz : nzeta ≤ 1) (hm : 2 ≤ mpol)
    (x : Coef → Int → ℝ) (g : Arr → Int → ℝ) (a : GArr) (e : Bool) (ha : a ≠ .rv ∧ a ≠ .zv ∧ a ≠ .lv) {jF l : Int}
    (hj : c.r.nsMinF1 ≤ jF ∧ jF < c.r.nsMaxF1) (h0 : 0 ≤ jF) (hl : 0 ≤ l ∧ l < c.s.nThetaReduced) :
    fourierToReal2d c x g (.geo a e) ((jF - c.r.nsMinF1) * c.s.nThetaEff + l) =
      fourierToRealDft c x (.geo a e) ((jF - c.r.nsMinF1) * c.s.nThetaEff + l) := by
  have h := plane_of_mk hs hz hm
  have ha' : isGeo2d (.geo a e) = true := by
    obtain ⟨h1, h2, h3⟩ := ha
    cases a <;> simp_all [isGeo2d]
  rw [geo2d_apply x g a e ha' hj hl h.eff, ← plane_idx h, geo_apply x a e hj h0 ⟨le_refl _, by have := h.one; omega⟩ hl h.eff,
    numM_modes h.two h0]
  refine Finset.sum_congr rfl fun m _ => ?_
  rw [plane_val h x a e ha']
  cases a <;> rfl

/-- **C65**, constraint arrays -/
theorem C65_constraint_partial (hs : Sizes.mk lasym nfp mpol 0 ntheta nzeta mg ng = .ok c.s) (hz : nzeta ≤ 1) (hm : 2 ≤ mpol)
    (x : Coef → Int → ℝ) (g : Arr → Int → ℝ) (A : Arr) (hA : A = .rCon ∨ A = .zCon) {jF l : Int}
    (hj : c.r.nsMinF1 ≤ jF ∧ jF < c.r.nsMaxF1) (hc : c.r.nsMinF ≤ jF ∧ jF < c.r.nsMaxFIncludingLcfs) (h0 : 0 ≤ jF)
    (hl : 0 ≤ l ∧ l < c.s.nThetaReduced) :
    fourierToReal2d c x g A ((jF - c.r.nsMinF) * c.s.nThetaEff + l) =
      fourierToRealDft c x A ((jF - c.r.nsMinF) * c.s.nThetaEff + l) := by
  have h := plane_of_mk hs hz hm
  have hr : 0 ≤ (jF - c.r.nsMinF) * c.s.nThetaEff + l ∧
      (jF - c.r.nsMinF) * c.s.nThetaEff + l < (c.r.nsMaxFIncludingLcfs - c.r.nsMinF) * c.s.nThetaEff := by
    have := h.eff
    constructor
    · have : 0 ≤ (jF - c.r.nsMinF) * c.s.nThetaEff := mul_nonneg (by omega) (by omega)
      omega
    · have := mul_le_mul_of_nonneg_right (show jF - c.r.nsMinF + 1 ≤ c.r.nsMaxFIncludingLcfs - c.r.nsMinF by omega)
        (show 0 ≤ c.s.nThetaEff by omega)
      linarith
  have key : ∀ (A : Arr) (a : GArr), (A = .rCon ∧ a = .r1) ∨ (A = .zCon ∧ a = .z1) →
      fourierToReal2d c x g A ((jF - c.r.nsMinF) * c.s.nThetaEff + l) =
        ∑ m ∈ Ico 0 (numM c jF), val2d a (fun a m => x a ((jF - c.r.nsMinF1) * c.s.mnsize + m)) (fun m => polAt c m l) m *
          conScale c jF m := by
    intro A a hA
    rw [fourierToReal2d_con x g A (by rcases hA with ⟨h, _⟩ | ⟨h, _⟩ <;> rw [h] <;> rfl), if_pos hr, zero_add]
    have e1 : ∀ jF' ∈ Ico c.r.nsMinF c.r.nsMaxFIncludingLcfs, (∑ m ∈ Ico 0 (numM c jF'), ∑ l' ∈ Ico 0 c.s.nThetaReduced,
        if (jF - c.r.nsMinF) * c.s.nThetaEff + l = (jF' - c.r.nsMinF) * c.s.nThetaEff + l' then
        conVal c x A jF' m l' else 0) = ∑ l' ∈ Ico 0 c.s.nThetaReduced,
        if (jF - c.r.nsMinF) * c.s.nThetaEff + l = (jF' - c.r.nsMinF) * c.s.nThetaEff + l' then
          ∑ m ∈ Ico 0 (numM c jF'), val2d a (fun a m => x a ((jF' - c.r.nsMinF1) * c.s.mnsize + m)) (fun m => polAt c m l') m *
          conScale c jF' m else 0 := by
      intro jF' _
      rw [Finset.sum_comm]
      refine Finset.sum_congr rfl fun l' _ => ?_
      split
      · refine Finset.sum_congr rfl fun m _ => ?_
        rcases hA with ⟨rfl, rfl⟩ | ⟨rfl, rfl⟩ <;> rfl
      · simp
    rw [Finset.sum_congr rfl e1]
    exact pick2 c.r.nsMinF _ _ (fun jF' l' => ∑ m ∈ Ico 0 (numM c jF'), val2d a
      (fun a m => x a ((jF' - c.r.nsMinF1) * c.s.mnsize + m)) (fun m => polAt c m l') m * conScale c jF' m) hc hl h.eff
  obtain ⟨a, ha⟩ : ∃ a, (A = .rCon ∧ a = GArr.r1) ∨ (A = .zCon ∧ a = GArr.z1) := by
    rcases hA with h | h
    · exact ⟨.r1, Or.inl ⟨h, rfl⟩⟩
    · exact ⟨.z1, Or.inr ⟨h, rfl⟩⟩
  have ha' : ∀ e, isGeo2d (.geo a e) = true := by
    rcases ha with ⟨_, rfl⟩ | ⟨_, rfl⟩ <;> intro e <;> rfl
  rw [key A a ha, ← plane_idx h, con_apply x hj hc h0 ⟨le_refl _, by have := h.one; omega⟩ hl h.eff A a ha,
    ← numM_modes h.two h0 true, ← numM_modes h.two h0 false, Finset.mul_sum, ← Finset.sum_add_distrib]
  refine Finset.sum_congr rfl fun m hm => ?_
  rw [Finset.mem_Ico] at hm
  rw [← Finset.mul_sum, plane_val h x a true (ha' _)]
  have e3 : val2d a (fun a m => x a ((jF - c.r.nsMinF1) * c.s.mnsize + m)) (fun m => polAt c m l) m =
      val2d a (fun a m => x a ((jF - c.r.nsMinF1) * c.s.mnsize + m)) (fun _ => polAt c m l) m := by cases a <;> rfl
  rw [e3]
  unfold conScale isEven
  have e4 : m.tmod 2 = 0 ∨ m.tmod 2 = 1 := by
    rw [Int.tmod_eq_emod_of_nonneg hm.1]; omega
  rcases e4 with e4 | e4 <;> rw [e4] <;> simp <;> ring

/-- one mode of the three-dimensional forces on one plane -/
theorem plane_force (h : Plane c) (d : FArr → Bool → Int → ℝ) (jF m : Int) :
    (∑ n ∈ Ico 0 (c.s.ntor + 1), ∑ k ∈ Ico 0 c.s.nZeta, rzSum c jF m k n (polSums c d jF m k)) =
      (∑ l ∈ Ico 0 c.s.nThetaReduced, (single .rcc ((jF - c.r.nsMinF) * c.s.mpol + m)
        ((d .armn (isEven m) ((jF - c.r.nsMinF) * c.s.nThetaEff + l) + c.xmpq m * d .frcon (isEven m) ((jF - c.r.nsMinF) * c.s.nThetaEff + l)) *
          (polAt c m l).cosmui + d .brmn (isEven m) ((jF - c.r.nsMinF) * c.s.nThetaEff + l) * (polAt c m l).sinmumi) +
      single .zsc ((jF - c.r.nsMinF) * c.s.mpol + m)
        ((d .azmn (isEven m) ((jF - c.r.nsMinF) * c.s.nThetaEff + l) + c.xmpq m * d .fzcon (isEven m) ((jF - c.r.nsMinF) * c.s.nThetaEff + l)) *
          (polAt c m l).sinmui + d .bzmn (isEven m) ((jF - c.r.nsMinF) * c.s.nThetaEff + l) * (polAt c m l).cosmumi)) : Coef → Int → ℝ) ∧
    (∑ n ∈ Ico 0 (c.s.ntor + 1), ∑ k ∈ Ico 0 c.s.nZeta, lSum c jF m k n (polSums c d jF m k)) =
      (∑ l ∈ Ico 0 c.s.nThetaReduced, single .lsc ((jF - c.r.nsMinF) * c.s.mpol + m)
        (d .blmn (isEven m) ((jF - c.r.nsMinF) * c.s.nThetaEff + l) * (polAt c m l).cosmumi) : Coef → Int → ℝ) := by
  have e1 : (Ico 0 (c.s.ntor + 1) : Finset Int) = {0} := by rw [h.noTor]; rfl
  have e2 : (Ico 0 c.s.nZeta : Finset Int) = {0} := by rw [h.one]; rfl
  have e3 : idxMn c c.r.nsMinF jF m 0 = (jF - c.r.nsMinF) * c.s.mpol + m := by
    unfold idxMn
    rw [h.noTor]; ring
  have z : ∀ (a : Coef) (i : Int), single a i (0 : ℝ) = 0 := by
    intro a i
    funext a' j
    simp [single]
  constructor
  · rw [e1, e2, Finset.sum_singleton, Finset.sum_singleton]
    unfold rzSum
    rw [plane_tor h, e3, polSums_eq]
    simp only [mul_one, mul_zero, add_zero, z]
    rw [single_sum, single_sum, ← Finset.sum_add_distrib]
    refine Finset.sum_congr rfl fun l _ => ?_
    rw [plane_idx h]
    rfl
  · rw [e1, e2, Finset.sum_singleton, Finset.sum_singleton]
    unfold lSum
    rw [plane_tor h, e3, polSums_eq]
    simp only [mul_one, mul_zero, add_zero, z]
    rw [single_sum]
    refine Finset.sum_congr rfl fun l _ => ?_
    rw [plane_idx h]
    rfl

/-- **C65**, forces: on one plane the axisymmetric force transform is the three-dimensional one for `ntor = 0` -/
theorem C65_forces_partial (hs : Sizes.mk lasym nfp mpol 0 ntheta nzeta mg ng = .ok c.s) (hz : nzeta ≤ 1) (hm : 2 ≤ mpol)
    (hr : 0 ≤ c.r.nsMinF ∧ max 1 c.r.nsMinF ≤ jMaxRZ c ∧ jMaxRZ c ≤ c.r.nsMaxFIncludingLcfs) (d : FArr → Bool → Int → ℝ) :
    forcesToFourier2d c d = forcesToFourierDft c d := by
  have h := plane_of_mk hs hz hm
  rw [forcesToFourierDft_eq]
  unfold forcesToFourier2d
  dsimp only
  rw [loop_add (lo := max 1 c.r.nsMinF) (v := fun jF => ∑ m ∈ Ico 0 c.s.mpol, ∑ n ∈ Ico 0 (c.s.ntor + 1), ∑ k ∈ Ico 0 c.s.nZeta,
      lSum c jF m k n (polSums c d jF m k))]
  · rw [loop_add (v := fun jF => ∑ m ∈ Ico 0 (mMax c jF), ∑ n ∈ Ico 0 (c.s.ntor + 1), ∑ k ∈ Ico 0 c.s.nZeta,
      rzSum c jF m k n (polSums c d jF m k)), show (fun (_ : Coef) (_ : Int) => (0:ℝ)) = 0 from rfl, zero_add]
    · have e1 := sum_Ico_split (a := max 1 c.r.nsMinF) (b := jMaxRZ c) (c := c.r.nsMaxFIncludingLcfs) hr.2.1 hr.2.2
        (fun jF => ∑ m ∈ Ico 0 c.s.mpol, ∑ n ∈ Ico 0 (c.s.ntor + 1), ∑ k ∈ Ico 0 c.s.nZeta, lSum c jF m k n (polSums c d jF m k))
      rw [e1, ← add_assoc]
      congr 1
      simp only [Finset.sum_add_distrib]
      congr 1
      have e2 := sum_Ico_split (a := c.r.nsMinF) (b := max 1 c.r.nsMinF) (c := jMaxRZ c) (le_max_right _ _) hr.2.1
        (fun jF => ∑ m ∈ Ico 0 (mMax c jF), ∑ n ∈ Ico 0 (c.s.ntor + 1), ∑ k ∈ Ico 0 c.s.nZeta,
          (if 1 ≤ jF then lSum c jF m k n (polSums c d jF m k) else 0 : Coef → Int → ℝ))
      rw [e2]
      have e3 : ∑ jF ∈ Ico c.r.nsMinF (max 1 c.r.nsMinF), ∑ m ∈ Ico 0 (mMax c jF), ∑ n ∈ Ico 0 (c.s.ntor + 1), ∑ k ∈ Ico 0 c.s.nZeta,
          (if 1 ≤ jF then lSum c jF m k n (polSums c d jF m k) else 0 : Coef → Int → ℝ) = 0 := by
        refine Finset.sum_eq_zero fun jF hj => ?_
        rw [Finset.mem_Ico] at hj
        have : ¬ 1 ≤ jF := by
          rcases max_cases 1 c.r.nsMinF with ⟨q, _⟩ | ⟨q, _⟩ <;> omega
        simp [this]
      rw [e3, zero_add]
      refine Finset.sum_congr rfl fun jF hj => ?_
      rw [Finset.mem_Ico] at hj
      have j1 : 1 ≤ jF := le_trans (le_max_left _ _) hj.1
      have em : mMax c jF = c.s.mpol := by unfold mMax; rw [if_neg (by omega)]
      rw [em]
      simp only [if_pos j1]
    · intro jF f _ _
      refine loop_add _ _ ?_ f
      intro m f _ _
      rw [(plane_force h d jF m).1]
      refine loop_add _ _ ?_ f
      intro l f _ _
      unfold force2d
      dsimp only
      rw [addTo_eq, addTo_eq, add_assoc]
  · intro jF f _ _
    refine loop_add _ _ ?_ f
    intro m f _ _
    rw [(plane_force h d jF m).2]
    refine loop_add _ _ ?_ f
    intro l f _ _
    exact addTo_eq _ _ _ _

/-- **C65** is false on more than one plane: the kernels expect point (jF, k, l) at `((jF - nsMinF1) * nZeta + k) * nThetaEff + l`
    and find there another surface -/
theorem C65_other_surface (hs : Sizes.mk lasym nfp mpol 0 ntheta nzeta mg ng = .ok c.s) (x : Coef → Int → ℝ) (g : Arr → Int → ℝ)
    (a : GArr) (e : Bool) (ha : a ≠ .rv ∧ a ≠ .zv ∧ a ≠ .lv) {jF k l : Int} (hl : 0 ≤ l ∧ l < c.s.nThetaReduced)
    (h0 : 0 ≤ (jF - c.r.nsMinF1) * c.s.nZeta + k) (h1 : (jF - c.r.nsMinF1) * c.s.nZeta + k < c.r.nsMaxF1 - c.r.nsMinF1) :
    fourierToReal2d c x g (.geo a e) (((jF - c.r.nsMinF1) * c.s.nZeta + k) * c.s.nThetaEff + l) =
      ∑ m ∈ Ico 0 (numM c (c.r.nsMinF1 + (jF - c.r.nsMinF1) * c.s.nZeta + k)), (if isEven m = e then
        val2d a (fun a m => x a (((jF - c.r.nsMinF1) * c.s.nZeta + k) * c.s.mnsize + m)) (fun m => polAt c m l) m else 0) := by
  have ha' : isGeo2d (.geo a e) = true := by
    obtain ⟨h1, h2, h3⟩ := ha
    cases a <;> simp_all [isGeo2d]
  have := geo2d_apply (c := c) x g a e ha' (jF := c.r.nsMinF1 + (jF - c.r.nsMinF1) * c.s.nZeta + k) ⟨by omega, by omega⟩ hl
    (goodP_of_mk hs).eff
  rw [show c.r.nsMinF1 + (jF - c.r.nsMinF1) * c.s.nZeta + k - c.r.nsMinF1 = (jF - c.r.nsMinF1) * c.s.nZeta + k by ring] at this
  exact this

end

/-- a tokamak on three surfaces, one thread -/
noncomputable def tokamak (s : Sizes.Sizes) : Ctx :=
  { s, r := ⟨0, 2, 0, 3, 0, 2, 1, 2, 3⟩, ns := 3, lfreeb := false, vacuum := false, xmpq := fun m => m * (m - 1),
    sqrtSF := fun j => Real.sqrt (j / 2) }

/-- the hypotheses of the partial theorems are met by a tokamak on one plane -/
example (x : Coef → Int → ℝ) (g : Arr → Int → ℝ) (d : FArr → Bool → Int → ℝ) : ∃ s, Sizes.mk false 1 2 0 0 0 0 0 = .ok s ∧
    fourierToReal2d (tokamak s) x g (.geo .zu false) ((1 - 0) * s.nThetaEff + 3) =
      fourierToRealDft (tokamak s) x (.geo .zu false) ((1 - 0) * s.nThetaEff + 3) ∧
    fourierToReal2d (tokamak s) x g .zCon ((1 - 0) * s.nThetaEff + 3) =
      fourierToRealDft (tokamak s) x .zCon ((1 - 0) * s.nThetaEff + 3) ∧
    forcesToFourier2d (tokamak s) d = forcesToFourierDft (tokamak s) d :=
  ⟨_, rfl, C65_geometry_partial (c := tokamak _) (lasym := false) (nfp := 1) (mpol := 2) (ntheta := 0) (nzeta := 0) (mg := 0) (ng := 0)
    rfl (by decide) (by decide) x g .zu false (by decide) (jF := 1) (l := 3) (by decide) (by decide) (by decide),
    C65_constraint_partial (c := tokamak _) (lasym := false) (nfp := 1) (mpol := 2) (ntheta := 0) (nzeta := 0) (mg := 0) (ng := 0)
    rfl (by decide) (by decide) x g .zCon (Or.inr rfl) (jF := 1) (l := 3) (by decide) (by decide) (by decide) (by decide),
    C65_forces_partial (c := tokamak _) (lasym := false) (nfp := 1) (mpol := 2) (ntheta := 0) (nzeta := 0) (mg := 0) (ng := 0)
    rfl (by decide) (by decide) (by decide) d⟩

/-- with `nzeta = 2` the sizes are accepted; surface 1 gets the major radius of surface 2 where the kernels read it -/
theorem C65_two_planes_wrong : ∃ (s : Sizes.Sizes) (x : Coef → Int → ℝ), Sizes.mk false 1 2 0 0 2 0 0 = .ok s ∧
    ∀ g, fourierToReal2d (tokamak s) x g (.geo .r1 true) (((1 - 0) * s.nZeta + 0) * s.nThetaEff + 0) ≠
      fourierToRealDft (tokamak s) x (.geo .r1 true) (((1 - 0) * s.nZeta + 0) * s.nThetaEff + 0) := by
  obtain ⟨s, hs⟩ : ∃ s, Sizes.mk false 1 2 0 0 2 0 0 = .ok s := ⟨_, rfl⟩
  refine ⟨s, fun a i => if a = .rcc ∧ i = 4 then 1 else 0, hs, fun g => ?_⟩
  have hg := goodP_of_mk (c := tokamak s) hs
  have hs' : s = (tokamak s).s := rfl
  injection hs with hs
  have z : s.nZeta = 2 := by rw [← hs]; rfl
  have mp : s.mpol = 2 := by rw [← hs]
  have mn : s.mnsize = 2 := by rw [← hs]; rfl
  have nt : s.ntor = 0 := by rw [← hs]
  have tr : 2 ≤ s.nThetaReduced := hg.red
  have e1 := C65_other_surface (c := tokamak s) (lasym := false) (nfp := 1) (mpol := 2) (ntheta := 0) (nzeta := 2) (mg := 0) (ng := 0)
    (by rw [← hs]; rfl) (fun a i => if a = .rcc ∧ i = 4 then 1 else 0) g .r1 true (by decide) (jF := 1) (k := 0) (l := 0)
    ⟨le_refl _, by show 0 < s.nThetaReduced; omega⟩ (by show 0 ≤ (1 - 0) * s.nZeta + 0; omega) (by show (1 - 0) * s.nZeta + 0 < 3; omega)
  have e2 := geo_apply (c := tokamak s) (fun a i => if a = .rcc ∧ i = 4 then 1 else 0) .r1 true (jF := 1) (k := 0) (l := 0)
    ⟨(show (0 : Int) ≤ 1 by decide), (show (1 : Int) < 3 by decide)⟩ (by decide) ⟨le_refl _, by show 0 < s.nZeta; omega⟩ ⟨le_refl _, by show 0 < s.nThetaReduced; omega⟩ hg.eff
  have p0 : (polAt (tokamak s) 0 0).cosmu = 1 := by
    rw [polAt_eq hg (le_refl _) (by show 0 < s.mpol; omega) (le_refl _) (by show 0 < s.nThetaReduced; omega)]
    simp [polEntry, scale]
  have l2 : fourierToReal2d (tokamak s) (fun a i => if a = .rcc ∧ i = 4 then 1 else 0) g (.geo .r1 true)
      (((1 - 0) * s.nZeta + 0) * s.nThetaEff + 0) = 1 := by
    refine Eq.trans e1 ?_
    have en : numM (tokamak s) ((tokamak s).r.nsMinF1 + (1 - (tokamak s).r.nsMinF1) * (tokamak s).s.nZeta + 0) = 2 := by
      show numM (tokamak s) (0 + (1 - 0) * s.nZeta + 0) = 2
      unfold numM
      rw [if_neg (by omega)]
      exact mp
    have em : (tokamak s).s.mnsize = 2 := mn
    have ez : (tokamak s).s.nZeta = 2 := z
    have em1 : (tokamak s).r.nsMinF1 = 0 := rfl
    rw [en, show (Ico 0 2 : Finset Int) = {0, 1} from rfl, Finset.sum_insert (by decide), Finset.sum_singleton, em, ez, em1]
    simp [val2d, p0, isEven]
  have l3 : fourierToRealDft (tokamak s) (fun a i => if a = .rcc ∧ i = 4 then 1 else 0) (.geo .r1 true)
      (((1 - 0) * s.nZeta + 0) * s.nThetaEff + 0) = 0 := by
    refine Eq.trans e2 ?_
    refine Finset.sum_eq_zero fun m hm => Finset.sum_eq_zero fun n hn => ?_
    have hm' := Finset.mem_Ico.1 ((mode_mem true (by decide)).1 hm).1
    have hn' := Finset.mem_Ico.1 hn
    have emp : (tokamak s).s.mpol = 2 := mp
    have ent : (tokamak s).s.ntor = 0 := nt
    have ei : idxMn (tokamak s) (tokamak s).r.nsMinF1 1 m n ≠ 4 := by
      show ((1 - 0) * s.mpol + m) * (s.ntor + 1) + n ≠ 4
      rw [mp, nt]
      omega
    simp [gVal, torTerm, ei]
  rw [l2, l3]
  norm_num

/-! ## Gradient -/

/-- the geometry arrays of a thread of an axisymmetric run; the kernels do not read the toroidal derivatives, which do not
    exist then -/
noncomputable def geoVec2d (c : Ctx) (x : Coef → Int → ℝ) (old : Arr → Int → ℝ) : Vec Kernels.Geo where
  size := (c.r.nsMaxF1 - c.r.nsMinF1) * c.s.nZnT
  val := fun i =>
    let g := fun a e => fourierToReal2d c x old (.geo a e) i
    { r1_e := g .r1 true, r1_o := g .r1 false, ru_e := g .ru true, ru_o := g .ru false, rv_e := 0, rv_o := 0
      z1_e := g .z1 true, z1_o := g .z1 false, zu_e := g .zu true, zu_o := g .zu false, zv_e := 0, zv_o := 0
      lu_e := g .lu true, lu_o := g .lu false, lv_e := 0, lv_o := 0 }

/-- **C65**, gradient: on one plane the forces of the axisymmetric transforms are the gradient of the energy, as in C64 -/
theorem C65_gradient_partial {s : Sizes.Sizes} {nfp mpol ntheta nzeta mg ng : Int} {K : Kernels.Ctx} {P : Kernels.Prof} {nt : Int}
    {R : Int → Ranges} {g : Int → Kernels.Given} {w : Int → Kernels.Work} {sqrtSF : Int → Int → ℝ} {xmpq : Int → ℝ} {vacuum : Bool}
    (A : Coef → Int → Int → Int → ℝ) (x : Int → Coef → Int → ℝ) (old : Int → Arr → Int → ℝ)
    (hs : Sizes.mk false nfp mpol 0 ntheta nzeta mg ng = .ok s) (hz : nzeta ≤ 1) (hm : 2 ≤ mpol)
    (hK : K.nZnT = s.nZnT ∧ K.nThetaEff = s.nThetaEff ∧ K.wInt.size = s.nThetaEff ∧
      ∀ l, 0 ≤ l → l < s.nThetaEff → K.wInt.val l = Sizes.wInt s l)
    (hT : Multigrid.GoodTeam nt K.ns K.lfreeb R)
    (hx : ∀ t, isThread nt t → ∀ a j m, (R t).nsMinF1 ≤ j → j < (R t).nsMaxF1 → 0 ≤ m → m < mpol →
      x t a ((j - (R t).nsMinF1) * mpol + m) = A a j m 0)
    (hW : ∀ t, isThread nt t → ∃ v, Kernels.Windows K (R t) P (Spec.geo s A) (g t) v (w t))
    (hγ : K.adiabaticIndex ≠ 1)
    (hg : ∀ h kl, 0 ≤ h → h < K.ns - 1 → 0 ≤ kl → kl < K.nZnT →
      Kernels.Spec.gsqrt K.deltaS (P.qH h) (Spec.geo s A h kl) (Spec.geo s A (h + 1) kl) ≠ 0)
    (hV : ∀ h, 0 ≤ h → h < K.ns - 1 → 0 < Kernels.Spec.volume K.deltaS K.signOfJacobian K.nZnT (Kernels.wt K) (P.qH h)
      (Spec.geo s A h) (Spec.geo s A (h + 1))) :
    let ct : Int → Ctx := fun t => ⟨s, R t, K.ns, K.lfreeb, vacuum, xmpq, sqrtSF t⟩
    ∃ e : Int → Kernels.Evaluated,
      (∀ t, isThread nt t → Kernels.evaluate K (R t) (g t) (geoVec2d (ct t) (x t) (old t)) (w t) = .ok (e t)) ∧
      ∀ ξ : Coef → Int → Int → Int → ℝ, (∀ j m n, ξ .lsc j m n = 0 ∧ ξ .lcs j m n = 0) → (∀ a m n, 1 ≤ m → ξ a 0 m n = 0) →
        (¬ (K.lfreeb = true ∧ vacuum = true) → ∀ a m n, ξ a (K.ns - 1) m n = 0) →
        HasDerivAt (fun ε => Kernels.torusEnergy K P (Kernels.fluxU K P (Spec.geo s A)) (Kernels.fluxV K P (Spec.geo s A))
            (Spec.geo s fun a j m n => A a j m n + ε * ξ a j m n))
          (-(K.deltaS * K.signOfJacobian * ∑ t ∈ Ico 0 nt, ∑ j ∈ Ico (R t).nsMinF (R t).nsMaxF,
            Spec.modePower mpol 0 (fun a m n =>
              forcesToFourier2d (ct t) (forceArrays (e t).force.val (e t).lam.val fun _ _ _ => 0) a
                (((j - (R t).nsMinF) * mpol + m) * (0 + 1) + n)) fun a => ξ a j)) 0 := by
  intro ct
  have hs0 : Sizes.mk false nfp mpol 0 ntheta nzeta mg ng = .ok (ct 0).s := hs
  have hp := plane_of_mk hs0 hz hm
  obtain ⟨_, h2, h3⟩ := sizes_symm hs0
  have h2' : s.nThetaEff = s.nThetaReduced := h2
  have h3' : s.nZnT = s.nThetaEff := by
    have : s.nZnT = s.nZeta * s.nThetaEff := h3
    rw [this, show s.nZeta = 1 from hp.one, one_mul]
  have hpos : 0 < s.nThetaEff := by
    have h4 : 2 ≤ s.nThetaReduced := hp.red
    omega
  have hx' : ∀ t, isThread nt t → ∀ a j m n, (R t).nsMinF1 ≤ j → j < (R t).nsMaxF1 → 0 ≤ m → m < mpol → 0 ≤ n → n ≤ 0 →
      x t a (((j - (R t).nsMinF1) * mpol + m) * (0 + 1) + n) = A a j m n := by
    intro t ht a j m n h1 h2 h3 h4 h5 h6
    obtain rfl : n = 0 := by omega
    rw [zero_add, mul_one, add_zero]
    exact hx t ht a j m h1 h2 h3 h4
  -- the windows the kernels read are those of the three-dimensional transform
  have hold : ∀ t, isThread nt t → Kernels.Windows K (R t) P (Spec.geo s A) (g t) (geoVec2d (ct t) (x t) (old t)) (w t) := by
    intro t ht
    obtain ⟨v, hv⟩ := hW t ht
    refine { hv with geo := ?_ }
    have hm0 : 0 ≤ (R t).nsMinF1 := by have := (Kernels.good_of_team hT ht).minF1; omega
    obtain ⟨q1, q2⟩ := C64_geometry (c := ct t) hs A (x t) hm0 (hx' t ht)
    rw [hK.1]
    refine ⟨q1, fun j kl hj0 hj1 hk0 hk1 => ?_⟩
    have q3 := q2 j kl hj0 hj1 hk0 hk1
    rw [← q3]
    have hl : 0 ≤ kl ∧ kl < (ct t).s.nThetaReduced := ⟨hk0, by rw [h3', h2'] at hk1; exact hk1⟩
    have ev : ∀ a e, a ≠ .rv ∧ a ≠ .zv ∧ a ≠ .lv → fourierToReal2d (ct t) (x t) (old t) (.geo a e) ((j - (R t).nsMinF1) * s.nZnT + kl) =
        fourierToRealDft (ct t) (x t) (.geo a e) ((j - (R t).nsMinF1) * s.nZnT + kl) := by
      intro a e ha
      rw [h3']
      exact C65_geometry_partial (c := ct t) hs hz hm (x t) (old t) a e ha ⟨hj0, hj1⟩ (le_trans hm0 hj0) hl
    have fl := geo_flat s hp.noTor A j kl
    dsimp only at fl
    rw [← q3] at fl
    obtain ⟨f1, f2, f3, f4, f5, f6⟩ := fl
    dsimp only [geoVec] at f1 f2 f3 f4 f5 f6
    unfold geoVec2d geoVec
    dsimp only
    rw [ev .r1 true (by decide), ev .r1 false (by decide), ev .ru true (by decide), ev .ru false (by decide), ev .z1 true (by decide),
      ev .z1 false (by decide), ev .zu true (by decide), ev .zu false (by decide), ev .lu true (by decide), ev .lu false (by decide)]
    rw [Kernels.Geo.mk.injEq]
    exact ⟨rfl, rfl, rfl, rfl, rfl, rfl, rfl, rfl, rfl, rfl, f1.symm, f2.symm, f3.symm, f4.symm, f5.symm, f6.symm⟩
  obtain ⟨e, he, hD⟩ := gradient_core (vacuum := vacuum) (xmpq := xmpq) (sqrtSF := sqrtSF) A hs ⟨Or.inr rfl, hK⟩ hT hold hγ hg hV
  refine ⟨e, he, fun ξ h1 h2 h3 => (hD ξ h1 h2 h3).congr_deriv ?_⟩
  congr 2
  refine Finset.sum_congr rfl fun t ht => ?_
  rw [Finset.mem_Ico] at ht
  have gt := Kernels.good_of_team hT ht
  rw [C65_forces_partial (c := ct t) hs hz hm ?_]
  have e1 : (ct t).r = R t := rfl
  have e2 : (ct t).ns = K.ns := rfl
  have e3 : (ct t).lfreeb = K.lfreeb := rfl
  obtain ⟨a1, a2, a3, a4, a5, a6, a7, a8, a9, a10, a11, a12⟩ := gt
  have hn : numSurfacesToDistribute K.ns K.lfreeb ≤ K.ns := by unfold numSurfacesToDistribute; split <;> omega
  unfold jMaxRZ
  rw [e1, e2, e3, a11]
  split <;> split <;> omega

/-- five surfaces, axisymmetric, on the grid of `s` -/
noncomputable def ringCtx2 (s : Sizes.Sizes) : Kernels.Ctx := { ringCtx s with lthreed := false }

example (ξ : Coef → Int → Int → Int → ℝ) (h1 : ∀ j m n, ξ .lsc j m n = 0 ∧ ξ .lcs j m n = 0) (h2 : ∀ a m n, 1 ≤ m → ξ a 0 m n = 0)
    (h3 : ∀ a m n, ξ a 4 m n = 0) : ∃ (s : Sizes.Sizes) (R : Int → Ranges) (x : Int → Coef → Int → ℝ) (e : Int → Kernels.Evaluated),
    Sizes.mk false 1 2 0 0 0 0 0 = .ok s ∧ HasDerivAt (fun ε => Kernels.torusEnergy (ringCtx2 s) Kernels.ringProf
        (Kernels.fluxU (ringCtx2 s) Kernels.ringProf (Spec.geo s ringCoef)) (Kernels.fluxV (ringCtx2 s) Kernels.ringProf (Spec.geo s ringCoef))
        (Spec.geo s fun a j m n => ringCoef a j m n + ε * ξ a j m n))
      (-((ringCtx2 s).deltaS * (ringCtx2 s).signOfJacobian * ∑ t ∈ Ico 0 2, ∑ j ∈ Ico (R t).nsMinF (R t).nsMaxF,
        Spec.modePower 2 0 (fun a m n =>
          forcesToFourier2d ⟨s, R t, 5, false, false, fun _ => 1, fun _ => 1⟩ (forceArrays (e t).force.val (e t).lam.val fun _ _ _ => 0) a
            (((j - (R t).nsMinF) * 2 + m) * (0 + 1) + n)) fun a => ξ a j)) 0 := by
  obtain ⟨s, hs⟩ : ∃ s, Sizes.mk false 1 2 0 0 0 0 0 = .ok s := ⟨_, rfl⟩
  obtain ⟨R, hR⟩ := Kernels.demo_team 2 (by omega) (by omega)
  have hsz : s.mpol = 2 ∧ s.ntor = 0 := by
    obtain ⟨⟨a1, a2, a3, a4⟩, _⟩ := (Sizes.C07_sizes false 1 2 0 0 0 0 0).2 s hs
    exact ⟨a3, a4⟩
  have hc : (⟨s, R 0, 5, false, false, fun _ => 1, fun _ => 1⟩ : Ctx).s = s := rfl
  have hgp := goodP_of_mk (c := ⟨s, R 0, 5, false, false, fun _ => 1, fun _ => 1⟩) hs
  have hsy := sizes_symm (c := ⟨s, R 0, 5, false, false, fun _ => 1, fun _ => 1⟩) hs
  have hred : 2 ≤ s.nThetaReduced := hgp.red
  have hz : 1 ≤ s.nZeta := by
    have a : 2 * s.ntor < s.nZeta := hgp.nyq
    omega
  choose g geo w hw using fun t => Kernels.windows_exist (ringCtx2 s) (R t) Kernels.ringProf (Spec.geo s ringCoef)
  -- arrays that hold the coefficients of the surfaces of a thread
  have hx : ∀ t, ∃ x : Coef → Int → ℝ, ∀ a j m, (R t).nsMinF1 ≤ j → j < (R t).nsMaxF1 → 0 ≤ m → m < 2 →
      x a ((j - (R t).nsMinF1) * 2 + m) = ringCoef a j m 0 := by
    intro t
    refine ⟨fun a i => ringCoef a 0 (i % 2) 0, fun a j m _ _ m0 m1 => ?_⟩
    have e1 : ((j - (R t).nsMinF1) * 2 + m) % 2 = m := by omega
    show ringCoef a 0 _ _ = _
    rw [e1]
    cases a <;> rfl
  choose x hx using hx
  have hV : ∀ h, 0 < Kernels.Spec.volume (ringCtx2 s).deltaS (ringCtx2 s).signOfJacobian (ringCtx2 s).nZnT (Kernels.wt (ringCtx2 s))
      (Kernels.ringProf.qH h) (Spec.geo s ringCoef h) (Spec.geo s ringCoef (h + 1)) := by
    intro h
    have e : (ringCtx2 s).signOfJacobian = -1 := rfl
    unfold Kernels.Spec.volume Kernels.Spec.integral
    rw [e, neg_one_mul, ← Finset.sum_neg_distrib]
    have hp : 0 < s.nZnT := by
      rw [show s.nZnT = s.nZeta * s.nThetaEff from hsy.2.2, show s.nThetaEff = s.nThetaReduced from hsy.2.1]
      exact mul_pos (by omega) (by omega)
    refine Finset.sum_pos (fun kl _ => ?_) ⟨0, by rw [Finset.mem_Ico]; exact ⟨le_refl _, hp⟩⟩
    have k1 := ring_gsqrt s ⟨hsz.1, Or.inl hsz.2⟩ h kl
    have k2 : 0 < Kernels.wt (ringCtx2 s) kl := by
      show 0 < Sizes.wInt s (kl % s.nThetaEff)
      rw [← pw_eq (c := ⟨s, R 0, 5, false, false, fun _ => 1, fun _ => 1⟩) hs]
      unfold pw
      have : (0 : ℝ) < (s.nZeta * (s.nThetaReduced - 1) : Int) := by
        exact_mod_cast mul_pos (show 0 < s.nZeta by omega) (show 0 < s.nThetaReduced - 1 by omega)
      dsimp only
      split <;> positivity
    show 0 < -(Kernels.Spec.gsqrt (1 / 4) (1 / 2) _ _ * _)
    nlinarith [mul_pos (neg_pos.2 k1) k2]
  obtain ⟨e, he, hD⟩ := C65_gradient_partial (K := ringCtx2 s) (P := Kernels.ringProf) (R := R) (g := g) (w := w) (sqrtSF := fun _ _ => 1)
    (xmpq := fun _ => 1) (vacuum := false) ringCoef x (fun _ _ _ => 0) hs (by decide) (by decide) ⟨rfl, rfl, rfl, fun _ _ _ => rfl⟩ hR (fun t _ => hx t)
    (fun t _ => ⟨_, hw t⟩) (by norm_num [ringCtx2, ringCtx, Kernels.demo]) (fun h kl _ _ _ _ => (ring_gsqrt s ⟨hsz.1, Or.inl hsz.2⟩ h kl).ne) (fun h _ _ => hV h)
  exact ⟨s, R, x, e, hs, hD ξ h1 h2 fun _ => h3⟩

end Verif.Transform
